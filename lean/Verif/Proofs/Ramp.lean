import Verif.Proofs.Session

/-! # Accumulators: neurons driven by ge events that are integer multiples of one weight -/
set_option linter.unusedSectionVars false
namespace Axon
open Spec
variable {K : Type*} [Field K] [LinearOrder K] [IsStrictOrderedRing K] [FloorRing K]

/-- Number of unit ramp steps accumulated from the events `G` after step `lo` until step `i`. -/
def rampZ (G : List (ℕ × ℤ)) (lo i : ℕ) : ℤ :=
  (G.map (fun e => if lo < e.1 ∧ e.1 ≤ i then e.2 * ((i - e.1 + 1 : ℕ) : ℤ) else 0)).sum

/-- `m` steps with weight `w` reach the threshold. -/
def Reach (w dt : K) (m : ℕ) : Prop := ∀ z : ℤ, 10 ≤ w * dt / 100 * (z : K) ↔ (m : ℤ) ≤ z

theorem reach_of {X dt : K} (hX : 0 < X) (hdt : 0 < dt) : Reach (10 * 100 / X) dt ⌈X / dt⌉₊ := by
  intro z
  have hpos : 0 < X / dt := div_pos hX hdt
  rw [show 10 * 100 / X * dt / 100 * (z : K) = 10 * ((z : K) / (X / dt)) by field_simp]
  rw [le_mul_iff_one_le_right (by norm_num), one_le_div hpos]
  have : ((⌈X / dt⌉₊ : ℤ)) = ⌈X / dt⌉ := Int.natCast_ceil_eq_ceil hpos.le
  rw [this, Int.ceil_le]

theorem reach_wacc {enc : Encoder K} {dt : K} (h : 0 < enc.Tmax) (hdt : 0 < dt) : Reach enc.wacc dt ⌈enc.Tmax / dt⌉₊ :=
  reach_of h hdt

theorem reach_waccBar {enc : Encoder K} {dt : K} (h : 0 < enc.Tcod) (hdt : 0 < dt) :
    Reach enc.waccBar dt ⌈enc.Tcod / dt⌉₊ := reach_of h hdt

theorem Phi_ramp (w dt : K) (G : List (ℕ × ℤ)) (lo i : ℕ) :
    Phi dt 100 [] (G.map (fun e => (e.1, (e.2 : K) * w))) lo i = w * dt / 100 * (rampZ G lo i : K) := by
  unfold Phi rampZ
  simp only [List.map_nil, List.sum_nil, zero_add, List.map_map]
  induction G with
  | nil => simp
  | cons e G ih =>
    simp only [List.map_cons, List.sum_cons, ih]
    push_cast
    rw [mul_add]
    congr 1
    simp only [Function.comp]
    split_ifs
    · push_cast; ring
    · simp

section run
variable {net : Net K} {dt : K} {inj : List (ℕ × K)} {s0 : ℕ → NState K} {S : ℕ → ℕ → NState K}
  {F : ℕ → ℕ → Bool}

theorem acc_one (hr : IsRun net dt inj s0 S F) {x n : ℕ} (hx : IsStd net s0 x) {L : List (Synapse K)}
    (hL : InS net x L) (hk : ∀ s ∈ L, s.kind = .ge) {w : K} {m : ℕ} (hm : Reach w dt m) (G : List (ℕ × ℤ))
    {E : List (ℕ × K)} (hG : InE net dt inj F n x .ge E) (hE : E = G.map (fun e => (e.1, (e.2 : K) * w)))
    {p : ℕ} (hp : 1 ≤ p) (h1 : ∀ i, 1 ≤ i → i < p → rampZ G 0 i < m) (h2 : m ≤ rampZ G 0 p)
    (h3 : ∀ i, p < i → rampZ G p i < m) : TrainTo F n x [p] := by
  subst hE
  have hne : ∀ (k : SynKind), k ≠ .ge → ∀ s ∈ L, s.kind ≠ k := fun k hk' s hs h => hk' (h ▸ hk s hs)
  have hlt : ∀ lo i, rampZ G lo i < m → Phi dt 100 [] (G.map (fun e => (e.1, (e.2 : K) * w))) lo i < 10 := by
    intro lo i h
    rw [Phi_ramp, ← not_le, hm]
    omega
  refine train_one hr hx (inE_nil hL .V (hne _ (by decide))) hG (inE_nil hL .gf (hne _ (by decide)))
    (inE_nil hL .gate (hne _ (by decide))) hp (fun i a b => hlt _ _ (h1 i a b)) ?_ (fun i a => hlt _ _ (h3 i a))
  rw [Phi_ramp, hm]; exact h2

end run
end Axon
