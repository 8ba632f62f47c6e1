import Verif.Proofs.FloatSession
import Mathlib.Tactic.IntervalCases

/-! # C104: memories in floating-point arithmetic -/
set_option linter.unusedSectionVars false
namespace Axon
open Spec

theorem memoryFl_neurons (enc : Encoder Double) (name) : (memoryFl enc name World.empty).2.neurons 0 = .ok (List.range 8) := rfl

theorem memoryFl_net (enc : Encoder Double) (name) : ((memoryFl enc name World.empty).2.net (List.range 8)).syns =
    [⟨0, 1, weFl, tsynFl, .V⟩, ⟨0, 2, Fl.of (1 / 2) * weFl, tsynFl, .V⟩, ⟨1, 1, wiFl, tsynFl, .V⟩, ⟨1, 3, enc.waccFl, tsynFl, .ge⟩,
      ⟨2, 4, enc.waccFl, Fl.of 2 * tsynFl, .ge⟩, ⟨3, 4, -enc.waccFl, tsynFl, .ge⟩, ⟨5, 4, enc.waccFl, tsynFl, .ge⟩, ⟨5, 7, weFl, Fl.of 2 * tsynFl, .V⟩,
      ⟨4, 7, weFl, tsynFl, .V⟩, ⟨3, 6, weFl, tsynFl, .V⟩] := rfl

theorem half_we : (Fl.of (1 / 2) * weFl : Double) = d5 := by decide +kernel
theorem tsyn_val : (tsynFl : Double).val = 1 := by decide +kernel
theorem two_tsyn : (Fl.of 2 * tsynFl : Double).val = 2 := by decide +kernel

/-- The slope of the accumulators. -/
theorem wacc_slope {enc : Encoder Double} {dt : Double} (hdt : 0 < dt.val) (h1 : 13 * dt.val ≤ enc.Tmax.val) (h2 : enc.Tmax.val ≤ 2 ^ 24 * dt.val) :
    GoodSlope (slopeR stdFl dt (0 + enc.waccFl)) (enc.Tmax.val / dt.val) :=
  ⟨by rw [le_div_iff₀ hdt]; exact h1, by rw [div_le_iff₀ hdt]; exact h2, slope_near hdt (by linarith)⟩

set_option maxHeartbeats 4000000 in
/-- **C104 (memory).** In Python floats: a `MemoryNetwork` that is given the value `v` at `t0` and recalled at `ρ` signals `ready` once and then emits
`v`, up to twelve simulation steps. -/
theorem C104_memory (H : EventHeap Double) {ord : ℕ → List ℕ → List ℕ} (hord : SetOrder ord) {enc : Encoder Double} {dt : Double}
    (hdt : 0 < dt.val) (hdt1 : dt.val ≤ 1) (hC : 0 < enc.Tcod.val) (hmin : 1 + 12 * dt.val ≤ enc.Tmin.val) (hmax : enc.Tmax.val ≤ 2 ^ 24 * dt.val)
    (name : Option String) {v t0 ρ T : Double} (hv0 : 0 ≤ v.val) (hv1 : v.val ≤ 1) (ht : 0 ≤ t0.val) (hρ : t0.val + enc.Tmax.val + 2 + 7 * dt.val ≤ ρ.val)
    (hρ' : ρ.val ≤ 2 ^ 48 * dt.val) (hT : ρ.val + enc.Tmax.val + 2 + 14 * dt.val ≤ T.val) :
    let p := (memoryFl enc name World.empty).1
    let w := (memoryFl enc name World.empty).2
    ∃ st, sessionFl H ord enc dt T w p.1 [.value v p.2.1 t0, .spike p.2.2.2.1 ρ] = .ok st ∧
      (∃ k : ℕ, st.spikeLog p.2.2.2.2 = some [(k : Double) * dt]) ∧ CarriesFl enc (12 * dt.val / enc.Tcod.val) (st.spikeLog p.2.2.1) v.val := by
  intro p w
  have hT0 : 0 ≤ enc.Tmin.val := by linarith
  obtain ⟨eτ, eM⟩ := encoded (t0 := t0) (dt := dt) hT0 hC.le hmax hv0 hv1 ht (by linarith [tmin_le (e := enc) hC.le]) hdt
  set τ := t0 + (enc.Tmin + v * enc.Tcod) with hτ
  have hp0 : 0 ≤ v.val * enc.Tcod.val := by positivity
  have hp1 : v.val * enc.Tcod.val ≤ enc.Tcod.val := mul_le_of_le_one_left hC.le hv1
  have eτ' := abs_le.mp eτ
  have eM' := abs_le.mp eM
  have G := wacc_slope (enc := enc) hdt (by linarith [tmin_le (e := enc) hC.le]) hmax
  -- in units of steps
  have hq1 : 1 ≤ 1 / dt.val := by rw [le_div_iff₀ hdt]; linarith
  obtain ⟨q, hq⟩ : ∃ q, q = 1 / dt.val := ⟨_, rfl⟩
  obtain ⟨x, hx⟩ : ∃ q, q = t0.val / dt.val := ⟨_, rfl⟩
  obtain ⟨y, hy⟩ : ∃ q, q = τ.val / dt.val := ⟨_, rfl⟩
  obtain ⟨z, hz⟩ : ∃ q, q = ρ.val / dt.val := ⟨_, rfl⟩
  obtain ⟨n, hn⟩ : ∃ q, q = enc.Tmax.val / dt.val := ⟨_, rfl⟩
  obtain ⟨e, he⟩ : ∃ q, q = (enc.Tmin.val + v.val * enc.Tcod.val) / dt.val := ⟨_, rfl⟩
  have u0 : ∀ a : ℚ, a / dt.val * dt.val = a := fun a => div_mul_cancel₀ _ hdt.ne'
  have mv : ∀ a b : ℚ, a * dt.val ≤ b * dt.val → a ≤ b := fun a b h => le_of_mul_le_mul_right h hdt
  have qm : q * dt.val = 1 := by rw [hq, u0]
  have xm : x * dt.val = t0.val := by rw [hx, u0]
  have ym : y * dt.val = τ.val := by rw [hy, u0]
  have zm : z * dt.val = ρ.val := by rw [hz, u0]
  have nm : n * dt.val = enc.Tmax.val := by rw [hn, u0]
  have em : e * dt.val = enc.Tmin.val + v.val * enc.Tcod.val := by rw [he, u0]
  have A1 : y - x - e ≤ 3 / 16 := mv _ _ (by linarith)
  have A2 : -(3 / 16) ≤ y - x - e := mv _ _ (by linarith)
  have A3 : q + 12 ≤ e := mv _ _ (by linarith)
  have A4 : e ≤ n + 1 / 16 := mv _ _ (by linarith)
  have A5 : x + n + 2 * q + 7 ≤ z := mv _ _ (by linarith)
  have A6 : z ≤ 2 ^ 48 := mv _ _ (by linarith)
  have A7 : n ≤ 2 ^ 24 := mv _ _ (by linarith)
  have A8 : 0 ≤ x := mv _ _ (by linarith)
  have A9 : 0 ≤ q := by rw [hq]; positivity
  rw [← hn] at G
  rw [← hq] at hq1
  have d1 : (tsynFl : Double).val / dt.val = q := by rw [tsyn_val, hq]
  have d2 : (Fl.of 2 * tsynFl : Double).val / dt.val = 2 * q := by rw [two_tsyn, hq]; ring
  have big : (2 : ℚ) ^ 48 + 5 * 2 ^ 24 + 100 ≤ 2 ^ 49 := by norm_num
  have dpos : 0 ≤ (tsynFl : Double).val := by rw [tsyn_val]; norm_num
  have dpos2 : 0 ≤ (Fl.of 2 * tsynFl : Double).val := by rw [two_tsyn]; norm_num
  -- the steps of all arrivals
  obtain ⟨a1, a1i, a1p, a1l, a1u⟩ := arrives_inj (τ := t0) (D := tsynFl) hdt ht dpos (by rw [d1, ← hx]; linarith)
  obtain ⟨b1, b1i, b1p, b1l, b1u⟩ := arrives_inj (τ := τ) (D := tsynFl) hdt (by linarith) dpos (by rw [d1, ← hy]; linarith)
  rw [d1, ← hx] at a1l a1u
  rw [d1, ← hy] at b1l b1u
  obtain ⟨c, ci, cj, cl, cu⟩ := arrives (j := a1) (D := tsynFl) hdt dpos (by rw [d1]; linarith)
  rw [d1] at cl cu
  obtain ⟨k, k1, k2, k3, k4⟩ := ramp_count G
  obtain ⟨b2, b2i, b2j, b2l, b2u⟩ := arrives (j := b1) (D := Fl.of 2 * tsynFl) hdt dpos2 (by rw [d2]; linarith)
  rw [d2] at b2l b2u
  obtain ⟨f2, f2i, f2j, f2l, f2u⟩ := arrives (j := c + k) (D := tsynFl) hdt dpos (by rw [d1]; push_cast; linarith)
  rw [d1] at f2l f2u
  push_cast at f2l f2u
  obtain ⟨r1, r1i, r1p, r1l, r1u⟩ := arrives_inj (τ := ρ) (D := tsynFl) hdt (by linarith) dpos (by rw [d1, ← hz]; linarith)
  obtain ⟨o1, o1i, o1p, o1l, o1u⟩ := arrives_inj (τ := ρ) (D := Fl.of 2 * tsynFl) hdt (by linarith) dpos2 (by rw [d2, ← hz]; linarith)
  rw [d1, ← hz] at r1l r1u
  rw [d2, ← hz] at o1l o1u
  have lt_of : ∀ {a b : ℕ}, (a : ℚ) < b → a < b := fun h => by exact_mod_cast h
  have cb1 : c < b1 := lt_of (by linarith)
  have b2r : b2 < r1 := lt_of (by linarith)
  have f2r : f2 < r1 := lt_of (by linarith)
  obtain ⟨k', g1, g2, g3⟩ := store_fits (dt := dt) (w := enc.waccFl) (a := b2) (b := f2) (c := r1) (n := n)
    (hits := fun i => (if i = b2 then [(SynKind.ge, enc.waccFl)] else []) ++ (if i = f2 then [(SynKind.ge, -enc.waccFl)] else []) ++ (if i = r1 then [(SynKind.ge, enc.waccFl)] else []))
    G (by omega) (by omega) b2r f2r (by linarith) (by linarith) (fun _ => rfl)
  obtain ⟨o2, o2i, o2j, o2l, o2u⟩ := arrives (j := r1 + k') (D := tsynFl) hdt dpos (by rw [d1]; push_cast; linarith)
  rw [d1] at o2l o2u
  push_cast at o2l o2u
  have W1 : (o2 : ℚ) - o1 ≤ e + 23 / 2 := by linarith
  have W2 : e - 23 / 2 ≤ (o2 : ℚ) - o1 := by linarith
  have oo : o1 < o2 := lt_of (by linarith)
  have W3 : (o2 : ℚ) ≤ z + 2 * q + n + 13 := by linarith
  have W4 : o2 ≤ 2 ^ 49 := by
    have : (o2 : ℚ) ≤ 2 ^ 49 := by linarith
    exact_mod_cast this
  have W5 : o2 ≤ numStepsFl T dt := by
    refine enough_steps (by omega) ?_
    rw [le_div_iff₀ hdt]
    have := mul_le_mul_of_nonneg_right W3 hdt.le
    linarith
  have I0 : (([(0, t0), (0, τ), (5, ρ)] : List (ℕ × Double)).filter fun q => q.1 = 0) = [(0, t0), (0, τ)] := rfl
  have I5 : (([(0, t0), (0, τ), (5, ρ)] : List (ℕ × Double)).filter fun q => q.1 = 5) = [(5, ρ)] := rfl
  obtain ⟨st, s1, s2⟩ := lib_run H hord (enc := enc) hdt (memoryFl_neurons enc name)
    (fun n hn => by interval_cases n <;> rfl) (by rw [memoryFl_net]; simp) (cs := [.value v 0 t0, .spike 5 ρ])
    (by simp only [List.mem_cons, List.not_mem_nil, or_false, forall_eq_or_imp, forall_eq, CallOK, and_true]; exact ⟨hv0, hv1⟩)
    (Ls := [[], [a1], [b1], [c + k], [r1 + k'], [], [f2], [o1, o2]]) rfl (by simp [oo]) T (by simp; omega) (by
    intro n hn
    show FitsR stdFl dt (hitsR (w.net (List.range 8)) dt [(0, t0), (0, τ), (5, ρ)] _ n) _
    interval_cases n
    · exact FitsR.silent fun i => hits_eq rfl i
    · refine FitsR.first (a := a1) (b := b1) (c := c) a1p cj cb1 fun i => ?_
      rw [hits_eq (l := [⟨0, 1, weFl, tsynFl, .V⟩, ⟨1, 1, wiFl, tsynFl, .V⟩]) rfl i]
      rw [List.flatMap_cons, List.flatMap_cons, List.flatMap_nil, contrib_inj2 I0 rfl a1i b1i (by omega), contrib_one rfl rfl ci, List.append_nil]
      by_cases e1 : i = a1 ∨ i = b1
      · rw [if_pos e1, if_pos e1, if_neg (by omega)]; rfl
      · rw [if_neg e1, if_neg e1]; rfl
    · refine FitsR.second (a := a1) (b := b1) a1p (by omega) fun i => ?_
      rw [hits_eq (l := [⟨0, 2, Fl.of (1 / 2) * weFl, tsynFl, .V⟩]) rfl i, half_we]
      rw [List.flatMap_cons, List.flatMap_nil, contrib_inj2 I0 rfl a1i b1i (by omega), List.append_nil]
    · refine FitsR.ramp (a := c) (k := k) (w := enc.waccFl) (by omega) (fun i => ?_) k1 k2
      rw [hits_eq (l := [⟨1, 3, enc.waccFl, tsynFl, .ge⟩]) rfl i]
      rw [List.flatMap_cons, List.flatMap_nil, contrib_one rfl rfl ci, List.append_nil]
    · refine g1.of_eq fun i => ?_
      rw [hits_eq (l := [⟨2, 4, enc.waccFl, Fl.of 2 * tsynFl, .ge⟩, ⟨3, 4, -enc.waccFl, tsynFl, .ge⟩, ⟨5, 4, enc.waccFl, tsynFl, .ge⟩]) rfl i]
      rw [List.flatMap_cons, List.flatMap_cons, List.flatMap_cons, List.flatMap_nil, contrib_one rfl rfl b2i, contrib_one rfl rfl f2i, contrib_inj I5 rfl r1i, List.append_nil, List.append_assoc]
    · exact FitsR.silent fun i => hits_eq rfl i
    · refine FitsR.relay (by show 0 ∉ [f2]; simp; omega) fun i => ?_
      rw [hits_eq (l := [⟨3, 6, weFl, tsynFl, .V⟩]) rfl i]
      rw [List.flatMap_cons, List.flatMap_nil, contrib_one rfl rfl f2i, List.append_nil]
      show _ = if i ∈ [f2] then _ else _
      simp only [List.mem_singleton]
    · refine FitsR.relay (by show 0 ∉ [o1, o2]; simp; omega) fun i => ?_
      rw [hits_eq (l := [⟨5, 7, weFl, Fl.of 2 * tsynFl, .V⟩, ⟨4, 7, weFl, tsynFl, .V⟩]) rfl i]
      rw [List.flatMap_cons, List.flatMap_cons, List.flatMap_nil, contrib_inj I5 rfl o1i, contrib_one rfl rfl o2i, List.append_nil]
      show _ = if i ∈ [o1, o2] then _ else _
      by_cases e1 : i = o1
      · have e2 : i ≠ o2 := by omega
        simp [e1, show o1 ≠ o2 by omega]
      · simp [e1])
  refine ⟨st, s1, ⟨f2, s2 6 (by norm_num)⟩, (o1 : Double) * dt, (o2 : Double) * dt, s2 7 (by norm_num), ?_⟩
  have key := decoded (e := enc) (dt := dt) (v := v.val) (a := o1) (b := o2) (δ := 23 / 2) hT0 hC hmax hdt (by linarith) (by linarith) (by omega) W4 (by norm_num) (by
    rw [← em, ← sub_mul, abs_mul, abs_of_pos hdt]
    refine mul_le_mul_of_nonneg_right ?_ hdt.le
    rw [abs_le]; constructor <;> linarith)
  refine key.trans ?_
  refine div_le_div_of_nonneg_right (mul_le_mul_of_nonneg_right (by norm_num) hdt.le) hC.le

/-- A concrete case: default encoder, dt = 0.001, the value 0.5 stored at 0 and recalled at 200. -/
example : ∃ st, sessionFl (sortedHeap _) (fun _ l => l) ⟨Fl.of 10, Fl.of 100⟩ (Fl.of (1 / 1000)) (Fl.of 400) (memoryFl ⟨Fl.of 10, Fl.of 100⟩ none World.empty).2 0
      [.value (Fl.of (1 / 2)) 0 0, .spike 5 (Fl.of 200)] = .ok st ∧ (∃ k : ℕ, st.spikeLog 6 = some [(k : Double) * Fl.of (1 / 1000)]) ∧
      CarriesFl ⟨Fl.of 10, Fl.of 100⟩ (12 * (Fl.of (1 / 1000) : Double).val / (Fl.of 100 : Double).val) (st.spikeLog 7) (Fl.of (1 / 2) : Double).val :=
  C104_memory (sortedHeap _) id_setOrder (enc := ⟨Fl.of 10, Fl.of 100⟩) (dt := Fl.of (1 / 1000)) (by decide +kernel) (by decide +kernel) (by decide +kernel)
    (by decide +kernel) (by decide +kernel) none (v := Fl.of (1 / 2)) (t0 := 0) (by decide +kernel) (by decide +kernel) (by decide +kernel) (by decide +kernel)
    (by decide +kernel) (by decide +kernel)

/-! ## The inverting memory -/

theorem invMemoryFl_neurons (enc : Encoder Double) (name) : (invMemoryFl enc name World.empty).2.neurons 0 = .ok (List.range 6) := rfl

theorem invMemoryFl_net (enc : Encoder Double) (name) : ((invMemoryFl enc name World.empty).2.net (List.range 6)).syns =
    [⟨0, 1, weFl, tsynFl, .V⟩, ⟨0, 2, Fl.of (1 / 2) * weFl, tsynFl, .V⟩, ⟨1, 1, wiFl, tsynFl, .V⟩, ⟨1, 3, enc.waccFl, tsynFl + enc.Tmin, .ge⟩,
      ⟨2, 3, -enc.waccFl, tsynFl, .ge⟩, ⟨4, 3, enc.waccFl, tsynFl, .ge⟩, ⟨3, 5, weFl, tsynFl, .V⟩, ⟨4, 5, weFl, Fl.of 2 * tsynFl + Fl.of (1 / 100), .V⟩] := rfl

theorem d201 : (2 : ℚ) + 1 / 100 - 1 / 2 ^ 40 ≤ (Fl.of 2 * tsynFl + Fl.of (1 / 100) : Double).val ∧
    (Fl.of 2 * tsynFl + Fl.of (1 / 100) : Double).val ≤ 2 + 1 / 100 + 1 / 2 ^ 40 := by decide +kernel

set_option maxHeartbeats 4000000 in
/-- **C104 (inverting memory).** In Python floats: an `InvertingMemoryNetwork` that is given the value `v` at `t0` and recalled at `ρ` emits `1 - v`,
less the neuron delay `Tneu = 0.01` that the network adds to its first output spike, up to twelve simulation steps. -/
theorem C104_inverting_memory (H : EventHeap Double) {ord : ℕ → List ℕ → List ℕ} (hord : SetOrder ord) {enc : Encoder Double} {dt : Double}
    (hdt : 0 < dt.val) (hdt1 : dt.val ≤ 1) (hC : 0 < enc.Tcod.val) (hmin : 1 + 12 * dt.val ≤ enc.Tmin.val) (hmax : enc.Tmax.val ≤ 2 ^ 24 * dt.val)
    (name : Option String) {v t0 ρ T : Double} (hv0 : 0 ≤ v.val) (hv1 : v.val ≤ 1) (ht : 0 ≤ t0.val) (hρ : t0.val + enc.Tmax.val + 2 + 7 * dt.val ≤ ρ.val)
    (hρ' : ρ.val ≤ 2 ^ 48 * dt.val) (hT : ρ.val + enc.Tmax.val + 2 + 14 * dt.val ≤ T.val) :
    let p := (invMemoryFl enc name World.empty).1
    let w := (invMemoryFl enc name World.empty).2
    ∃ st, sessionFl H ord enc dt T w p.1 [.value v p.2.1 t0, .spike p.2.2.2 ρ] = .ok st ∧
      CarriesFl enc (12 * dt.val / enc.Tcod.val) (st.spikeLog p.2.2.1) (1 - v.val - 1 / 100 / enc.Tcod.val) := by
  intro p w
  have hT0 : 0 ≤ enc.Tmin.val := by linarith
  have hmm := tmin_le (e := enc) hC.le
  have G := wacc_slope (enc := enc) hdt (by linarith) hmax
  obtain ⟨q, x, y, n, m, pp, hq, hx, hy, hn, hm, hpp, B1, B2, B3, B4, B5, B6, B7, B8, B9, B10, B11⟩ := units hdt hdt1 hC hT0 hmax hv0 hv1 ht (by linarith)
  set τ := t0 + (enc.Tmin + v * enc.Tcod) with hτ
  obtain ⟨z, hz⟩ : ∃ q, q = ρ.val / dt.val := ⟨_, rfl⟩
  obtain ⟨cc, hcc⟩ : ∃ q, q = enc.Tcod.val / dt.val := ⟨_, rfl⟩
  rw [← hcc] at B11
  obtain ⟨B12, B13⟩ := abs_le.mp B11
  have u0 : ∀ a : ℚ, a / dt.val * dt.val = a := fun a => div_mul_cancel₀ _ hdt.ne'
  have mv : ∀ a b : ℚ, a * dt.val ≤ b * dt.val → a ≤ b := fun a b h => le_of_mul_le_mul_right h hdt
  have qm : q * dt.val = 1 := by rw [hq, u0]
  have xm : x * dt.val = t0.val := by rw [hx, u0]
  have zm : z * dt.val = ρ.val := by rw [hz, u0]
  have nm : n * dt.val = enc.Tmax.val := by rw [hn, u0]
  have mm : m * dt.val = enc.Tmin.val := by rw [hm, u0]
  have pm : pp * dt.val = v.val * enc.Tcod.val := by rw [hpp, u0]
  have cm : cc * dt.val = enc.Tcod.val := by rw [hcc, u0]
  have hp1 : v.val * enc.Tcod.val ≤ enc.Tcod.val := mul_le_of_le_one_left hC.le hv1
  have hp0 : 0 ≤ v.val * enc.Tcod.val := by positivity
  have A3 : q + 12 ≤ m := mv _ _ (by linarith)
  have A5 : x + n + 2 * q + 7 ≤ z := mv _ _ (by linarith)
  have A6 : z ≤ 2 ^ 48 := mv _ _ (by linarith)
  have A7 : pp ≤ cc := mv _ _ (by linarith)
  rw [← hn] at G
  have d1 : (tsynFl : Double).val / dt.val = q := by rw [tsyn_val, hq]
  have dpos : 0 ≤ (tsynFl : Double).val := by rw [tsyn_val]; norm_num
  obtain ⟨D, hD⟩ : ∃ D : Double, D = tsynFl + enc.Tmin := ⟨_, rfl⟩
  have D0 := abs_le.mp (fl_small (x := (tsynFl : Double).val + enc.Tmin.val) (t := dt.val) (by rw [tsyn_val, abs_of_nonneg (by linarith)]; linarith))
  have Dv : D.val = fl 53 ((tsynFl : Double).val + enc.Tmin.val) := by rw [hD]; rfl
  rw [← Dv, tsyn_val] at D0
  have dposD : 0 ≤ D.val := by linarith
  obtain ⟨δ, hδ⟩ : ∃ q, q = D.val / dt.val := ⟨_, rfl⟩
  have δm : δ * dt.val = D.val := by rw [hδ, u0]
  have δ1 : q + m - 1 / 16 ≤ δ := mv _ _ (by linarith)
  have δ2 : δ ≤ q + m + 1 / 16 := mv _ _ (by linarith)
  obtain ⟨E, hE⟩ : ∃ D : Double, D = Fl.of 2 * tsynFl + Fl.of (1 / 100) := ⟨_, rfl⟩
  obtain ⟨E1, E2⟩ := d201
  rw [← hE] at E1 E2
  have dposE : 0 ≤ E.val := by linarith [show (0 : ℚ) ≤ 2 + 1 / 100 - 1 / 2 ^ 40 by norm_num]
  obtain ⟨ε, hε⟩ : ∃ q, q = E.val / dt.val := ⟨_, rfl⟩
  have εm : ε * dt.val = E.val := by rw [hε, u0]
  have sm : (1 : ℚ) / 2 ^ 40 ≤ 1 / 16 * dt.val := by
    have : (1 : ℚ) / 2 ^ 40 * 2 ^ 24 ≤ 1 / 16 := by norm_num
    have h2 : (1 : ℚ) / 2 ^ 24 ≤ dt.val := by rw [div_le_iff₀ (by norm_num)]; linarith
    have h3 : (1 : ℚ) / 2 ^ 40 ≤ 1 / 16 * (1 / 2 ^ 24) := by norm_num
    linarith
  have ε1 : 2 * q + q / 100 - 1 / 16 ≤ ε := mv _ _ (by linarith)
  have ε2 : ε ≤ 2 * q + q / 100 + 1 / 16 := mv _ _ (by linarith)
  have big : (2 : ℚ) ^ 48 + 5 * 2 ^ 24 + 100 ≤ 2 ^ 49 := by norm_num
  -- the steps of all arrivals
  obtain ⟨a1, a1i, a1p, a1l, a1u⟩ := arrives_inj (τ := t0) (D := tsynFl) hdt ht dpos (by rw [d1, ← hx]; linarith)
  obtain ⟨b1, b1i, b1p, b1l, b1u⟩ := arrives_inj (τ := τ) (D := tsynFl) hdt (by
    have : 0 ≤ y * dt.val := mul_nonneg (by linarith) hdt.le
    rwa [hy, u0] at this) dpos (by rw [d1, ← hy]; linarith)
  rw [d1, ← hx] at a1l a1u
  rw [d1, ← hy] at b1l b1u
  obtain ⟨c, ci, cj, cl, cu⟩ := arrives (j := a1) (D := tsynFl) hdt dpos (by rw [d1]; linarith)
  rw [d1] at cl cu
  obtain ⟨a2, a2i, a2j, a2l, a2u⟩ := arrives (j := a1) (D := D) hdt dposD (by rw [← hδ]; linarith)
  rw [← hδ] at a2l a2u
  obtain ⟨b2, b2i, b2j, b2l, b2u⟩ := arrives (j := b1) (D := tsynFl) hdt dpos (by rw [d1]; linarith)
  rw [d1] at b2l b2u
  obtain ⟨r1, r1i, r1p, r1l, r1u⟩ := arrives_inj (τ := ρ) (D := tsynFl) hdt (by linarith) dpos (by rw [d1, ← hz]; linarith)
  obtain ⟨o1, o1i, o1p, o1l, o1u⟩ := arrives_inj (τ := ρ) (D := E) hdt (by linarith) dposE (by rw [← hε, ← hz]; linarith)
  rw [d1, ← hz] at r1l r1u
  rw [← hε, ← hz] at o1l o1u
  have lt_of : ∀ {a b : ℕ}, (a : ℚ) < b → a < b := fun h => by exact_mod_cast h
  have cb1 : c < b1 := lt_of (by linarith)
  have a2r : a2 < r1 := lt_of (by linarith)
  have b2r : b2 < r1 := lt_of (by linarith)
  obtain ⟨k', g1, g2, g3⟩ := store_fits (dt := dt) (w := enc.waccFl) (a := a2) (b := b2) (c := r1) (n := n)
    (hits := fun i => (if i = a2 then [(SynKind.ge, enc.waccFl)] else []) ++ (if i = b2 then [(SynKind.ge, -enc.waccFl)] else []) ++ (if i = r1 then [(SynKind.ge, enc.waccFl)] else []))
    G (by omega) (by omega) a2r b2r (by linarith) (by linarith) (fun _ => rfl)
  obtain ⟨o2, o2i, o2j, o2l, o2u⟩ := arrives (j := r1 + k') (D := tsynFl) hdt dpos (by rw [d1]; push_cast; linarith)
  rw [d1] at o2l o2u
  push_cast at o2l o2u
  have W1 : (o2 : ℚ) - o1 ≤ m + (cc - pp - q / 100) + 23 / 2 := by linarith
  have W2 : m + (cc - pp - q / 100) - 23 / 2 ≤ (o2 : ℚ) - o1 := by linarith
  have oo : o1 < o2 := lt_of (by linarith)
  have W3 : (o2 : ℚ) ≤ z + 2 * q + n + 13 := by linarith
  have W4 : o2 ≤ 2 ^ 49 := by
    have : (o2 : ℚ) ≤ 2 ^ 49 := by linarith
    exact_mod_cast this
  have W5 : o2 ≤ numStepsFl T dt := by
    refine enough_steps (by omega) ?_
    rw [le_div_iff₀ hdt]
    have := mul_le_mul_of_nonneg_right W3 hdt.le
    linarith
  have I0 : (([(0, t0), (0, τ), (4, ρ)] : List (ℕ × Double)).filter fun q => q.1 = 0) = [(0, t0), (0, τ)] := rfl
  have I4 : (([(0, t0), (0, τ), (4, ρ)] : List (ℕ × Double)).filter fun q => q.1 = 4) = [(4, ρ)] := rfl
  obtain ⟨st, s1, s2⟩ := lib_run H hord (enc := enc) hdt (invMemoryFl_neurons enc name)
    (fun n hn => by interval_cases n <;> rfl) (by rw [invMemoryFl_net]; simp) (cs := [.value v 0 t0, .spike 4 ρ])
    (by simp only [List.mem_cons, List.not_mem_nil, or_false, forall_eq_or_imp, forall_eq, CallOK, and_true]; exact ⟨hv0, hv1⟩)
    (Ls := [[], [a1], [b1], [r1 + k'], [], [o1, o2]]) rfl (by simp [oo]) T (by simp; omega) (by
    intro n hn
    show FitsR stdFl dt (hitsR (w.net (List.range 6)) dt [(0, t0), (0, τ), (4, ρ)] _ n) _
    interval_cases n
    · exact FitsR.silent fun i => hits_eq rfl i
    · refine FitsR.first (a := a1) (b := b1) (c := c) a1p cj cb1 fun i => ?_
      rw [hits_eq (l := [⟨0, 1, weFl, tsynFl, .V⟩, ⟨1, 1, wiFl, tsynFl, .V⟩]) rfl i]
      rw [List.flatMap_cons, List.flatMap_cons, List.flatMap_nil, contrib_inj2 I0 rfl a1i b1i (by omega), contrib_one rfl rfl ci, List.append_nil]
      by_cases e1 : i = a1 ∨ i = b1
      · rw [if_pos e1, if_pos e1, if_neg (by omega)]; rfl
      · rw [if_neg e1, if_neg e1]; rfl
    · refine FitsR.second (a := a1) (b := b1) a1p (by omega) fun i => ?_
      rw [hits_eq (l := [⟨0, 2, Fl.of (1 / 2) * weFl, tsynFl, .V⟩]) rfl i, half_we]
      rw [List.flatMap_cons, List.flatMap_nil, contrib_inj2 I0 rfl a1i b1i (by omega), List.append_nil]
    · refine g1.of_eq fun i => ?_
      rw [hits_eq (l := [⟨1, 3, enc.waccFl, tsynFl + enc.Tmin, .ge⟩, ⟨2, 3, -enc.waccFl, tsynFl, .ge⟩, ⟨4, 3, enc.waccFl, tsynFl, .ge⟩]) rfl i, ← hD]
      rw [List.flatMap_cons, List.flatMap_cons, List.flatMap_cons, List.flatMap_nil, contrib_one rfl rfl a2i, contrib_one rfl rfl b2i, contrib_inj I4 rfl r1i, List.append_nil, List.append_assoc]
    · exact FitsR.silent fun i => hits_eq rfl i
    · refine FitsR.relay (by show 0 ∉ [o1, o2]; simp; omega) fun i => ?_
      rw [hits_eq (l := [⟨3, 5, weFl, tsynFl, .V⟩, ⟨4, 5, weFl, Fl.of 2 * tsynFl + Fl.of (1 / 100), .V⟩]) rfl i, ← hE]
      rw [List.flatMap_cons, List.flatMap_cons, List.flatMap_nil, contrib_inj I4 rfl o1i, contrib_one rfl rfl o2i, List.append_nil]
      show _ = if i ∈ [o1, o2] then _ else _
      by_cases e1 : i = o1
      · have e2 : i ≠ o2 := by omega
        simp [e1, show o1 ≠ o2 by omega]
      · simp [e1])
  refine ⟨st, s1, (o1 : Double) * dt, (o2 : Double) * dt, s2 5 (by norm_num), ?_⟩
  have em : (m + (cc - pp - q / 100)) * dt.val = enc.Tmin.val + (1 - v.val - 1 / 100 / enc.Tcod.val) * enc.Tcod.val := by
    rw [add_mul, sub_mul, sub_mul, mm, cm, pm, div_mul_eq_mul_div, qm, sub_mul, sub_mul, div_mul_cancel₀ _ hC.ne', one_mul]
  have ev : (1 - v.val - 1 / 100 / enc.Tcod.val) * enc.Tcod.val = enc.Tcod.val - v.val * enc.Tcod.val - 1 / 100 := by
    rw [sub_mul, sub_mul, div_mul_cancel₀ _ hC.ne', one_mul]
  have key := decoded (e := enc) (dt := dt) (v := 1 - v.val - 1 / 100 / enc.Tcod.val) (a := o1) (b := o2) (δ := 23 / 2) hT0 hC hmax hdt
    (by rw [ev]; linarith) (by rw [ev]; have := mul_le_mul_of_nonneg_right (show cc ≤ n by linarith) hdt.le; linarith) (by omega) W4 (by norm_num) (by
    rw [← em, ← sub_mul, abs_mul, abs_of_pos hdt]
    refine mul_le_mul_of_nonneg_right ?_ hdt.le
    rw [abs_le]; constructor <;> linarith)
  refine key.trans ?_
  refine div_le_div_of_nonneg_right (mul_le_mul_of_nonneg_right (by norm_num) hdt.le) hC.le

/-- A concrete case: default encoder, dt = 0.001, the value 0.25 stored at 0 and recalled at 200. -/
example : ∃ st, sessionFl (sortedHeap _) (fun _ l => l) ⟨Fl.of 10, Fl.of 100⟩ (Fl.of (1 / 1000)) (Fl.of 400) (invMemoryFl ⟨Fl.of 10, Fl.of 100⟩ none World.empty).2 0
      [.value (Fl.of (1 / 4)) 0 0, .spike 4 (Fl.of 200)] = .ok st ∧
      CarriesFl ⟨Fl.of 10, Fl.of 100⟩ (12 * (Fl.of (1 / 1000) : Double).val / (Fl.of 100 : Double).val) (st.spikeLog 5)
        (1 - (Fl.of (1 / 4) : Double).val - 1 / 100 / (Fl.of 100 : Double).val) :=
  C104_inverting_memory (sortedHeap _) id_setOrder (enc := ⟨Fl.of 10, Fl.of 100⟩) (dt := Fl.of (1 / 1000)) (by decide +kernel) (by decide +kernel) (by decide +kernel)
    (by decide +kernel) (by decide +kernel) none (v := Fl.of (1 / 4)) (t0 := 0) (by decide +kernel) (by decide +kernel) (by decide +kernel) (by decide +kernel)
    (by decide +kernel) (by decide +kernel)

/-! ## Sign flipper and constants -/

theorem signFlipperFl_neurons (name) : (signFlipperFl name World.empty).2.neurons 0 = .ok (List.range 4) := rfl

theorem signFlipperFl_net (name) : ((signFlipperFl name World.empty).2.net (List.range 4)).syns =
    [⟨0, 3, weFl, tsynFl, .V⟩, ⟨1, 2, weFl, tsynFl, .V⟩] := rfl

/-- **C104 (sign flipper).** In Python floats: the value `v` given to `inp_plus` (`neg = false`) or to `inp_minus` (`neg = true`) of a
`SignFlipperNetwork` comes out on the opposite rail, up to three simulation steps; the other output stays silent. -/
theorem C104_sign_flip (H : EventHeap Double) {ord : ℕ → List ℕ → List ℕ} (hord : SetOrder ord) {enc : Encoder Double} {dt : Double}
    (hdt : 0 < dt.val) (hdt1 : dt.val ≤ 1) (hC : 0 < enc.Tcod.val) (hmin : 4 * dt.val ≤ enc.Tmin.val) (hmax : enc.Tmax.val ≤ 2 ^ 24 * dt.val)
    (hq' : 1 ≤ 2 ^ 24 * dt.val)
    (name : Option String) (neg : Bool) {v t0 T : Double} (hv0 : 0 ≤ v.val) (hv1 : v.val ≤ 1) (ht : 0 ≤ t0.val) (ht' : t0.val ≤ 2 ^ 48 * dt.val)
    (hT : t0.val + enc.Tmax.val + 1 + 2 * dt.val ≤ T.val) :
    let p := (signFlipperFl name World.empty).1
    let w := (signFlipperFl name World.empty).2
    ∃ st, sessionFl H ord enc dt T w p.1 [.value v (if neg then p.2.2.1 else p.2.1) t0] = .ok st ∧
      CarriesFl enc (3 * dt.val / enc.Tcod.val) (st.spikeLog (if neg then p.2.2.2.1 else p.2.2.2.2)) v.val ∧
      st.spikeLog (if neg then p.2.2.2.2 else p.2.2.2.1) = some [] := by
  intro p w
  have hT0 : 0 ≤ enc.Tmin.val := by linarith
  obtain ⟨q, x, y, n, m, pp, hq, hx, hy, hn, hm, hpp, B1, B2, B3, B4, B5, B6, B7, B8, B9, B10, B11⟩ := units hdt hdt1 hC hT0 hmax hv0 hv1 ht ht'
  set τ := t0 + (enc.Tmin + v * enc.Tcod) with hτ
  have u0 : ∀ a : ℚ, a / dt.val * dt.val = a := fun a => div_mul_cancel₀ _ hdt.ne'
  have mv : ∀ a b : ℚ, a * dt.val ≤ b * dt.val → a ≤ b := fun a b h => le_of_mul_le_mul_right h hdt
  have qm : q * dt.val = 1 := by rw [hq, u0]
  have xm : x * dt.val = t0.val := by rw [hx, u0]
  have nm : n * dt.val = enc.Tmax.val := by rw [hn, u0]
  have mm : m * dt.val = enc.Tmin.val := by rw [hm, u0]
  have pm : pp * dt.val = v.val * enc.Tcod.val := by rw [hpp, u0]
  have hp1 : v.val * enc.Tcod.val ≤ enc.Tcod.val := mul_le_of_le_one_left hC.le hv1
  have hp0 : 0 ≤ v.val * enc.Tcod.val := by positivity
  have A3 : 4 ≤ m := mv _ _ (by linarith)
  have A4 : q ≤ 2 ^ 24 := mv _ _ (by linarith)
  have d1 : (tsynFl : Double).val / dt.val = q := by rw [tsyn_val, hq]
  have dpos : 0 ≤ (tsynFl : Double).val := by rw [tsyn_val]; norm_num
  have big : (2 : ℚ) ^ 48 + 5 * 2 ^ 24 + 100 ≤ 2 ^ 49 := by norm_num
  obtain ⟨o1, o1i, o1p, o1l, o1u⟩ := arrives_inj (τ := t0) (D := tsynFl) hdt ht dpos (by rw [d1, ← hx]; linarith)
  obtain ⟨o2, o2i, o2p, o2l, o2u⟩ := arrives_inj (τ := τ) (D := tsynFl) hdt (by
    have : 0 ≤ y * dt.val := mul_nonneg (by linarith) hdt.le
    rwa [hy, u0] at this) dpos (by rw [d1, ← hy]; linarith)
  rw [d1, ← hx] at o1l o1u
  rw [d1, ← hy] at o2l o2u
  have oo : o1 < o2 := by
    have : (o1 : ℚ) < o2 := by linarith
    exact_mod_cast this
  have W3 : (o2 : ℚ) ≤ x + q + n + 2 := by linarith
  have W4 : o2 ≤ 2 ^ 49 := by
    have : (o2 : ℚ) ≤ 2 ^ 49 := by linarith
    exact_mod_cast this
  have W5 : o2 ≤ numStepsFl T dt := by
    refine enough_steps (by omega) ?_
    rw [le_div_iff₀ hdt]
    have := mul_le_mul_of_nonneg_right W3 hdt.le
    linarith
  have key := decoded (e := enc) (dt := dt) (v := v.val) (a := o1) (b := o2) (δ := 5 / 2) hT0 hC hmax hdt (by linarith)
    (by have := mul_le_mul_of_nonneg_right (show pp ≤ n by linarith) hdt.le; linarith) (by omega) W4 (by norm_num) (by
    rw [← mm, ← pm, ← add_mul, ← sub_mul, abs_mul, abs_of_pos hdt]
    refine mul_le_mul_of_nonneg_right ?_ hdt.le
    rw [abs_le]; constructor <;> linarith)
  have key' := key.trans (div_le_div_of_nonneg_right (mul_le_mul_of_nonneg_right (show (5 / 2 + 5 / 16 : ℚ) ≤ 3 by norm_num) hdt.le) hC.le)
  cases neg with
  | false =>
    have I0 : (([(0, t0), (0, τ)] : List (ℕ × Double)).filter fun q => q.1 = 0) = [(0, t0), (0, τ)] := rfl
    obtain ⟨st, s1, s2⟩ := lib_run H hord (enc := enc) hdt (signFlipperFl_neurons name)
      (fun n hn => by interval_cases n <;> rfl) (by rw [signFlipperFl_net]; simp) (cs := [.value v 0 t0])
      (by simp only [List.mem_cons, List.not_mem_nil, or_false, forall_eq, CallOK]; exact ⟨hv0, hv1⟩)
      (Ls := [[], [], [], [o1, o2]]) rfl (by simp [oo]) T (by simp; omega) (by
      intro n hn
      show FitsR stdFl dt (hitsR (w.net (List.range 4)) dt [(0, t0), (0, τ)] _ n) _
      interval_cases n
      · exact FitsR.silent fun i => hits_eq rfl i
      · exact FitsR.silent fun i => hits_eq rfl i
      · exact FitsR.silent fun i => hits_eq rfl i
      · refine FitsR.relay (by show 0 ∉ [o1, o2]; simp; omega) fun i => ?_
        rw [hits_eq (l := [⟨0, 3, weFl, tsynFl, .V⟩]) rfl i]
        rw [List.flatMap_cons, List.flatMap_nil, contrib_inj2 I0 rfl o1i o2i (by omega), List.append_nil]
        show _ = if i ∈ [o1, o2] then _ else _
        simp)
    exact ⟨st, s1, ⟨(o1 : Double) * dt, (o2 : Double) * dt, s2 3 (by norm_num), key'⟩, s2 2 (by norm_num)⟩
  | true =>
    have I0 : (([(1, t0), (1, τ)] : List (ℕ × Double)).filter fun q => q.1 = 1) = [(1, t0), (1, τ)] := rfl
    obtain ⟨st, s1, s2⟩ := lib_run H hord (enc := enc) hdt (signFlipperFl_neurons name)
      (fun n hn => by interval_cases n <;> rfl) (by rw [signFlipperFl_net]; simp) (cs := [.value v 1 t0])
      (by simp only [List.mem_cons, List.not_mem_nil, or_false, forall_eq, CallOK]; exact ⟨hv0, hv1⟩)
      (Ls := [[], [], [o1, o2], []]) rfl (by simp [oo]) T (by simp; omega) (by
      intro n hn
      show FitsR stdFl dt (hitsR (w.net (List.range 4)) dt [(1, t0), (1, τ)] _ n) _
      interval_cases n
      · exact FitsR.silent fun i => hits_eq rfl i
      · exact FitsR.silent fun i => hits_eq rfl i
      · refine FitsR.relay (by show 0 ∉ [o1, o2]; simp; omega) fun i => ?_
        rw [hits_eq (l := [⟨1, 2, weFl, tsynFl, .V⟩]) rfl i]
        rw [List.flatMap_cons, List.flatMap_nil, contrib_inj2 I0 rfl o1i o2i (by omega), List.append_nil]
        show _ = if i ∈ [o1, o2] then _ else _
        simp
      · exact FitsR.silent fun i => hits_eq rfl i)
    exact ⟨st, s1, ⟨(o1 : Double) * dt, (o2 : Double) * dt, s2 2 (by norm_num), key'⟩, s2 3 (by norm_num)⟩

/-- A concrete case: default encoder, dt = 0.001, the value 0.25 on the negative rail. -/
example : ∃ st, sessionFl (sortedHeap _) (fun _ l => l) ⟨Fl.of 10, Fl.of 100⟩ (Fl.of (1 / 1000)) (Fl.of 400) (signFlipperFl none World.empty).2 0
      [.value (Fl.of (1 / 4)) 1 0] = .ok st ∧
      CarriesFl ⟨Fl.of 10, Fl.of 100⟩ (3 * (Fl.of (1 / 1000) : Double).val / (Fl.of 100 : Double).val) (st.spikeLog 2) (Fl.of (1 / 4) : Double).val ∧
      st.spikeLog 3 = some [] :=
  C104_sign_flip (sortedHeap _) id_setOrder (enc := ⟨Fl.of 10, Fl.of 100⟩) (dt := Fl.of (1 / 1000)) (by decide +kernel) (by decide +kernel) (by decide +kernel)
    (by decide +kernel) (by decide +kernel) (by decide +kernel) none true (v := Fl.of (1 / 4)) (t0 := 0) (by decide +kernel) (by decide +kernel) (by decide +kernel)
    (by decide +kernel) (by decide +kernel)

theorem constantFl_neurons (enc : Encoder Double) (v name) : (constantFl enc v name World.empty).2.neurons 0 = .ok (List.range 2) := rfl

theorem constantFl_net (enc : Encoder Double) (v name) : ((constantFl enc v name World.empty).2.net (List.range 2)).syns =
    [⟨0, 1, weFl, tsynFl, .V⟩, ⟨0, 1, weFl, tsynFl + (v * enc.Tcod + enc.Tmin), .V⟩] := rfl

/-- **C104 (constant).** In Python floats: a `ConstantNetwork` of value `v`, recalled at `ρ`, emits `v` up to three simulation steps. -/
theorem C104_constant (H : EventHeap Double) {ord : ℕ → List ℕ → List ℕ} (hord : SetOrder ord) {enc : Encoder Double} {dt : Double}
    (hdt : 0 < dt.val) (hdt1 : dt.val ≤ 1) (hC : 0 < enc.Tcod.val) (hmin : 4 * dt.val ≤ enc.Tmin.val) (hmax : enc.Tmax.val ≤ 2 ^ 24 * dt.val)
    (hq' : 1 ≤ 2 ^ 24 * dt.val)
    (name : Option String) {v ρ T : Double} (hv0 : 0 ≤ v.val) (hv1 : v.val ≤ 1) (ht : 0 ≤ ρ.val) (ht' : ρ.val ≤ 2 ^ 48 * dt.val)
    (hT : ρ.val + enc.Tmax.val + 1 + 2 * dt.val ≤ T.val) :
    let p := (constantFl enc v name World.empty).1
    let w := (constantFl enc v name World.empty).2
    ∃ st, sessionFl H ord enc dt T w p.1 [.spike p.2.1 ρ] = .ok st ∧ CarriesFl enc (3 * dt.val / enc.Tcod.val) (st.spikeLog p.2.2) v.val := by
  intro p w
  have hT0 : 0 ≤ enc.Tmin.val := by linarith
  obtain ⟨D, hD⟩ : ∃ D : Double, D = tsynFl + (v * enc.Tcod + enc.Tmin) := ⟨_, rfl⟩
  have hcomm : tsynFl + (enc.Tmin + v * enc.Tcod) = D := by
    rw [hD]; exact Fl.val_injective (by rw [Fl.val_add, Fl.val_add, Fl.val_add, Fl.val_add, add_comm enc.Tmin.val])
  obtain ⟨q, q', y, n, m, pp, hq, hq2, hy, hn, hm, hpp, B1, B2, B3, B4, B5, B6, B7, B8, B9, B10, B11⟩ := units (t0 := tsynFl) hdt hdt1 hC hT0 hmax hv0 hv1
    (by rw [tsyn_val]; norm_num) (by rw [tsyn_val]; linarith)
  rw [hcomm] at hy
  rw [tsyn_val, ← hq] at hq2
  have hq3 := hq2.symm
  subst hq3
  have u0 : ∀ a : ℚ, a / dt.val * dt.val = a := fun a => div_mul_cancel₀ _ hdt.ne'
  have mv : ∀ a b : ℚ, a * dt.val ≤ b * dt.val → a ≤ b := fun a b h => le_of_mul_le_mul_right h hdt
  obtain ⟨x, hx⟩ : ∃ q, q = ρ.val / dt.val := ⟨_, rfl⟩
  have qm : q * dt.val = 1 := by rw [hq, u0]
  have xm : x * dt.val = ρ.val := by rw [hx, u0]
  have nm : n * dt.val = enc.Tmax.val := by rw [hn, u0]
  have mm : m * dt.val = enc.Tmin.val := by rw [hm, u0]
  have pm : pp * dt.val = v.val * enc.Tcod.val := by rw [hpp, u0]
  have A3 : 4 ≤ m := mv _ _ (by linarith)
  have A4 : q ≤ 2 ^ 24 := mv _ _ (by linarith)
  have A5 : x ≤ 2 ^ 48 := mv _ _ (by linarith)
  have d1 : (tsynFl : Double).val / dt.val = q := by rw [tsyn_val, hq]
  have dpos : 0 ≤ (tsynFl : Double).val := by rw [tsyn_val]; norm_num
  have big : (2 : ℚ) ^ 48 + 5 * 2 ^ 24 + 100 ≤ 2 ^ 49 := by norm_num
  obtain ⟨o1, o1i, o1p, o1l, o1u⟩ := arrives_inj (τ := ρ) (D := tsynFl) hdt ht dpos (by rw [d1, ← hx]; linarith)
  obtain ⟨o2, o2i, o2p, o2l, o2u⟩ := arrives_inj (τ := ρ) (D := D) hdt ht (by
    have : 0 ≤ y * dt.val := mul_nonneg (by linarith) hdt.le
    rwa [hy, u0] at this) (by rw [← hx, ← hy]; linarith)
  rw [d1, ← hx] at o1l o1u
  rw [← hx, ← hy] at o2l o2u
  have oo : o1 < o2 := by
    have : (o1 : ℚ) < o2 := by linarith
    exact_mod_cast this
  have W3 : (o2 : ℚ) ≤ x + q + n + 2 := by linarith
  have W4 : o2 ≤ 2 ^ 49 := by
    have : (o2 : ℚ) ≤ 2 ^ 49 := by linarith
    exact_mod_cast this
  have W5 : o2 ≤ numStepsFl T dt := by
    refine enough_steps (by omega) ?_
    rw [le_div_iff₀ hdt]
    have := mul_le_mul_of_nonneg_right W3 hdt.le
    linarith
  have hp0 : 0 ≤ v.val * enc.Tcod.val := by positivity
  have key := decoded (e := enc) (dt := dt) (v := v.val) (a := o1) (b := o2) (δ := 5 / 2) hT0 hC hmax hdt (by linarith)
    (by have := mul_le_mul_of_nonneg_right (show pp ≤ n by linarith) hdt.le; linarith) (by omega) W4 (by norm_num) (by
    rw [← mm, ← pm, ← add_mul, ← sub_mul, abs_mul, abs_of_pos hdt]
    refine mul_le_mul_of_nonneg_right ?_ hdt.le
    rw [abs_le]; constructor <;> linarith)
  have key' := key.trans (div_le_div_of_nonneg_right (mul_le_mul_of_nonneg_right (show (5 / 2 + 5 / 16 : ℚ) ≤ 3 by norm_num) hdt.le) hC.le)
  have I0 : (([(0, ρ)] : List (ℕ × Double)).filter fun q => q.1 = 0) = [(0, ρ)] := rfl
  obtain ⟨st, s1, s2⟩ := lib_run H hord (enc := enc) hdt (constantFl_neurons enc v name)
    (fun n hn => by interval_cases n <;> rfl) (by rw [constantFl_net]; simp) (cs := [.spike 0 ρ]) (by simp [CallOK])
    (Ls := [[], [o1, o2]]) rfl (by simp [oo]) T (by simp; omega) (by
    intro n hn
    show FitsR stdFl dt (hitsR (w.net (List.range 2)) dt [(0, ρ)] _ n) _
    interval_cases n
    · exact FitsR.silent fun i => hits_eq rfl i
    · refine FitsR.relay (by show 0 ∉ [o1, o2]; simp; omega) fun i => ?_
      rw [hits_eq (l := [⟨0, 1, weFl, tsynFl, .V⟩, ⟨0, 1, weFl, tsynFl + (v * enc.Tcod + enc.Tmin), .V⟩]) rfl i, ← hD]
      rw [List.flatMap_cons, List.flatMap_cons, List.flatMap_nil, contrib_inj I0 rfl o1i, contrib_inj I0 rfl o2i, List.append_nil]
      show _ = if i ∈ [o1, o2] then _ else _
      by_cases e1 : i = o1
      · simp [e1, show o1 ≠ o2 by omega]
      · simp [e1])
  exact ⟨st, s1, (o1 : Double) * dt, (o2 : Double) * dt, s2 1 (by norm_num), key'⟩

/-- A concrete case: the constant 0.25, recalled at 5. -/
example : ∃ st, sessionFl (sortedHeap _) (fun _ l => l) ⟨Fl.of 10, Fl.of 100⟩ (Fl.of (1 / 1000)) (Fl.of 400)
      (constantFl ⟨Fl.of 10, Fl.of 100⟩ (Fl.of (1 / 4)) none World.empty).2 0 [.spike 0 (Fl.of 5)] = .ok st ∧
      CarriesFl ⟨Fl.of 10, Fl.of 100⟩ (3 * (Fl.of (1 / 1000) : Double).val / (Fl.of 100 : Double).val) (st.spikeLog 1) (Fl.of (1 / 4) : Double).val :=
  C104_constant (sortedHeap _) id_setOrder (enc := ⟨Fl.of 10, Fl.of 100⟩) (dt := Fl.of (1 / 1000)) (by decide +kernel) (by decide +kernel) (by decide +kernel)
    (by decide +kernel) (by decide +kernel) (by decide +kernel) none (v := Fl.of (1 / 4)) (ρ := Fl.of 5) (by decide +kernel) (by decide +kernel) (by decide +kernel)
    (by decide +kernel) (by decide +kernel)

/-! ## The networks in floats and the networks over exact numbers -/

/-- The float synapse `s` is the exact synapse `s'`, its weight and delay rounded. -/
def Rounds (s : Synapse Double) (s' : Synapse ℚ) : Prop :=
  s.pre = s'.pre ∧ s.post = s'.post ∧ s.kind = s'.kind ∧ s.weight.val = fl 53 s'.weight ∧ s.delay.val = fl 53 s'.delay

/-- The encoder over exact numbers. -/
def Encoder.exact (enc : Encoder Double) : Encoder ℚ := ⟨enc.Tmin.val, enc.Tcod.val⟩

/-- **C104 (the same networks).** The networks of this file are the networks of `Verif/Model/Networks.lean` with every weight and delay rounded
(if `Tmin + Tcod` is a float, as it is for the default encoder). -/
theorem C104_same_networks (enc : Encoder Double) (hT : enc.Tmax.val = enc.Tmin.val + enc.Tcod.val) (name : Option String) :
    List.Forall₂ Rounds (memoryFl enc name World.empty).2.syns (memoryNetwork enc.exact name World.empty).2.syns ∧
    List.Forall₂ Rounds (invMemoryFl enc name World.empty).2.syns (invertingMemoryNetwork enc.exact name World.empty).2.syns ∧
    List.Forall₂ Rounds (signFlipperFl name World.empty).2.syns (signFlipperNetwork (K := ℚ) name World.empty).2.syns := by
  have w1 : enc.waccFl.val = fl 53 (enc.exact.wacc) := by
    rw [Encoder.waccFl, Fl.val_div, d1000, hT]; congr 1; norm_num [Encoder.wacc, Encoder.Tmax, Encoder.exact, cVt, ctm]
  have w2 : (-enc.waccFl).val = fl 53 (-enc.exact.wacc) := by rw [fl_neg, ← w1]; rfl
  have c1 : (weFl : Double).val = fl 53 10 := by decide +kernel
  have c2 : (Fl.of (1 / 2) * weFl : Double).val = fl 53 (1 / 2 * 10) := by decide +kernel
  have c3 : (wiFl : Double).val = fl 53 (-10) := by decide +kernel
  have c4 : (tsynFl : Double).val = fl 53 1 := by decide +kernel
  have c5 : (Fl.of 2 * tsynFl : Double).val = fl 53 (2 * 1) := by decide +kernel
  have c6 : (Fl.of 2 * tsynFl + Fl.of (1 / 100) : Double).val = fl 53 (2 * 1 + 1 / 100) := by decide +kernel
  have c7 : (tsynFl + enc.Tmin).val = fl 53 (1 + enc.Tmin.val) := by rw [Fl.val_add, tsyn_val]
  refine ⟨?_, ?_, ?_⟩
  · show List.Forall₂ Rounds [⟨3, 6, weFl, tsynFl, .V⟩, ⟨4, 7, weFl, tsynFl, .V⟩, ⟨5, 7, weFl, Fl.of 2 * tsynFl, .V⟩, ⟨5, 4, enc.waccFl, tsynFl, .ge⟩, ⟨3, 4, -enc.waccFl, tsynFl, .ge⟩,
      ⟨2, 4, enc.waccFl, Fl.of 2 * tsynFl, .ge⟩, ⟨1, 3, enc.waccFl, tsynFl, .ge⟩, ⟨1, 1, wiFl, tsynFl, .V⟩, ⟨0, 2, Fl.of (1 / 2) * weFl, tsynFl, .V⟩,
      ⟨0, 1, weFl, tsynFl, .V⟩] [⟨3, 6, 10, 1, .V⟩, ⟨4, 7, 10, 1, .V⟩, ⟨5, 7, 10, 2 * 1, .V⟩, ⟨5, 4, enc.exact.wacc, 1, .ge⟩, ⟨3, 4, -enc.exact.wacc, 1, .ge⟩,
      ⟨2, 4, enc.exact.wacc, 2 * 1, .ge⟩, ⟨1, 3, enc.exact.wacc, 1, .ge⟩, ⟨1, 1, -10, 1, .V⟩, ⟨0, 2, 1 / 2 * 10, 1, .V⟩, ⟨0, 1, 10, 1, .V⟩]
    simp only [List.forall₂_cons, Rounds, w1, w2, c1, c2, c3, c4, c5, true_and, and_self, List.forall₂_nil_left_iff]
  · show List.Forall₂ Rounds [⟨4, 5, weFl, Fl.of 2 * tsynFl + Fl.of (1 / 100), .V⟩, ⟨3, 5, weFl, tsynFl, .V⟩, ⟨4, 3, enc.waccFl, tsynFl, .ge⟩, ⟨2, 3, -enc.waccFl, tsynFl, .ge⟩,
      ⟨1, 3, enc.waccFl, tsynFl + enc.Tmin, .ge⟩, ⟨1, 1, wiFl, tsynFl, .V⟩, ⟨0, 2, Fl.of (1 / 2) * weFl, tsynFl, .V⟩, ⟨0, 1, weFl, tsynFl, .V⟩]
      [⟨4, 5, 10, 2 * 1 + 1 / 100, .V⟩, ⟨3, 5, 10, 1, .V⟩, ⟨4, 3, enc.exact.wacc, 1, .ge⟩, ⟨2, 3, -enc.exact.wacc, 1, .ge⟩, ⟨1, 3, enc.exact.wacc, 1 + enc.Tmin.val, .ge⟩,
      ⟨1, 1, -10, 1, .V⟩, ⟨0, 2, 1 / 2 * 10, 1, .V⟩, ⟨0, 1, 10, 1, .V⟩]
    simp only [List.forall₂_cons, Rounds, w1, w2, c1, c2, c3, c4, c5, c6, c7, true_and, and_self, List.forall₂_nil_left_iff]
  · show List.Forall₂ Rounds [⟨1, 2, weFl, tsynFl, .V⟩, ⟨0, 3, weFl, tsynFl, .V⟩] [⟨1, 2, 10, 1, .V⟩, ⟨0, 3, 10, 1, .V⟩]
    simp only [List.forall₂_cons, Rounds, c1, c4, true_and, and_self, List.forall₂_nil_left_iff]

/-- The default encoder meets the hypothesis. -/
example : (⟨Fl.of 10, Fl.of 100⟩ : Encoder Double).Tmax.val = (Fl.of 10 : Double).val + (Fl.of 100 : Double).val := by decide +kernel

end Axon
