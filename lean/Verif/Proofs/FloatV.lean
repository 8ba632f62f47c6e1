import Verif.Proofs.FloatSession
import Verif.Proofs.VTrain

/-! # Neurons with potential synapses in floating-point arithmetic: sums of multiples of 5/2 are exact -/
set_option linter.unusedSectionVars false
namespace Axon
open Spec

/-- A weight, in units of a quarter of the threshold. -/
def wz (z : ℤ) : Double := Fl.of ((z : ℚ) * (5 / 2))

theorem fl_quarter {z : ℤ} (h : |z| ≤ 2 ^ 40) : fl 53 ((z : ℚ) * (5 / 2)) = (z : ℚ) * (5 / 2) := by
  have := fl_exact (p := 53) (5 * z) (-1) (by rw [abs_mul]; norm_num; have : (5 : ℤ) * |z| ≤ 5 * 2 ^ 40 := by omega
                                              exact this.trans (by norm_num))
  have e : ((5 * z : ℤ) : ℚ) * 2 ^ (-1 : ℤ) = (z : ℚ) * (5 / 2) := by push_cast; norm_num; ring
  rwa [e] at this

theorem wz_val {z : ℤ} (h : |z| ≤ 2 ^ 40) : (wz z).val = (z : ℚ) * (5 / 2) := fl_quarter h

/-- The arrivals of one step, in any order: the potential is added up exactly. -/
theorem fold_exact : ∀ (l : List (SynKind × Double)) (V : Double) (n : ℤ), V.val = (n : ℚ) * (5 / 2) →
    (∀ h ∈ l, h.1 = .V ∧ ∃ z : ℤ, |z| ≤ 8 ∧ h.2 = wz z) → |n| + 8 * l.length ≤ 2 ^ 40 →
    ∃ V' : Double, l.foldl addHit ⟨V, 0, 0, 0⟩ = ⟨V', 0, 0, 0⟩ ∧ V'.val = V.val + (l.map fun h => h.2.val).sum := by
  intro l
  induction l with
  | nil => intro V n hV _ _; exact ⟨V, rfl, by simp⟩
  | cons h l ih =>
    intro V n hV hl hb
    obtain ⟨hk, z, hz, he⟩ := hl h (by simp)
    obtain ⟨k, w⟩ := h
    simp only at hk he
    subst hk he
    have hs : (V + wz z).val = ((n + z : ℤ) : ℚ) * (5 / 2) := by
      rw [Fl.val_add, hV, wz_val (hz.trans (by norm_num)), ← add_mul]
      have := fl_quarter (z := n + z) (by
        refine (abs_add_le n z).trans ?_
        simp only [List.length_cons] at hb; push_cast at hb; omega)
      push_cast at this ⊢
      exact this
    obtain ⟨V', h1, h2⟩ := ih (V + wz z) (n + z) hs (fun h hh => hl h (by simp [hh])) (by
      simp only [List.length_cons] at hb; push_cast at hb
      have := abs_add_le n z
      omega)
    refine ⟨V', by rw [List.foldl_cons, hitV]; exact h1, ?_⟩
    rw [h2, hs, List.map_cons, List.sum_cons, hV, wz_val (hz.trans (by norm_num))]
    push_cast; ring

/-- Arrivals described by a list of steps and weights. -/
def stepHits (E : List (ℕ × ℤ)) (i : ℕ) : List (SynKind × Double) := (E.filter fun e => e.1 = i).map fun e => (.V, wz e.2)

/-- Driven by the weights `E`, a neuron at rest in step `lo` fires in the steps `L` and in no others. -/
def VFires (E : List (ℕ × ℤ)) : ℕ → List ℕ → Prop
  | lo, [] => ∀ i, lo < i → vZ E lo i < 4
  | lo, p :: L => lo < p ∧ (∀ i, lo < i → i < p → vZ E lo i < 4) ∧ 4 ≤ vZ E lo p ∧ VFires E p L

theorem vZ_self (E : List (ℕ × ℤ)) (lo : ℕ) : vZ E lo lo = 0 := by
  unfold vZ
  refine List.sum_eq_zero ?_
  intro x hx
  obtain ⟨e, -, rfl⟩ := List.mem_map.mp hx
  rw [if_neg (by omega)]

theorem vZ_succ (E : List (ℕ × ℤ)) {lo i : ℕ} (h : lo ≤ i) : vZ E lo (i + 1) = vZ E lo i + ((E.filter fun e => e.1 = i + 1).map (·.2)).sum := by
  unfold vZ
  induction E with
  | nil => simp
  | cons e E ih =>
    rw [List.map_cons, List.sum_cons, List.map_cons, List.sum_cons, ih, List.filter_cons]
    by_cases he : e.1 = i + 1
    · rw [if_pos (by omega), if_neg (by omega), if_pos (by simpa using he), List.map_cons, List.sum_cons]; ring
    · have hf : decide (e.1 = i + 1) = false := by simpa using he
      simp only [hf, Bool.false_eq_true, if_false]
      by_cases h' : lo < e.1 ∧ e.1 ≤ i
      · rw [if_pos h', if_pos (by omega)]; ring
      · rw [if_neg h', if_neg (by omega)]; ring

theorem vZ_bound {E : List (ℕ × ℤ)} (h : ∀ e ∈ E, |e.2| ≤ 8) (lo i : ℕ) : |vZ E lo i| ≤ 8 * E.length := by
  unfold vZ
  induction E with
  | nil => simp
  | cons e E ih =>
    rw [List.map_cons, List.sum_cons, List.length_cons]
    refine (abs_add_le _ _).trans ?_
    have h1 := ih (fun e he => h e (by simp [he]))
    have h2 := h e (by simp)
    push_cast
    split
    · omega
    · rw [abs_zero]; omega

variable {dt : Double} {hits : ℕ → List (SynKind × Double)} {E : List (ℕ × ℤ)}

theorem sum_stepHits (hE : ∀ e ∈ E, |e.2| ≤ 8) (i : ℕ) : ((stepHits E i).map fun h => h.2.val).sum = (((E.filter fun e => e.1 = i).map (·.2)).sum : ℤ) * (5 / 2) := by
  unfold stepHits
  have : ∀ e ∈ E.filter (fun e => e.1 = i), |e.2| ≤ 8 := fun e he => hE e (List.mem_filter.mp he).1
  generalize E.filter (fun e => e.1 = i) = l at this
  induction l with
  | nil => simp
  | cons e l ih =>
    simp only [List.map_cons, List.sum_cons] at ih ⊢
    rw [ih (fun e he => this e (by simp [he])), wz_val ((this e (by simp)).trans (by norm_num))]
    push_cast; ring

/-- One step. -/
theorem NRun.vstep {s : ℕ → NState Double} {f : ℕ → Bool} (h : NRun stdFl dt hits s f) (hh : ∀ i, hits i = stepHits E i) (hE : ∀ e ∈ E, |e.2| ≤ 8)
    (hlen : E.length ≤ 1000) {lo i : ℕ} (hi : lo ≤ i) {V : Double} (hs : s i = ⟨V, 0, 0, 0⟩) (hV : V.val = (vZ E lo i : ℚ) * (5 / 2)) :
    ∃ V' : Double, V'.val = (vZ E lo (i + 1) : ℚ) * (5 / 2) ∧
      (s (i + 1), f (i + 1)) = if 4 ≤ vZ E lo (i + 1) then (⟨0, 0, 0, 0⟩, true) else (⟨V', 0, 0, 0⟩, false) := by
  obtain ⟨l, hl, he⟩ := h.step i
  rw [hh] at hl
  obtain ⟨V', h1, h2⟩ := fold_exact l V (vZ E lo i) hV (by
      intro x hx
      have := hl.mem_iff.mp hx
      obtain ⟨e, he, rfl⟩ := List.mem_map.mp this
      exact ⟨rfl, e.2, hE e (List.mem_filter.mp he).1, rfl⟩) (by
      have h1 := vZ_bound hE lo i
      have h2 : l.length ≤ E.length := by
        rw [hl.length_eq]; unfold stepHits; rw [List.length_map]; exact List.length_filter_le _ _
      have : ((2 : ℤ) ^ 40) = 1099511627776 := by norm_num
      omega)
  have hV' : V'.val = (vZ E lo (i + 1) : ℚ) * (5 / 2) := by
    rw [h2, hV, (hl.map _).sum_eq, sum_stepHits hE, vZ_succ E hi]; push_cast; ring
  refine ⟨V', hV', ?_⟩
  rw [he, hs, h1]
  have h10 : stdFl.Vt.val = 10 := by decide +kernel
  have hz : V' + slopeR stdFl dt 0 = V' := by rw [slopeR_zero, RoundedArith.add_zero]
  split
  · rename_i h4
    rw [euler_fire]
    · rfl
    · rw [hz, Fl.le_iff, h10, hV']
      have : (4 : ℚ) ≤ vZ E lo (i + 1) := by exact_mod_cast h4
      linarith
  · rename_i h4
    rw [euler_low]
    · rw [hz]
    · rw [hz, Fl.lt_iff, h10, hV']
      have : (vZ E lo (i + 1) : ℚ) ≤ 3 := by exact_mod_cast (by omega : vZ E lo (i + 1) ≤ 3)
      linarith

/-- While the sum stays low, the neuron is silent. -/
theorem NRun.vseg {s : ℕ → NState Double} {f : ℕ → Bool} (h : NRun stdFl dt hits s f) (hh : ∀ i, hits i = stepHits E i) (hE : ∀ e ∈ E, |e.2| ≤ 8)
    (hlen : E.length ≤ 1000) {lo : ℕ} (hs : s lo = ⟨0, 0, 0, 0⟩) : ∀ m, (∀ i, lo < i → i ≤ lo + m → vZ E lo i < 4) →
    (∃ V : Double, s (lo + m) = ⟨V, 0, 0, 0⟩ ∧ V.val = (vZ E lo (lo + m) : ℚ) * (5 / 2)) ∧ ∀ i, lo < i → i ≤ lo + m → f i = false := by
  intro m
  induction m with
  | zero =>
    intro _
    refine ⟨⟨0, hs, ?_⟩, by intro i h1 h2; omega⟩
    rw [Nat.add_zero, vZ_self]; simp [Fl.val_zero]
  | succ m ih =>
    intro hlow
    obtain ⟨⟨V, h1, h2⟩, h3⟩ := ih (fun i a b => hlow i a (by omega))
    obtain ⟨V', h4, h5⟩ := h.vstep hh hE hlen (by omega) h1 h2
    have := hlow (lo + m + 1) (by omega) le_rfl
    rw [if_neg (by omega)] at h5
    obtain ⟨e1, e2⟩ := Prod.mk.inj h5
    refine ⟨⟨V', e1, h4⟩, fun i a b => ?_⟩
    rcases Nat.lt_or_ge i (lo + m + 1) with hlt | hge
    · exact h3 i a (by omega)
    · rw [show i = lo + m + 1 by omega]; exact e2

theorem NRun.vlist {s : ℕ → NState Double} {f : ℕ → Bool} (h : NRun stdFl dt hits s f) (hh : ∀ i, hits i = stepHits E i) (hE : ∀ e ∈ E, |e.2| ≤ 8)
    (hlen : E.length ≤ 1000) : ∀ (L : List ℕ) (lo : ℕ), s lo = ⟨0, 0, 0, 0⟩ → VFires E lo L → (∀ p ∈ L, lo < p) ∧ ∀ i, lo < i → f i = decide (i ∈ L) := by
  intro L
  induction L with
  | nil =>
    intro lo hs hv
    refine ⟨by simp, fun i hi => ?_⟩
    have := (h.vseg hh hE hlen hs (i - lo) (fun k a _ => hv k a)).2 i hi (by omega)
    rw [this]; simp
  | cons p L ih =>
    intro lo hs ⟨h1, h2, h3, h4⟩
    obtain ⟨m, rfl⟩ : ∃ m, p = lo + m + 1 := ⟨p - lo - 1, by omega⟩
    obtain ⟨⟨V, g1, g2⟩, g3⟩ := h.vseg hh hE hlen hs m (fun k a b => h2 k a (by omega))
    obtain ⟨V', -, g5⟩ := h.vstep hh hE hlen (by omega) g1 g2
    rw [if_pos h3] at g5
    obtain ⟨e1, e2⟩ := Prod.mk.inj g5
    obtain ⟨k1, k2⟩ := ih _ e1 h4
    refine ⟨?_, fun i hi => ?_⟩
    · intro q hq
      rcases List.mem_cons.mp hq with rfl | hq
      · omega
      · have := k1 q hq; omega
    · rcases lt_trichotomy i (lo + m + 1) with hlt | rfl | hgt
      · rw [g3 i hi (by omega)]
        symm; rw [decide_eq_false_iff_not]
        intro hm
        rcases List.mem_cons.mp hm with rfl | hm
        · omega
        · have := k1 i hm; omega
      · rw [e2]; simp
      · rw [k2 i hgt]
        congr 1
        rw [List.mem_cons]
        apply propext
        constructor
        · exact fun h => .inr h
        · rintro (rfl | h)
          · omega
          · exact h

/-- A neuron driven by potential synapses. -/
theorem FitsR.vlist (hh : ∀ i, hits i = stepHits E i) (hE : ∀ e ∈ E, |e.2| ≤ 8) (hlen : E.length ≤ 1000) {L : List ℕ} (hv : VFires E 0 L) : FitsR stdFl dt hits L := by
  intro s f hr i
  obtain ⟨h1, h2⟩ := hr.vlist hh hE hlen L 0 hr.start.1 hv
  rcases Nat.eq_zero_or_pos i with rfl | hi
  · rw [hr.start.2]; symm; rw [decide_eq_false_iff_not]; intro h; exact absurd (h1 0 h) (by omega)
  · exact h2 i hi

theorem VFires.sorted {E : List (ℕ × ℤ)} : ∀ {L : List ℕ} {lo : ℕ}, VFires E lo L → L.Pairwise (· < ·) ∧ ∀ p ∈ L, lo < p := by
  intro L
  induction L with
  | nil => intro lo _; exact ⟨List.Pairwise.nil, by simp⟩
  | cons p L ih =>
    intro lo h
    obtain ⟨h1, h2⟩ := ih h.2.2.2
    refine ⟨List.pairwise_cons.mpr ⟨h2, h1⟩, ?_⟩
    intro q hq
    rcases List.mem_cons.mp hq with rfl | hq
    · exact h.1
    · exact h.1.trans (h2 q hq)

/-! ## Arrivals -/

/-- Spikes fired in the steps `L` arrive over delay `D` in the steps `A`. -/
def AL (dt D : Double) (L A : List ℕ) : Prop := List.Forall₂ (fun j a => ∀ k, FirstAt dt (j + 1) ((j : Double) * dt + D) k ↔ k = a) L A
/-- Spikes injected at the times `L` arrive over delay `D` in the steps `A`. -/
def ALI (dt D : Double) (L : List Double) (A : List ℕ) : Prop := List.Forall₂ (fun τ a => ∀ k, FirstAt dt 1 (τ + D) k ↔ k = a) L A

/-- A synapse brings its weight in the steps `A`. -/
def Brings (dt : Double) (inj : List (ℕ × Double)) (LS : ℕ → List ℕ) (s : Synapse Double) (A : List ℕ) : Prop :=
  ∀ i, contrib dt inj LS i s = (A.filter (· = i)).map fun _ => (s.kind, s.weight)

variable {inj : List (ℕ × Double)} {LS : ℕ → List ℕ}

theorem AL.brings {s : Synapse Double} (h1 : (inj.filter fun q => q.1 = s.pre) = []) {L A : List ℕ} (hL : LS s.pre = L) (h : AL dt s.delay L A) :
    Brings dt inj LS s A := by
  intro i
  unfold contrib
  have : (inj.filter fun q => q.1 = s.pre ∧ FirstAt dt 1 (q.2 + s.delay) i) = [] := by
    rw [filter_pre s.pre (fun x => FirstAt dt 1 (x + s.delay) i), h1]; rfl
  rw [this, List.map_nil, List.nil_append, hL]
  clear hL this
  unfold AL at h
  induction h with
  | nil => rfl
  | @cons j a L A h _ ih =>
    rw [List.filter_cons, List.filter_cons]
    by_cases hi : i = a
    · rw [if_pos (by simpa using (h i).mpr hi), if_pos (by simpa using hi.symm), List.map_cons, List.map_cons, ih]
    · rw [if_neg (by simpa using fun h' => hi ((h i).mp h')), if_neg (by simpa using fun h => hi h.symm), ih]

theorem ALI.brings {s : Synapse Double} (h1 : LS s.pre = []) {L : List Double} {A : List ℕ} (hL : (inj.filter fun q => q.1 = s.pre) = L.map fun t => (s.pre, t))
    (h : ALI dt s.delay L A) : Brings dt inj LS s A := by
  intro i
  unfold contrib
  rw [filter_pre s.pre (fun x => FirstAt dt 1 (x + s.delay) i), hL, h1, List.filter_nil, List.map_nil, List.append_nil]
  clear hL
  unfold ALI at h
  induction h with
  | nil => rfl
  | @cons j a L A h _ ih =>
    rw [List.map_cons, List.filter_cons, List.filter_cons]
    by_cases hi : i = a
    · rw [if_pos (by simpa using (h i).mpr hi), if_pos (by simpa using hi.symm), List.map_cons, List.map_cons, ih]
    · rw [if_neg (by simpa using fun h' => hi ((h i).mp h')), if_neg (by simpa using fun h => hi h.symm), ih]

/-- The synapses onto a neuron, with their weights and arrival steps. -/
theorem hits_list {l : List (Synapse Double)} {LA : List (ℤ × List ℕ)} (h : List.Forall₂ (fun s p => s.kind = .V ∧ s.weight = wz p.1 ∧ Brings dt inj LS s p.2) l LA)
    (i : ℕ) : l.flatMap (contrib dt inj LS i) = stepHits (LA.flatMap fun p => p.2.map fun a => (a, p.1)) i := by
  unfold stepHits
  induction h with
  | nil => rfl
  | @cons s p l LA h _ ih =>
    rw [List.flatMap_cons, List.flatMap_cons, List.filter_append, List.map_append, ih]
    congr 1
    obtain ⟨h1, h2, h3⟩ := h
    rw [h3 i, h1, h2]
    generalize p.2 = A
    induction A with
    | nil => rfl
    | cons a A ih =>
      rw [List.filter_cons, List.map_cons, List.filter_cons]
      by_cases ha : a = i
      · rw [if_pos (by simpa using ha), if_pos (by simpa using ha), List.map_cons, List.map_cons, ih]
      · rw [if_neg (by simpa using ha), if_neg (by simpa using ha), ih]

/-- Later spikes do not arrive earlier. -/
theorem arrives_mono {D : Double} (hdt : 0 < dt.val) {j j' a a' : ℕ} (h : j ≤ j') (ha : FirstAt dt (j + 1) ((j : Double) * dt + D) a)
    (ha' : FirstAt dt (j' + 1) ((j' : Double) * dt + D) a') : a ≤ a' := by
  by_contra hlt
  have hlt := not_le.mp hlt
  refine ha.2.2 a' hlt (by have := ha'.1; omega) (le_trans ?_ ha'.2.1)
  rw [Fl.le_iff, Fl.val_add, Fl.val_add]
  apply fl_mono
  have := RoundedArith.ticks (K := Double) dt hdt j j' h
  rw [Fl.le_iff] at this
  linarith

theorem arrives_inj_mono {D τ τ' : Double} {a a' : ℕ} (h : τ.val ≤ τ'.val) (ha : FirstAt dt 1 (τ + D) a)
    (ha' : FirstAt dt 1 (τ' + D) a') : a ≤ a' := by
  by_contra hlt
  have hlt := not_le.mp hlt
  refine ha.2.2 a' hlt ha'.1 (le_trans ?_ ha'.2.1)
  rw [Fl.le_iff, Fl.val_add, Fl.val_add]
  exact fl_mono (by linarith)

end Axon
