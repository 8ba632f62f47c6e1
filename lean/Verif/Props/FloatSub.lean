import Verif.Proofs.FloatV
import Verif.Props.FloatMem
import Mathlib.Tactic.IntervalCases

/-! # C107: the subtractor in floating-point arithmetic -/
set_option linter.unusedSectionVars false
namespace Axon
open Spec

theorem subtractorFl_neurons (enc : Encoder Double) (name) : (subtractorFl enc name World.empty).2.neurons 0 = .ok (List.range 9) := rfl

/-- The delay of the direct path to the outputs, `3 * Tsyn + 2 * Tneu`. -/
abbrev dirFl : Double := Fl.of 3 * tsynFl + Fl.of 2 * tneuFl

theorem subtractorFl_net (enc : Encoder Double) (name) : ((subtractorFl enc name World.empty).2.net (List.range 9)).syns =
    [⟨0, 2, Fl.of (1 / 2) * weFl, tsynFl, .V⟩, ⟨1, 3, Fl.of (1 / 2) * weFl, tsynFl, .V⟩, ⟨2, 4, weFl, tsynFl, .V⟩, ⟨3, 5, weFl, tsynFl, .V⟩,
      ⟨2, 5, wiFl, tsynFl, .V⟩, ⟨3, 4, wiFl, tsynFl, .V⟩, ⟨2, 6, weFl, enc.Tmin + dirFl, .V⟩, ⟨3, 7, weFl, enc.Tmin + dirFl, .V⟩,
      ⟨3, 6, weFl, dirFl, .V⟩, ⟨2, 7, weFl, dirFl, .V⟩, ⟨5, 7, Fl.of 2 * wiFl, tsynFl, .V⟩, ⟨4, 6, Fl.of 2 * wiFl, tsynFl, .V⟩,
      ⟨6, 5, Fl.of (1 / 2) * weFl, tsynFl, .V⟩, ⟨7, 4, Fl.of (1 / 2) * weFl, tsynFl, .V⟩, ⟨8, 8, weFl, tneuFl, .V⟩,
      ⟨2, 8, Fl.of (1 / 2) * wiFl, Fl.of 2 * tneuFl, .V⟩, ⟨3, 8, Fl.of (1 / 2) * wiFl, Fl.of 2 * tneuFl, .V⟩, ⟨2, 8, Fl.of (1 / 2) * weFl, tneuFl, .V⟩,
      ⟨3, 8, Fl.of (1 / 2) * weFl, tneuFl, .V⟩, ⟨8, 7, Fl.of 2 * wiFl, tneuFl, .V⟩, ⟨8, 5, wiFl, tneuFl, .V⟩] := rfl

theorem w_half : (Fl.of (1 / 2) * weFl : Double) = wz 2 := by decide +kernel
theorem w_full : (weFl : Double) = wz 4 := by decide +kernel
theorem w_neg : (wiFl : Double) = wz (-4) := by decide +kernel
theorem w_neg2 : (Fl.of 2 * wiFl : Double) = wz (-8) := by decide +kernel
theorem w_negh : (Fl.of (1 / 2) * wiFl : Double) = wz (-2) := by decide +kernel

/-- Weights and arrival steps, as one list. -/
abbrev evl (LA : List (ℤ × List ℕ)) : List (ℕ × ℤ) := LA.flatMap fun p => p.2.map fun a => (a, p.1)

/-- A spike of step `j` arrives over delay `D` in step `a`. -/
def AtStep (dt D : Double) (j a : ℕ) : Prop := ∀ k, FirstAt dt (j + 1) ((j : Double) * dt + D) k ↔ k = a

theorem AtStep.al {dt D : Double} {j a : ℕ} (h : AtStep dt D j a) : AL dt D [j] [a] := List.Forall₂.cons h List.Forall₂.nil

theorem fits_vs {net : Net Double} {dt : Double} {inj : List (ℕ × Double)} {LS : ℕ → List ℕ} {n : ℕ} {l : List (Synapse Double)} {LA : List (ℤ × List ℕ)}
    (h : (net.syns.filter fun s => s.post = n) = l) (hl : List.Forall₂ (fun s p => s.kind = .V ∧ s.weight = wz p.1 ∧ Brings dt inj LS s p.2) l LA)
    (hE : ∀ e ∈ evl LA, |e.2| ≤ 8) (hlen : (evl LA).length ≤ 1000) {L : List ℕ} (hv : VFires (evl LA) 0 L) : FitsR stdFl dt (hitsR net dt inj LS n) L :=
  FitsR.vlist (fun i => (hits_eq h i).trans (hits_list hl i)) hE hlen hv

theorem evl_small {LA : List (ℤ × List ℕ)} (h : ∀ p ∈ LA, |p.1| ≤ 8) : ∀ e ∈ evl LA, |e.2| ≤ 8 := by
  intro e he
  obtain ⟨p, hp, he⟩ := List.mem_flatMap.mp he
  obtain ⟨a, -, rfl⟩ := List.mem_map.mp he
  exact h p hp

theorem evl_len {LA : List (ℤ × List ℕ)} (h : LA.length ≤ 10) (h' : ∀ p ∈ LA, p.2.length ≤ 10) : (evl LA).length ≤ 1000 := by
  have : ∀ l : List (ℤ × List ℕ), (∀ p ∈ l, p.2.length ≤ 10) → (evl l).length ≤ 10 * l.length := by
    intro l
    induction l with
    | nil => intro _; simp
    | cons p l ih =>
      intro h
      have h1 := ih (fun q hq => h q (by simp [hq]))
      have h2 := h p (by simp)
      rw [show evl (p :: l) = (p.2.map fun a => (a, p.1)) ++ evl l from List.flatMap_cons, List.length_append, List.length_map, List.length_cons]
      omega
  have := this LA h'
  omega

theorem two_len {dt D : Double} {L A : List ℕ} (h : AL dt D L A) (hL : L.length ≤ 10) : A.length ≤ 10 := by
  rw [← List.Forall₂.length_eq h]; exact hL

set_option maxHeartbeats 4000000 in
/-- The spikes of the subtractor are determined by conditions on the arrival steps. -/
theorem sub_run (H : EventHeap Double) {ord : ℕ → List ℕ → List ℕ} (hord : SetOrder ord) {enc : Encoder Double} {dt : Double} (hdt : 0 < dt.val)
    (name : Option String) {v1 v2 t0 T : Double} (hv1 : 0 ≤ v1.val ∧ v1.val ≤ 1) (hv2 : 0 ≤ v2.val ∧ v2.val ≤ 1)
    {a s1 s2 e1 e2 f1 f2 d1 d2 g1 g2 h1 h2 : ℕ} {Z P M B1 B2 Zn Pd Md B1d B2d : List ℕ}
    (ha : ∀ k, FirstAt dt 1 (t0 + tsynFl) k ↔ k = a)
    (hs1 : ∀ k, FirstAt dt 1 ((t0 + (enc.Tmin + v1 * enc.Tcod)) + tsynFl) k ↔ k = s1)
    (hs2 : ∀ k, FirstAt dt 1 ((t0 + (enc.Tmin + v2 * enc.Tcod)) + tsynFl) k ↔ k = s2) (a0 : 0 < a) (as1 : a < s1) (as2 : a < s2)
    (he1 : AtStep dt tneuFl s1 e1) (he2 : AtStep dt tneuFl s2 e2) (hf1 : AtStep dt (Fl.of 2 * tneuFl) s1 f1) (hf2 : AtStep dt (Fl.of 2 * tneuFl) s2 f2)
    (hd1 : AtStep dt tsynFl s1 d1) (hd2 : AtStep dt tsynFl s2 d2) (hg1 : AtStep dt dirFl s1 g1) (hg2 : AtStep dt dirFl s2 g2)
    (hh1 : AtStep dt (enc.Tmin + dirFl) s1 h1) (hh2 : AtStep dt (enc.Tmin + dirFl) s2 h2)
    (hZ : AL dt tneuFl Z Zn) (hP : AL dt tsynFl P Pd) (hM : AL dt tsynFl M Md) (hB1 : AL dt tsynFl B1 B1d) (hB2 : AL dt tsynFl B2 B2d)
    (l1 : Z.length ≤ 10) (l2 : P.length ≤ 10) (l3 : M.length ≤ 10) (l4 : B1.length ≤ 10) (l5 : B2.length ≤ 10)
    (c4 : VFires (evl [(4, [d1]), (-4, [d2]), (2, Md)]) 0 B1) (c5 : VFires (evl [(4, [d2]), (-4, [d1]), (2, Pd), (-4, Zn)]) 0 B2)
    (c6 : VFires (evl [(4, [h1]), (4, [g2]), (-8, B1d)]) 0 P) (c7 : VFires (evl [(4, [h2]), (4, [g1]), (-8, B2d), (-8, Zn)]) 0 M)
    (c8 : VFires (evl [(4, Zn), (-2, [f1]), (-2, [f2]), (2, [e1]), (2, [e2])]) 0 Z)
    (hT : ∀ i ∈ s1 :: s2 :: (B1 ++ B2 ++ P ++ M ++ Z), i ≤ numStepsFl T dt) :
    ∃ st, sessionFl H ord enc dt T (subtractorFl enc name World.empty).2 0 [.value v1 0 t0, .value v2 1 t0] = .ok st ∧
      st.spikeLog 6 = some (P.map fun i : ℕ => (i : Double) * dt) ∧ st.spikeLog 7 = some (M.map fun i : ℕ => (i : Double) * dt) := by
  obtain ⟨τ1, hτ1⟩ : ∃ τ, τ = t0 + (enc.Tmin + v1 * enc.Tcod) := ⟨_, rfl⟩
  obtain ⟨τ2, hτ2⟩ : ∃ τ, τ = t0 + (enc.Tmin + v2 * enc.Tcod) := ⟨_, rfl⟩
  have I0 : (([(0, t0), (0, τ1), (1, t0), (1, τ2)] : List (ℕ × Double)).filter fun q => q.1 = 0) = [(0, t0), (0, τ1)] := rfl
  have I1 : (([(0, t0), (0, τ1), (1, t0), (1, τ2)] : List (ℕ × Double)).filter fun q => q.1 = 1) = [(1, t0), (1, τ2)] := rfl
  rw [← hτ1] at hs1
  rw [← hτ2] at hs2
  have b0 : ∀ L : List ℕ, ∀ E, VFires E 0 L → ∀ i ∈ L, 1 ≤ i := fun L E h i hi => h.sorted.2 i hi
  have hcs : ([.value v1 0 t0, .value v2 1 t0] : List (Call Double)).flatMap (callSpikesR enc) = [(0, t0), (0, τ1), (1, t0), (1, τ2)] := by
    rw [hτ1, hτ2]; rfl
  obtain ⟨st, r1, r2⟩ := lib_run H hord (enc := enc) hdt (subtractorFl_neurons enc name)
    (fun n hn => by interval_cases n <;> rfl) (by rw [subtractorFl_net]; simp) (cs := [.value v1 0 t0, .value v2 1 t0])
    (by simp only [List.mem_cons, List.not_mem_nil, or_false, forall_eq_or_imp, forall_eq, CallOK]; exact ⟨hv1, hv2⟩)
    (Ls := [[], [], [s1], [s2], B1, B2, P, M, Z]) rfl (by
      simp only [List.mem_cons, List.not_mem_nil, or_false, forall_eq_or_imp, forall_eq]
      exact ⟨.nil, .nil, List.pairwise_singleton _ _, List.pairwise_singleton _ _, c4.sorted.1, c5.sorted.1, c6.sorted.1, c7.sorted.1, c8.sorted.1⟩) T (by
      simp only [List.mem_cons, List.not_mem_nil, or_false, forall_eq_or_imp, forall_eq]
      simp only [List.mem_cons, List.mem_append, or_assoc] at hT
      refine ⟨by simp, by simp, ⟨by omega, hT _ (by simp)⟩, ⟨by omega, hT _ (by simp)⟩, fun i hi => ⟨b0 _ _ c4 i hi, hT i (by simp [hi])⟩,
        fun i hi => ⟨b0 _ _ c5 i hi, hT i (by simp [hi])⟩, fun i hi => ⟨b0 _ _ c6 i hi, hT i (by simp [hi])⟩, fun i hi => ⟨b0 _ _ c7 i hi, hT i (by simp [hi])⟩,
        fun i hi => ⟨b0 _ _ c8 i hi, hT i (by simp [hi])⟩⟩) (by
    intro n hn
    rw [hcs]
    interval_cases n
    · exact FitsR.silent fun i => hits_eq rfl i
    · exact FitsR.silent fun i => hits_eq rfl i
    · refine FitsR.second (a := a) (b := s1) a0 as1 fun i => ?_
      rw [hits_eq (l := [⟨0, 2, Fl.of (1 / 2) * weFl, tsynFl, .V⟩]) rfl i, half_we]
      rw [List.flatMap_cons, List.flatMap_nil, contrib_inj2 I0 rfl ha hs1 (by omega), List.append_nil]
    · refine FitsR.second (a := a) (b := s2) a0 as2 fun i => ?_
      rw [hits_eq (l := [⟨1, 3, Fl.of (1 / 2) * weFl, tsynFl, .V⟩]) rfl i, half_we]
      rw [List.flatMap_cons, List.flatMap_nil, contrib_inj2 I1 rfl ha hs2 (by omega), List.append_nil]
    · refine fits_vs (l := [⟨2, 4, weFl, tsynFl, .V⟩, ⟨3, 4, wiFl, tsynFl, .V⟩, ⟨7, 4, Fl.of (1 / 2) * weFl, tsynFl, .V⟩]) rfl
        (.cons ⟨rfl, w_full, hd1.al.brings rfl rfl⟩ (.cons ⟨rfl, w_neg, hd2.al.brings rfl rfl⟩ (.cons ⟨rfl, w_half, hM.brings rfl rfl⟩ .nil)))
        (evl_small (by simp)) (evl_len (by simp) (by simpa using two_len hM l3)) c4
    · refine fits_vs (l := [⟨3, 5, weFl, tsynFl, .V⟩, ⟨2, 5, wiFl, tsynFl, .V⟩, ⟨6, 5, Fl.of (1 / 2) * weFl, tsynFl, .V⟩, ⟨8, 5, wiFl, tneuFl, .V⟩]) rfl
        (.cons ⟨rfl, w_full, hd2.al.brings rfl rfl⟩ (.cons ⟨rfl, w_neg, hd1.al.brings rfl rfl⟩ (.cons ⟨rfl, w_half, hP.brings rfl rfl⟩
          (.cons ⟨rfl, w_neg, hZ.brings rfl rfl⟩ .nil))))
        (evl_small (by simp)) (evl_len (by simp) (by simpa using ⟨two_len hP l2, two_len hZ l1⟩)) c5
    · refine fits_vs (l := [⟨2, 6, weFl, enc.Tmin + dirFl, .V⟩, ⟨3, 6, weFl, dirFl, .V⟩, ⟨4, 6, Fl.of 2 * wiFl, tsynFl, .V⟩]) rfl
        (.cons ⟨rfl, w_full, hh1.al.brings rfl rfl⟩ (.cons ⟨rfl, w_full, hg2.al.brings rfl rfl⟩ (.cons ⟨rfl, w_neg2, hB1.brings rfl rfl⟩ .nil)))
        (evl_small (by simp)) (evl_len (by simp) (by simpa using two_len hB1 l4)) c6
    · refine fits_vs (l := [⟨3, 7, weFl, enc.Tmin + dirFl, .V⟩, ⟨2, 7, weFl, dirFl, .V⟩, ⟨5, 7, Fl.of 2 * wiFl, tsynFl, .V⟩, ⟨8, 7, Fl.of 2 * wiFl, tneuFl, .V⟩]) rfl
        (.cons ⟨rfl, w_full, hh2.al.brings rfl rfl⟩ (.cons ⟨rfl, w_full, hg1.al.brings rfl rfl⟩ (.cons ⟨rfl, w_neg2, hB2.brings rfl rfl⟩
          (.cons ⟨rfl, w_neg2, hZ.brings rfl rfl⟩ .nil))))
        (evl_small (by simp)) (evl_len (by simp) (by simpa using ⟨two_len hB2 l5, two_len hZ l1⟩)) c7
    · refine fits_vs (l := [⟨8, 8, weFl, tneuFl, .V⟩, ⟨2, 8, Fl.of (1 / 2) * wiFl, Fl.of 2 * tneuFl, .V⟩, ⟨3, 8, Fl.of (1 / 2) * wiFl, Fl.of 2 * tneuFl, .V⟩,
          ⟨2, 8, Fl.of (1 / 2) * weFl, tneuFl, .V⟩, ⟨3, 8, Fl.of (1 / 2) * weFl, tneuFl, .V⟩]) rfl
        (.cons ⟨rfl, w_full, hZ.brings rfl rfl⟩ (.cons ⟨rfl, w_negh, hf1.al.brings rfl rfl⟩ (.cons ⟨rfl, w_negh, hf2.al.brings rfl rfl⟩
          (.cons ⟨rfl, w_half, he1.al.brings rfl rfl⟩ (.cons ⟨rfl, w_half, he2.al.brings rfl rfl⟩ .nil)))))
        (evl_small (by simp)) (evl_len (by simp) (by simpa using two_len hZ l1)) c8)
  rw [hcs] at r2
  exact ⟨st, r1, r2 6 (by norm_num), r2 7 (by norm_num)⟩

/-! Conditions for the event lists of the subtractor. -/

theorem vk_pair {g h : ℕ} (h0 : 0 < g) (h1 : g < h) : VFires (evl [(4, [h]), (4, [g]), (-8, [])]) 0 [g, h] := by
  show 0 < g ∧ (∀ i, 0 < i → i < g → vZ [(h, 4), (g, 4)] 0 i < 4) ∧ 4 ≤ vZ [(h, 4), (g, 4)] 0 g ∧ g < h ∧
    (∀ i, g < i → i < h → vZ [(h, 4), (g, 4)] g i < 4) ∧ 4 ≤ vZ [(h, 4), (g, 4)] g h ∧ ∀ i, h < i → vZ [(h, 4), (g, 4)] h i < 4
  exact ⟨by omega, fun i _ _ => by vz_omega, by vz_omega, h1, fun i _ _ => by vz_omega, by vz_omega, fun i _ => by vz_omega⟩

theorem vk_off {d d' : ℕ} (h : d' ≤ d) (h0 : 0 < d' := by omega) : VFires (evl [(4, [d]), (-4, [d']), (2, [])]) 0 [] := by
  show ∀ i, 0 < i → vZ [(d, 4), (d', -4)] 0 i < 4
  intro i hi; vz_omega

theorem vk_on {d d' : ℕ} (h0 : 0 < d) (h : d < d') : VFires (evl [(4, [d]), (-4, [d']), (2, [])]) 0 [d] := by
  show 0 < d ∧ (∀ i, 0 < i → i < d → vZ [(d, 4), (d', -4)] 0 i < 4) ∧ 4 ≤ vZ [(d, 4), (d', -4)] 0 d ∧ ∀ i, d < i → vZ [(d, 4), (d', -4)] d i < 4
  exact ⟨h0, fun i _ _ => by vz_omega, by vz_omega, fun i _ => by vz_omega⟩

theorem vk_on' {d d' r r' : ℕ} (h0 : 0 < d) (h : d < d') (hr : d < r) (hr' : d' < r') : VFires (evl [(4, [d]), (-4, [d']), (2, [r, r'])]) 0 [d] := by
  show 0 < d ∧ (∀ i, 0 < i → i < d → vZ [(d, 4), (d', -4), (r, 2), (r', 2)] 0 i < 4) ∧ 4 ≤ vZ [(d, 4), (d', -4), (r, 2), (r', 2)] 0 d ∧
    ∀ i, d < i → vZ [(d, 4), (d', -4), (r, 2), (r', 2)] d i < 4
  exact ⟨h0, fun i _ _ => by vz_omega, by vz_omega, fun i _ => by vz_omega⟩

theorem vk_inh {h g b : ℕ} (h1 : b < h) (h2 : b < g) (h0 : 0 < b := by omega) : VFires (evl [(4, [h]), (4, [g]), (-8, [b])]) 0 [] := by
  show ∀ i, 0 < i → vZ [(h, 4), (g, 4), (b, -8)] 0 i < 4
  intro i hi; vz_omega

theorem vk_inh2 {h g b b' : ℕ} (h1 : b < h) (h2 : b < g) (h0 : 0 < b := by omega) : VFires (evl [(4, [h]), (4, [g]), (-8, [b, b'])]) 0 [] := by
  show ∀ i, 0 < i → vZ [(h, 4), (g, 4), (b, -8), (b', -8)] 0 i < 4
  intro i hi; vz_omega

theorem vk_b2 {d d' r r' z : ℕ} (h : z < d) (h2 : z < r) (hd : d' < r') (h0 : 0 < z := by omega) (h0' : 0 < d' := by omega) : VFires (evl [(4, [d]), (-4, [d']), (2, [r, r']), (-4, [z])]) 0 [] := by
  show ∀ i, 0 < i → vZ [(d, 4), (d', -4), (r, 2), (r', 2), (z, -4)] 0 i < 4
  intro i hi; vz_omega

theorem vk_b2' {d d' r r' z z' : ℕ} (h : z < d) (h2 : z < r) (hd : d' < r') (h0 : 0 < z := by omega) (h0' : 0 < d' := by omega) : VFires (evl [(4, [d]), (-4, [d']), (2, [r, r']), (-4, [z, z'])]) 0 [] := by
  show ∀ i, 0 < i → vZ [(d, 4), (d', -4), (r, 2), (r', 2), (z, -4), (z', -4)] 0 i < 4
  intro i hi; vz_omega

theorem vk_b0 {d d' z : ℕ} (h : z < d) (h0 : 0 < z := by omega) : VFires (evl [(4, [d]), (-4, [d']), (2, []), (-4, [z])]) 0 [] := by
  show ∀ i, 0 < i → vZ [(d, 4), (d', -4), (z, -4)] 0 i < 4
  intro i hi; vz_omega

theorem vk_b0' {d d' z z' : ℕ} (h : z < d) (h0 : 0 < z := by omega) : VFires (evl [(4, [d]), (-4, [d']), (2, []), (-4, [z, z'])]) 0 [] := by
  show ∀ i, 0 < i → vZ [(d, 4), (d', -4), (z, -4), (z', -4)] 0 i < 4
  intro i hi; vz_omega

/-- The zero detector, when the operands differ clearly. -/
theorem vk_zero0 {e1 e2 f1 f2 : ℕ} (h : f2 ≤ e1 ∨ f1 ≤ e2) (h1 : e1 ≤ f1) (h2 : e2 ≤ f2) (h0 : 0 < f1 := by omega) (h0' : 0 < f2 := by omega) : VFires (evl [(4, []), (-2, [f1]), (-2, [f2]), (2, [e1]), (2, [e2])]) 0 [] := by
  show ∀ i, 0 < i → vZ [(f1, -2), (f2, -2), (e1, 2), (e2, 2)] 0 i < 4
  intro i hi; rcases h with h | h <;> vz_omega

/-- The zero detector fires once. -/
theorem vk_zero1 {e e1 e2 f1 f2 z : ℕ} (h0 : 0 < e) (h1 : e1 ≤ e) (h2 : e2 ≤ e) (h3 : e1 = e ∨ e2 = e) (h4 : e < f1) (h5 : e < f2) (h6 : e < z)
    (hz : f1 ≤ z ∨ f2 ≤ z) (h7 : 0 < e1 := by omega) (h8 : 0 < e2 := by omega) : VFires (evl [(4, [z]), (-2, [f1]), (-2, [f2]), (2, [e1]), (2, [e2])]) 0 [e] := by
  show 0 < e ∧ (∀ i, 0 < i → i < e → vZ [(z, 4), (f1, -2), (f2, -2), (e1, 2), (e2, 2)] 0 i < 4) ∧
    4 ≤ vZ [(z, 4), (f1, -2), (f2, -2), (e1, 2), (e2, 2)] 0 e ∧ ∀ i, e < i → vZ [(z, 4), (f1, -2), (f2, -2), (e1, 2), (e2, 2)] e i < 4
  exact ⟨h0, fun i _ _ => by vz_omega, by vz_omega, fun i _ => by vz_omega⟩

/-- The zero detector fires twice. -/
theorem vk_zero2 {e e1 e2 f1 f2 z z' : ℕ} (h0 : 0 < e) (h1 : e1 ≤ e) (h2 : e2 ≤ e) (h3 : e1 = e ∨ e2 = e) (h4 : e < f1) (h5 : e < f2) (h6 : e < z)
    (hz : z < f1) (hz2 : z < f2) (hz' : f1 < z' ∨ f2 < z') (hzz : z < z') (h7 : 0 < e1 := by omega) (h8 : 0 < e2 := by omega) : VFires (evl [(4, [z, z']), (-2, [f1]), (-2, [f2]), (2, [e1]), (2, [e2])]) 0 [e, z] := by
  show 0 < e ∧ (∀ i, 0 < i → i < e → vZ [(z, 4), (z', 4), (f1, -2), (f2, -2), (e1, 2), (e2, 2)] 0 i < 4) ∧
    4 ≤ vZ [(z, 4), (z', 4), (f1, -2), (f2, -2), (e1, 2), (e2, 2)] 0 e ∧ e < z ∧
    (∀ i, e < i → i < z → vZ [(z, 4), (z', 4), (f1, -2), (f2, -2), (e1, 2), (e2, 2)] e i < 4) ∧
    4 ≤ vZ [(z, 4), (z', 4), (f1, -2), (f2, -2), (e1, 2), (e2, 2)] e z ∧
    ∀ i, z < i → vZ [(z, 4), (z', 4), (f1, -2), (f2, -2), (e1, 2), (e2, 2)] z i < 4
  exact ⟨h0, fun i _ _ => by vz_omega, by vz_omega, h6, fun i _ _ => by vz_omega, by vz_omega, fun i _ => by vz_omega⟩

theorem tneu_bd : (1 : ℚ) / 100 - 1 / 2 ^ 40 ≤ (tneuFl : Double).val ∧ (tneuFl : Double).val ≤ 1 / 100 + 1 / 2 ^ 40 ∧ (Fl.of 2 * tneuFl : Double).val = 2 * (tneuFl : Double).val ∧
    (3 : ℚ) + 2 / 100 - 1 / 2 ^ 40 ≤ (dirFl : Double).val ∧ (dirFl : Double).val ≤ 3 + 2 / 100 + 1 / 2 ^ 40 := by decide +kernel

/-- Later encoded spikes: a larger value is injected later. -/
theorem encode_mono {enc : Encoder Double} {t0 v1 v2 : Double} (hC : 0 ≤ enc.Tcod.val) (h : v2.val ≤ v1.val) :
    (t0 + (enc.Tmin + v2 * enc.Tcod)).val ≤ (t0 + (enc.Tmin + v1 * enc.Tcod)).val := by
  simp only [Fl.val_add, Fl.val_mul]
  refine fl_mono (add_le_add le_rfl (fl_mono (add_le_add le_rfl ?_)))
  exact fl_mono (mul_le_mul_of_nonneg_right h hC)

set_option maxHeartbeats 8000000 in
/-- **C107.** In Python floats: a `SubtractorNetwork` given `v1` and `v2` at `t0` puts `v1 - v2` on its plus output, or `v2 - v1` on its minus output, up to six
simulation steps, the other output being silent; only in the dead zone, where `v2` exceeds `v1` by less than `Tneu = 0.01` (in time, give or take
six steps), are both silent. -/
theorem C107_subtractor (H : EventHeap Double) {ord : ℕ → List ℕ → List ℕ} (hord : SetOrder ord) {enc : Encoder Double} {dt : Double}
    (hdt : 0 < dt.val) (hdt1 : dt.val ≤ 1 / 20) (hC : 0 < enc.Tcod.val) (hmin : 1 ≤ enc.Tmin.val) (hmax : enc.Tmax.val ≤ 2 ^ 24 * dt.val)
    (name : Option String) {v1 v2 t0 T : Double} (hv1 : 0 ≤ v1.val ∧ v1.val ≤ 1) (hv2 : 0 ≤ v2.val ∧ v2.val ≤ 1) (ht : 0 ≤ t0.val) (ht' : t0.val ≤ 2 ^ 48 * dt.val)
    (hT : t0.val + enc.Tmax.val + enc.Tmin.val + 5 ≤ T.val)
    (hfine : dt.val ≤ 1 / 800 ∨ 1 / 100 + 6 * dt.val ≤ |v1.val - v2.val| * enc.Tcod.val) :
    let p := (subtractorFl enc name World.empty).1
    let w := (subtractorFl enc name World.empty).2
    ∃ st, sessionFl H ord enc dt T w p.1 [.value v1 p.2.1 t0, .value v2 p.2.2.1 t0] = .ok st ∧
      ((CarriesFl enc (6 * dt.val / enc.Tcod.val) (st.spikeLog p.2.2.2.1) (v1.val - v2.val) ∧ st.spikeLog p.2.2.2.2 = some [] ∧
          (v2.val - v1.val) * enc.Tcod.val ≤ 6 * dt.val) ∨
        (CarriesFl enc (6 * dt.val / enc.Tcod.val) (st.spikeLog p.2.2.2.2) (v2.val - v1.val) ∧ st.spikeLog p.2.2.2.1 = some [] ∧
          1 / 100 - 6 * dt.val ≤ (v2.val - v1.val) * enc.Tcod.val) ∨
        (st.spikeLog p.2.2.2.1 = some [] ∧ st.spikeLog p.2.2.2.2 = some [] ∧ v1.val < v2.val ∧ (v2.val - v1.val) * enc.Tcod.val < 1 / 100 + 6 * dt.val)) := by
  intro p w
  have hT0 : 0 ≤ enc.Tmin.val := by linarith
  obtain ⟨q, x, y1, n, m, p1, hq, hx, hy1, hn, hm, hp1, B1, B2, B3, B4, B5, B6, B7, B8, B9, B10, -⟩ := units hdt (by linarith) hC hT0 hmax hv1.1 hv1.2 ht (by linarith)
  obtain ⟨q', x', y2, n', m', p2, hq', hx', hy2, hn', hm', hp2, -, -, -, -, -, -, C7, C8, C9, C10, -⟩ := units hdt (by linarith) hC hT0 hmax hv2.1 hv2.2 ht (by linarith)
  rw [← hq] at hq'; rw [← hx] at hx'; rw [← hn] at hn'; rw [← hm] at hm'
  subst q' x' n' m'
  obtain ⟨τ1, hτ1⟩ : ∃ τ, τ = t0 + (enc.Tmin + v1 * enc.Tcod) := ⟨_, rfl⟩
  obtain ⟨τ2, hτ2⟩ : ∃ τ, τ = t0 + (enc.Tmin + v2 * enc.Tcod) := ⟨_, rfl⟩
  rw [← hτ1] at hy1
  rw [← hτ2] at hy2
  obtain ⟨u, hu⟩ : ∃ u, u = (tneuFl : Double).val / dt.val := ⟨_, rfl⟩
  obtain ⟨D, hD⟩ : ∃ u, u = (dirFl : Double).val / dt.val := ⟨_, rfl⟩
  obtain ⟨DM, hDM⟩ : ∃ u, u = (enc.Tmin + dirFl : Double).val / dt.val := ⟨_, rfl⟩
  obtain ⟨k1, k2, k3, k4, k5⟩ := tneu_bd
  have u0 : ∀ a : ℚ, a / dt.val * dt.val = a := fun a => div_mul_cancel₀ _ hdt.ne'
  have mv : ∀ a b : ℚ, a * dt.val ≤ b * dt.val → a ≤ b := fun a b h => le_of_mul_le_mul_right h hdt
  have qm : q * dt.val = 1 := by rw [hq, u0]
  have xm : x * dt.val = t0.val := by rw [hx, u0]
  have nm : n * dt.val = enc.Tmax.val := by rw [hn, u0]
  have mm : m * dt.val = enc.Tmin.val := by rw [hm, u0]
  have p1m : p1 * dt.val = v1.val * enc.Tcod.val := by rw [hp1, u0]
  have p2m : p2 * dt.val = v2.val * enc.Tcod.val := by rw [hp2, u0]
  have um : u * dt.val = (tneuFl : Double).val := by rw [hu, u0]
  have Dm : D * dt.val = (dirFl : Double).val := by rw [hD, u0]
  have DMm : DM * dt.val = (enc.Tmin + dirFl : Double).val := by rw [hDM, u0]
  have hdtl : 1 ≤ 2 ^ 24 * dt.val := by linarith [tmin_le (e := enc) hC.le]
  have c40 : (1 : ℚ) / 2 ^ 40 ≤ 1 / 2 ^ 16 * dt.val := by linarith
  have eDM : |(enc.Tmin + dirFl : Double).val - (enc.Tmin.val + (dirFl : Double).val)| ≤ dt.val / 16 := by
    rw [Fl.val_add]
    refine fl_small ?_
    rw [abs_of_nonneg (by linarith)]
    have := tmin_le (e := enc) hC.le
    have : (2 : ℚ) ^ 49 * dt.val = 2 ^ 24 * dt.val * 2 ^ 25 := by ring
    linarith
  obtain ⟨eD1, eD2⟩ := abs_le.mp eDM
  have q1 : 20 ≤ q := mv _ _ (by linarith)
  have u1 : q / 100 - 1 / 2 ^ 16 ≤ u := mv _ _ (by linarith)
  have u2 : u ≤ q / 100 + 1 / 2 ^ 16 := mv _ _ (by linarith)
  have fine : 800 ≤ q ∨ q / 100 + 6 ≤ p1 - p2 ∨ q / 100 + 6 ≤ p2 - p1 := by
    rcases hfine with h | h
    · exact .inl (mv _ _ (by linarith))
    · rcases abs_cases (v1.val - v2.val) with ⟨e, -⟩ | ⟨e, -⟩ <;> rw [e] at h
      · exact .inr (.inl (mv _ _ (by linarith)))
      · exact .inr (.inr (mv _ _ (by linarith)))
  have D1 : 3 * q + q / 50 - 1 / 2 ^ 16 ≤ D := mv _ _ (by linarith)
  have D2 : D ≤ 3 * q + q / 50 + 1 / 2 ^ 16 := mv _ _ (by linarith)
  have M1 : m + D - 1 / 16 ≤ DM := mv _ _ (by linarith)
  have M2 : DM ≤ m + D + 1 / 16 := mv _ _ (by linarith)
  have m1 : q ≤ m := mv _ _ (by linarith)
  have q2 : q ≤ 2 ^ 24 := by linarith
  have dq : (tsynFl : Double).val / dt.val = q := by rw [tsyn_val, hq]
  have d2u : (Fl.of 2 * tneuFl : Double).val / dt.val = 2 * u := by rw [k3, hu]; ring
  have dp : 0 ≤ (tsynFl : Double).val := by rw [tsyn_val]; norm_num
  have dpu : 0 ≤ (tneuFl : Double).val := by linarith
  have dp2u : 0 ≤ (Fl.of 2 * tneuFl : Double).val := by linarith
  have dpD : 0 ≤ (dirFl : Double).val := by linarith
  have dpM : 0 ≤ (enc.Tmin + dirFl : Double).val := by linarith
  have big : (2 : ℚ) ^ 48 + 20 * 2 ^ 24 + 100 ≤ 2 ^ 49 := by norm_num
  have hτ1p : 0 ≤ τ1.val := by
    have : 0 ≤ y1 * dt.val := mul_nonneg (by linarith) hdt.le
    rwa [hy1, u0] at this
  have hτ2p : 0 ≤ τ2.val := by
    have : 0 ≤ y2 * dt.val := mul_nonneg (by linarith) hdt.le
    rwa [hy2, u0] at this
  have A : ∀ j : ℕ, (j : ℚ) ≤ 2 ^ 48 + 10 * 2 ^ 24 + 50 → ∃ i, AtStep dt tsynFl j i ∧ j < i ∧ (j : ℚ) + q - 1 ≤ i ∧ (i : ℚ) ≤ j + q + 2 := fun j hj => by
    have := arrives (j := j) hdt dp (by rw [dq]; linarith)
    rwa [dq] at this
  have AN : ∀ j : ℕ, (j : ℚ) ≤ 2 ^ 48 + 10 * 2 ^ 24 + 50 → ∃ i, AtStep dt tneuFl j i ∧ j < i ∧ (j : ℚ) + u - 1 ≤ i ∧ (i : ℚ) ≤ j + u + 2 := fun j hj => by
    have := arrives (j := j) hdt dpu (by rw [← hu]; linarith)
    rwa [← hu] at this
  have AN2 : ∀ j : ℕ, (j : ℚ) ≤ 2 ^ 48 + 10 * 2 ^ 24 + 50 → ∃ i, AtStep dt (Fl.of 2 * tneuFl) j i ∧ j < i ∧ (j : ℚ) + 2 * u - 1 ≤ i ∧ (i : ℚ) ≤ j + 2 * u + 2 := fun j hj => by
    have := arrives (j := j) hdt dp2u (by rw [d2u]; linarith)
    rwa [d2u] at this
  have AD : ∀ j : ℕ, (j : ℚ) ≤ 2 ^ 48 + 10 * 2 ^ 24 + 50 → ∃ i, AtStep dt dirFl j i ∧ j < i ∧ (j : ℚ) + D - 1 ≤ i ∧ (i : ℚ) ≤ j + D + 2 := fun j hj => by
    have := arrives (j := j) hdt dpD (by rw [← hD]; linarith)
    rwa [← hD] at this
  have AM : ∀ j : ℕ, (j : ℚ) ≤ 2 ^ 48 + 10 * 2 ^ 24 + 50 → ∃ i, AtStep dt (enc.Tmin + dirFl) j i ∧ j < i ∧ (j : ℚ) + DM - 1 ≤ i ∧ (i : ℚ) ≤ j + DM + 2 := fun j hj => by
    have := arrives (j := j) hdt dpM (by rw [← hDM]; linarith)
    rwa [← hDM] at this
  obtain ⟨a, ai, a0, al, au⟩ := arrives_inj (τ := t0) (D := tsynFl) hdt ht dp (by rw [dq, ← hx]; linarith)
  obtain ⟨s1, s1i, s10, s1l, s1u⟩ := arrives_inj (τ := τ1) (D := tsynFl) hdt hτ1p dp (by rw [dq, ← hy1]; linarith)
  obtain ⟨s2, s2i, s20, s2l, s2u⟩ := arrives_inj (τ := τ2) (D := tsynFl) hdt hτ2p dp (by rw [dq, ← hy2]; linarith)
  rw [dq, ← hx] at al au
  rw [dq, ← hy1] at s1l s1u
  rw [dq, ← hy2] at s2l s2u
  have lt_of : ∀ {a b : ℕ}, (a : ℚ) < b → a < b := fun h => by exact_mod_cast h
  have as1 : a < s1 := lt_of (by linarith)
  have as2 : a < s2 := lt_of (by linarith)
  obtain ⟨e1, e1i, e1j, e1l, e1u⟩ := AN s1 (by linarith)
  obtain ⟨e2, e2i, e2j, e2l, e2u⟩ := AN s2 (by linarith)
  obtain ⟨f1, f1i, f1j, f1l, f1u⟩ := AN2 s1 (by linarith)
  obtain ⟨f2, f2i, f2j, f2l, f2u⟩ := AN2 s2 (by linarith)
  obtain ⟨d1, d1i, d1j, d1l, d1u⟩ := A s1 (by linarith)
  obtain ⟨d2, d2i, d2j, d2l, d2u⟩ := A s2 (by linarith)
  obtain ⟨g1, g1i, g1j, g1l, g1u⟩ := AD s1 (by linarith)
  obtain ⟨g2, g2i, g2j, g2l, g2u⟩ := AD s2 (by linarith)
  obtain ⟨h1, h1i, h1j, h1l, h1u⟩ := AM s1 (by linarith)
  obtain ⟨h2, h2i, h2j, h2l, h2u⟩ := AM s2 (by linarith)
  have run := @sub_run H ord hord enc dt hdt name v1 v2 t0 T hv1 hv2 a s1 s2 e1 e2 f1 f2 d1 d2 g1 g2 h1 h2
  simp only [← hτ1, ← hτ2] at run
  have N : ∀ i : ℕ, (i : ℚ) ≤ x + n + 2 + 4 * q + q / 50 + m + 6 → i ≤ numStepsFl T dt := fun i hi => by
    refine enough_steps (by
      have : (i : ℚ) ≤ 2 ^ 53 := by linarith
      exact_mod_cast this) ?_
    rw [le_div_iff₀ hdt]
    have := mul_le_mul_of_nonneg_right hi hdt.le
    linarith
  have sle : v2.val ≤ v1.val → s2 ≤ s1 := fun h => arrives_inj_mono (dt := dt) (D := tsynFl) (τ := τ2) (τ' := τ1)
    (by rw [hτ1, hτ2]; exact encode_mono hC.le h) ((s2i s2).mpr rfl) ((s1i s1).mpr rfl)
  have mono : ∀ {D : Double} {j j' a a' : ℕ}, AtStep dt D j a → AtStep dt D j' a' → j ≤ j' → a ≤ a' := fun h h' hj =>
    arrives_mono hdt hj ((h _).mpr rfl) ((h' _).mpr rfl)
  have hmono2 : ∀ {j a a' : ℕ}, AtStep dt tneuFl j a → AtStep dt (Fl.of 2 * tneuFl) j a' → a ≤ a' := fun {j a a'} h h' => by
    have h := (h _).mpr rfl
    have h' := (h' _).mpr rfl
    by_contra hlt
    refine h.2.2 a' (not_le.mp hlt) h'.1 (le_trans ?_ h'.2.1)
    rw [Fl.le_iff, Fl.val_add, Fl.val_add]
    apply fl_mono
    rw [k3]; linarith
  have nil : ∀ D, AL dt D [] [] := fun D => List.Forall₂.nil
  have zl : ∀ x : ℕ, (x : ℚ) ≤ 2 ^ 48 + 5 * 2 ^ 24 → (x : ℚ) ≤ 2 ^ 48 + 10 * 2 ^ 24 + 50 := fun x h => by linarith
  have mul_le : ∀ {a b : ℚ}, a ≤ b → a * dt.val ≤ b * dt.val := fun h => mul_le_mul_of_nonneg_right h hdt.le
  have carP : (CarriesFl enc (6 * dt.val / enc.Tcod.val) (some (([g2, h1] : List ℕ).map fun i : ℕ => (i : Double) * dt)) (v1.val - v2.val)) := by
    refine ⟨_, _, rfl, ?_⟩
    have key := decoded (e := enc) (dt := dt) (v := v1.val - v2.val) (a := g2) (b := h1) (δ := 91 / 16) hT0 hC hmax hdt
      (by have := mul_le (show -(2 ^ 24 : ℚ) ≤ p1 - p2 by linarith); linarith)
      (by have := mul_le (show p1 - p2 ≤ (2 ^ 24 : ℚ) by linarith); linarith)
      (by have : (g2 : ℚ) ≤ 2 ^ 49 := by linarith
          exact_mod_cast this)
      (by have : (h1 : ℚ) ≤ 2 ^ 49 := by linarith
          exact_mod_cast this) (by norm_num) (by
        have : enc.Tmin.val + (v1.val - v2.val) * enc.Tcod.val = (m + (p1 - p2)) * dt.val := by linarith
        rw [this, ← sub_mul, abs_mul, abs_of_pos hdt]
        refine mul_le_mul_of_nonneg_right ?_ hdt.le
        rw [abs_le]; constructor <;> linarith)
    exact key.trans (div_le_div_of_nonneg_right (mul_le_mul_of_nonneg_right (by norm_num) hdt.le) hC.le)
  have carM : (CarriesFl enc (6 * dt.val / enc.Tcod.val) (some (([g1, h2] : List ℕ).map fun i : ℕ => (i : Double) * dt)) (v2.val - v1.val)) := by
    refine ⟨_, _, rfl, ?_⟩
    have key := decoded (e := enc) (dt := dt) (v := v2.val - v1.val) (a := g1) (b := h2) (δ := 91 / 16) hT0 hC hmax hdt
      (by have := mul_le (show -(2 ^ 24 : ℚ) ≤ p2 - p1 by linarith); linarith)
      (by have := mul_le (show p2 - p1 ≤ (2 ^ 24 : ℚ) by linarith); linarith)
      (by have : (g1 : ℚ) ≤ 2 ^ 49 := by linarith
          exact_mod_cast this)
      (by have : (h2 : ℚ) ≤ 2 ^ 49 := by linarith
          exact_mod_cast this) (by norm_num) (by
        have : enc.Tmin.val + (v2.val - v1.val) * enc.Tcod.val = (m + (p2 - p1)) * dt.val := by linarith
        rw [this, ← sub_mul, abs_mul, abs_of_pos hdt]
        refine mul_le_mul_of_nonneg_right ?_ hdt.le
        rw [abs_le]; constructor <;> linarith)
    exact key.trans (div_le_div_of_nonneg_right (mul_le_mul_of_nonneg_right (by norm_num) hdt.le) hC.le)
  have cast_le : ∀ {a b : ℕ}, a ≤ b → (a : ℚ) ≤ b := fun h => by exact_mod_cast h
  have cast_lt : ∀ {a b : ℕ}, a < b → (a : ℚ) + 1 ≤ b := fun h => by exact_mod_cast h
  have plusEnd : p2 - p1 ≤ 6 → (∃ st : Sim Double, sessionFl H ord enc dt T (subtractorFl enc name World.empty).2 0 [.value v1 0 t0, .value v2 1 t0] = .ok st ∧
      st.spikeLog 6 = some (([g2, h1] : List ℕ).map fun i : ℕ => (i : Double) * dt) ∧ st.spikeLog 7 = some (([] : List ℕ).map fun i : ℕ => (i : Double) * dt)) →
    ∃ st : Sim Double, sessionFl H ord enc dt T w p.1 [.value v1 p.2.1 t0, .value v2 p.2.2.1 t0] = .ok st ∧
      ((CarriesFl enc (6 * dt.val / enc.Tcod.val) (st.spikeLog p.2.2.2.1) (v1.val - v2.val) ∧ st.spikeLog p.2.2.2.2 = some [] ∧
          (v2.val - v1.val) * enc.Tcod.val ≤ 6 * dt.val) ∨
        (CarriesFl enc (6 * dt.val / enc.Tcod.val) (st.spikeLog p.2.2.2.2) (v2.val - v1.val) ∧ st.spikeLog p.2.2.2.1 = some [] ∧
          1 / 100 - 6 * dt.val ≤ (v2.val - v1.val) * enc.Tcod.val) ∨
        (st.spikeLog p.2.2.2.1 = some [] ∧ st.spikeLog p.2.2.2.2 = some [] ∧ v1.val < v2.val ∧ (v2.val - v1.val) * enc.Tcod.val < 1 / 100 + 6 * dt.val)) := by
    rintro hp ⟨st, r1, r2, r3⟩
    exact ⟨st, r1, .inl ⟨by rw [show st.spikeLog p.2.2.2.1 = _ from r2]; exact carP, r3, by have := mul_le hp; linarith⟩⟩
  have F2 : q / 100 - 6 ≤ p2 - p1 → 1 / 100 - 6 * dt.val ≤ (v2.val - v1.val) * enc.Tcod.val := fun h => by have := mul_le h; linarith
  have F3 : p2 - p1 ≤ q / 100 + 47 / 8 → (v2.val - v1.val) * enc.Tcod.val < 1 / 100 + 6 * dt.val := fun h => by have := mul_le h; linarith
  clear ht' hT hmin hdt1 hmax hdtl c40 eD1 eD2 eDM k1 k2 k3 k4 k5 qm xm nm mm p1m p2m um Dm DMm dp dpu dp2u dpD dpM hτ1p hτ2p hT0 hv1 hv2 ht hC hdt
  have g20 : 0 < g2 := by omega
  have g10 : 0 < g1 := by omega
  by_cases hle : s2 ≤ s1
  · have hleq := cast_le hle
    obtain ⟨r1, r1i, r1j, r1l, r1u⟩ := A g2 (by linarith)
    obtain ⟨r2, r2i, r2j, r2l, r2u⟩ := A h1 (by linarith)
    have gh : g2 < h1 := lt_of (by linarith)
    have dr : d1 < r2 := lt_of (by linarith)
    have dd := mono d2i d1i hle
    have ee := mono e2i e1i hle
    have ff := mono f2i f1i hle
    by_cases hfe : f2 ≤ e1
    · have hfeq := cast_le hfe
      obtain ⟨b, bi, bj, bl, bu⟩ := A d2 (by linarith)
      have gap : (4 : ℚ) ≤ s1 - s2 := by
        rcases fine with h | h | h
        · linarith
        · have : (s2 : ℚ) + 3 < s1 := by linarith
          have : s2 + 3 < s1 := by exact_mod_cast this
          have : (s2 : ℚ) + 4 ≤ s1 := by exact_mod_cast this
          linarith
        · exfalso; linarith
      have dlt : d2 < d1 := lt_of (by linarith)
      have b1 : b < g1 := lt_of (by linarith)
      have b2 : b < h2 := lt_of (by linarith)
      have ef : e2 ≤ f2 := hmono2 e2i f2i
      refine plusEnd (by linarith) (run (Z := []) (P := [g2, h1]) (M := []) (B1 := []) (B2 := [d2]) (Zn := []) (Pd := [r1, r2]) (Md := []) (B1d := []) (B2d := [b])
        ai s1i s2i a0 as1 as2 e1i e2i f1i f2i d1i d2i g1i g2i h1i h2i (nil _) (.cons r1i (.cons r2i .nil)) (nil _) (nil _) (.cons bi .nil)
        (by simp) (by simp) (by simp) (by simp) (by simp) ?_ ?_ ?_ ?_ ?_ ?_)
      · exact vk_off dlt.le
      · exact vk_on' (by omega) dlt (lt_of (by linarith)) dr
      · exact vk_pair g20 gh
      · exact vk_inh b2 b1
      · exact vk_zero0 (.inl hfe) (hmono2 e1i f1i) ef
      · simp only [List.mem_cons, List.nil_append, List.append_nil, List.cons_append, List.not_mem_nil, or_false, forall_eq_or_imp, forall_eq]
        refine ⟨N _ ?_, N _ ?_, N _ ?_, N _ ?_, N _ ?_⟩ <;> linarith
    · have hfe := not_le.mp hfe
      have hfeq := cast_lt hfe
      have q8 : 800 ≤ q := by
        rcases fine with h | h | h
        · exact h
        · exfalso; linarith
        · exfalso; linarith
      obtain ⟨z, zi, zj, zl, zu⟩ := AN e1 (by linarith)
      obtain ⟨z', zi', zj', zl', zu'⟩ := AN z (by linarith)
      have zd : z < d2 := lt_of (by linarith)
      have zg : z < g1 := lt_of (by linarith)
      have zh : z < h2 := lt_of (by linarith)
      have zf : f1 < z' := lt_of (by linarith)
      have zr : z < r1 := lt_of (by linarith)
      have ef : e1 < f1 := lt_of (by linarith)
      have C4 : VFires (evl [(4, [d1]), (-4, [d2]), (2, [])]) 0 [] := vk_off dd
      have C6 : VFires (evl [(4, [h1]), (4, [g2]), (-8, [])]) 0 [g2, h1] := vk_pair g20 gh
      by_cases hz : z < f2
      · refine plusEnd (by linarith) (run (Z := [e1, z]) (P := [g2, h1]) (M := []) (B1 := []) (B2 := []) (Zn := [z, z']) (Pd := [r1, r2]) (Md := []) (B1d := []) (B2d := [])
          ai s1i s2i a0 as1 as2 e1i e2i f1i f2i d1i d2i g1i g2i h1i h2i (.cons zi (.cons zi' .nil)) (.cons r1i (.cons r2i .nil)) (nil _) (nil _) (nil _)
          (by simp) (by simp) (by simp) (by simp) (by simp) C4 ?_ C6 ?_ ?_ ?_)
        · exact vk_b2' zd zr dr
        · exact vk_inh2 zh zg
        · exact vk_zero2 (by omega) le_rfl ee (.inl rfl) ef hfe zj (by omega) hz (.inl zf) zj'
        · simp only [List.mem_cons, List.nil_append, List.append_nil, List.cons_append, List.not_mem_nil, or_false, forall_eq_or_imp, forall_eq]
          refine ⟨N _ ?_, N _ ?_, N _ ?_, N _ ?_, N _ ?_, N _ ?_⟩ <;> linarith
      · refine plusEnd (by linarith) (run (Z := [e1]) (P := [g2, h1]) (M := []) (B1 := []) (B2 := []) (Zn := [z]) (Pd := [r1, r2]) (Md := []) (B1d := []) (B2d := [])
          ai s1i s2i a0 as1 as2 e1i e2i f1i f2i d1i d2i g1i g2i h1i h2i (.cons zi .nil) (.cons r1i (.cons r2i .nil)) (nil _) (nil _) (nil _)
          (by simp) (by simp) (by simp) (by simp) (by simp) C4 ?_ C6 ?_ ?_ ?_)
        · exact vk_b2 zd zr dr
        · exact vk_inh zh zg
        · exact vk_zero1 (by omega) le_rfl ee (.inl rfl) ef hfe zj (.inr (not_lt.mp hz))
        · simp only [List.mem_cons, List.nil_append, List.append_nil, List.cons_append, List.not_mem_nil, or_false, forall_eq_or_imp, forall_eq]
          refine ⟨N _ ?_, N _ ?_, N _ ?_, N _ ?_, N _ ?_⟩ <;> linarith
  · have hlt := not_le.mp hle
    have hltq := cast_lt hlt
    have hvlt : v1.val < v2.val := by
      by_contra h
      exact hle (sle (not_lt.mp h))
    have dd := mono d1i d2i hlt.le
    have ee := mono e1i e2i hlt.le
    have ff := mono f1i f2i hlt.le
    by_cases hfe : f1 ≤ e2
    · have hfeq := cast_le hfe
      obtain ⟨r1, r1i, r1j, r1l, r1u⟩ := A g1 (by linarith)
      obtain ⟨r2, r2i, r2j, r2l, r2u⟩ := A h2 (by linarith)
      obtain ⟨b, bi, bj, bl, bu⟩ := A d1 (by linarith)
      have gap : (4 : ℚ) ≤ s2 - s1 := by
        rcases fine with h | h | h
        · linarith
        · exfalso; linarith
        · have : (s1 : ℚ) + 3 < s2 := by linarith
          have : s1 + 3 < s2 := by exact_mod_cast this
          have : (s1 : ℚ) + 4 ≤ s2 := by exact_mod_cast this
          linarith
      have gh : g1 < h2 := lt_of (by linarith)
      have dr : d2 < r2 := lt_of (by linarith)
      have dlt : d1 < d2 := lt_of (by linarith)
      have b1 : b < g2 := lt_of (by linarith)
      have b2 : b < h1 := lt_of (by linarith)
      have ef : e1 ≤ f1 := hmono2 e1i f1i
      have r1d : d1 < r1 := by
        have : d1 < g1 := lt_of (by linarith)
        omega
      obtain ⟨st, q1, q2, q3⟩ := run (Z := []) (P := []) (M := [g1, h2]) (B1 := [d1]) (B2 := []) (Zn := []) (Pd := []) (Md := [r1, r2]) (B1d := [b]) (B2d := [])
        ai s1i s2i a0 as1 as2 e1i e2i f1i f2i d1i d2i g1i g2i h1i h2i (nil _) (nil _) (.cons r1i (.cons r2i .nil)) (.cons bi .nil) (nil _)
        (by simp) (by simp) (by simp) (by simp) (by simp) (vk_on' (by omega) dlt r1d dr) (vk_off dd) (vk_inh b2 b1) (vk_pair g10 gh)
        (vk_zero0 (.inr hfe) ef (hmono2 e2i f2i)) (by
          simp only [List.mem_cons, List.nil_append, List.append_nil, List.cons_append, List.not_mem_nil, or_false, forall_eq_or_imp, forall_eq]
          refine ⟨N _ ?_, N _ ?_, N _ ?_, N _ ?_, N _ ?_⟩ <;> linarith)
      refine ⟨st, q1, .inr (.inl ⟨by rw [show st.spikeLog p.2.2.2.2 = _ from q3]; exact carM, q2, F2 (by linarith)⟩)⟩
    · have hfe := not_le.mp hfe
      have hfeq := cast_lt hfe
      have q8 : 800 ≤ q := by
        rcases fine with h | h | h
        · exact h
        · exfalso; linarith
        · exfalso; linarith
      obtain ⟨z, zi, zj, zl, zu⟩ := AN e2 (by linarith)
      obtain ⟨z', zi', zj', zl', zu'⟩ := AN z (by linarith)
      have zd : z < d2 := lt_of (by linarith)
      have zg : z < g1 := lt_of (by linarith)
      have zh : z < h2 := lt_of (by linarith)
      have zf : f2 < z' := lt_of (by linarith)
      have ef : e2 < f2 := lt_of (by linarith)
      have Z2 : z < f1 → VFires (evl [(4, [z, z']), (-2, [f1]), (-2, [f2]), (2, [e1]), (2, [e2])]) 0 [e2, z] := fun hz =>
        vk_zero2 (by omega) ee le_rfl (.inr rfl) hfe ef zj hz (by omega) (.inr zf) zj'
      have Z1 : ¬ z < f1 → VFires (evl [(4, [z]), (-2, [f1]), (-2, [f2]), (2, [e1]), (2, [e2])]) 0 [e2] := fun hz =>
        vk_zero1 (by omega) ee le_rfl (.inr rfl) hfe ef zj (.inl (not_lt.mp hz))
      by_cases hd : d1 < d2
      · obtain ⟨b, bi, bj, bl, bu⟩ := A d1 (by linarith)
        have b1 : b < g2 := lt_of (by linarith)
        have b2 : b < h1 := lt_of (by linarith)
        have C4 : VFires (evl [(4, [d1]), (-4, [d2]), (2, [])]) 0 [d1] := vk_on (by omega) hd
        have C6 : VFires (evl [(4, [h1]), (4, [g2]), (-8, [b])]) 0 [] := vk_inh b2 b1
        have fin : (∃ st, sessionFl H ord enc dt T (subtractorFl enc name World.empty).2 0 [.value v1 0 t0, .value v2 1 t0] = .ok st ∧
            st.spikeLog 6 = some (([] : List ℕ).map fun i : ℕ => (i : Double) * dt) ∧ st.spikeLog 7 = some (([] : List ℕ).map fun i : ℕ => (i : Double) * dt)) := by
          by_cases hz : z < f1
          · refine run (Z := [e2, z]) (P := []) (M := []) (B1 := [d1]) (B2 := []) (Zn := [z, z']) (Pd := []) (Md := []) (B1d := [b]) (B2d := [])
              ai s1i s2i a0 as1 as2 e1i e2i f1i f2i d1i d2i g1i g2i h1i h2i (.cons zi (.cons zi' .nil)) (nil _) (nil _) (.cons bi .nil) (nil _)
              (by simp) (by simp) (by simp) (by simp) (by simp) C4 ?_ C6 ?_ (Z2 hz) ?_
            · exact vk_b0' zd
            · exact vk_inh2 zh zg
            · simp only [List.mem_cons, List.nil_append, List.append_nil, List.cons_append, List.not_mem_nil, or_false, forall_eq_or_imp, forall_eq]
              refine ⟨N _ ?_, N _ ?_, N _ ?_, N _ ?_, N _ ?_⟩ <;> linarith
          · refine run (Z := [e2]) (P := []) (M := []) (B1 := [d1]) (B2 := []) (Zn := [z]) (Pd := []) (Md := []) (B1d := [b]) (B2d := [])
              ai s1i s2i a0 as1 as2 e1i e2i f1i f2i d1i d2i g1i g2i h1i h2i (.cons zi .nil) (nil _) (nil _) (.cons bi .nil) (nil _)
              (by simp) (by simp) (by simp) (by simp) (by simp) C4 ?_ C6 ?_ (Z1 hz) ?_
            · exact vk_b0 zd
            · exact vk_inh zh zg
            · simp only [List.mem_cons, List.nil_append, List.append_nil, List.cons_append, List.not_mem_nil, or_false, forall_eq_or_imp, forall_eq]
              refine ⟨N _ ?_, N _ ?_, N _ ?_, N _ ?_⟩ <;> linarith
        obtain ⟨st, q1, q2, q3⟩ := fin
        refine ⟨st, q1, .inr (.inr ⟨q2, q3, hvlt, F3 (by linarith)⟩)⟩
      · have hde := cast_le (not_lt.mp hd)
        obtain ⟨r1, r1i, r1j, r1l, r1u⟩ := A g2 (by linarith)
        obtain ⟨r2, r2i, r2j, r2l, r2u⟩ := A h1 (by linarith)
        have gh : g2 < h1 := lt_of (by linarith)
        have C4 : VFires (evl [(4, [d1]), (-4, [d2]), (2, [])]) 0 [] := vk_off (not_lt.mp hd)
        have C6 : VFires (evl [(4, [h1]), (4, [g2]), (-8, [])]) 0 [g2, h1] := vk_pair g20 gh
        have zr : z < r1 := lt_of (by linarith)
        have dr : d1 < r2 := lt_of (by linarith)
        by_cases hz : z < f1
        · refine plusEnd (by linarith) (run (Z := [e2, z]) (P := [g2, h1]) (M := []) (B1 := []) (B2 := []) (Zn := [z, z']) (Pd := [r1, r2]) (Md := []) (B1d := []) (B2d := [])
            ai s1i s2i a0 as1 as2 e1i e2i f1i f2i d1i d2i g1i g2i h1i h2i (.cons zi (.cons zi' .nil)) (.cons r1i (.cons r2i .nil)) (nil _) (nil _) (nil _)
            (by simp) (by simp) (by simp) (by simp) (by simp) C4 ?_ C6 ?_ (Z2 hz) ?_)
          · exact vk_b2' zd zr dr
          · exact vk_inh2 zh zg
          · simp only [List.mem_cons, List.nil_append, List.append_nil, List.cons_append, List.not_mem_nil, or_false, forall_eq_or_imp, forall_eq]
            refine ⟨N _ ?_, N _ ?_, N _ ?_, N _ ?_, N _ ?_, N _ ?_⟩ <;> linarith
        · refine plusEnd (by linarith) (run (Z := [e2]) (P := [g2, h1]) (M := []) (B1 := []) (B2 := []) (Zn := [z]) (Pd := [r1, r2]) (Md := []) (B1d := []) (B2d := [])
            ai s1i s2i a0 as1 as2 e1i e2i f1i f2i d1i d2i g1i g2i h1i h2i (.cons zi .nil) (.cons r1i (.cons r2i .nil)) (nil _) (nil _) (nil _)
            (by simp) (by simp) (by simp) (by simp) (by simp) C4 ?_ C6 ?_ (Z1 hz) ?_)
          · exact vk_b2 zd zr dr
          · exact vk_inh zh zg
          · simp only [List.mem_cons, List.nil_append, List.append_nil, List.cons_append, List.not_mem_nil, or_false, forall_eq_or_imp, forall_eq]
            refine ⟨N _ ?_, N _ ?_, N _ ?_, N _ ?_, N _ ?_⟩ <;> linarith

end Axon
