import Verif.Props.FloatSub
import Verif.Props.FloatLogExp

/-! # C110: the multiplier in Python floats -/
set_option linter.unusedSectionVars false
namespace Axon
open Spec

theorem mulFl_neurons (enc : Encoder Double) (name) : (multiplierFl enc name World.empty).2.neurons 0 = .ok (List.range 12) := rfl

theorem mulFl_net (enc : Encoder Double) (name) : ((multiplierFl enc name World.empty).2.net (List.range 12)).syns =
    [⟨0, 2, weFl, tsynFl, .V⟩, ⟨0, 3, Fl.of (1 / 2) * weFl, tsynFl, .V⟩, ⟨2, 2, wiFl, tsynFl, .V⟩, ⟨2, 4, enc.waccBarFl, tsynFl + enc.Tmin, .ge⟩,
     ⟨3, 4, -enc.waccBarFl, tsynFl, .ge⟩, ⟨3, 9, Fl.of (1 / 2) * weFl, tsynFl, .V⟩,
     ⟨1, 6, weFl, tsynFl, .V⟩, ⟨1, 7, Fl.of (1 / 2) * weFl, tsynFl, .V⟩, ⟨6, 6, wiFl, tsynFl, .V⟩, ⟨6, 8, enc.waccBarFl, tsynFl + enc.Tmin, .ge⟩,
     ⟨7, 8, -enc.waccBarFl, tsynFl, .ge⟩, ⟨7, 9, Fl.of (1 / 2) * weFl, tsynFl, .V⟩,
     ⟨4, 8, gmultFl, tsynFl, .gf⟩, ⟨4, 8, Fl.of 1, tsynFl, .gate⟩, ⟨8, 10, -Fl.of 1, tsynFl, .gate⟩, ⟨8, 10, enc.waccBarFl, tsynFl, .ge⟩,
     ⟨8, 11, weFl, Fl.of 2 * tsynFl, .V⟩, ⟨9, 4, gmultFl, tsynFl, .gf⟩, ⟨9, 4, Fl.of 1, tsynFl, .gate⟩, ⟨9, 10, Fl.of 1, Fl.of 3 * tsynFl, .gate⟩,
     ⟨9, 10, gmultFl, Fl.of 3 * tsynFl, .gf⟩, ⟨10, 11, weFl, enc.Tmin + tsynFl, .V⟩, ⟨0, 5, Fl.of 10 / Fl.of 4, Fl.of 350, .V⟩, ⟨1, 5, Fl.of 10 / Fl.of 4, Fl.of 350, .V⟩,
     ⟨11, 5, -Fl.of 10 / Fl.of 2, tsynFl, .V⟩, ⟨5, 11, weFl, tsynFl, .V⟩, ⟨5, 11, weFl, tsynFl + enc.Tmin, .V⟩] := rfl

theorem w_quart : (Fl.of 10 / Fl.of 4 : Double) = wz 1 := by decide +kernel
theorem w_halfneg : (-Fl.of 10 / Fl.of 2 : Double) = wz (-2) := by decide +kernel

/-- What an accumulator for the logarithm receives. -/
abbrev logHits (w : Double) (A B C : ℕ) (i : ℕ) : List (SynKind × Double) :=
  (if i = A then [(SynKind.ge, w)] else []) ++ (if i = B then [(SynKind.ge, -w)] else []) ++ (if i = C then [(SynKind.gf, d50), (SynKind.gate, 1)] else [])
/-- What an accumulator for the exponential receives. -/
abbrev expHits (w : Double) (A B : ℕ) (i : ℕ) : List (SynKind × Double) :=
  (if i = A then [(SynKind.gf, d50), (SynKind.gate, 1)] else []) ++ (if i = B then [(SynKind.gate, -1), (SynKind.ge, w)] else [])

/-- The steps of one factor: its two spikes reach the first layer in `a` and `b`, the accumulator in `A` and `B`. -/
structure Front (enc : Encoder Double) (dt t τ : Double) (a b c A B : ℕ) : Prop where
  ai : ∀ k, FirstAt dt 1 (t + tsynFl) k ↔ k = a
  bi : ∀ k, FirstAt dt 1 (τ + tsynFl) k ↔ k = b
  ci : AtStep dt tsynFl a c
  Ai : AtStep dt (tsynFl + enc.Tmin) a A
  Bi : AtStep dt tsynFl b B
  a0 : 0 < a
  ac : a < c
  cb : c < b
  bB : b < B

theorem sync_fires {B1 B2 : ℕ} (h1 : 0 < B1) (h2 : 0 < B2) : VFires (evl [(2, [B1]), (2, [B2])]) 0 [max B1 B2] := by
  show 0 < max B1 B2 ∧ (∀ i, 0 < i → i < max B1 B2 → vZ [(B1, 2), (B2, 2)] 0 i < 4) ∧ 4 ≤ vZ [(B1, 2), (B2, 2)] 0 (max B1 B2) ∧
    ∀ i, max B1 B2 < i → vZ [(B1, 2), (B2, 2)] (max B1 B2) i < 4
  refine ⟨by omega, fun i _ _ => by vz_omega, by vz_omega, fun i _ => by vz_omega⟩

theorem zero_silent {z1 z1' z2 z2' y1 y2 : ℕ} (h0 : 0 < y1) (h : y1 ≤ z1' ∨ y1 ≤ z2') :
    VFires (evl [(1, [z1, z1']), (1, [z2, z2']), (-2, [y1, y2])]) 0 [] := by
  show ∀ i, 0 < i → vZ [(z1, 1), (z1', 1), (z2, 1), (z2', 1), (y1, -2), (y2, -2)] 0 i < 4
  intro i _
  vz_omega

theorem out_fires {o1 o2 : ℕ} (h1 : 0 < o1) (h2 : o1 < o2) : VFires (evl [(4, [o1]), (4, [o2]), (4, []), (4, [])]) 0 [o1, o2] := by
  show 0 < o1 ∧ (∀ i, 0 < i → i < o1 → vZ [(o1, 4), (o2, 4)] 0 i < 4) ∧ 4 ≤ vZ [(o1, 4), (o2, 4)] 0 o1 ∧ o1 < o2 ∧
    (∀ i, o1 < i → i < o2 → vZ [(o1, 4), (o2, 4)] o1 i < 4) ∧ 4 ≤ vZ [(o1, 4), (o2, 4)] o1 o2 ∧ ∀ i, o2 < i → vZ [(o1, 4), (o2, 4)] o2 i < 4
  exact ⟨h1, fun i _ _ => by vz_omega, by vz_omega, h2, fun i _ _ => by vz_omega, by vz_omega, fun i _ => by vz_omega⟩

theorem tmin_comm (enc : Encoder Double) : enc.Tmin + tsynFl = tsynFl + enc.Tmin := by
  have : (enc.Tmin + tsynFl).val = (tsynFl + enc.Tmin).val := by rw [Fl.val_add, Fl.val_add, add_comm]
  exact Fl.val_injective this

theorem four_perm {α : Type*} (a b c d : α) : [a, b, c, d].Perm [d, c, a, b] := by
  have h1 : [a, b, c, d].Perm [c, d, a, b] := List.perm_append_comm (l₁ := [a, b]) (l₂ := [c, d])
  exact h1.trans (List.Perm.swap _ _ _)

set_option maxHeartbeats 4000000 in
/-- The run of the multiplier, from the steps of its spikes. -/
theorem mul_run (H : EventHeap Double) {ord : ℕ → List ℕ → List ℕ} (hord : SetOrder ord) {enc : Encoder Double} {dt : Double} (hdt : 0 < dt.val) (name : Option String)
    {v1 v2 t1 t2 T : Double} (hv1 : 0 ≤ v1.val ∧ v1.val ≤ 1) (hv2 : 0 ≤ v2.val ∧ v2.val ≤ 1)
    {a1 b1 c1 A1 B1 a2 b2 c2 A2 B2 z1 z1' z2 z2' C L1 D L2 G E X o1 o2 y1 y2 : ℕ}
    (F1 : Front enc dt t1 (t1 + (enc.Tmin + v1 * enc.Tcod)) a1 b1 c1 A1 B1) (F2 : Front enc dt t2 (t2 + (enc.Tmin + v2 * enc.Tcod)) a2 b2 c2 A2 B2)
    (hz1 : ALI dt (Fl.of 350) [t1, t1 + (enc.Tmin + v1 * enc.Tcod)] [z1, z1']) (hz2 : ALI dt (Fl.of 350) [t2, t2 + (enc.Tmin + v2 * enc.Tcod)] [z2, z2'])
    (hC : AtStep dt tsynFl (max B1 B2) C) (g1 : FitsR stdFl dt (logHits enc.waccBarFl A1 B1 C) [L1]) (CL : C ≤ L1) (SC : max B1 B2 < C)
    (hD : AtStep dt tsynFl L1 D) (g2 : FitsR stdFl dt (logHits enc.waccBarFl A2 B2 D) [L2]) (DL : D ≤ L2) (LD : L1 < D)
    (hG : AtStep dt (Fl.of 3 * tsynFl) (max B1 B2) G) (hE : AtStep dt tsynFl L2 E) (g3 : FitsR stdFl dt (expHits enc.waccBarFl G E) [X]) (X0 : 0 < X)
    (h1 : AtStep dt (Fl.of 2 * tsynFl) L2 o1) (h2 : AtStep dt (tsynFl + enc.Tmin) X o2) (Lo : L2 < o1) (Xo : X < o2) (oo : o1 < o2)
    (hy1 : AtStep dt tsynFl o1 y1) (hy2 : AtStep dt tsynFl o2 y2) (oy : o1 < y1) (hz : y1 ≤ z1' ∨ y1 ≤ z2') (hT : o2 ≤ numStepsFl T dt) :
    let p := (multiplierFl enc name World.empty).1
    let w := (multiplierFl enc name World.empty).2
    ∃ st, sessionFl H ord enc dt T w p.1 [.value v1 p.2.1 t1, .value v2 p.2.2.1 t2] = .ok st ∧ st.spikeLog p.2.2.2 = some [(o1 : Double) * dt, (o2 : Double) * dt] := by
  intro p w
  set τ1 := t1 + (enc.Tmin + v1 * enc.Tcod) with hτ1
  set τ2 := t2 + (enc.Tmin + v2 * enc.Tcod) with hτ2
  obtain ⟨S, hS⟩ : ∃ S, S = max B1 B2 := ⟨_, rfl⟩
  have hsf := sync_fires (B1 := B1) (B2 := B2) (by have := F1.bB; omega) (by have := F2.bB; omega)
  rw [← hS] at hC SC hG hsf
  have u1 := F1.a0; have u2 := F1.ac; have u3 := F1.cb; have u4 := F1.bB
  have w1 := F2.a0; have w2 := F2.ac; have w3 := F2.cb; have w4 := F2.bB
  have hy : AL dt tsynFl [o1, o2] [y1, y2] := .cons hy1 (.cons hy2 .nil)
  have hnil : ∀ D, AL dt D [] [] := fun _ => .nil
  have I0 : (([(0, t1), (0, τ1), (1, t2), (1, τ2)] : List (ℕ × Double)).filter fun q => q.1 = 0) = [(0, t1), (0, τ1)] := rfl
  have I1 : (([(0, t1), (0, τ1), (1, t2), (1, τ2)] : List (ℕ × Double)).filter fun q => q.1 = 1) = [(1, t2), (1, τ2)] := rfl
  obtain ⟨st, s1, s2⟩ := lib_run H hord (enc := enc) hdt (mulFl_neurons enc name)
    (fun n hn => by interval_cases n <;> rfl) (by rw [mulFl_net]; simp) (cs := [.value v1 0 t1, .value v2 1 t2])
    (by simp only [List.mem_cons, List.not_mem_nil, or_false, forall_eq_or_imp, forall_eq, CallOK]; exact ⟨hv1, hv2⟩)
    (Ls := [[], [], [a1], [b1], [L1], [], [a2], [b2], [L2], [S], [X], [o1, o2]]) rfl (by simp [oo]) T (by simp; omega) (by
    intro n hn
    show FitsR stdFl dt (hitsR (w.net (List.range 12)) dt [(0, t1), (0, τ1), (1, t2), (1, τ2)] _ n) _
    interval_cases n
    · exact FitsR.silent fun i => hits_eq rfl i
    · exact FitsR.silent fun i => hits_eq rfl i
    · refine FitsR.first (a := a1) (b := b1) (c := c1) u1 u2 u3 fun i => ?_
      rw [hits_eq (l := [⟨0, 2, weFl, tsynFl, .V⟩, ⟨2, 2, wiFl, tsynFl, .V⟩]) rfl i]
      rw [List.flatMap_cons, List.flatMap_cons, List.flatMap_nil, contrib_inj2 I0 rfl F1.ai F1.bi (by omega), contrib_one rfl rfl F1.ci, List.append_nil]
      by_cases e1 : i = a1 ∨ i = b1
      · rw [if_pos e1, if_pos e1, if_neg (by omega)]; rfl
      · rw [if_neg e1, if_neg e1]; rfl
    · refine FitsR.second (a := a1) (b := b1) u1 (by omega) fun i => ?_
      rw [hits_eq (l := [⟨0, 3, Fl.of (1 / 2) * weFl, tsynFl, .V⟩]) rfl i, half_we]
      rw [List.flatMap_cons, List.flatMap_nil, contrib_inj2 I0 rfl F1.ai F1.bi (by omega), List.append_nil]
    · refine g1.perm fun i => ?_
      rw [hits_eq (l := [⟨2, 4, enc.waccBarFl, tsynFl + enc.Tmin, .ge⟩, ⟨3, 4, -enc.waccBarFl, tsynFl, .ge⟩, ⟨9, 4, gmultFl, tsynFl, .gf⟩, ⟨9, 4, Fl.of 1, tsynFl, .gate⟩]) rfl i]
      rw [List.flatMap_cons, List.flatMap_cons, List.flatMap_cons, List.flatMap_cons, List.flatMap_nil, contrib_one rfl rfl F1.Ai, contrib_one rfl rfl F1.Bi, contrib_one rfl rfl hC,
        contrib_one rfl rfl hC, List.append_nil, gmult_d50, of_one, logHits, List.append_assoc]
      refine List.Perm.append_left _ (List.Perm.append_left _ ?_)
      by_cases e1 : i = C
      · simp only [if_pos e1]; exact List.Perm.refl _
      · simp only [if_neg e1]; exact List.Perm.refl _
    · refine fits_vs (l := [⟨0, 5, Fl.of 10 / Fl.of 4, Fl.of 350, .V⟩, ⟨1, 5, Fl.of 10 / Fl.of 4, Fl.of 350, .V⟩, ⟨11, 5, -Fl.of 10 / Fl.of 2, tsynFl, .V⟩]) rfl
        (.cons ⟨rfl, w_quart, hz1.brings rfl rfl⟩ (.cons ⟨rfl, w_quart, hz2.brings rfl rfl⟩
          (.cons ⟨rfl, w_halfneg, hy.brings rfl rfl⟩ .nil)))
        (evl_small (by simp)) (by simp) (zero_silent (by omega) hz)
    · refine FitsR.first (a := a2) (b := b2) (c := c2) w1 w2 w3 fun i => ?_
      rw [hits_eq (l := [⟨1, 6, weFl, tsynFl, .V⟩, ⟨6, 6, wiFl, tsynFl, .V⟩]) rfl i]
      rw [List.flatMap_cons, List.flatMap_cons, List.flatMap_nil, contrib_inj2 I1 rfl F2.ai F2.bi (by omega), contrib_one rfl rfl F2.ci, List.append_nil]
      by_cases e1 : i = a2 ∨ i = b2
      · rw [if_pos e1, if_pos e1, if_neg (by omega)]; rfl
      · rw [if_neg e1, if_neg e1]; rfl
    · refine FitsR.second (a := a2) (b := b2) w1 (by omega) fun i => ?_
      rw [hits_eq (l := [⟨1, 7, Fl.of (1 / 2) * weFl, tsynFl, .V⟩]) rfl i, half_we]
      rw [List.flatMap_cons, List.flatMap_nil, contrib_inj2 I1 rfl F2.ai F2.bi (by omega), List.append_nil]
    · refine g2.perm fun i => ?_
      rw [hits_eq (l := [⟨6, 8, enc.waccBarFl, tsynFl + enc.Tmin, .ge⟩, ⟨7, 8, -enc.waccBarFl, tsynFl, .ge⟩, ⟨4, 8, gmultFl, tsynFl, .gf⟩, ⟨4, 8, Fl.of 1, tsynFl, .gate⟩]) rfl i]
      rw [List.flatMap_cons, List.flatMap_cons, List.flatMap_cons, List.flatMap_cons, List.flatMap_nil, contrib_one rfl rfl F2.Ai, contrib_one rfl rfl F2.Bi, contrib_one rfl rfl hD,
        contrib_one rfl rfl hD, List.append_nil, gmult_d50, of_one, logHits, List.append_assoc]
      refine List.Perm.append_left _ (List.Perm.append_left _ ?_)
      by_cases e1 : i = D
      · simp only [if_pos e1]; exact List.Perm.refl _
      · simp only [if_neg e1]; exact List.Perm.refl _
    · refine fits_vs (l := [⟨3, 9, Fl.of (1 / 2) * weFl, tsynFl, .V⟩, ⟨7, 9, Fl.of (1 / 2) * weFl, tsynFl, .V⟩]) rfl
        (.cons ⟨rfl, w_half, F1.Bi.al.brings rfl rfl⟩ (.cons ⟨rfl, w_half, F2.Bi.al.brings rfl rfl⟩ .nil)) (evl_small (by simp)) (by simp) hsf
    · refine g3.perm fun i => ?_
      rw [hits_eq (l := [⟨8, 10, -Fl.of 1, tsynFl, .gate⟩, ⟨8, 10, enc.waccBarFl, tsynFl, .ge⟩, ⟨9, 10, Fl.of 1, Fl.of 3 * tsynFl, .gate⟩, ⟨9, 10, gmultFl, Fl.of 3 * tsynFl, .gf⟩]) rfl i]
      rw [List.flatMap_cons, List.flatMap_cons, List.flatMap_cons, List.flatMap_cons, List.flatMap_nil, contrib_one rfl rfl hE, contrib_one rfl rfl hE, contrib_one rfl rfl hG,
        contrib_one rfl rfl hG, List.append_nil, gmult_d50, of_one, expHits]
      by_cases e1 : i = G
      · by_cases e2 : i = E
        · simp only [if_pos e1, if_pos e2]; exact four_perm _ _ _ _
        · simp only [if_pos e1, if_neg e2]; exact List.Perm.swap _ _ _
      · by_cases e2 : i = E
        · simp only [if_neg e1, if_pos e2]; exact List.Perm.refl _
        · simp only [if_neg e1, if_neg e2]; exact List.Perm.refl _
    · refine fits_vs (l := [⟨8, 11, weFl, Fl.of 2 * tsynFl, .V⟩, ⟨10, 11, weFl, enc.Tmin + tsynFl, .V⟩, ⟨5, 11, weFl, tsynFl, .V⟩, ⟨5, 11, weFl, tsynFl + enc.Tmin, .V⟩]) rfl
        (.cons ⟨rfl, w_full, h1.al.brings rfl rfl⟩ (.cons ⟨rfl, w_full, AtStep.al (by rw [tmin_comm]; exact h2) |>.brings rfl rfl⟩
          (.cons ⟨rfl, w_full, (hnil _).brings rfl rfl⟩ (.cons ⟨rfl, w_full, (hnil _).brings rfl rfl⟩ .nil))))
        (evl_small (by simp)) (by simp) (out_fires (by omega) oo))
  exact ⟨st, s1, s2 11 (by norm_num)⟩

end Axon
