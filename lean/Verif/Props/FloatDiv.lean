import Verif.Props.FloatMul2

/-! # C112: the divider in Python floats -/
set_option linter.unusedSectionVars false
namespace Axon
open Spec

/-- The neurons of a module without submodules. -/
theorem neuronsFuel_leaf {K : Type*} {w : World K} {f m : ℕ} (h : w.subnetworks m = []) : w.neuronsFuel (f + 1) m = .ok (w.topNeurons m) := by
  simp only [World.neuronsFuel, h]
  show Except.ok (w.topNeurons m ++ flattenNested []) = _
  rw [flattenNested, List.append_nil]

theorem divFl_neurons (enc : Encoder Double) (name) : (divFl enc name World.empty).2.neurons 0 = .ok (List.range 25) := by
  generalize hw : (divFl enc name World.empty).2 = w
  have c : w.mCount = 4 := by rw [← hw]; rfl
  have s0 : w.subnetworks 0 = [1, 2, 3] := by rw [← hw]; rfl
  have s1 : w.subnetworks 1 = [] := by rw [← hw]; rfl
  have s2 : w.subnetworks 2 = [] := by rw [← hw]; rfl
  have s3 : w.subnetworks 3 = [] := by rw [← hw]; rfl
  have t0 : w.topNeurons 0 = [] := by rw [← hw]; rfl
  have t1 : w.topNeurons 1 = [0, 1, 2, 3, 4, 5, 6, 7, 8, 9, 10] := by rw [← hw]; rfl
  have t2 : w.topNeurons 2 = [11, 12, 13, 14, 15, 16, 17, 18, 19] := by rw [← hw]; rfl
  have t3 : w.topNeurons 3 = [20, 21, 22, 23, 24] := by rw [← hw]; rfl
  clear hw
  rw [World.neurons, c, World.neuronsFuel, s0]
  have e : ([1, 2, 3] : List ℕ).mapM (fun s => w.neuronsFuel 4 s) = .ok [w.topNeurons 1, w.topNeurons 2, w.topNeurons 3] := by
    simp only [List.mapM_cons, List.mapM_nil, neuronsFuel_leaf s1, neuronsFuel_leaf s2, neuronsFuel_leaf s3]
    rfl
  rw [e]
  simp only [flattenNested_lists]
  rw [t0, t1, t2, t3]
  rfl

theorem divFl_ports (enc : Encoder Double) (name) : (divFl enc name World.empty).1 = (0, 0, 5, 24) := rfl

theorem divFl_net (enc : Encoder Double) (name) : ((divFl enc name World.empty).2.net (List.range 25)).syns =
    [⟨0, 1, weFl, tsynFl, .V⟩, ⟨1, 1, wiFl, tsynFl, .V⟩, ⟨0, 2, Fl.of (1 / 2) * weFl, tsynFl, .V⟩, ⟨1, 3, enc.waccBarFl, tsynFl + enc.Tmin, .ge⟩,
     ⟨2, 3, -enc.waccBarFl, tsynFl, .ge⟩,
     ⟨5, 6, weFl, tsynFl, .V⟩, ⟨6, 6, wiFl, tsynFl, .V⟩, ⟨5, 7, Fl.of (1 / 2) * weFl, tsynFl, .V⟩, ⟨6, 8, enc.waccBarFl, tsynFl + enc.Tmin, .ge⟩,
     ⟨7, 8, -enc.waccBarFl, tsynFl, .ge⟩,
     ⟨2, 10, Fl.of (1 / 2) * weFl, tsynFl, .V⟩, ⟨7, 10, Fl.of (1 / 2) * weFl, tsynFl, .V⟩, ⟨10, 4, weFl, Fl.of 2 * tsynFl, .V⟩, ⟨10, 9, weFl, Fl.of 2 * tsynFl, .V⟩,
     ⟨10, 3, gmultFl, tsynFl, .gf⟩, ⟨10, 3, Fl.of 1, tsynFl, .gate⟩, ⟨3, 4, weFl, tsynFl + enc.Tmin, .V⟩,
     ⟨10, 8, gmultFl, tsynFl, .gf⟩, ⟨10, 8, Fl.of 1, tsynFl, .gate⟩, ⟨8, 9, weFl, tsynFl + enc.Tmin, .V⟩,
     ⟨11, 13, Fl.of (1 / 2) * weFl, tsynFl, .V⟩, ⟨12, 14, Fl.of (1 / 2) * weFl, tsynFl, .V⟩, ⟨13, 15, weFl, tsynFl, .V⟩, ⟨14, 16, weFl, tsynFl, .V⟩,
     ⟨13, 16, wiFl, tsynFl, .V⟩, ⟨14, 15, wiFl, tsynFl, .V⟩, ⟨13, 17, weFl, enc.Tmin + dirFl, .V⟩, ⟨14, 18, weFl, enc.Tmin + dirFl, .V⟩,
     ⟨14, 17, weFl, dirFl, .V⟩, ⟨13, 18, weFl, dirFl, .V⟩, ⟨16, 18, Fl.of 2 * wiFl, tsynFl, .V⟩, ⟨15, 17, Fl.of 2 * wiFl, tsynFl, .V⟩,
     ⟨17, 16, Fl.of (1 / 2) * weFl, tsynFl, .V⟩, ⟨18, 15, Fl.of (1 / 2) * weFl, tsynFl, .V⟩, ⟨19, 19, weFl, tneuFl, .V⟩,
     ⟨13, 19, Fl.of (1 / 2) * wiFl, Fl.of 2 * tneuFl, .V⟩, ⟨14, 19, Fl.of (1 / 2) * wiFl, Fl.of 2 * tneuFl, .V⟩, ⟨13, 19, Fl.of (1 / 2) * weFl, tneuFl, .V⟩,
     ⟨14, 19, Fl.of (1 / 2) * weFl, tneuFl, .V⟩, ⟨19, 18, Fl.of 2 * wiFl, tneuFl, .V⟩, ⟨19, 16, wiFl, tneuFl, .V⟩,
     ⟨20, 21, weFl, tsynFl, .V⟩, ⟨20, 22, Fl.of (1 / 2) * weFl, tsynFl, .V⟩, ⟨21, 21, wiFl, tsynFl, .V⟩, ⟨21, 23, gmultFl, tsynFl + enc.Tmin, .gf⟩,
     ⟨21, 23, Fl.of 1, tsynFl + enc.Tmin, .gate⟩, ⟨22, 23, -Fl.of 1, tsynFl, .gate⟩, ⟨22, 23, enc.waccBarFl, tsynFl, .ge⟩, ⟨23, 24, weFl, tsynFl + enc.Tmin, .V⟩,
     ⟨22, 24, weFl, Fl.of 2 * tsynFl, .V⟩, ⟨4, 11, weFl, tsynFl, .V⟩, ⟨9, 12, weFl, tsynFl, .V⟩, ⟨17, 20, weFl, tsynFl, .V⟩] := rfl

/-- A neuron that receives full weight on each of two spikes passes both on. -/
theorem relay_fires {x y : ℕ} (h0 : 0 < x) (h : x < y) : VFires (evl [(4, [x, y])]) 0 [x, y] := by
  show 0 < x ∧ (∀ i, 0 < i → i < x → vZ [(x, 4), (y, 4)] 0 i < 4) ∧ 4 ≤ vZ [(x, 4), (y, 4)] 0 x ∧ x < y ∧
    (∀ i, x < i → i < y → vZ [(x, 4), (y, 4)] x i < 4) ∧ 4 ≤ vZ [(x, 4), (y, 4)] x y ∧ ∀ i, y < i → vZ [(x, 4), (y, 4)] y i < 4
  exact ⟨h0, fun i _ _ => by vz_omega, by vz_omega, h, fun i _ _ => by vz_omega, by vz_omega, fun i _ => by vz_omega⟩

/-- Two synapses of full weight, each with one spike. -/
theorem join_fires {x y : ℕ} (h0 : 0 < x) (h : x < y) : VFires (evl [(4, [x]), (4, [y])]) 0 [x, y] := relay_fires h0 h
theorem join_fires' {x y : ℕ} (h0 : 0 < x) (h : x < y) : VFires (evl [(4, [y]), (4, [x])]) 0 [x, y] := vk_pair h0 h

/-- Half weight twice: the second spike only. -/
theorem second_fires {x y : ℕ} (h0 : 0 < x) (h : x < y) : VFires (evl [(2, [x, y])]) 0 [y] := by
  show 0 < y ∧ (∀ i, 0 < i → i < y → vZ [(x, 2), (y, 2)] 0 i < 4) ∧ 4 ≤ vZ [(x, 2), (y, 2)] 0 y ∧ ∀ i, y < i → vZ [(x, 2), (y, 2)] y i < 4
  exact ⟨by omega, fun i _ _ => by vz_omega, by vz_omega, fun i _ => by vz_omega⟩

/-- Full weight twice and an own spike that inhibits: the first spike only. -/
theorem first_fires {x y c : ℕ} (h0 : 0 < x) (hc : x < c) (h : c < y) : VFires (evl [(4, [x, y]), (-4, [c])]) 0 [x] := by
  show 0 < x ∧ (∀ i, 0 < i → i < x → vZ [(x, 4), (y, 4), (c, -4)] 0 i < 4) ∧ 4 ≤ vZ [(x, 4), (y, 4), (c, -4)] 0 x ∧ ∀ i, x < i → vZ [(x, 4), (y, 4), (c, -4)] x i < 4
  exact ⟨h0, fun i _ _ => by vz_omega, by vz_omega, fun i _ => by vz_omega⟩

/-- What one synapse that acts in the steps `A` brings in step `i`. -/
abbrev inSteps (k : SynKind) (w : Double) (A : List ℕ) (i : ℕ) : List (SynKind × Double) := (A.filter (· = i)).map fun _ => (k, w)

set_option maxHeartbeats 8000000 in
/-- The run of the divider, from the steps of its spikes.  `s1`, `s2` are the steps in which the two (logarithmic) intervals end inside the subtractor, `P` the spikes of its plus output. -/
theorem div_run (H : EventHeap Double) {ord : ℕ → List ℕ → List ℕ} (hord : SetOrder ord) {enc : Encoder Double} {dt : Double} (hdt : 0 < dt.val) (name : Option String)
    {v1 v2 t1 t2 T : Double} (hv1 : 0 ≤ v1.val ∧ v1.val ≤ 1) (hv2 : 0 ≤ v2.val ∧ v2.val ≤ 1)
    {a1 b1 c1 A1 B1 a2 b2 c2 A2 B2 C L1 L2 o l1 l2 r r1 r2 u s1 s2 e1 e2 f1 f2 d1 d2 g1 g2 h1 h2 : ℕ} {Z P M I1 I2 Zn Pd Md I1d I2d I J F Fc La FA LB X O1 O2 O : List ℕ}
    (F1 : Front enc dt t1 (t1 + (enc.Tmin + v1 * enc.Tcod)) a1 b1 c1 A1 B1) (F2 : Front enc dt t2 (t2 + (enc.Tmin + v2 * enc.Tcod)) a2 b2 c2 A2 B2)
    (hC : AtStep dt tsynFl (max B1 B2) C) (G1 : FitsR stdFl dt (logHits enc.waccBarFl A1 B1 C) [L1]) (G2 : FitsR stdFl dt (logHits enc.waccBarFl A2 B2 C) [L2])
    (L10 : 0 < L1) (L20 : 0 < L2)
    (ho : AtStep dt (Fl.of 2 * tsynFl) (max B1 B2) o) (hl1 : AtStep dt (tsynFl + enc.Tmin) L1 l1) (hl2 : AtStep dt (tsynFl + enc.Tmin) L2 l2) (o0 : 0 < o) (ol1 : o < l1) (ol2 : o < l2)
    (hr : AtStep dt tsynFl o r) (hr1 : AtStep dt tsynFl l1 r1) (hr2 : AtStep dt tsynFl l2 r2) (r0 : 0 < r) (rr1 : r < r1) (rr2 : r < r2)
    (hu : AtStep dt tsynFl r u) (hs1 : AtStep dt tsynFl r1 s1) (hs2 : AtStep dt tsynFl r2 s2) (u0 : 0 < u) (us1 : u < s1) (us2 : u < s2)
    (he1 : AtStep dt tneuFl s1 e1) (he2 : AtStep dt tneuFl s2 e2) (hf1 : AtStep dt (Fl.of 2 * tneuFl) s1 f1) (hf2 : AtStep dt (Fl.of 2 * tneuFl) s2 f2)
    (hd1 : AtStep dt tsynFl s1 d1) (hd2 : AtStep dt tsynFl s2 d2) (hg1 : AtStep dt dirFl s1 g1) (hg2 : AtStep dt dirFl s2 g2)
    (hh1 : AtStep dt (enc.Tmin + dirFl) s1 h1) (hh2 : AtStep dt (enc.Tmin + dirFl) s2 h2)
    (hZ : AL dt tneuFl Z Zn) (hP : AL dt tsynFl P Pd) (hM : AL dt tsynFl M Md) (hI1 : AL dt tsynFl I1 I1d) (hI2 : AL dt tsynFl I2 I2d)
    (n1 : Z.length ≤ 10) (n2 : P.length ≤ 10) (n3 : M.length ≤ 10) (n4 : I1.length ≤ 10) (n5 : I2.length ≤ 10) (n6 : I.length ≤ 10) (n7 : F.length ≤ 10) (n8 : La.length ≤ 10) (n9 : X.length ≤ 10)
    (c4 : VFires (evl [(4, [d1]), (-4, [d2]), (2, Md)]) 0 I1) (c5 : VFires (evl [(4, [d2]), (-4, [d1]), (2, Pd), (-4, Zn)]) 0 I2)
    (c6 : VFires (evl [(4, [h1]), (4, [g2]), (-8, I1d)]) 0 P) (c7 : VFires (evl [(4, [h2]), (4, [g1]), (-8, I2d), (-8, Zn)]) 0 M)
    (c8 : VFires (evl [(4, Zn), (-2, [f1]), (-2, [f2]), (2, [e1]), (2, [e2])]) 0 Z)
    (k1 : VFires (evl [(4, Pd)]) 0 I) (hI : AL dt tsynFl I J) (hF : AL dt tsynFl F Fc) (k2 : VFires (evl [(4, J), (-4, Fc)]) 0 F) (k3 : VFires (evl [(2, J)]) 0 La)
    (hFA : AL dt (tsynFl + enc.Tmin) F FA) (hLB : AL dt tsynFl La LB)
    (k4 : FitsR stdFl dt (fun i => inSteps .gf d50 FA i ++ (inSteps .gate 1 FA i ++ (inSteps .gate (-1) LB i ++ inSteps .ge enc.waccBarFl LB i))) X)
    (X0 : X.Pairwise (· < ·) ∧ ∀ i ∈ X, 1 ≤ i) (hO1 : AL dt (tsynFl + enc.Tmin) X O1) (hO2 : AL dt (Fl.of 2 * tsynFl) La O2) (k5 : VFires (evl [(4, O1), (4, O2)]) 0 O)
    (hT : ∀ i ∈ L1 :: L2 :: l1 :: l2 :: r1 :: r2 :: s1 :: s2 :: (I1 ++ (I2 ++ (P ++ (M ++ (Z ++ (I ++ (F ++ (La ++ (X ++ O))))))))), i ≤ numStepsFl T dt)
    (hTB : B1 ≤ numStepsFl T dt ∧ B2 ≤ numStepsFl T dt) :
    let p := (divFl enc name World.empty).1
    let w := (divFl enc name World.empty).2
    ∃ st, sessionFl H ord enc dt T w p.1 [.value v1 p.2.1 t1, .value v2 p.2.2.1 t2] = .ok st ∧ st.spikeLog p.2.2.2 = some (O.map fun i : ℕ => (i : Double) * dt) := by
  intro p w
  set τ1 := t1 + (enc.Tmin + v1 * enc.Tcod) with hτ1
  set τ2 := t2 + (enc.Tmin + v2 * enc.Tcod) with hτ2
  obtain ⟨S, hS⟩ : ∃ S, S = max B1 B2 := ⟨_, rfl⟩
  have hsf := sync_fires (B1 := B1) (B2 := B2) (by have := F1.bB; omega) (by have := F2.bB; omega)
  rw [← hS] at hC ho hsf
  have x1 := F1.a0; have x2 := F1.ac; have x3 := F1.cb; have x4 := F1.bB
  have w1 := F2.a0; have w2 := F2.ac; have w3 := F2.cb; have w4 := F2.bB
  have I0 : (([(0, t1), (0, τ1), (5, t2), (5, τ2)] : List (ℕ × Double)).filter fun q => q.1 = 0) = [(0, t1), (0, τ1)] := rfl
  have I5 : (([(0, t1), (0, τ1), (5, t2), (5, τ2)] : List (ℕ × Double)).filter fun q => q.1 = 5) = [(5, t2), (5, τ2)] := rfl
  have b0 : ∀ L : List ℕ, ∀ E, VFires E 0 L → ∀ i ∈ L, 1 ≤ i := fun L E h i hi => h.sorted.2 i hi
  have hSB : 1 ≤ S ∧ S ≤ numStepsFl T dt := by
    rw [hS]; exact ⟨le_trans (by omega) (le_max_left _ _), max_le hTB.1 hTB.2⟩
  have y1 : AL dt tsynFl [o, l1] [r, r1] := .cons hr (.cons hr1 .nil)
  have y2 : AL dt tsynFl [o, l2] [r, r2] := .cons hr (.cons hr2 .nil)
  have z1 : AL dt tsynFl [r, r1] [u, s1] := .cons hu (.cons hs1 .nil)
  have z2 : AL dt tsynFl [r, r2] [u, s2] := .cons hu (.cons hs2 .nil)
  obtain ⟨st, q1, q2⟩ := lib_run H hord (enc := enc) hdt (divFl_neurons enc name)
    (fun n hn => by interval_cases n <;> rfl) (by rw [divFl_net]; simp) (cs := [.value v1 0 t1, .value v2 5 t2])
    (by simp only [List.mem_cons, List.not_mem_nil, or_false, forall_eq_or_imp, forall_eq, CallOK]; exact ⟨hv1, hv2⟩)
    (Ls := [[], [a1], [b1], [L1], [o, l1], [], [a2], [b2], [L2], [o, l2], [S], [r, r1], [r, r2], [s1], [s2], I1, I2, P, M, Z, I, F, La, X, O]) rfl (by
      simp only [List.mem_cons, List.not_mem_nil, or_false, forall_eq_or_imp, forall_eq]
      refine ⟨.nil, by simp, by simp, by simp, by simp [ol1], .nil, by simp, by simp, by simp, by simp [ol2], by simp, by simp [rr1], by simp [rr2], by simp, by simp,
        c4.sorted.1, c5.sorted.1, c6.sorted.1, c7.sorted.1, c8.sorted.1, k1.sorted.1, k2.sorted.1, k3.sorted.1, X0.1, k5.sorted.1⟩) T (by
      simp only [List.mem_cons, List.mem_append] at hT
      have hT' := fun i h => hT i h
      simp only [List.mem_cons, List.not_mem_nil, or_false, forall_eq_or_imp, forall_eq]
      have m1 := hT l1 (by simp)
      have m2 := hT l2 (by simp)
      have m3 := hT r1 (by simp)
      have m4 := hT r2 (by simp)
      have m5 := hT s1 (by simp)
      have m6 := hT s2 (by simp)
      have m7 := hT L1 (by simp)
      have m8 := hT L2 (by simp)
      refine ⟨by simp, by omega, by omega, by omega, by omega, by simp, by omega, by omega, by omega, by omega, hSB, by omega, by omega, by omega, by omega,
        fun i hi => ⟨b0 _ _ c4 i hi, hT i (by simp [hi])⟩, fun i hi => ⟨b0 _ _ c5 i hi, hT i (by simp [hi])⟩, fun i hi => ⟨b0 _ _ c6 i hi, hT i (by simp [hi])⟩,
        fun i hi => ⟨b0 _ _ c7 i hi, hT i (by simp [hi])⟩, fun i hi => ⟨b0 _ _ c8 i hi, hT i (by simp [hi])⟩, fun i hi => ⟨b0 _ _ k1 i hi, hT i (by simp [hi])⟩,
        fun i hi => ⟨b0 _ _ k2 i hi, hT i (by simp [hi])⟩, fun i hi => ⟨b0 _ _ k3 i hi, hT i (by simp [hi])⟩, fun i hi => ⟨X0.2 i hi, hT i (by simp [hi])⟩,
        fun i hi => ⟨b0 _ _ k5 i hi, hT i (by simp [hi])⟩⟩) (by
    intro n hn
    show FitsR stdFl dt (hitsR (w.net (List.range 25)) dt [(0, t1), (0, τ1), (5, t2), (5, τ2)] _ n) _
    interval_cases n
    · exact FitsR.silent fun i => hits_eq rfl i
    · refine FitsR.first (a := a1) (b := b1) (c := c1) x1 x2 x3 fun i => ?_
      rw [hits_eq (l := [⟨0, 1, weFl, tsynFl, .V⟩, ⟨1, 1, wiFl, tsynFl, .V⟩]) rfl i]
      rw [List.flatMap_cons, List.flatMap_cons, List.flatMap_nil, contrib_inj2 I0 rfl F1.ai F1.bi (by omega), contrib_one rfl rfl F1.ci, List.append_nil]
      by_cases e1 : i = a1 ∨ i = b1
      · rw [if_pos e1, if_pos e1, if_neg (by omega)]; rfl
      · rw [if_neg e1, if_neg e1]; rfl
    · refine FitsR.second (a := a1) (b := b1) x1 (by omega) fun i => ?_
      rw [hits_eq (l := [⟨0, 2, Fl.of (1 / 2) * weFl, tsynFl, .V⟩]) rfl i, half_we]
      rw [List.flatMap_cons, List.flatMap_nil, contrib_inj2 I0 rfl F1.ai F1.bi (by omega), List.append_nil]
    · refine G1.perm fun i => ?_
      rw [hits_eq (l := [⟨1, 3, enc.waccBarFl, tsynFl + enc.Tmin, .ge⟩, ⟨2, 3, -enc.waccBarFl, tsynFl, .ge⟩, ⟨10, 3, gmultFl, tsynFl, .gf⟩, ⟨10, 3, Fl.of 1, tsynFl, .gate⟩]) rfl i]
      rw [List.flatMap_cons, List.flatMap_cons, List.flatMap_cons, List.flatMap_cons, List.flatMap_nil, contrib_one rfl rfl F1.Ai, contrib_one rfl rfl F1.Bi, contrib_one rfl rfl hC,
        contrib_one rfl rfl hC, List.append_nil, gmult_d50, of_one, logHits, List.append_assoc]
      refine List.Perm.append_left _ (List.Perm.append_left _ ?_)
      by_cases e1 : i = C
      · simp only [if_pos e1]; exact List.Perm.refl _
      · simp only [if_neg e1]; exact List.Perm.refl _
    · exact fits_vs (l := [⟨10, 4, weFl, Fl.of 2 * tsynFl, .V⟩, ⟨3, 4, weFl, tsynFl + enc.Tmin, .V⟩]) rfl
        (.cons ⟨rfl, w_full, ho.al.brings rfl rfl⟩ (.cons ⟨rfl, w_full, hl1.al.brings rfl rfl⟩ .nil)) (evl_small (by simp)) (by simp) (join_fires o0 ol1)
    · exact FitsR.silent fun i => hits_eq rfl i
    · refine FitsR.first (a := a2) (b := b2) (c := c2) w1 w2 w3 fun i => ?_
      rw [hits_eq (l := [⟨5, 6, weFl, tsynFl, .V⟩, ⟨6, 6, wiFl, tsynFl, .V⟩]) rfl i]
      rw [List.flatMap_cons, List.flatMap_cons, List.flatMap_nil, contrib_inj2 I5 rfl F2.ai F2.bi (by omega), contrib_one rfl rfl F2.ci, List.append_nil]
      by_cases e1 : i = a2 ∨ i = b2
      · rw [if_pos e1, if_pos e1, if_neg (by omega)]; rfl
      · rw [if_neg e1, if_neg e1]; rfl
    · refine FitsR.second (a := a2) (b := b2) w1 (by omega) fun i => ?_
      rw [hits_eq (l := [⟨5, 7, Fl.of (1 / 2) * weFl, tsynFl, .V⟩]) rfl i, half_we]
      rw [List.flatMap_cons, List.flatMap_nil, contrib_inj2 I5 rfl F2.ai F2.bi (by omega), List.append_nil]
    · refine G2.perm fun i => ?_
      rw [hits_eq (l := [⟨6, 8, enc.waccBarFl, tsynFl + enc.Tmin, .ge⟩, ⟨7, 8, -enc.waccBarFl, tsynFl, .ge⟩, ⟨10, 8, gmultFl, tsynFl, .gf⟩, ⟨10, 8, Fl.of 1, tsynFl, .gate⟩]) rfl i]
      rw [List.flatMap_cons, List.flatMap_cons, List.flatMap_cons, List.flatMap_cons, List.flatMap_nil, contrib_one rfl rfl F2.Ai, contrib_one rfl rfl F2.Bi, contrib_one rfl rfl hC,
        contrib_one rfl rfl hC, List.append_nil, gmult_d50, of_one, logHits, List.append_assoc]
      refine List.Perm.append_left _ (List.Perm.append_left _ ?_)
      by_cases e1 : i = C
      · simp only [if_pos e1]; exact List.Perm.refl _
      · simp only [if_neg e1]; exact List.Perm.refl _
    · exact fits_vs (l := [⟨10, 9, weFl, Fl.of 2 * tsynFl, .V⟩, ⟨8, 9, weFl, tsynFl + enc.Tmin, .V⟩]) rfl
        (.cons ⟨rfl, w_full, ho.al.brings rfl rfl⟩ (.cons ⟨rfl, w_full, hl2.al.brings rfl rfl⟩ .nil)) (evl_small (by simp)) (by simp) (join_fires o0 ol2)
    · exact fits_vs (l := [⟨2, 10, Fl.of (1 / 2) * weFl, tsynFl, .V⟩, ⟨7, 10, Fl.of (1 / 2) * weFl, tsynFl, .V⟩]) rfl
        (.cons ⟨rfl, w_half, F1.Bi.al.brings rfl rfl⟩ (.cons ⟨rfl, w_half, F2.Bi.al.brings rfl rfl⟩ .nil)) (evl_small (by simp)) (by simp) hsf
    · exact fits_vs (l := [⟨4, 11, weFl, tsynFl, .V⟩]) rfl (.cons ⟨rfl, w_full, y1.brings rfl rfl⟩ .nil) (evl_small (by simp)) (by simp) (relay_fires r0 rr1)
    · exact fits_vs (l := [⟨9, 12, weFl, tsynFl, .V⟩]) rfl (.cons ⟨rfl, w_full, y2.brings rfl rfl⟩ .nil) (evl_small (by simp)) (by simp) (relay_fires r0 rr2)
    · exact fits_vs (l := [⟨11, 13, Fl.of (1 / 2) * weFl, tsynFl, .V⟩]) rfl (.cons ⟨rfl, w_half, z1.brings rfl rfl⟩ .nil) (evl_small (by simp)) (by simp) (second_fires u0 us1)
    · exact fits_vs (l := [⟨12, 14, Fl.of (1 / 2) * weFl, tsynFl, .V⟩]) rfl (.cons ⟨rfl, w_half, z2.brings rfl rfl⟩ .nil) (evl_small (by simp)) (by simp) (second_fires u0 us2)
    · refine fits_vs (l := [⟨13, 15, weFl, tsynFl, .V⟩, ⟨14, 15, wiFl, tsynFl, .V⟩, ⟨18, 15, Fl.of (1 / 2) * weFl, tsynFl, .V⟩]) rfl
        (.cons ⟨rfl, w_full, hd1.al.brings rfl rfl⟩ (.cons ⟨rfl, w_neg, hd2.al.brings rfl rfl⟩ (.cons ⟨rfl, w_half, hM.brings rfl rfl⟩ .nil)))
        (evl_small (by simp)) (evl_len (by simp) (by simpa using two_len hM n3)) c4
    · refine fits_vs (l := [⟨14, 16, weFl, tsynFl, .V⟩, ⟨13, 16, wiFl, tsynFl, .V⟩, ⟨17, 16, Fl.of (1 / 2) * weFl, tsynFl, .V⟩, ⟨19, 16, wiFl, tneuFl, .V⟩]) rfl
        (.cons ⟨rfl, w_full, hd2.al.brings rfl rfl⟩ (.cons ⟨rfl, w_neg, hd1.al.brings rfl rfl⟩ (.cons ⟨rfl, w_half, hP.brings rfl rfl⟩
          (.cons ⟨rfl, w_neg, hZ.brings rfl rfl⟩ .nil))))
        (evl_small (by simp)) (evl_len (by simp) (by simpa using ⟨two_len hP n2, two_len hZ n1⟩)) c5
    · refine fits_vs (l := [⟨13, 17, weFl, enc.Tmin + dirFl, .V⟩, ⟨14, 17, weFl, dirFl, .V⟩, ⟨15, 17, Fl.of 2 * wiFl, tsynFl, .V⟩]) rfl
        (.cons ⟨rfl, w_full, hh1.al.brings rfl rfl⟩ (.cons ⟨rfl, w_full, hg2.al.brings rfl rfl⟩ (.cons ⟨rfl, w_neg2, hI1.brings rfl rfl⟩ .nil)))
        (evl_small (by simp)) (evl_len (by simp) (by simpa using two_len hI1 n4)) c6
    · refine fits_vs (l := [⟨14, 18, weFl, enc.Tmin + dirFl, .V⟩, ⟨13, 18, weFl, dirFl, .V⟩, ⟨16, 18, Fl.of 2 * wiFl, tsynFl, .V⟩, ⟨19, 18, Fl.of 2 * wiFl, tneuFl, .V⟩]) rfl
        (.cons ⟨rfl, w_full, hh2.al.brings rfl rfl⟩ (.cons ⟨rfl, w_full, hg1.al.brings rfl rfl⟩ (.cons ⟨rfl, w_neg2, hI2.brings rfl rfl⟩
          (.cons ⟨rfl, w_neg2, hZ.brings rfl rfl⟩ .nil))))
        (evl_small (by simp)) (evl_len (by simp) (by simpa using ⟨two_len hI2 n5, two_len hZ n1⟩)) c7
    · refine fits_vs (l := [⟨19, 19, weFl, tneuFl, .V⟩, ⟨13, 19, Fl.of (1 / 2) * wiFl, Fl.of 2 * tneuFl, .V⟩, ⟨14, 19, Fl.of (1 / 2) * wiFl, Fl.of 2 * tneuFl, .V⟩,
          ⟨13, 19, Fl.of (1 / 2) * weFl, tneuFl, .V⟩, ⟨14, 19, Fl.of (1 / 2) * weFl, tneuFl, .V⟩]) rfl
        (.cons ⟨rfl, w_full, hZ.brings rfl rfl⟩ (.cons ⟨rfl, w_negh, hf1.al.brings rfl rfl⟩ (.cons ⟨rfl, w_negh, hf2.al.brings rfl rfl⟩
          (.cons ⟨rfl, w_half, he1.al.brings rfl rfl⟩ (.cons ⟨rfl, w_half, he2.al.brings rfl rfl⟩ .nil)))))
        (evl_small (by simp)) (evl_len (by simp) (by simpa using two_len hZ n1)) c8
    · exact fits_vs (l := [⟨17, 20, weFl, tsynFl, .V⟩]) rfl (.cons ⟨rfl, w_full, hP.brings rfl rfl⟩ .nil) (evl_small (by simp)) (evl_len (by simp) (by simpa using two_len hP n2)) k1
    · exact fits_vs (l := [⟨20, 21, weFl, tsynFl, .V⟩, ⟨21, 21, wiFl, tsynFl, .V⟩]) rfl
        (.cons ⟨rfl, w_full, hI.brings rfl rfl⟩ (.cons ⟨rfl, w_neg, hF.brings rfl rfl⟩ .nil)) (evl_small (by simp))
        (evl_len (by simp) (by simpa using ⟨two_len hI n6, two_len hF n7⟩)) k2
    · exact fits_vs (l := [⟨20, 22, Fl.of (1 / 2) * weFl, tsynFl, .V⟩]) rfl (.cons ⟨rfl, w_half, hI.brings rfl rfl⟩ .nil) (evl_small (by simp))
        (evl_len (by simp) (by simpa using two_len hI n6)) k3
    · refine FitsR.of_eq k4 fun i => ?_
      rw [hits_eq (l := [⟨21, 23, gmultFl, tsynFl + enc.Tmin, .gf⟩, ⟨21, 23, Fl.of 1, tsynFl + enc.Tmin, .gate⟩, ⟨22, 23, -Fl.of 1, tsynFl, .gate⟩, ⟨22, 23, enc.waccBarFl, tsynFl, .ge⟩]) rfl i]
      rw [List.flatMap_cons, List.flatMap_cons, List.flatMap_cons, List.flatMap_cons, List.flatMap_nil, hFA.brings rfl rfl i, hFA.brings rfl rfl i, hLB.brings rfl rfl i,
        hLB.brings rfl rfl i, List.append_nil, gmult_d50, of_one]
    · exact fits_vs (l := [⟨23, 24, weFl, tsynFl + enc.Tmin, .V⟩, ⟨22, 24, weFl, Fl.of 2 * tsynFl, .V⟩]) rfl
        (.cons ⟨rfl, w_full, hO1.brings rfl rfl⟩ (.cons ⟨rfl, w_full, hO2.brings rfl rfl⟩ .nil)) (evl_small (by simp))
        (evl_len (by simp) (by simpa using ⟨two_len hO1 n9, two_len hO2 n8⟩)) k5)
  exact ⟨st, q1, q2 24 (by norm_num)⟩

end Axon
