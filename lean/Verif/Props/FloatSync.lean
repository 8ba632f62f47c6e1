import Verif.Props.FloatSMem
import Verif.Proofs.FloatSync
import Verif.Proofs.FloatGather
import Verif.Proofs.SyncBuild

/-! # C114: the synchronizer in floating-point arithmetic -/
set_option linter.unusedSectionVars false
namespace Axon
open Spec

/-- The steps of a channel before the synchronizer fires. -/
structure ChanSteps where
  (a0 b0 a1 b1 c k b2 f2 g : ℕ)
deriving Inhabited

structure ChanFront (enc : Encoder Double) (dt : Double) (q n X e : ℚ) (t0 τ : Double) (s : ChanSteps) : Prop where
  i0 : ∀ k, FirstAt dt 1 (t0 + tsynFl) k ↔ k = s.a0
  i1 : ∀ k, FirstAt dt 1 (τ + tsynFl) k ↔ k = s.b0
  i2 : AtStep dt tsynFl s.a0 s.a1
  i3 : AtStep dt tsynFl s.b0 s.b1
  i4 : AtStep dt tsynFl s.a1 s.c
  i5 : AtStep dt (Fl.of 2 * tsynFl) s.b1 s.b2
  i6 : AtStep dt tsynFl (s.c + s.k) s.f2
  i7 : AtStep dt tsynFl s.f2 s.g
  p0 : 0 < s.a0
  p1 : s.a0 < s.b0
  p2 : s.a0 < s.a1
  p3 : s.a1 < s.c
  p4 : s.c < s.b1
  p5 : s.b1 < s.b2
  p6 : s.c + s.k < s.f2
  p7 : s.f2 < s.g
  ramp1 : ∀ j ≤ s.k, climb (slopeR stdFl dt (0 + enc.waccFl)) 0 j < d10
  ramp2 : d10 ≤ climb (slopeR stdFl dt (0 + enc.waccFl)) 0 (s.k + 1)
  n1 : (s.f2 : ℚ) - s.b2 ≤ n - e + 83 / 8
  n2 : n - e - 83 / 8 ≤ (s.f2 : ℚ) - s.b2
  n3 : (s.g : ℚ) ≤ X + n + 5 * q + 19 / 2
  n4 : (s.f2 : ℚ) + q - 1 ≤ s.g
  n5 : (s.b0 : ℚ) ≤ s.b1
  n6 : (s.b1 : ℚ) + 2 * q - 1 ≤ s.b2

set_option maxHeartbeats 1000000 in
theorem chanFront_exists {enc : Encoder Double} {dt : Double} (hdt : 0 < dt.val) {q n X Y e : ℚ} {t0 τ : Double}
    (G : GoodSlope (slopeR stdFl dt (0 + enc.waccFl)) n) (hq : q = 1 / dt.val) (hx : X = t0.val / dt.val) (hy : Y = τ.val / dt.val)
    (ht : 0 ≤ t0.val) (hτ0 : 0 ≤ τ.val) (hq1 : 5 ≤ q) (A1 : Y - X - e ≤ 3 / 16) (A2 : -(3 / 16) ≤ Y - X - e) (A3 : q + 19 ≤ e) (A4 : e ≤ n + 1 / 16)
    (A6 : X ≤ 2 ^ 48) (A7 : n ≤ 2 ^ 24) : ∃ s, ChanFront enc dt q n X e t0 τ s := by
  have d1 : (tsynFl : Double).val / dt.val = q := by rw [tsyn_val, hq]
  have d2 : (Fl.of 2 * tsynFl : Double).val / dt.val = 2 * q := by rw [two_tsyn, hq]; ring
  have big : (2 : ℚ) ^ 48 + 10 * 2 ^ 24 + 100 ≤ 2 ^ 49 := by norm_num
  have dpos : 0 ≤ (tsynFl : Double).val := by rw [tsyn_val]; norm_num
  have dpos2 : 0 ≤ (Fl.of 2 * tsynFl : Double).val := by rw [two_tsyn]; norm_num
  obtain ⟨a0, a0i, a0p, a0l, a0u⟩ := arrives_inj (τ := t0) (D := tsynFl) hdt ht dpos (by rw [d1, ← hx]; linarith)
  obtain ⟨b0, b0i, b0p, b0l, b0u⟩ := arrives_inj (τ := τ) (D := tsynFl) hdt hτ0 dpos (by rw [d1, ← hy]; linarith)
  rw [d1, ← hx] at a0l a0u
  rw [d1, ← hy] at b0l b0u
  obtain ⟨a1, a1i, a1j, a1l, a1u⟩ := arrives (j := a0) (D := tsynFl) hdt dpos (by rw [d1]; linarith)
  obtain ⟨b1, b1i, b1j, b1l, b1u⟩ := arrives (j := b0) (D := tsynFl) hdt dpos (by rw [d1]; linarith)
  rw [d1] at a1l a1u b1l b1u
  obtain ⟨c, ci, cj, cl, cu⟩ := arrives (j := a1) (D := tsynFl) hdt dpos (by rw [d1]; linarith)
  rw [d1] at cl cu
  obtain ⟨k, k1, k2, k3, k4⟩ := ramp_count G
  obtain ⟨b2, b2i, b2j, b2l, b2u⟩ := arrives (j := b1) (D := Fl.of 2 * tsynFl) hdt dpos2 (by rw [d2]; linarith)
  rw [d2] at b2l b2u
  obtain ⟨f2, f2i, f2j, f2l, f2u⟩ := arrives (j := c + k) (D := tsynFl) hdt dpos (by rw [d1]; push_cast; linarith)
  rw [d1] at f2l f2u
  push_cast at f2l f2u
  obtain ⟨g, gi, gj, gl, gu⟩ := arrives (j := f2) (D := tsynFl) hdt dpos (by rw [d1]; linarith)
  rw [d1] at gl gu
  have lt_of : ∀ {a b : ℕ}, (a : ℚ) < b → a < b := fun h => by exact_mod_cast h
  have b1q : (b0 : ℚ) ≤ b1 := by exact_mod_cast b1j.le
  exact ⟨⟨a0, b0, a1, b1, c, k, b2, f2, g⟩, ⟨a0i, b0i, a1i, b1i, ci, b2i, f2i, gi, a0p, lt_of (by linarith), a1j, cj, lt_of (by linarith), b2j, f2j, gj, k1, k2,
    by linarith, by linarith, by linarith, by linarith, b1q, by linarith⟩⟩

/-- The spikes of a channel, from its steps. -/
def chSpikes (s : ChanSteps) (r0 r1 o1 x k' o2 y : ℕ) : List (List ℕ) :=
  [[], [x, y], [s.a0, s.b0], [s.a1], [s.b1], [s.c + s.k], [r1 + k'], [r0], [s.f2], [o1, o2]]

set_option maxHeartbeats 1000000 in
/-- Every neuron of a channel does what its inputs say. -/
theorem chan_fits {enc : Encoder Double} {dt : Double} {N b : ℕ} {net : Net Double} {inj : List (ℕ × Double)} {LS : ℕ → List ℕ} {q n X e : ℚ} {t0 τ : Double} {s : ChanSteps}
    (F : ChanFront enc dt q n X e t0 τ s) {M r0 r1 o1 x k' o2 y : ℕ}
    (hsyn : ∀ o < 10, (net.syns.filter fun s => s.post = b + o) = (roundSynsFl enc N 0 b).reverse.filter fun s => s.post = b + o) (hb : 1 ≤ b)
    (hL0 : LS 0 = [M]) (hL : ∀ o < 10, LS (b + o) = (chSpikes s r0 r1 o1 x k' o2 y).getD o [])
    (hi0 : (inj.filter fun q => q.1 = 0) = []) (hib : (inj.filter fun q => q.1 = b) = [(b, t0), (b, τ)]) (hio : ∀ o < 10, 0 < o → (inj.filter fun q => q.1 = b + o) = [])
    (r0i : AtStep dt tsynFl M r0) (r1i : AtStep dt tsynFl r0 r1) (o1i : AtStep dt (Fl.of 2 * tsynFl) r0 o1) (xi : AtStep dt tsynFl o1 x)
    (o2i : AtStep dt tsynFl (r1 + k') o2) (yi : AtStep dt tsynFl o2 y) (hr0 : 0 < r0) (ho1 : 0 < o1) (oo : o1 < o2) (hx : 0 < x) (xy : x < y)
    (hst : FitsR stdFl dt (fun i => (if i = s.b2 then [(SynKind.ge, enc.waccFl)] else []) ++ (if i = s.f2 then [(SynKind.ge, -enc.waccFl)] else []) ++
      (if i = r1 then [(SynKind.ge, enc.waccFl)] else [])) [r1 + k']) :
    ∀ o < 10, FitsR stdFl dt (hitsR net dt inj LS (b + o)) (LS (b + o)) := by
  intro o ho
  have p0 := F.p0
  have p1 := F.p1
  have p2 := F.p2
  have p3 := F.p3
  have p4 := F.p4
  have p5 := F.p5
  have p6 := F.p6
  have L0 : LS b = [] := hL 0 (by norm_num)
  have L1 : LS (b + 1) = [x, y] := hL 1 (by norm_num)
  have L2 : LS (b + 2) = [s.a0, s.b0] := hL 2 (by norm_num)
  have L3 : LS (b + 3) = [s.a1] := hL 3 (by norm_num)
  have L4 : LS (b + 4) = [s.b1] := hL 4 (by norm_num)
  have L5 : LS (b + 5) = [s.c + s.k] := hL 5 (by norm_num)
  have L6 : LS (b + 6) = [r1 + k'] := hL 6 (by norm_num)
  have L7 : LS (b + 7) = [r0] := hL 7 (by norm_num)
  have L8 : LS (b + 8) = [s.f2] := hL 8 (by norm_num)
  have L9 : LS (b + 9) = [o1, o2] := hL 9 (by norm_num)
  have hin : ALI dt tsynFl [t0, τ] [s.a0, s.b0] := .cons F.i0 (.cons F.i1 .nil)
  have hab1 : AL dt tsynFl [s.a0, s.b0] [s.a1, s.b1] := .cons F.i2 (.cons F.i3 .nil)
  have hxy : AL dt tsynFl [o1, o2] [x, y] := .cons xi (.cons yi .nil)
  have hz' : 0 ≠ b := by omega
  have S := hsyn o ho
  interval_cases o
  · rw [hL 0 (by norm_num)]
    exact FitsR.silent fun i => hits_eq (l := []) (S.trans (by simp [roundSynsFl, hz'])) i
  · rw [L1]
    exact fits_vs (l := [⟨b + 9, b + 1, weFl, tsynFl, .V⟩]) (S.trans (by simp [roundSynsFl]))
      (.cons ⟨rfl, w_full, hxy.brings (hio 9 (by norm_num) (by norm_num)) L9⟩ .nil) (evl_small (by simp)) (by simp) (relay_fires hx xy)
  · rw [L2]
    exact fits_vs (l := [⟨b, b + 2, weFl, tsynFl, .V⟩]) (S.trans (by simp [roundSynsFl]))
      (.cons ⟨rfl, w_full, hin.brings L0 hib⟩ .nil) (evl_small (by simp)) (by simp) (relay_fires p0 p1)
  · rw [L3]
    exact fits_vs (l := [⟨b + 2, b + 3, weFl, tsynFl, .V⟩, ⟨b + 3, b + 3, wiFl, tsynFl, .V⟩]) (S.trans (by simp [roundSynsFl]))
      (.cons ⟨rfl, w_full, hab1.brings (hio 2 (by norm_num) (by norm_num)) L2⟩ (.cons ⟨rfl, w_neg, F.i4.al.brings (hio 3 (by norm_num) (by norm_num)) L3⟩ .nil))
      (evl_small (by simp)) (by simp) (first_fires (by omega) p3 p4)
  · rw [L4]
    exact fits_vs (l := [⟨b + 2, b + 4, Fl.of (1 / 2) * weFl, tsynFl, .V⟩]) (S.trans (by simp [roundSynsFl]))
      (.cons ⟨rfl, w_half, hab1.brings (hio 2 (by norm_num) (by norm_num)) L2⟩ .nil) (evl_small (by simp)) (by simp) (second_fires (by omega) (p3.trans p4))
  · rw [L5]
    refine FitsR.ramp (a := s.c) (k := s.k) (w := enc.waccFl) (by omega) (fun i => ?_) F.ramp1 F.ramp2
    rw [hits_eq (l := [⟨b + 3, b + 5, enc.waccFl, tsynFl, .ge⟩]) (S.trans (by simp [roundSynsFl])) i]
    rw [List.flatMap_cons, List.flatMap_nil, contrib_one (hio 3 (by norm_num) (by norm_num)) L3 F.i4, List.append_nil]
  · rw [L6]
    refine hst.of_eq fun i => ?_
    rw [hits_eq (l := [⟨b + 4, b + 6, enc.waccFl, Fl.of 2 * tsynFl, .ge⟩, ⟨b + 5, b + 6, -enc.waccFl, tsynFl, .ge⟩, ⟨b + 7, b + 6, enc.waccFl, tsynFl, .ge⟩]) (S.trans (by simp [roundSynsFl])) i]
    rw [List.flatMap_cons, List.flatMap_cons, List.flatMap_cons, List.flatMap_nil, contrib_one (hio 4 (by norm_num) (by norm_num)) L4 F.i5,
      contrib_one (hio 5 (by norm_num) (by norm_num)) L5 F.i6, contrib_one (hio 7 (by norm_num) (by norm_num)) L7 r1i, List.append_nil, List.append_assoc]
  · rw [L7]
    exact fits_vs (l := [⟨0, b + 7, weFl, tsynFl, .V⟩]) (S.trans (by simp [roundSynsFl])) (.cons ⟨rfl, w_full, r0i.al.brings hi0 hL0⟩ .nil) (evl_small (by simp)) (by simp) (one_fires hr0)
  · rw [L8]
    exact fits_vs (l := [⟨b + 5, b + 8, weFl, tsynFl, .V⟩]) (S.trans (by simp [roundSynsFl]))
      (.cons ⟨rfl, w_full, F.i6.al.brings (hio 5 (by norm_num) (by norm_num)) L5⟩ .nil) (evl_small (by simp)) (by simp) (one_fires (by omega))
  · rw [L9]
    exact fits_vs (l := [⟨b + 7, b + 9, weFl, Fl.of 2 * tsynFl, .V⟩, ⟨b + 6, b + 9, weFl, tsynFl, .V⟩]) (S.trans (by simp [roundSynsFl]))
      (.cons ⟨rfl, w_full, o1i.al.brings (hio 7 (by norm_num) (by norm_num)) L7⟩ (.cons ⟨rfl, w_full, o2i.al.brings (hio 6 (by norm_num) (by norm_num)) L6⟩ .nil))
      (evl_small (by simp)) (by simp) (join_fires ho1 oo)

/-! ## Injections and synapses of the whole network -/

theorem flatMap_at {α : Type} {j : ℕ} (f : ℕ → List α) : ∀ {l : List ℕ}, l.Nodup → j ∈ l → l.flatMap (fun i => if i = j then f i else []) = f j
  | [], _, h => by cases h
  | i :: l, hn, h => by
    obtain ⟨h1, h2⟩ := List.nodup_cons.mp hn
    rw [List.flatMap_cons]
    by_cases e : i = j
    · subst e
      rw [if_pos rfl, List.flatMap_eq_nil_iff.mpr (fun k hk => if_neg (fun h => h1 (by rw [← h]; exact hk))), List.append_nil]
    · rw [if_neg e, List.nil_append, flatMap_at f h2 ((List.mem_cons.mp h).resolve_left (fun h => e h.symm))]

/-- The calls that give the inputs in `l` their values. -/
def valueCalls (l : List ℕ) (v t : ℕ → Double) : List (Call Double) := l.map fun j => .value (v j) (1 + 10 * j) (t j)

theorem value_inj (enc : Encoder Double) (l : List ℕ) (v t : ℕ → Double) (m : ℕ) :
    (((valueCalls l v t).flatMap (callSpikesR enc)).filter fun q => q.1 = m) =
      l.flatMap fun j => if 1 + 10 * j = m then [(1 + 10 * j, t j), (1 + 10 * j, t j + (enc.Tmin + v j * enc.Tcod))] else [] := by
  unfold valueCalls
  rw [List.flatMap_map, List.filter_flatMap]
  congr 1
  funext j
  show List.filter _ [(1 + 10 * j, t j), (1 + 10 * j, t j + (enc.Tmin + v j * enc.Tcod))] = _
  by_cases h : 1 + 10 * j = m
  · simp [h]
  · simp [h]

theorem value_inj_at (enc : Encoder Double) {l : List ℕ} (hl : l.Nodup) (v t : ℕ → Double) {j : ℕ} (hj : j ∈ l) :
    (((valueCalls l v t).flatMap (callSpikesR enc)).filter fun q => q.1 = 1 + 10 * j) =
      [(1 + 10 * j, t j), (1 + 10 * j, t j + (enc.Tmin + v j * enc.Tcod))] := by
  rw [value_inj, ← flatMap_at (fun j => [(1 + 10 * j, t j), (1 + 10 * j, t j + (enc.Tmin + v j * enc.Tcod))]) hl hj]
  congr 1
  funext i
  by_cases h : i = j
  · rw [if_pos (by omega), if_pos h]
  · rw [if_neg (by omega), if_neg h]

theorem value_inj_off (enc : Encoder Double) (l : List ℕ) (v t : ℕ → Double) {m : ℕ} (hm : ∀ j ∈ l, 1 + 10 * j ≠ m) :
    (((valueCalls l v t).flatMap (callSpikesR enc)).filter fun q => q.1 = m) = [] := by
  rw [value_inj, List.flatMap_eq_nil_iff]
  intro j hj
  exact if_neg (hm j hj)

theorem par_all {w : World Double} (h : ∀ o ∈ w.neus, o.par = stdFl) {n : ℕ} (hn : n < w.neus.length) : w.par n = stdFl := by
  unfold World.par
  rw [List.getElem?_eq_getElem (by rw [List.length_reverse]; exact hn)]
  exact h _ (List.mem_reverse.mp (List.getElem_mem _))

theorem gather_hits {dt : Double} {inj : List (ℕ × Double)} {LS : ℕ → List ℕ} {W : Double} {g : ℕ → ℕ} {N : ℕ} (i : ℕ)
    (h : ∀ j < N, contrib dt inj LS i ⟨1 + 10 * j + 8, 0, W, tsynFl, .V⟩ = if i = g j then [(.V, W)] else []) :
    ((List.range N).map (fun j => (⟨1 + 10 * j + 8, 0, W, tsynFl, .V⟩ : Synapse Double))).flatMap (contrib dt inj LS i) =
      List.replicate (((List.range N).map g).count i) (.V, W) := by
  induction N with
  | zero => rfl
  | succ N ih =>
    rw [List.range_succ, List.map_append, List.map_append, List.flatMap_append, ih (fun j hj => h j (by omega)), List.count_append, List.replicate_add]
    congr 1
    rw [List.map_cons, List.map_nil, List.map_cons, List.map_nil, List.flatMap_cons, List.flatMap_nil, List.append_nil, h N (by omega), List.count_singleton]
    by_cases e : i = g N
    · simp [e]
    · simp [e, Ne.symm e]


/-- The steps of a channel after the synchronizer fired in step `M`. -/
structure ChanBack where
  (k o2 y : ℕ)
deriving Inhabited

/-- The input of a channel, in steps. -/
theorem chan_range {enc : Encoder Double} {dt : Double} (hdt : 0 < dt.val) (hdt1 : 5 * dt.val ≤ 1) (hC : 0 < enc.Tcod.val) (hmin : 1 + 19 * dt.val ≤ enc.Tmin.val)
    (hmax : enc.Tmax.val ≤ 2 ^ 24 * dt.val) {v t : Double} (hv : 0 ≤ v.val ∧ v.val ≤ 1) (ht : 0 ≤ t.val ∧ t.val ≤ 2 ^ 48 * dt.val) :
    let q := 1 / dt.val; let n := enc.Tmax.val / dt.val; let X := t.val / dt.val; let e := (enc.Tmin.val + v.val * enc.Tcod.val) / dt.val
    q + 19 ≤ e ∧ e ≤ n + 1 / 16 ∧ 0 ≤ X ∧ X ≤ 2 ^ 48 ∧ ∃ s, ChanFront enc dt q n X e t (t + (enc.Tmin + v * enc.Tcod)) s := by
  intro q n X e
  have hT0 : 0 ≤ enc.Tmin.val := by linarith
  have G := wacc_slope (enc := enc) hdt (by linarith [tmin_le (e := enc) hC.le]) hmax
  change GoodSlope _ n at G
  have u0 : ∀ a : ℚ, a / dt.val * dt.val = a := fun a => div_mul_cancel₀ _ hdt.ne'
  have mv : ∀ a b : ℚ, a * dt.val ≤ b * dt.val → a ≤ b := fun a b h => le_of_mul_le_mul_right h hdt
  have qm : q * dt.val = 1 := u0 _
  have nm : n * dt.val = enc.Tmax.val := u0 _
  have xm : X * dt.val = t.val := u0 _
  have em : e * dt.val = enc.Tmin.val + v.val * enc.Tcod.val := u0 _
  have hq : q = 1 / dt.val := rfl
  have hX : X = t.val / dt.val := rfl
  clear_value q n X e
  have hq1 : 5 ≤ q := mv _ _ (by linarith)
  have A7 : n ≤ 2 ^ 24 := mv _ _ (by linarith)
  obtain ⟨eτ, eM⟩ := encoded (t0 := t) (dt := dt) hT0 hC.le hmax hv.1 hv.2 ht.1 ht.2 hdt
  obtain ⟨e1, e2⟩ := abs_le.mp eτ
  obtain ⟨e3, e4⟩ := abs_le.mp eM
  have hp0 : 0 ≤ v.val * enc.Tcod.val := mul_nonneg hv.1 hC.le
  have hp1 : v.val * enc.Tcod.val ≤ enc.Tcod.val := mul_le_of_le_one_left hC.le hv.2
  have B1 : q + 19 ≤ e := mv _ _ (by linarith)
  have B2 : e ≤ n + 1 / 16 := mv _ _ (by linarith)
  have B3 : 0 ≤ X := mv _ _ (by linarith [ht.1])
  have B4 : X ≤ 2 ^ 48 := mv _ _ (by linarith [ht.2])
  generalize t + (enc.Tmin + v * enc.Tcod) = τ at *
  have hy := u0 τ.val
  refine ⟨B1, B2, B3, B4, chanFront_exists hdt G hq hX rfl ht.1 (by linarith [ht.1]) hq1 (mv _ _ ?_) (mv _ _ ?_) B1 B2 B4 A7⟩
  · linarith
  · linarith

set_option maxHeartbeats 4000000 in
/-- **C114.** In Python floats: a `SynchronizerNetwork` of up to 316 channels, every input of which is given one value at any time, fires `sync` exactly once, after every
memory is ready; then every output gives its value, up to nineteen simulation steps, and the first spikes of all the outputs fall in the same step. -/
theorem C114_synchronizer (H : EventHeap Double) {ord : ℕ → List ℕ → List ℕ} (hord : SetOrder ord) {enc : Encoder Double} {dt : Double}
    (hdt : 0 < dt.val) (hdt1 : 5 * dt.val ≤ 1) (hC : 0 < enc.Tcod.val) (hmin : 1 + 19 * dt.val ≤ enc.Tmin.val) (hmax : enc.Tmax.val ≤ 2 ^ 24 * dt.val)
    (name : Option String) {N : ℕ} (hN1 : 1 ≤ N) (hN : N ≤ 316) {v t : ℕ → Double} {T : Double} (hv : ∀ j < N, 0 ≤ (v j).val ∧ (v j).val ≤ 1)
    (ht : ∀ j < N, 0 ≤ (t j).val ∧ (t j).val ≤ 2 ^ 48 * dt.val) (hT : ∀ j < N, (t j).val + 2 * enc.Tmax.val + 9 + 32 * dt.val ≤ T.val) :
    let p := (synchronizerFl enc N name World.empty).1
    let w := (synchronizerFl enc N name World.empty).2
    ∃ st, sessionFl H ord enc dt T w p.mod ((List.range N).map fun j => .value (v j) (p.inputs.getD j 0) (t j)) = .ok st ∧
      ∃ M x : ℕ, st.spikeLog p.sync = some [(M : Double) * dt] ∧
        ∀ j < N, (∃ r < M, st.spikeLog ((p.blocks.map (·.ready)).getD j 0) = some [(r : Double) * dt]) ∧
          ∃ y, M < x ∧ x < y ∧ st.spikeLog (p.outputs.getD j 0) = some [(x : Double) * dt, (y : Double) * dt] ∧
            |(enc.decodeInterval ((y : Double) * dt - (x : Double) * dt)).val - (v j).val| ≤ 19 * dt.val / enc.Tcod.val := by
  intro p w
  obtain ⟨B, hlen, hstd, hsyns, pm, ps, pin, pout, prd⟩ := syncFl_spec enc N name
  change BlockOK w at B
  change w.neus.length = _ at hlen
  change ∀ o ∈ w.neus, _ at hstd
  change w.syns = _ at hsyns
  change p.mod = 0 at pm
  change p.sync = 0 at ps
  change p.inputs = _ at pin
  change p.outputs = _ at pout
  change p.blocks.map _ = _ at prd
  rw [pm, ps, pin, pout, prd]
  clear_value p w
  have getm : ∀ (f : ℕ → ℕ), ∀ j < N, ((List.range N).map f).getD j 0 = f j := fun f j hj => by
    rw [List.getD_eq_getElem?_getD, List.getElem?_map, List.getElem?_range hj]; rfl
  have hcs : ((List.range N).map fun j => Call.value (v j) (((List.range N).map (fun j => 1 + 10 * j)).getD j 0) (t j)) = valueCalls (List.range N) v t :=
    List.map_congr_left fun j hj => by rw [getm _ j (List.mem_range.mp hj)]
  rw [hcs]
  obtain ⟨ns, hns, hmem⟩ := blockFl_neurons B
  have hT0 : 0 ≤ enc.Tmin.val := by linarith
  have G := wacc_slope (enc := enc) hdt (by linarith [tmin_le (e := enc) hC.le]) hmax
  have range := fun j (hj : j < N) => chan_range (enc := enc) hdt hdt1 hC hmin hmax (hv j hj) (ht j hj)
  obtain ⟨q, hq⟩ : ∃ q, q = 1 / dt.val := ⟨_, rfl⟩
  obtain ⟨n, hn⟩ : ∃ q, q = enc.Tmax.val / dt.val := ⟨_, rfl⟩
  obtain ⟨X, hX⟩ : ∃ X : ℕ → ℚ, ∀ j, X j = (t j).val / dt.val := ⟨_, fun _ => rfl⟩
  obtain ⟨e, he⟩ : ∃ X : ℕ → ℚ, ∀ j, X j = (enc.Tmin.val + (v j).val * enc.Tcod.val) / dt.val := ⟨_, fun _ => rfl⟩
  have u0 : ∀ a : ℚ, a / dt.val * dt.val = a := fun a => div_mul_cancel₀ _ hdt.ne'
  have mv : ∀ a b : ℚ, a * dt.val ≤ b * dt.val → a ≤ b := fun a b h => le_of_mul_le_mul_right h hdt
  have qm : q * dt.val = 1 := by rw [hq, u0]
  have nm : n * dt.val = enc.Tmax.val := by rw [hn, u0]
  have xm : ∀ j, X j * dt.val = (t j).val := fun j => by rw [hX]; exact u0 _
  have em : ∀ j, e j * dt.val = enc.Tmin.val + (v j).val * enc.Tcod.val := fun j => by rw [he]; exact u0 _
  have hq1 : 5 ≤ q := mv _ _ (by linarith)
  have A7 : n ≤ 2 ^ 24 := mv _ _ (by linarith)
  rw [← hn] at G
  simp only [← hq, ← hn, ← hX, ← he] at range
  choose! c1 c2 c3 c4 s F using range
  -- the step in which the synchronizer fires
  obtain ⟨jm, hjm, hmx⟩ := Finset.exists_max_image (Finset.range N) (fun j => (s j).g) ⟨0, Finset.mem_range.mpr hN1⟩
  rw [Finset.mem_range] at hjm
  have hmx' : ∀ j < N, (s j).g ≤ (s jm).g := fun j hj => hmx j (Finset.mem_range.mpr hj)
  obtain ⟨M, hM⟩ : ∃ M, M = (s jm).g := ⟨_, rfl⟩
  rw [← hM] at hmx'
  have big : (2 : ℚ) ^ 48 + 20 * 2 ^ 24 + 100 ≤ 2 ^ 49 := by norm_num
  have d1 : (tsynFl : Double).val / dt.val = q := by rw [tsyn_val, hq]
  have d2 : (Fl.of 2 * tsynFl : Double).val / dt.val = 2 * q := by rw [two_tsyn, hq]; ring
  have dpos : 0 ≤ (tsynFl : Double).val := by rw [tsyn_val]; norm_num
  have dpos2 : 0 ≤ (Fl.of 2 * tsynFl : Double).val := by rw [two_tsyn]; norm_num
  have Mb : (M : ℚ) ≤ X jm + n + 5 * q + 19 / 2 := by rw [hM]; exact (F jm hjm).n3
  have m1 := c1 jm hjm
  have m2 := c2 jm hjm
  have m4 := c4 jm hjm
  obtain ⟨r0, r0i, r0j, r0l, r0u⟩ := arrives (j := M) (D := tsynFl) hdt dpos (by rw [d1]; linarith)
  rw [d1] at r0l r0u
  obtain ⟨r1, r1i, r1j, r1l, r1u⟩ := arrives (j := r0) (D := tsynFl) hdt dpos (by rw [d1]; linarith)
  obtain ⟨o1, o1i, o1j, o1l, o1u⟩ := arrives (j := r0) (D := Fl.of 2 * tsynFl) hdt dpos2 (by rw [d2]; linarith)
  rw [d1] at r1l r1u
  rw [d2] at o1l o1u
  obtain ⟨x, xi, xj, xl, xu⟩ := arrives (j := o1) (D := tsynFl) hdt dpos (by rw [d1]; linarith)
  rw [d1] at xl xu
  have lt_of : ∀ {a b : ℕ}, (a : ℚ) < b → a < b := fun h => by exact_mod_cast h
  have back : ∀ j < N, ∃ z : ChanBack, FitsR stdFl dt (fun i => (if i = (s j).b2 then [(SynKind.ge, enc.waccFl)] else []) ++
        (if i = (s j).f2 then [(SynKind.ge, -enc.waccFl)] else []) ++ (if i = r1 then [(SynKind.ge, enc.waccFl)] else [])) [r1 + z.k] ∧
      AtStep dt tsynFl (r1 + z.k) z.o2 ∧ AtStep dt tsynFl z.o2 z.y ∧ o1 < z.o2 ∧ x < z.y ∧ r1 + z.k < z.y ∧ z.o2 < z.y ∧ z.y ≤ 2 ^ 49 ∧ z.y ≤ numStepsFl T dt ∧
      (z.y : ℚ) - x ≤ e j + 37 / 2 ∧ e j - 37 / 2 ≤ (z.y : ℚ) - x := by
    intro j hj
    obtain ⟨f1, f2⟩ : (s j).f2 < M ∧ ((s j).f2 : ℚ) + q - 1 ≤ M := by
      have h1 := hmx' j hj
      have h2 := (F j hj).p7
      have h3 := (F j hj).n4
      have h4 : ((s j).g : ℚ) ≤ M := by exact_mod_cast h1
      exact ⟨by omega, by linarith⟩
    have n1 := (F j hj).n1
    have n2 := (F j hj).n2
    have w1 := c1 j hj
    have w2 := c2 j hj
    have w3 := c3 j hj
    have q0 := (F j hj).p6
    have q1 := (F j hj).p5
    have hb2 : (s j).b2 < r1 := lt_of (by linarith)
    obtain ⟨k', g1, g2, g3⟩ := store_fits (dt := dt) (w := enc.waccFl) (a := (s j).b2) (b := (s j).f2) (c := r1) (n := n)
      (hits := fun i => (if i = (s j).b2 then [(SynKind.ge, enc.waccFl)] else []) ++ (if i = (s j).f2 then [(SynKind.ge, -enc.waccFl)] else []) ++
        (if i = r1 then [(SynKind.ge, enc.waccFl)] else []))
      G (by omega) (by omega) hb2 (by omega) (by linarith) (by linarith) (fun _ => rfl)
    obtain ⟨o2, o2i, o2j, o2l, o2u⟩ := arrives (j := r1 + k') (D := tsynFl) hdt dpos (by rw [d1]; push_cast; linarith)
    rw [d1] at o2l o2u
    push_cast at o2l o2u
    obtain ⟨y, yi, yj, yl, yu⟩ := arrives (j := o2) (D := tsynFl) hdt dpos (by rw [d1]; linarith)
    rw [d1] at yl yu
    have W3 : (y : ℚ) ≤ X jm + 2 * n + 9 * q + 30 := by linarith
    have W4 : y ≤ 2 ^ 49 := by
      have : (y : ℚ) ≤ 2 ^ 49 := by linarith
      exact_mod_cast this
    refine ⟨⟨k', o2, y⟩, g1, o2i, yi, lt_of (by linarith), lt_of (by linarith), by dsimp only; omega, yj, W4, ?_, by dsimp only; linarith, by dsimp only; linarith⟩
    refine enough_steps (by dsimp only; omega) ?_
    rw [le_div_iff₀ hdt]
    have h1 := mul_le_mul_of_nonneg_right W3 hdt.le
    have h2 : (X jm + 2 * n + 9 * q + 30) * dt.val = X jm * dt.val + 2 * (n * dt.val) + 9 * (q * dt.val) + 30 * dt.val := by ring
    rw [h2, xm, nm, qm] at h1
    have := hT jm hjm
    dsimp only
    linarith
  choose! z Z1 Z2 Z3 Z4 Z5 Z6 Z7 Z8 Z9 Z10 Z11 using back
  have M0 : 0 < M := by have := (F jm hjm).p7; omega
  have Mx : M < x := by omega
  -- the spikes of all neurons
  obtain ⟨LS, hLS⟩ : ∃ LS : ℕ → List ℕ, LS = fun m => if m = 0 then [M] else if (m - 1) / 10 < N then
    (chSpikes (s ((m - 1) / 10)) r0 r1 o1 x (z ((m - 1) / 10)).k (z ((m - 1) / 10)).o2 (z ((m - 1) / 10)).y).getD ((m - 1) % 10) [] else [] := ⟨_, rfl⟩
  have L0 : LS 0 = [M] := by rw [hLS]; rfl
  have Lc : ∀ j < N, ∀ o < 10, LS (1 + 10 * j + o) = (chSpikes (s j) r0 r1 o1 x (z j).k (z j).o2 (z j).y).getD o [] := by
    intro j hj o ho
    rw [hLS]
    dsimp only
    rw [if_neg (by omega), show (1 + 10 * j + o - 1) / 10 = j by omega, show (1 + 10 * j + o - 1) % 10 = o by omega, if_pos hj]
  have Lz : ∀ m, 1 + 10 * N ≤ m → LS m = [] := by
    intro m hm
    rw [hLS]
    dsimp only
    rw [if_neg (by omega), if_neg (by omega)]
  have split : ∀ m, m < 1 + 10 * N → m = 0 ∨ ∃ j < N, ∃ o < 10, m = 1 + 10 * j + o := fun m hm => by
    rcases Nat.eq_zero_or_pos m with h | h
    · exact .inl h
    · exact .inr ⟨(m - 1) / 10, by omega, (m - 1) % 10, by omega, by omega⟩
  have chan : ∀ j < N, ∀ o < 10, (chSpikes (s j) r0 r1 o1 x (z j).k (z j).o2 (z j).y).getD o [] |>.Pairwise (· < ·) := by
    intro j hj o ho
    have := (F j hj).p1
    have := Z4 j hj
    have := Z5 j hj
    unfold chSpikes
    interval_cases o <;> simp <;> assumption
  have bounds : ∀ j < N, ∀ o < 10, ∀ i ∈ (chSpikes (s j) r0 r1 o1 x (z j).k (z j).o2 (z j).y).getD o [], 1 ≤ i ∧ i ≤ numStepsFl T dt := by
    intro j hj o ho i hi
    have f1 := (F j hj).p0
    have f2 := (F j hj).p1
    have f3 := (F j hj).p2
    have f4 := (F j hj).p3
    have f5 := (F j hj).p4
    have f6 := (F j hj).p5
    have f7 := (F j hj).p6
    have f8 := (F j hj).p7
    have f9 := hmx' j hj
    have y1 := Z4 j hj
    have y2 := Z5 j hj
    have y3 := Z6 j hj
    have y4 := Z7 j hj
    have y5 := Z9 j hj
    have b0 : (s j).b0 ≤ (s j).b1 := by exact_mod_cast (F j hj).n5
    have b2 : (s j).b2 < r1 := by
      have g1 := (F j hj).n2
      have g2 := (F j hj).n4
      have g3 : ((s j).g : ℚ) ≤ M := by exact_mod_cast f9
      have := c2 j hj
      exact lt_of (by linarith)
    unfold chSpikes at hi
    interval_cases o <;> simp at hi <;> omega
  have hpar : ∀ m ∈ ns, w.par m = stdFl := fun m hm => par_all hstd ((hmem m).mp hm)
  have h10 : stdFl.tm ≠ 0 := by decide +kernel
  have h20 : stdFl.tf ≠ 0 := by decide +kernel
  have wf : WellFormed (w.net ns) :=
    ⟨fun a ha => (hmem _).mpr (B.syn_bd a (by simpa [World.net] using ha)).2, fun a ha => B.kinds a (by simpa [World.net] using ha),
      fun m hm => by rw [show (w.net ns).par m = stdFl from hpar m hm]; exact h10,
      fun m hm => by rw [show (w.net ns).par m = stdFl from hpar m hm]; exact h20,
      fun m hm => by rw [show (w.net ns).par m = stdFl from hpar m hm]; exact lt0⟩
  obtain ⟨st, s1, s2⟩ := session_run H hord hdt hns wf (cs := valueCalls (List.range N) v t) (enc := enc) (by
      intro c hc
      obtain ⟨j, hj, rfl⟩ := List.mem_map.mp hc
      have := hv j (List.mem_range.mp hj)
      exact ⟨by rw [Fl.le_iff, Fl.val_zero]; exact this.1, by rw [Fl.le_iff, Fl.val_one]; exact this.2⟩)
    (LS := LS) hpar (by
      intro m
      by_cases hm : m < 1 + 10 * N
      · rcases split m hm with rfl | ⟨j, hj, o, ho, rfl⟩
        · rw [L0]; exact List.pairwise_singleton _ _
        · rw [Lc j hj o ho]; exact chan j hj o ho
      · rw [Lz m (by omega)]; exact .nil)
    (fun m hm => Lz m (by rw [hmem, hlen] at hm; omega)) (by
      intro m hm
      rw [hmem, hlen] at hm
      rcases split m hm with rfl | ⟨j, hj, o, ho, rfl⟩
      · rw [L0]
        refine FitsR.perm (hits' := fun i => List.replicate (((List.range N).map fun j => (s j).g).count i) (.V, syncWFl N))
          (FitsR.gather (A := (List.range N).map fun j => (s j).g) ?_ ?_ ?_ ?_ ?_ fun _ => rfl) ?_
        · rw [List.mem_map]; exact ⟨jm, List.mem_range.mpr hjm, hM.symm⟩
        · intro a ha
          obtain ⟨j, hj, rfl⟩ := List.mem_map.mp ha
          exact hmx' j (List.mem_range.mp hj)
        · intro a ha
          obtain ⟨j, hj, rfl⟩ := List.mem_map.mp ha
          have := (F j (List.mem_range.mp hj)).p7
          omega
        · intro m hm
          rw [List.length_map, List.length_range] at hm
          exact sync_low hN hm
        · rw [List.length_map, List.length_range]
          exact sync_full_fl hN1 hN
        · intro i
          rw [hits_eq rfl i]
          refine List.Perm.trans (List.Perm.flatMap_right (l₂ := (List.range N).map fun j => ⟨1 + 10 * j + 8, 0, syncWFl N, tsynFl, .V⟩) _ ?_) (.of_eq ?_)
          · show ((w.syns.reverse).filter _).Perm _
            rw [hsyns]
            exact ((List.reverse_perm _).filter _).trans (postFl_sync enc N N)
          · refine gather_hits (g := fun j => (s j).g) i fun j hj => ?_
            exact contrib_one (value_inj_off enc (List.range N) v t fun i _ => by omega) (Lc j hj 8 (by norm_num)) (F j hj).i7 i
      · refine chan_fits (N := N) (F j hj) (M := M) (fun o ho => ?_) (by omega) L0 (Lc j hj) (value_inj_off enc (List.range N) v t fun i _ => by omega) (value_inj_at enc List.nodup_range v t (List.mem_range.mpr hj))
          (fun o ho h0 => value_inj_off enc (List.range N) v t fun i _ => by omega) r0i r1i o1i xi (Z2 j hj) (Z3 j hj) (by omega) (by omega) (Z4 j hj) (by omega) (Z5 j hj) (Z1 j hj) o ho
        show ((w.syns.reverse).filter _) = _
        rw [hsyns, List.filter_reverse, postFl_chan enc N (by norm_num) N j o hj ho, List.filter_reverse]) T (by
      intro m i hi
      by_cases hm : m < 1 + 10 * N
      · rcases split m hm with rfl | ⟨j, hj, o, ho, rfl⟩
        · rw [L0, List.mem_singleton] at hi
          have := Z9 jm hjm
          have := Z5 jm hjm
          omega
        · rw [Lc j hj o ho] at hi
          exact bounds j hj o ho i hi
      · rw [Lz m (by omega)] at hi; cases hi)
  have log : ∀ m, m < 1 + 10 * N → (∀ j < N, 1 + 10 * j ≠ m) → st.spikeLog m = some ((LS m).map fun i : ℕ => (i : Double) * dt) := by
    intro m hm hm'
    rw [s2 m ((hmem m).mpr (by omega)), injTimes, value_inj_off enc (List.range N) v t fun j hj => hm' j (List.mem_range.mp hj)]
    rfl
  refine ⟨st, s1, M, x, by rw [log 0 (by omega) (fun j _ => by omega), L0]; rfl, fun j hj => ⟨⟨(s j).f2, ?_, ?_⟩, (z j).y, Mx, Z5 j hj, ?_, ?_⟩⟩
  · have := (F j hj).p7
    have := hmx' j hj
    omega
  · rw [getm _ j hj, log _ (by omega) (fun i _ => by omega), Lc j hj 8 (by norm_num)]; rfl
  · rw [getm _ j hj, log _ (by omega) (fun i _ => by omega), Lc j hj 1 (by norm_num)]; rfl
  · have hp0 : 0 ≤ (v j).val * enc.Tcod.val := mul_nonneg (hv j hj).1 hC.le
    have W1 := Z10 j hj
    have W2 := Z11 j hj
    have e2 := c2 j hj
    have ej := em j
    have hx49 : x ≤ 2 ^ 49 := by have := Z8 j hj; have := Z5 j hj; omega
    have hvm : (v j).val * enc.Tcod.val ≤ 2 ^ 24 * dt.val := by
      have h1 := mul_le_mul_of_nonneg_right e2 hdt.le
      rw [ej, add_mul, nm] at h1
      linarith
    have key := decoded (e := enc) (dt := dt) (v := (v j).val) (a := x) (b := (z j).y) (δ := 37 / 2) hT0 hC hmax hdt (by
      have : 0 ≤ 2 ^ 24 * dt.val := by positivity
      linarith) hvm hx49 (Z8 j hj) (by norm_num) (by
      rw [← ej, ← sub_mul, abs_mul, abs_of_pos hdt]
      refine mul_le_mul_of_nonneg_right ?_ hdt.le
      rw [abs_le]; constructor <;> linarith)
    exact key.trans (div_le_div_of_nonneg_right (mul_le_mul_of_nonneg_right (show (37 / 2 + 5 / 16 : ℚ) ≤ 19 by norm_num) hdt.le) hC.le)


/-- A concrete case: three inputs, dt = 0.001. -/
example : ∃ st, sessionFl (sortedHeap _) (fun _ l => l) ⟨Fl.of 10, Fl.of 100⟩ (Fl.of (1 / 1000)) (Fl.of 600) (synchronizerFl ⟨Fl.of 10, Fl.of 100⟩ 3 none World.empty).2 0
      [.value (Fl.of (3 / 10)) 1 0, .value (Fl.of (3 / 10)) 11 (Fl.of 7), .value (Fl.of (3 / 10)) 21 (Fl.of 14)] = .ok st ∧
      ∃ x y : Double, st.spikeLog 12 = some [x, y] ∧ ∃ y', st.spikeLog 22 = some [x, y'] := by
  obtain ⟨st, h, M, x, -, h2⟩ := C114_synchronizer (sortedHeap _) id_setOrder (enc := ⟨Fl.of 10, Fl.of 100⟩) (dt := Fl.of (1 / 1000)) (by decide +kernel) (by decide +kernel)
    (by decide +kernel) (by decide +kernel) (by decide +kernel) none (N := 3) (by norm_num) (by norm_num) (v := fun _ => Fl.of (3 / 10)) (t := fun j => Fl.of (7 * j)) (T := Fl.of 600)
    (fun _ _ => ⟨by decide +kernel, by decide +kernel⟩) (fun j hj => by interval_cases j <;> exact ⟨by decide +kernel, by decide +kernel⟩) (fun j hj => by interval_cases j <;> decide +kernel)
  have e0 : (Fl.of (7 * (0 : ℕ)) : Double) = 0 := by decide +kernel
  have e1 : (Fl.of (7 * (1 : ℕ)) : Double) = Fl.of 7 := by decide +kernel
  have e2 : (Fl.of (7 * (2 : ℕ)) : Double) = Fl.of 14 := by decide +kernel
  refine ⟨st, ?_, (x : Double) * Fl.of (1 / 1000), ?_⟩
  · rw [← e0, ← e1, ← e2]; exact h
  · obtain ⟨-, y, -, -, a, -⟩ := h2 1 (by norm_num)
    obtain ⟨-, y', -, -, a', -⟩ := h2 2 (by norm_num)
    exact ⟨_, a, _, a'⟩

/-! ## A synchronizer that still waits -/

/-- The spikes of a channel that waits for its recall. -/
def waitSpikes (s : ChanSteps) : List (List ℕ) := [[], [], [s.a0, s.b0], [s.a1], [s.b1], [s.c + s.k], [], [], [s.f2], []]

theorem contrib_none {dt : Double} {inj : List (ℕ × Double)} {LS : ℕ → List ℕ} (s : Synapse Double) (h1 : (inj.filter fun q => q.1 = s.pre) = []) (h2 : LS s.pre = [])
    (i : ℕ) : contrib dt inj LS i s = [] := by
  unfold contrib
  rw [filter_pre s.pre (fun t => FirstAt dt 1 (t + s.delay) i), h1, h2]
  rfl

set_option maxHeartbeats 1000000 in
theorem wait_fits {enc : Encoder Double} {dt : Double} {N b : ℕ} {net : Net Double} {inj : List (ℕ × Double)} {LS : ℕ → List ℕ} {q n X e : ℚ} {t0 τ : Double} {s : ChanSteps}
    (F : ChanFront enc dt q n X e t0 τ s) (G : GoodSlope (slopeR stdFl dt (0 + enc.waccFl)) n) (he1 : 19 ≤ e) (he2 : e ≤ n + 1 / 16)
    (hsyn : ∀ o < 10, (net.syns.filter fun s => s.post = b + o) = (roundSynsFl enc N 0 b).reverse.filter fun s => s.post = b + o) (hb : 1 ≤ b)
    (hL0 : LS 0 = []) (hL : ∀ o < 10, LS (b + o) = (waitSpikes s).getD o [])
    (hi0 : (inj.filter fun q => q.1 = 0) = []) (hib : (inj.filter fun q => q.1 = b) = [(b, t0), (b, τ)]) (hio : ∀ o < 10, 0 < o → (inj.filter fun q => q.1 = b + o) = []) :
    ∀ o < 10, FitsR stdFl dt (hitsR net dt inj LS (b + o)) (LS (b + o)) := by
  intro o ho
  have p0 := F.p0
  have p1 := F.p1
  have p2 := F.p2
  have p3 := F.p3
  have p4 := F.p4
  have p5 := F.p5
  have p6 := F.p6
  have n1 := F.n1
  have n2 := F.n2
  have L0 : LS b = [] := hL 0 (by norm_num)
  have L1 : LS (b + 1) = [] := hL 1 (by norm_num)
  have L2 : LS (b + 2) = [s.a0, s.b0] := hL 2 (by norm_num)
  have L3 : LS (b + 3) = [s.a1] := hL 3 (by norm_num)
  have L4 : LS (b + 4) = [s.b1] := hL 4 (by norm_num)
  have L5 : LS (b + 5) = [s.c + s.k] := hL 5 (by norm_num)
  have L6 : LS (b + 6) = [] := hL 6 (by norm_num)
  have L7 : LS (b + 7) = [] := hL 7 (by norm_num)
  have L8 : LS (b + 8) = [s.f2] := hL 8 (by norm_num)
  have L9 : LS (b + 9) = [] := hL 9 (by norm_num)
  have hin : ALI dt tsynFl [t0, τ] [s.a0, s.b0] := .cons F.i0 (.cons F.i1 .nil)
  have hab1 : AL dt tsynFl [s.a0, s.b0] [s.a1, s.b1] := .cons F.i2 (.cons F.i3 .nil)
  have hz' : 0 ≠ b := by omega
  have S := hsyn o ho
  interval_cases o
  · rw [hL 0 (by norm_num)]
    exact FitsR.silent fun i => hits_eq (l := []) (S.trans (by simp [roundSynsFl, hz'])) i
  · rw [L1]
    refine FitsR.silent fun i => (hits_eq (l := [⟨b + 9, b + 1, weFl, tsynFl, .V⟩]) (S.trans (by simp [roundSynsFl])) i).trans ?_
    rw [List.flatMap_cons, List.flatMap_nil, contrib_none _ (hio 9 (by norm_num) (by norm_num)) L9]; rfl
  · rw [L2]
    exact fits_vs (l := [⟨b, b + 2, weFl, tsynFl, .V⟩]) (S.trans (by simp [roundSynsFl]))
      (.cons ⟨rfl, w_full, hin.brings L0 hib⟩ .nil) (evl_small (by simp)) (by simp) (relay_fires p0 p1)
  · rw [L3]
    exact fits_vs (l := [⟨b + 2, b + 3, weFl, tsynFl, .V⟩, ⟨b + 3, b + 3, wiFl, tsynFl, .V⟩]) (S.trans (by simp [roundSynsFl]))
      (.cons ⟨rfl, w_full, hab1.brings (hio 2 (by norm_num) (by norm_num)) L2⟩ (.cons ⟨rfl, w_neg, F.i4.al.brings (hio 3 (by norm_num) (by norm_num)) L3⟩ .nil))
      (evl_small (by simp)) (by simp) (first_fires (by omega) p3 p4)
  · rw [L4]
    exact fits_vs (l := [⟨b + 2, b + 4, Fl.of (1 / 2) * weFl, tsynFl, .V⟩]) (S.trans (by simp [roundSynsFl]))
      (.cons ⟨rfl, w_half, hab1.brings (hio 2 (by norm_num) (by norm_num)) L2⟩ .nil) (evl_small (by simp)) (by simp) (second_fires (by omega) (p3.trans p4))
  · rw [L5]
    refine FitsR.ramp (a := s.c) (k := s.k) (w := enc.waccFl) (by omega) (fun i => ?_) F.ramp1 F.ramp2
    rw [hits_eq (l := [⟨b + 3, b + 5, enc.waccFl, tsynFl, .ge⟩]) (S.trans (by simp [roundSynsFl])) i]
    rw [List.flatMap_cons, List.flatMap_nil, contrib_one (hio 3 (by norm_num) (by norm_num)) L3 F.i4, List.append_nil]
  · rw [L6]
    refine hold_fits (a := s.b2) (b := s.f2) (n := n) G (by omega) (by omega) (by linarith) (by linarith) fun i => ?_
    rw [hits_eq (l := [⟨b + 4, b + 6, enc.waccFl, Fl.of 2 * tsynFl, .ge⟩, ⟨b + 5, b + 6, -enc.waccFl, tsynFl, .ge⟩, ⟨b + 7, b + 6, enc.waccFl, tsynFl, .ge⟩]) (S.trans (by simp [roundSynsFl])) i]
    rw [List.flatMap_cons, List.flatMap_cons, List.flatMap_cons, List.flatMap_nil, contrib_one (hio 4 (by norm_num) (by norm_num)) L4 F.i5,
      contrib_one (hio 5 (by norm_num) (by norm_num)) L5 F.i6, contrib_none _ (hio 7 (by norm_num) (by norm_num)) L7, List.append_nil, List.append_nil]
  · rw [L7]
    refine FitsR.silent fun i => (hits_eq (l := [⟨0, b + 7, weFl, tsynFl, .V⟩]) (S.trans (by simp [roundSynsFl])) i).trans ?_
    rw [List.flatMap_cons, List.flatMap_nil, contrib_none _ hi0 hL0]; rfl
  · rw [L8]
    exact fits_vs (l := [⟨b + 5, b + 8, weFl, tsynFl, .V⟩]) (S.trans (by simp [roundSynsFl]))
      (.cons ⟨rfl, w_full, F.i6.al.brings (hio 5 (by norm_num) (by norm_num)) L5⟩ .nil) (evl_small (by simp)) (by simp) (one_fires (by omega))
  · rw [L9]
    refine FitsR.silent fun i => (hits_eq (l := [⟨b + 7, b + 9, weFl, Fl.of 2 * tsynFl, .V⟩, ⟨b + 6, b + 9, weFl, tsynFl, .V⟩]) (S.trans (by simp [roundSynsFl])) i).trans ?_
    rw [List.flatMap_cons, List.flatMap_cons, List.flatMap_nil, contrib_none _ (hio 7 (by norm_num) (by norm_num)) L7, contrib_none _ (hio 6 (by norm_num) (by norm_num)) L6]; rfl

theorem gather_hits_act {dt : Double} {inj : List (ℕ × Double)} {LS : ℕ → List ℕ} {W : Double} {g : ℕ → ℕ} {act : ℕ → Bool} {N : ℕ} (i : ℕ)
    (h : ∀ j < N, contrib dt inj LS i ⟨1 + 10 * j + 8, 0, W, tsynFl, .V⟩ = if act j then (if i = g j then [(.V, W)] else []) else []) :
    ((List.range N).map (fun j => (⟨1 + 10 * j + 8, 0, W, tsynFl, .V⟩ : Synapse Double))).flatMap (contrib dt inj LS i) =
      List.replicate ((((List.range N).filter act).map g).count i) (.V, W) := by
  induction N with
  | zero => rfl
  | succ N ih =>
    rw [List.range_succ, List.map_append, List.filter_append, List.map_append, List.flatMap_append, ih (fun j hj => h j (by omega)), List.count_append, List.replicate_add]
    congr 1
    rw [List.map_cons, List.map_nil, List.flatMap_cons, List.flatMap_nil, List.append_nil, h N (by omega)]
    by_cases a : act N
    · by_cases e : i = g N
      · simp [a, e]
      · simp [a, e, Ne.symm e]
    · simp [a]

set_option maxHeartbeats 4000000 in
/-- **C114 (waits for all).** In Python floats: as long as one of the (up to 316) inputs of a `SynchronizerNetwork` got no value, `sync` and all the outputs stay silent. -/
theorem C114_waits_for_all (H : EventHeap Double) {ord : ℕ → List ℕ → List ℕ} (hord : SetOrder ord) {enc : Encoder Double} {dt : Double}
    (hdt : 0 < dt.val) (hdt1 : 5 * dt.val ≤ 1) (hC : 0 < enc.Tcod.val) (hmin : 1 + 19 * dt.val ≤ enc.Tmin.val) (hmax : enc.Tmax.val ≤ 2 ^ 24 * dt.val)
    (name : Option String) {N : ℕ} (hN : N ≤ 316) (act : ℕ → Bool) (hact : ∃ j < N, act j = false) {v t : ℕ → Double} {T : Double}
    (hv : ∀ j < N, 0 ≤ (v j).val ∧ (v j).val ≤ 1)
    (ht : ∀ j < N, 0 ≤ (t j).val ∧ (t j).val ≤ 2 ^ 48 * dt.val) (hT : ∀ j < N, (t j).val + enc.Tmax.val + 4 + 13 * dt.val ≤ T.val) :
    let p := (synchronizerFl enc N name World.empty).1
    let w := (synchronizerFl enc N name World.empty).2
    ∃ st, sessionFl H ord enc dt T w p.mod (((List.range N).filter act).map fun j => .value (v j) (p.inputs.getD j 0) (t j)) = .ok st ∧
      st.spikeLog p.sync = some [] ∧ ∀ j < N, st.spikeLog (p.outputs.getD j 0) = some [] := by
  intro p w
  obtain ⟨B, hlen, hstd, hsyns, pm, ps, pin, pout, prd⟩ := syncFl_spec enc N name
  change BlockOK w at B
  change w.neus.length = _ at hlen
  change ∀ o ∈ w.neus, _ at hstd
  change w.syns = _ at hsyns
  change p.mod = 0 at pm
  change p.sync = 0 at ps
  change p.inputs = _ at pin
  change p.outputs = _ at pout
  rw [pm, ps, pin, pout]
  clear prd
  clear_value p w
  have getm : ∀ (f : ℕ → ℕ), ∀ j < N, ((List.range N).map f).getD j 0 = f j := fun f j hj => by
    rw [List.getD_eq_getElem?_getD, List.getElem?_map, List.getElem?_range hj]; rfl
  obtain ⟨l, hl⟩ : ∃ l, l = (List.range N).filter act := ⟨_, rfl⟩
  have hlm : ∀ {j}, j ∈ l ↔ j < N ∧ act j = true := by intro j; rw [hl, List.mem_filter, List.mem_range]
  have hln : l.Nodup := by rw [hl]; exact List.nodup_range.filter _
  rw [← hl]
  have hcs : (l.map fun j => Call.value (v j) (((List.range N).map (fun j => 1 + 10 * j)).getD j 0) (t j)) = valueCalls l v t :=
    List.map_congr_left fun j hj => by rw [getm _ j (hlm.mp hj).1]
  rw [hcs]
  obtain ⟨ns, hns, hmem⟩ := blockFl_neurons B
  have hT0 : 0 ≤ enc.Tmin.val := by linarith
  have G := wacc_slope (enc := enc) hdt (by linarith [tmin_le (e := enc) hC.le]) hmax
  have range := fun j (hj : j < N) => chan_range (enc := enc) hdt hdt1 hC hmin hmax (hv j hj) (ht j hj)
  obtain ⟨q, hq⟩ : ∃ q, q = 1 / dt.val := ⟨_, rfl⟩
  obtain ⟨n, hn⟩ : ∃ q, q = enc.Tmax.val / dt.val := ⟨_, rfl⟩
  obtain ⟨X, hX⟩ : ∃ X : ℕ → ℚ, ∀ j, X j = (t j).val / dt.val := ⟨_, fun _ => rfl⟩
  obtain ⟨e, he⟩ : ∃ X : ℕ → ℚ, ∀ j, X j = (enc.Tmin.val + (v j).val * enc.Tcod.val) / dt.val := ⟨_, fun _ => rfl⟩
  have u0 : ∀ a : ℚ, a / dt.val * dt.val = a := fun a => div_mul_cancel₀ _ hdt.ne'
  have mv : ∀ a b : ℚ, a * dt.val ≤ b * dt.val → a ≤ b := fun a b h => le_of_mul_le_mul_right h hdt
  have qm : q * dt.val = 1 := by rw [hq, u0]
  have nm : n * dt.val = enc.Tmax.val := by rw [hn, u0]
  have xm : ∀ j, X j * dt.val = (t j).val := fun j => by rw [hX]; exact u0 _
  have hq1 : 5 ≤ q := mv _ _ (by linarith)
  have A7 : n ≤ 2 ^ 24 := mv _ _ (by linarith)
  rw [← hn] at G
  simp only [← hq, ← hn, ← hX, ← he] at range
  choose! c1 c2 c3 c4 s F using range
  obtain ⟨LS, hLS⟩ : ∃ LS : ℕ → List ℕ, LS = fun m => if m = 0 then [] else if (m - 1) / 10 ∈ l then
    (waitSpikes (s ((m - 1) / 10))).getD ((m - 1) % 10) [] else [] := ⟨_, rfl⟩
  have L0 : LS 0 = [] := by rw [hLS]; rfl
  have Lc : ∀ j ∈ l, ∀ o < 10, LS (1 + 10 * j + o) = (waitSpikes (s j)).getD o [] := by
    intro j hj o ho
    rw [hLS]
    dsimp only
    rw [if_neg (by omega), show (1 + 10 * j + o - 1) / 10 = j by omega, show (1 + 10 * j + o - 1) % 10 = o by omega, if_pos hj]
  have Lx : ∀ j, j ∉ l → ∀ o < 10, LS (1 + 10 * j + o) = [] := by
    intro j hj o ho
    rw [hLS]
    dsimp only
    rw [if_neg (by omega), show (1 + 10 * j + o - 1) / 10 = j by omega, if_neg hj]
  have split : ∀ m, m = 0 ∨ ∃ j, ∃ o < 10, m = 1 + 10 * j + o := fun m => by
    rcases Nat.eq_zero_or_pos m with h | h
    · exact .inl h
    · exact .inr ⟨(m - 1) / 10, (m - 1) % 10, by omega, by omega⟩
  have chan : ∀ j ∈ l, ∀ o < 10, (waitSpikes (s j)).getD o [] |>.Pairwise (· < ·) := by
    intro j hj o ho
    have := (F j (hlm.mp hj).1).p1
    unfold waitSpikes
    interval_cases o <;> simp <;> assumption
  have bounds : ∀ j ∈ l, ∀ o < 10, ∀ i ∈ (waitSpikes (s j)).getD o [], 1 ≤ i ∧ i ≤ numStepsFl T dt := by
    intro j hj o ho i hi
    have hj := (hlm.mp hj).1
    have f1 := (F j hj).p0
    have f2 := (F j hj).p1
    have f3 := (F j hj).p2
    have f4 := (F j hj).p3
    have f5 := (F j hj).p4
    have f6 := (F j hj).p5
    have f7 := (F j hj).p6
    have n1 := (F j hj).n1
    have n2 := (F j hj).n2
    have n3 := (F j hj).n3
    have n4 := (F j hj).n4
    have d2 := c2 j hj
    have d4 := c4 j hj
    have d5 := c1 j hj
    have b0 : (s j).b0 ≤ (s j).b1 := by exact_mod_cast (F j hj).n5
    have W1 : (((s j).f2 + 2 : ℕ) : ℚ) ≤ X j + n + 4 * q + 25 / 2 := by push_cast; linarith
    have big : (2 : ℚ) ^ 48 + 20 * 2 ^ 24 + 100 ≤ 2 ^ 49 := by norm_num
    have W2 : (s j).f2 ≤ 2 ^ 49 := by
      have : ((s j).f2 : ℚ) ≤ 2 ^ 49 := by linarith
      exact_mod_cast this
    have W3 : (s j).f2 + 2 ≤ numStepsFl T dt := by
      refine enough_steps (by omega) ?_
      rw [le_div_iff₀ hdt]
      have h1 := mul_le_mul_of_nonneg_right W1 hdt.le
      have h2 : (X j + n + 4 * q + 25 / 2) * dt.val = X j * dt.val + n * dt.val + 4 * (q * dt.val) + 25 / 2 * dt.val := by ring
      rw [h2, xm, nm, qm] at h1
      have := hT j hj
      linarith
    have W5 : (s j).b1 ≤ (s j).f2 + 2 := by
      have := (F j hj).n6
      have h : ((s j).b1 : ℚ) ≤ (s j).f2 + 2 := by linarith
      exact_mod_cast h
    unfold waitSpikes at hi
    interval_cases o <;> simp at hi <;> omega
  have hpar : ∀ m ∈ ns, w.par m = stdFl := fun m hm => par_all hstd ((hmem m).mp hm)
  have h10 : stdFl.tm ≠ 0 := by decide +kernel
  have h20 : stdFl.tf ≠ 0 := by decide +kernel
  have wf : WellFormed (w.net ns) :=
    ⟨fun a ha => (hmem _).mpr (B.syn_bd a (by simpa [World.net] using ha)).2, fun a ha => B.kinds a (by simpa [World.net] using ha),
      fun m hm => by rw [show (w.net ns).par m = stdFl from hpar m hm]; exact h10,
      fun m hm => by rw [show (w.net ns).par m = stdFl from hpar m hm]; exact h20,
      fun m hm => by rw [show (w.net ns).par m = stdFl from hpar m hm]; exact lt0⟩
  have hsy : ∀ j < N, ∀ o < 10, ((w.net ns).syns.filter fun s => s.post = 1 + 10 * j + o) = (roundSynsFl enc N 0 (1 + 10 * j)).reverse.filter fun s => s.post = 1 + 10 * j + o := by
    intro j hj o ho
    show ((w.syns.reverse).filter _) = _
    rw [hsyns, List.filter_reverse, postFl_chan enc N (by norm_num) N j o hj ho, List.filter_reverse]
  obtain ⟨st, s1, s2⟩ := session_run H hord hdt hns wf (cs := valueCalls l v t) (enc := enc) (by
      intro c hc
      obtain ⟨j, hj, rfl⟩ := List.mem_map.mp hc
      have := hv j (hlm.mp hj).1
      exact ⟨by rw [Fl.le_iff, Fl.val_zero]; exact this.1, by rw [Fl.le_iff, Fl.val_one]; exact this.2⟩)
    (LS := LS) hpar (by
      intro m
      rcases split m with rfl | ⟨j, o, ho, rfl⟩
      · rw [L0]; exact .nil
      · by_cases hj : j ∈ l
        · rw [Lc j hj o ho]; exact chan j hj o ho
        · rw [Lx j hj o ho]; exact .nil)
    (fun m hm => by
      rw [hmem, hlen] at hm
      rcases split m with rfl | ⟨j, o, ho, rfl⟩
      · exact L0
      · exact Lx j (fun h => by have := (hlm.mp h).1; omega) o ho) (by
      intro m hm
      rw [hmem, hlen] at hm
      rcases split m with rfl | ⟨j, o, ho, rfl⟩
      · rw [L0]
        refine FitsR.perm (hits' := fun i => List.replicate ((l.map fun j => (s j).g).count i) (.V, syncWFl N))
          (FitsR.gather_few (A := l.map fun j => (s j).g) ?_ ?_ fun _ => rfl) ?_
        · intro a ha
          obtain ⟨j, hj, rfl⟩ := List.mem_map.mp ha
          have := (F j (hlm.mp hj).1).p7
          omega
        · intro m hm
          rw [List.length_map] at hm
          refine sync_low hN (hm.trans_lt ?_)
          obtain ⟨j0, h0, h0'⟩ := hact
          rw [hl]
          refine lt_of_le_of_ne ((List.length_filter_le _ _).trans (by rw [List.length_range])) fun h => ?_
          have := List.length_filter_eq_length_iff.mp (h.trans List.length_range.symm) j0 (List.mem_range.mpr h0)
          rw [h0'] at this; cases this
        · intro i
          rw [hits_eq rfl i]
          refine List.Perm.trans (List.Perm.flatMap_right (l₂ := (List.range N).map fun j => ⟨1 + 10 * j + 8, 0, syncWFl N, tsynFl, .V⟩) _ ?_) (.of_eq ?_)
          · show ((w.syns.reverse).filter _).Perm _
            rw [hsyns]
            exact ((List.reverse_perm _).filter _).trans (postFl_sync enc N N)
          · rw [hl]
            refine gather_hits_act (g := fun j => (s j).g) i fun j hj => ?_
            rw [← hl]
            by_cases ha : act j = true
            · rw [if_pos ha]
              exact contrib_one (value_inj_off enc l v t fun i _ => by omega) (Lc j (hlm.mpr ⟨hj, ha⟩) 8 (by norm_num)) (F j hj).i7 i
            · rw [if_neg ha]
              exact contrib_none _ (value_inj_off enc l v t fun i _ => by dsimp only; omega) (Lx j (fun h => ha (hlm.mp h).2) 8 (by norm_num)) i
      · have hj : j < N := by omega
        by_cases ha : j ∈ l
        · exact wait_fits (N := N) (F j hj) G (by linarith [c1 j hj]) (c2 j hj) (hsy j hj) (by omega) L0 (Lc j ha) (value_inj_off enc l v t fun i _ => by omega) (value_inj_at enc hln v t ha)
            (fun o ho h0 => value_inj_off enc l v t fun i _ => by omega) o ho
        · rw [Lx j ha o ho]
          refine FitsR.silent fun i => (hits_eq (hsy j hj o ho) i).trans (List.flatMap_eq_nil_iff.mpr fun a h => ?_)
          have := (roundSynsFl_post enc N 0 (1 + 10 * j) a (List.mem_reverse.mp (List.mem_filter.mp h).1)).1
          rcases this with e0 | ⟨e1, e2⟩
          · exact contrib_none _ (value_inj_off enc l v t fun i _ => by omega) (by rw [e0]; exact L0) i
          · obtain ⟨o', ho', e⟩ : ∃ o' < 10, a.pre = 1 + 10 * j + o' := ⟨a.pre - (1 + 10 * j), by omega, by omega⟩
            refine contrib_none _ (value_inj_off enc l v t fun i hi => ?_) (by rw [e]; exact Lx j ha o' ho') i
            have : i ≠ j := fun h => ha (h ▸ hi)
            omega) T (by
      intro m i hi
      rcases split m with rfl | ⟨j, o, ho, rfl⟩
      · rw [L0] at hi; cases hi
      · by_cases hj : j ∈ l
        · rw [Lc j hj o ho] at hi
          exact bounds j hj o ho i hi
        · rw [Lx j hj o ho] at hi; cases hi)
  have log : ∀ m, m < 1 + 10 * N → (∀ j, 1 + 10 * j ≠ m) → st.spikeLog m = some ((LS m).map fun i : ℕ => (i : Double) * dt) := by
    intro m hm hm'
    rw [s2 m ((hmem m).mpr (by omega)), injTimes, value_inj_off enc l v t fun j _ => hm' j]
    rfl
  refine ⟨st, s1, by rw [log 0 (by omega) (fun j => by omega), L0]; rfl, fun j hj => ?_⟩
  rw [getm _ j hj, log _ (by omega) (fun i => by omega)]
  by_cases ha : j ∈ l
  · rw [Lc j ha 1 (by norm_num)]; rfl
  · rw [Lx j ha 1 (by norm_num)]; rfl

/-- A concrete case: the second of three inputs is missing. -/
example : ∃ st, sessionFl (sortedHeap _) (fun _ l => l) ⟨Fl.of 10, Fl.of 100⟩ (Fl.of (1 / 1000)) (Fl.of 600) (synchronizerFl ⟨Fl.of 10, Fl.of 100⟩ 3 none World.empty).2 0
      [.value (Fl.of (3 / 10)) 1 0, .value (Fl.of (3 / 10)) 21 0] = .ok st ∧ st.spikeLog 0 = some [] ∧ st.spikeLog 22 = some [] := by
  obtain ⟨st, h, h1, h2⟩ := C114_waits_for_all (sortedHeap _) id_setOrder (enc := ⟨Fl.of 10, Fl.of 100⟩) (dt := Fl.of (1 / 1000)) (by decide +kernel) (by decide +kernel)
    (by decide +kernel) (by decide +kernel) (by decide +kernel) none (N := 3) (by norm_num) (fun j => j != 1) ⟨1, by norm_num, rfl⟩ (v := fun _ => Fl.of (3 / 10)) (t := fun _ => 0) (T := Fl.of 600)
    (fun _ _ => ⟨by decide +kernel, by decide +kernel⟩) (fun _ _ => ⟨by decide +kernel, by decide +kernel⟩) (fun _ _ => by decide +kernel)
  exact ⟨st, h, h1, h2 2 (by norm_num)⟩

/-- The float synapse `s` is the exact synapse `s'` up to `ε` in its weight. -/
def RoundsUpTo (ε : ℚ) (s : Synapse Double) (s' : Synapse ℚ) : Prop :=
  s.pre = s'.pre ∧ s.post = s'.post ∧ s.kind = s'.kind ∧ |s.weight.val - s'.weight| ≤ ε ∧ s.delay.val = fl 53 s'.delay

/-- **C114 (the same network).** The float network is that of `Verif/Model/Networks.lean` with every weight and delay rounded; the weights onto `sync`, which are computed in
two operations, are off by at most `40 · 2⁻⁵³`. -/
theorem C114_same_network (enc : Encoder Double) (hT : enc.Tmax.val = enc.Tmin.val + enc.Tcod.val) {N : ℕ} (hN : 1 ≤ N) (hN' : N ≤ 2 ^ 20) (name : Option String) :
    List.Forall₂ (fun s s' => Rounds s s' ∨ (s.post = (synchronizerFl enc N name World.empty).1.sync ∧ RoundsUpTo (40 / 2 ^ 53) s s'))
      (synchronizerFl enc N name World.empty).2.syns (synchronizerNetwork enc.exact N name World.empty).2.syns := by
  obtain ⟨-, -, -, h1, -, h0, -⟩ := syncFl_spec enc N name
  rw [h1, h0, (sync_spec enc.exact N name).2.1]
  have w1 : enc.waccFl.val = fl 53 (enc.exact.wacc) := by
    rw [Encoder.waccFl, Fl.val_div, d1000, hT]; congr 1; norm_num [Encoder.wacc, Encoder.Tmax, Encoder.exact, cVt, ctm]
  have w2 : (-enc.waccFl).val = fl 53 (-enc.exact.wacc) := by rw [fl_neg, ← w1]; rfl
  have c1 : (weFl : Double).val = fl 53 10 := by decide +kernel
  have c2 : (Fl.of (1 / 2) * weFl : Double).val = fl 53 (1 / 2 * 10) := by decide +kernel
  have c3 : (wiFl : Double).val = fl 53 (-10) := by decide +kernel
  have c4 : (tsynFl : Double).val = fl 53 1 := by decide +kernel
  have c5 : (Fl.of 2 * tsynFl : Double).val = fl 53 (2 * 1) := by decide +kernel
  have ws := syncW_near hN hN'
  have ws' : |(syncWFl N).val - syncW N| ≤ 40 / 2 ^ 53 := ws.trans (by norm_num)
  suffices h : ∀ k, List.Forall₂ (fun s s' => Rounds s s' ∨ (s.post = 0 ∧ RoundsUpTo (40 / 2 ^ 53) s s')) (chanSynsFl enc N 0 1 k) (chanSyns enc.exact N 0 1 k) from h N
  intro k
  induction k with
  | zero => exact .nil
  | succ k ih =>
    refine List.rel_append ?_ ih
    generalize 1 + 10 * k = b
    show List.Forall₂ _ (roundSynsFl enc N 0 b) ([⟨0, b + 7, 10, 1, .V⟩, ⟨b + 8, 0, syncW N, 1, .V⟩, ⟨b + 9, b + 1, 10, 1, .V⟩, ⟨b, b + 2, 10, 1, .V⟩,
      ⟨b + 2 + 3, b + 2 + 6, 10, 1, .V⟩, ⟨b + 2 + 4, b + 2 + 7, 10, 1, .V⟩, ⟨b + 2 + 5, b + 2 + 7, 10, 2 * 1, .V⟩, ⟨b + 2 + 5, b + 2 + 4, enc.exact.wacc, 1, .ge⟩,
      ⟨b + 2 + 3, b + 2 + 4, -enc.exact.wacc, 1, .ge⟩, ⟨b + 2 + 2, b + 2 + 4, enc.exact.wacc, 2 * 1, .ge⟩, ⟨b + 2 + 1, b + 2 + 3, enc.exact.wacc, 1, .ge⟩,
      ⟨b + 2 + 1, b + 2 + 1, -10, 1, .V⟩, ⟨b + 2 + 0, b + 2 + 2, 1 / 2 * 10, 1, .V⟩, ⟨b + 2 + 0, b + 2 + 1, 10, 1, .V⟩] : List (Synapse ℚ))
    simp only [roundSynsFl, List.forall₂_cons, Rounds, RoundsUpTo, w1, w2, c1, c2, c3, c4, c5, true_and, and_self, true_or, List.forall₂_nil_left_iff, and_true]
    exact .inr ws'

end Axon
