import Verif.Proofs.PredBlocks
import Verif.Proofs.SyncBuild
import Verif.Props.Sync

/-! # The memory network inside larger networks, and gathering neurons, in the predictive simulator -/
set_option linter.unusedSectionVars false
namespace Axon
open Spec
variable {K : Type*} [Field K] [LinearOrder K] [IsStrictOrderedRing K] [FloorRing K]

theorem sumIn_const (c : ℕ → K) (w lo t : K) : ∀ l : List ℕ, sumIn (l.map (fun j => (c j, w))) lo t = (l.countP (fun j => decide (lo < c j ∧ c j ≤ t)) : K) * w
  | [] => by simp [sumIn]
  | j :: l => by
    have ih := sumIn_const c w lo t l
    unfold sumIn at ih ⊢
    rw [List.map_cons, List.map_cons, List.sum_cons, ih, List.countP_cons]
    by_cases h : lo < c j ∧ c j ≤ t
    · simp [h]; ring
    · simp [h]

/-- A neuron that needs all of `N` equal inputs spikes with the last of them. -/
theorem Fits.gather {E : PEnv K} {n : ℕ} {inj : List (ℕ × K)} {LS : ℕ → List K} (hp : E.net.par n = stdPar) (hs : Sane E.exp E.dt) {w M : K} {N : ℕ} {c : ℕ → K}
    (h1 : ((N - 1 : ℕ) : K) * w < 10) (h2 : 10 ≤ (N : K) * w) (hc : ∀ j < N, c j ≤ M) (hM : ∃ j < N, c j = M)
    (ha : ((List.range N).map (fun j => Item.hit (c j) .V w)).Perm (arriving E.net inj LS n)) (hL : LS n = [M]) : Fits E inj LS n := by
  obtain ⟨j0, hj0, hj0'⟩ := hM
  have hw : 0 < w := by
    by_contra h
    have := mul_nonpos_of_nonneg_of_nonpos (Nat.cast_nonneg (α := K) N) (not_lt.mp h)
    linarith
  obtain ⟨lo, hlo⟩ : ∃ lo, ∀ j < N, lo < c j := by
    obtain ⟨i, h, h'⟩ := Finset.exists_min_image (Finset.range N) c ⟨j0, by simpa using hj0⟩
    exact ⟨c i - 1, fun j hj => by have := h' j (by simpa using hj); linarith⟩
  refine Fits.sums hp hs ((List.range N).map (fun j => (c j, w))) lo ?_ ?_ ?_
  · intro p hp
    obtain ⟨j, hj, rfl⟩ := List.mem_map.mp hp
    exact hlo j (by simpa using hj)
  · rw [List.map_map]; exact ha
  · rw [hL]
    refine ⟨hj0' ▸ hlo j0 hj0, fun t ht => ?_, ?_, fun t => ?_⟩
    · rw [sumIn_const]
      have : (List.range N).countP (fun j => decide (lo < c j ∧ c j ≤ t)) ≤ N - 1 := by
        have h : (List.range N).countP (fun j => decide (lo < c j ∧ c j ≤ t)) < (List.range N).length := by
          rw [List.countP_eq_length_filter, List.length_filter_lt_length_iff_exists]
          exact ⟨j0, by simpa using hj0, by simp; intro _; linarith⟩
        rw [List.length_range] at h; omega
      refine lt_of_le_of_lt (mul_le_mul_of_nonneg_right (Nat.cast_le.mpr this) hw.le) h1
    · rw [sumIn_const]
      have : (List.range N).countP (fun j => decide (lo < c j ∧ c j ≤ M)) = N := by
        conv_rhs => rw [← List.length_range (n := N)]
        rw [List.countP_eq_length]
        intro j hj
        have hj : j < N := by simpa using hj
        simp [hlo j hj, hc j hj]
      rw [this]; exact h2
    · rw [sumIn_const]
      have : (List.range N).countP (fun j => decide (M < c j ∧ c j ≤ t)) = 0 := by
        rw [List.countP_eq_zero]
        intro j hj
        have hj : j < N := by simpa using hj
        have := hc j hj
        simp; intro h; linarith
      rw [this]; norm_num

/-- A neuron that needs all of `N` equal inputs and gets fewer does not spike. -/
theorem Fits.gather_none {E : PEnv K} {n : ℕ} {inj : List (ℕ × K)} {LS : ℕ → List K} (hp : E.net.par n = stdPar) (hs : Sane E.exp E.dt) {w : K} {l : List ℕ} {c : ℕ → K}
    (hw : 0 < w) (h1 : (l.length : K) * w < 10)
    (ha : (l.map (fun j => Item.hit (c j) .V w)).Perm (arriving E.net inj LS n)) (hL : LS n = []) : Fits E inj LS n := by
  obtain ⟨lo, hlo⟩ : ∃ lo, ∀ j ∈ l, lo < c j := by
    clear ha h1
    induction l with
    | nil => exact ⟨0, by simp⟩
    | cons i l ih =>
      obtain ⟨lo, h⟩ := ih
      refine ⟨min lo (c i - 1), fun j hj => ?_⟩
      rcases List.mem_cons.mp hj with rfl | hj
      · exact lt_of_le_of_lt (min_le_right _ _) (by linarith)
      · exact lt_of_le_of_lt (min_le_left _ _) (h j hj)
  refine Fits.sums hp hs (l.map (fun j => (c j, w))) lo ?_ ?_ ?_
  · intro p hp
    obtain ⟨j, hj, rfl⟩ := List.mem_map.mp hp
    exact hlo j hj
  · rw [List.map_map]; exact ha
  · rw [hL]
    intro t
    rw [sumIn_const]
    exact lt_of_le_of_lt (mul_le_mul_of_nonneg_right (Nat.cast_le.mpr List.countP_le_length) hw.le) h1

theorem arriving_ins (net : Net K) (inj : List (ℕ × K)) (LS : ℕ → List K) (n : ℕ) : arriving net inj LS n =
    (inj.filter (fun q => q.1 = n)).map (fun q => Item.hit q.2 .V (net.par n).Vt) ++
      (insOf net.syns n).flatMap (fun s => (LS s.pre).map (fun t => .hit (t + s.delay) s.kind s.weight)) := rfl

/-- The trains of a memory whose input spikes at `a`, `b` and that is recalled at the times `r`. -/
def memLS (a b ready : K) (L4 r L7 : List K) (x : ℕ) : List K := [[a, b], [a + 1], [b + 1], [ready + -1], L4, r, [ready], L7].getD x []

section
variable {E : PEnv K} {enc : Encoder K} {a b R v : K}

theorem memSyns_eq (enc : Encoder K) : memSyns enc = [⟨3, 6, 10, 1, .V⟩, ⟨4, 7, 10, 1, .V⟩, ⟨5, 7, 10, 2 * 1, .V⟩, ⟨5, 4, enc.wacc, 1, .ge⟩, ⟨3, 4, -enc.wacc, 1, .ge⟩,
    ⟨2, 4, enc.wacc, 2 * 1, .ge⟩, ⟨1, 3, enc.wacc, 1, .ge⟩, ⟨1, 1, -10, 1, .V⟩, ⟨0, 2, 1 / 2 * 10, 1, .V⟩, ⟨0, 1, 10, 1, .V⟩] := rfl

/-- A memory that stores a value and is recalled after that. -/
theorem mem_fits (h1 : 1 ≤ enc.Tmin) (h2 : 0 < enc.Tcod) (hs : Sane E.exp E.dt) (hd : E.dt ≤ 1) (h5 : enc.Tmax + 2 * E.dt ≤ 500)
    (e3 : E.net.syns = memSyns enc) (e4 : ∀ x < 8, E.net.par x = stdPar) (hv0 : 0 ≤ v) (hv1 : v ≤ 1) (hb : b = a + enc.Tmin + v * enc.Tcod)
    (hR : a + up E.dt enc.Tmax + 2 < R) {C : K} (hC : C = up E.dt (enc.Tmin + v * enc.Tcod - (up E.dt enc.Tmax - enc.Tmax))) (x : ℕ) (hx : x < 8) :
    Fits E [(0, a), (0, b), (5, R)] (memLS a b (a + up E.dt enc.Tmax + 3) [R + 1 + C] [R] [R + 2, R + 2 + C]) x := by
  have hdt := hs.pos
  have hTm : enc.Tmax = enc.Tmin + enc.Tcod := rfl
  have hI0 := mul_nonneg hv0 h2.le
  have hI1 : v * enc.Tcod ≤ 1 * enc.Tcod := mul_le_mul_of_nonneg_right hv1 h2.le
  have hA1 := le_up hdt enc.Tmax
  have hA2 := up_lt hdt enc.Tmax
  set A := up E.dt enc.Tmax with hAdef
  have hC1 := le_up hdt (enc.Tmin + v * enc.Tcod - (A - enc.Tmax))
  rw [← hC] at hC1
  have hT0 : 0 < enc.Tmax := by linarith
  have hw : enc.wacc * enc.Tmax = 1000 := by unfold Encoder.wacc; field_simp; norm_num
  rw [memSyns_eq] at e3
  have hp := e4 x hx
  interval_cases x
  · exact Fits.pair hp hs (a := a) (b := b) (by linarith) (by simp [arriving, e3, e4, stdPar]) rfl
  · exact Fits.first hp hs (a := a + 1) (b := b + 1) (by linarith) (by arr_tac2 e3 memLS) rfl
  · exact Fits.last hp hs (a := a + 1) (b := b + 1) (by linarith) (by arr_tac2 e3 memLS) rfl
  · refine Fits.acc hp hs (a := a + 2) (x := enc.Tmax) hT0 hw h5 (by arr_tac2 e3 memLS) ?_
    show [a + A + 3 + -1] = [a + 2 + A]
    congr 1; ring
  · refine Fits.store hp hs (a := b + 3) (b := a + A + 3) (r := R + 1) hw ?_ ?_ ?_ h5 (by arr_tac2 e3 memLS) ?_
    · linarith
    · linarith
    · linarith
    · show [R + 1 + C] = [R + 1 + up E.dt (enc.Tmax - (a + A + 3 - (b + 3)))]
      rw [hC]; congr 3; rw [hb]; ring
  · exact Fits.single hp hs (a := R) (by simp [arriving, e3, e4, stdPar]) rfl
  · exact Fits.single hp hs (a := a + A + 3) (by arr_tac2 e3 memLS) rfl
  · exact Fits.pair hp hs (a := R + 2) (b := R + 2 + C) (by linarith) (by arr_tac2 e3 memLS) rfl

/-- A memory that stores a value and is not recalled. -/
theorem mem_fits_stored (h1 : 1 ≤ enc.Tmin) (h2 : 0 < enc.Tcod) (hs : Sane E.exp E.dt) (hd : E.dt ≤ 1) (h5 : enc.Tmax + 2 * E.dt ≤ 500)
    (e3 : E.net.syns = memSyns enc) (e4 : ∀ x < 8, E.net.par x = stdPar) (hv0 : 0 ≤ v) (hv1 : v ≤ 1) (hb : b = a + enc.Tmin + v * enc.Tcod) (x : ℕ) (hx : x < 8) :
    Fits E [(0, a), (0, b)] (memLS a b (a + up E.dt enc.Tmax + 3) [] [] []) x := by
  have hdt := hs.pos
  have hTm : enc.Tmax = enc.Tmin + enc.Tcod := rfl
  have hI0 := mul_nonneg hv0 h2.le
  have hI1 : v * enc.Tcod ≤ 1 * enc.Tcod := mul_le_mul_of_nonneg_right hv1 h2.le
  have hA1 := le_up hdt enc.Tmax
  have hA2 := up_lt hdt enc.Tmax
  set A := up E.dt enc.Tmax with hAdef
  have hT0 : 0 < enc.Tmax := by linarith
  have hw : enc.wacc * enc.Tmax = 1000 := by unfold Encoder.wacc; field_simp; norm_num
  have hW0 : 0 < enc.wacc := by by_contra h; nlinarith
  rw [memSyns_eq] at e3
  have hp := e4 x hx
  interval_cases x
  · exact Fits.pair hp hs (a := a) (b := b) (by linarith) (by simp [arriving, e3, e4, stdPar]) rfl
  · exact Fits.first hp hs (a := a + 1) (b := b + 1) (by linarith) (by arr_tac2 e3 memLS) rfl
  · exact Fits.last hp hs (a := a + 1) (b := b + 1) (by linarith) (by arr_tac2 e3 memLS) rfl
  · refine Fits.acc hp hs (a := a + 2) (x := enc.Tmax) hT0 hw h5 (by arr_tac2 e3 memLS) ?_
    show [a + A + 3 + -1] = [a + 2 + A]
    congr 1; ring
  · have hlt : enc.wacc / 100 * (a + A + 3 - (b + 3)) < 10 := by
      have : enc.wacc / 100 * (a + A + 3 - (b + 3)) < enc.wacc / 100 * enc.Tmax := mul_lt_mul_of_pos_left (by linarith) (by positivity)
      have e : enc.wacc / 100 * enc.Tmax = 10 := by linear_combination hw / 100
      linarith
    rcases (show b + 3 ≤ a + A + 3 by linarith).lt_or_eq with hlt' | heq
    · refine Fits.of [⟨b + 3, [(.ge, enc.wacc)]⟩, ⟨a + A + 3, [(.ge, -enc.wacc)]⟩] (by simpa using hlt') (by simp) (by arr_tac2 e3 memLS) ?_
      refine quiet_next hp hs.pos hs.steps (V' := 0) (ge' := enc.wacc) (by simp [bumps, bump]) hW0.le (by simpa using hlt) ?_
      exact quiet_never hp hs.pos hs.steps (V' := enc.wacc / 100 * (a + A + 3 - (b + 3))) (ge' := 0) (by simp [bumps, bump]) hlt le_rfl Reacts.done
    · refine Fits.of [⟨b + 3, [(.ge, enc.wacc), (.ge, -enc.wacc)]⟩] (by simp) (by simp) (by rw [← heq]; arr_tac2 e3 memLS) ?_
      exact quiet_never hp hs.pos hs.steps (V' := 0) (ge' := 0) (by simp [bumps, bump]) (by norm_num) le_rfl Reacts.done
  · exact Fits.none (by simp [arriving, e3]) rfl
  · exact Fits.single hp hs (a := a + A + 3) (by arr_tac2 e3 memLS) rfl
  · exact Fits.none (by simp [arriving, e3, memLS]) rfl

end
end Axon
