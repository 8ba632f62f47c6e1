import Verif.Proofs.PredBlocks

/-! # The subtractor inside larger networks, in the predictive simulator -/
set_option linter.unusedSectionVars false
namespace Axon
open Spec
variable {K : Type*} [Field K] [LinearOrder K] [IsStrictOrderedRing K] [FloorRing K]

/-- The synapses of the subtractor, in the order they are made. -/
def psubSyns (enc : Encoder K) : List (Synapse K) :=
    [⟨0, 2, 1 / 2 * 10, 1, .V⟩, ⟨1, 3, 1 / 2 * 10, 1, .V⟩, ⟨2, 4, 10, 1, .V⟩, ⟨3, 5, 10, 1, .V⟩, ⟨2, 5, -10, 1, .V⟩, ⟨3, 4, -10, 1, .V⟩,
     ⟨2, 6, 10, enc.Tmin + (3 * 1 + 2 * (1 / 100)), .V⟩, ⟨3, 7, 10, enc.Tmin + (3 * 1 + 2 * (1 / 100)), .V⟩,
     ⟨3, 6, 10, 3 * 1 + 2 * (1 / 100), .V⟩, ⟨2, 7, 10, 3 * 1 + 2 * (1 / 100), .V⟩, ⟨5, 7, 2 * -10, 1, .V⟩, ⟨4, 6, 2 * -10, 1, .V⟩,
     ⟨6, 5, 1 / 2 * 10, 1, .V⟩, ⟨7, 4, 1 / 2 * 10, 1, .V⟩, ⟨8, 8, 10, 1 / 100, .V⟩, ⟨2, 8, 1 / 2 * -10, 2 * (1 / 100), .V⟩,
     ⟨3, 8, 1 / 2 * -10, 2 * (1 / 100), .V⟩, ⟨2, 8, 1 / 2 * 10, 1 / 100, .V⟩, ⟨3, 8, 1 / 2 * 10, 1 / 100, .V⟩, ⟨8, 7, 2 * -10, 1 / 100, .V⟩,
     ⟨8, 5, -10, 1 / 100, .V⟩]

/-- The trains of a subtractor whose inputs spike at `a1, b1` and `a2, b2`; the missing ones are parameters. -/
def subLS (a1 b1 a2 b2 : K) (L4 L5 L6 L7 L8 : List K) (x : ℕ) : List K :=
  [[a1, b1], [a2, b2], [b1 + 1], [b2 + 1], L4, L5, L6, L7, L8].getD x []

variable {E : PEnv K} {enc : Encoder K} {a1 b1 a2 b2 : K}

theorem sub_front (hs : Sane E.exp E.dt) (e3 : E.net.syns = psubSyns enc) (e4 : ∀ x < 9, E.net.par x = stdPar) (hb1 : a1 < b1) (hb2 : a2 < b2)
    (L4 L5 L6 L7 L8 : List K) (x : ℕ) (hx : x < 4) :
    Fits E [(0, a1), (0, b1), (1, a2), (1, b2)] (subLS a1 b1 a2 b2 L4 L5 L6 L7 L8) x := by
  unfold psubSyns at e3
  have hp := e4 x (by omega)
  interval_cases x
  · exact Fits.pair hp hs hb1 (by simp [arriving, e3, e4, stdPar, subLS]) rfl
  · exact Fits.pair hp hs hb2 (by simp [arriving, e3, e4, stdPar, subLS]) rfl
  · exact Fits.last hp hs (a := a1 + 1) (b := b1 + 1) (by linarith) (by arr_tac2 e3 subLS) rfl
  · exact Fits.last hp hs (a := a2 + 1) (b := b2 + 1) (by linarith) (by arr_tac2 e3 subLS) rfl

set_option maxHeartbeats 4000000 in
/-- The first value is clearly larger. -/
theorem sub_fits_plus (h1 : 1 ≤ enc.Tmin) (hs : Sane E.exp E.dt) (e3 : E.net.syns = psubSyns enc) (e4 : ∀ x < 9, E.net.par x = stdPar) (hb1 : a1 < b1) (hb2 : a2 < b2)
    (h : 1 / 100 ≤ b1 - b2) (x : ℕ) (hx : x < 9) :
    Fits E [(0, a1), (0, b1), (1, a2), (1, b2)] (subLS a1 b1 a2 b2 [] ([b2 + 2]) ([b2 + 402 / 100, b1 + enc.Tmin + 402 / 100]) [] []) x := by
  by_cases hx4 : x < 4
  · exact sub_front hs e3 e4 hb1 hb2 _ _ _ _ _ x hx4
  obtain ⟨lo, u1, u2⟩ : ∃ lo, lo < b1 ∧ lo < b2 := ⟨min b1 b2 - 1, by linarith [min_le_left b1 b2], by linarith [min_le_right b1 b2]⟩
  unfold psubSyns at e3
  have hp := e4 x hx
  generalize enc.Tmin = Tm at *
  have hx' : x = 4 ∨ x = 5 ∨ x = 6 ∨ x = 7 ∨ x = 8 := by omega
  rcases hx' with rfl | rfl | rfl | rfl | rfl
  · exact Fits.sums hp hs [(b1 + 2, 10), (b2 + 2, -10)] lo
      (by simp only [List.mem_cons, List.not_mem_nil, or_false, forall_eq_or_imp, forall_eq]; repeat' (first | linarith | apply And.intro)) (by arr_tac2 e3 subLS)
      (by simp only [subLS, List.getD_cons_succ, List.getD_cons_zero]; vok_tac)
  · exact Fits.sums hp hs [(b2 + 2, 10), (b1 + 2, -10), (b2 + 402 / 100 + 1, 5), (b1 + Tm + 402 / 100 + 1, 5)] lo
      (by simp only [List.mem_cons, List.not_mem_nil, or_false, forall_eq_or_imp, forall_eq]; repeat' (first | linarith | apply And.intro)) (by arr_tac2 e3 subLS)
      (by simp only [subLS, List.getD_cons_succ, List.getD_cons_zero]; vok_tac)
  · exact Fits.sums hp hs [(b1 + Tm + 402 / 100, 10), (b2 + 402 / 100, 10)] lo
      (by simp only [List.mem_cons, List.not_mem_nil, or_false, forall_eq_or_imp, forall_eq]; repeat' (first | linarith | apply And.intro)) (by arr_tac2 e3 subLS)
      (by simp only [subLS, List.getD_cons_succ, List.getD_cons_zero]; vok_tac)
  · exact Fits.sums hp hs [(b2 + Tm + 402 / 100, 10), (b1 + 402 / 100, 10), (b2 + 2 + 1, -20)] lo
      (by simp only [List.mem_cons, List.not_mem_nil, or_false, forall_eq_or_imp, forall_eq]; repeat' (first | linarith | apply And.intro)) (by arr_tac2 e3 subLS)
      (by simp only [subLS, List.getD_cons_succ, List.getD_cons_zero]; vok_tac)
  · exact Fits.sums hp hs [(b1 + 102 / 100, -5), (b2 + 102 / 100, -5), (b1 + 101 / 100, 5), (b2 + 101 / 100, 5)] lo
      (by simp only [List.mem_cons, List.not_mem_nil, or_false, forall_eq_or_imp, forall_eq]; repeat' (first | linarith | apply And.intro)) (by arr_tac2 e3 subLS)
      (by simp only [subLS, List.getD_cons_succ, List.getD_cons_zero]; vok_tac)

set_option maxHeartbeats 4000000 in
/-- The first value is equal or hardly larger. -/
theorem sub_fits_near (h1 : 1 ≤ enc.Tmin) (hs : Sane E.exp E.dt) (e3 : E.net.syns = psubSyns enc) (e4 : ∀ x < 9, E.net.par x = stdPar) (hb1 : a1 < b1) (hb2 : a2 < b2)
    (h : 0 ≤ b1 - b2) (h' : b1 - b2 < 1 / 100) (x : ℕ) (hx : x < 9) :
    Fits E [(0, a1), (0, b1), (1, a2), (1, b2)] (subLS a1 b1 a2 b2 [] [] ([b2 + 402 / 100, b1 + enc.Tmin + 402 / 100]) [] ([b1 + 101 / 100])) x := by
  by_cases hx4 : x < 4
  · exact sub_front hs e3 e4 hb1 hb2 _ _ _ _ _ x hx4
  obtain ⟨lo, u1, u2⟩ : ∃ lo, lo < b1 ∧ lo < b2 := ⟨min b1 b2 - 1, by linarith [min_le_left b1 b2], by linarith [min_le_right b1 b2]⟩
  unfold psubSyns at e3
  have hp := e4 x hx
  generalize enc.Tmin = Tm at *
  have hx' : x = 4 ∨ x = 5 ∨ x = 6 ∨ x = 7 ∨ x = 8 := by omega
  rcases hx' with rfl | rfl | rfl | rfl | rfl
  · exact Fits.sums hp hs [(b1 + 2, 10), (b2 + 2, -10)] lo
      (by simp only [List.mem_cons, List.not_mem_nil, or_false, forall_eq_or_imp, forall_eq]; repeat' (first | linarith | apply And.intro)) (by arr_tac2 e3 subLS)
      (by simp only [subLS, List.getD_cons_succ, List.getD_cons_zero]; vok_tac)
  · exact Fits.sums hp hs [(b2 + 2, 10), (b1 + 2, -10), (b2 + 402 / 100 + 1, 5), (b1 + Tm + 402 / 100 + 1, 5), (b1 + 101 / 100 + 1 / 100, -10)] lo
      (by simp only [List.mem_cons, List.not_mem_nil, or_false, forall_eq_or_imp, forall_eq]; repeat' (first | linarith | apply And.intro)) (by arr_tac2 e3 subLS)
      (by simp only [subLS, List.getD_cons_succ, List.getD_cons_zero]; vok_tac)
  · exact Fits.sums hp hs [(b1 + Tm + 402 / 100, 10), (b2 + 402 / 100, 10)] lo
      (by simp only [List.mem_cons, List.not_mem_nil, or_false, forall_eq_or_imp, forall_eq]; repeat' (first | linarith | apply And.intro)) (by arr_tac2 e3 subLS)
      (by simp only [subLS, List.getD_cons_succ, List.getD_cons_zero]; vok_tac)
  · exact Fits.sums hp hs [(b2 + Tm + 402 / 100, 10), (b1 + 402 / 100, 10), (b1 + 101 / 100 + 1 / 100, -20)] lo
      (by simp only [List.mem_cons, List.not_mem_nil, or_false, forall_eq_or_imp, forall_eq]; repeat' (first | linarith | apply And.intro)) (by arr_tac2 e3 subLS)
      (by simp only [subLS, List.getD_cons_succ, List.getD_cons_zero]; vok_tac)
  · exact Fits.sums hp hs [(b1 + 102 / 100, -5), (b2 + 102 / 100, -5), (b1 + 101 / 100, 5), (b2 + 101 / 100, 5), (b1 + 101 / 100 + 1 / 100, 10)] lo
      (by simp only [List.mem_cons, List.not_mem_nil, or_false, forall_eq_or_imp, forall_eq]; repeat' (first | linarith | apply And.intro)) (by arr_tac2 e3 subLS)
      (by simp only [subLS, List.getD_cons_succ, List.getD_cons_zero]; vok_tac)

set_option maxHeartbeats 4000000 in
/-- The second value is clearly larger. -/
theorem sub_fits_minus (h1 : 1 ≤ enc.Tmin) (hs : Sane E.exp E.dt) (e3 : E.net.syns = psubSyns enc) (e4 : ∀ x < 9, E.net.par x = stdPar) (hb1 : a1 < b1) (hb2 : a2 < b2)
    (h : 1 / 100 ≤ b2 - b1) (x : ℕ) (hx : x < 9) :
    Fits E [(0, a1), (0, b1), (1, a2), (1, b2)] (subLS a1 b1 a2 b2 ([b1 + 2]) [] [] ([b1 + 402 / 100, b2 + enc.Tmin + 402 / 100]) []) x := by
  by_cases hx4 : x < 4
  · exact sub_front hs e3 e4 hb1 hb2 _ _ _ _ _ x hx4
  obtain ⟨lo, u1, u2⟩ : ∃ lo, lo < b1 ∧ lo < b2 := ⟨min b1 b2 - 1, by linarith [min_le_left b1 b2], by linarith [min_le_right b1 b2]⟩
  unfold psubSyns at e3
  have hp := e4 x hx
  generalize enc.Tmin = Tm at *
  have hx' : x = 4 ∨ x = 5 ∨ x = 6 ∨ x = 7 ∨ x = 8 := by omega
  rcases hx' with rfl | rfl | rfl | rfl | rfl
  · exact Fits.sums hp hs [(b1 + 2, 10), (b2 + 2, -10), (b1 + 402 / 100 + 1, 5), (b2 + Tm + 402 / 100 + 1, 5)] lo
      (by simp only [List.mem_cons, List.not_mem_nil, or_false, forall_eq_or_imp, forall_eq]; repeat' (first | linarith | apply And.intro)) (by arr_tac2 e3 subLS)
      (by simp only [subLS, List.getD_cons_succ, List.getD_cons_zero]; vok_tac)
  · exact Fits.sums hp hs [(b2 + 2, 10), (b1 + 2, -10)] lo
      (by simp only [List.mem_cons, List.not_mem_nil, or_false, forall_eq_or_imp, forall_eq]; repeat' (first | linarith | apply And.intro)) (by arr_tac2 e3 subLS)
      (by simp only [subLS, List.getD_cons_succ, List.getD_cons_zero]; vok_tac)
  · exact Fits.sums hp hs [(b1 + Tm + 402 / 100, 10), (b2 + 402 / 100, 10), (b1 + 2 + 1, -20)] lo
      (by simp only [List.mem_cons, List.not_mem_nil, or_false, forall_eq_or_imp, forall_eq]; repeat' (first | linarith | apply And.intro)) (by arr_tac2 e3 subLS)
      (by simp only [subLS, List.getD_cons_succ, List.getD_cons_zero]; vok_tac)
  · exact Fits.sums hp hs [(b2 + Tm + 402 / 100, 10), (b1 + 402 / 100, 10)] lo
      (by simp only [List.mem_cons, List.not_mem_nil, or_false, forall_eq_or_imp, forall_eq]; repeat' (first | linarith | apply And.intro)) (by arr_tac2 e3 subLS)
      (by simp only [subLS, List.getD_cons_succ, List.getD_cons_zero]; vok_tac)
  · exact Fits.sums hp hs [(b1 + 102 / 100, -5), (b2 + 102 / 100, -5), (b1 + 101 / 100, 5), (b2 + 101 / 100, 5)] lo
      (by simp only [List.mem_cons, List.not_mem_nil, or_false, forall_eq_or_imp, forall_eq]; repeat' (first | linarith | apply And.intro)) (by arr_tac2 e3 subLS)
      (by simp only [subLS, List.getD_cons_succ, List.getD_cons_zero]; vok_tac)

set_option maxHeartbeats 4000000 in
/-- The second value is hardly larger. -/
theorem sub_fits_dead (h1 : 1 ≤ enc.Tmin) (hs : Sane E.exp E.dt) (e3 : E.net.syns = psubSyns enc) (e4 : ∀ x < 9, E.net.par x = stdPar) (hb1 : a1 < b1) (hb2 : a2 < b2)
    (h : 0 < b2 - b1) (h' : b2 - b1 < 1 / 100) (x : ℕ) (hx : x < 9) :
    Fits E [(0, a1), (0, b1), (1, a2), (1, b2)] (subLS a1 b1 a2 b2 ([b1 + 2]) [] [] [] ([b2 + 101 / 100])) x := by
  by_cases hx4 : x < 4
  · exact sub_front hs e3 e4 hb1 hb2 _ _ _ _ _ x hx4
  obtain ⟨lo, u1, u2⟩ : ∃ lo, lo < b1 ∧ lo < b2 := ⟨min b1 b2 - 1, by linarith [min_le_left b1 b2], by linarith [min_le_right b1 b2]⟩
  unfold psubSyns at e3
  have hp := e4 x hx
  generalize enc.Tmin = Tm at *
  have hx' : x = 4 ∨ x = 5 ∨ x = 6 ∨ x = 7 ∨ x = 8 := by omega
  rcases hx' with rfl | rfl | rfl | rfl | rfl
  · exact Fits.sums hp hs [(b1 + 2, 10), (b2 + 2, -10)] lo
      (by simp only [List.mem_cons, List.not_mem_nil, or_false, forall_eq_or_imp, forall_eq]; repeat' (first | linarith | apply And.intro)) (by arr_tac2 e3 subLS)
      (by simp only [subLS, List.getD_cons_succ, List.getD_cons_zero]; vok_tac)
  · exact Fits.sums hp hs [(b2 + 2, 10), (b1 + 2, -10), (b2 + 101 / 100 + 1 / 100, -10)] lo
      (by simp only [List.mem_cons, List.not_mem_nil, or_false, forall_eq_or_imp, forall_eq]; repeat' (first | linarith | apply And.intro)) (by arr_tac2 e3 subLS)
      (by simp only [subLS, List.getD_cons_succ, List.getD_cons_zero]; vok_tac)
  · exact Fits.sums hp hs [(b1 + Tm + 402 / 100, 10), (b2 + 402 / 100, 10), (b1 + 2 + 1, -20)] lo
      (by simp only [List.mem_cons, List.not_mem_nil, or_false, forall_eq_or_imp, forall_eq]; repeat' (first | linarith | apply And.intro)) (by arr_tac2 e3 subLS)
      (by simp only [subLS, List.getD_cons_succ, List.getD_cons_zero]; vok_tac)
  · exact Fits.sums hp hs [(b2 + Tm + 402 / 100, 10), (b1 + 402 / 100, 10), (b2 + 101 / 100 + 1 / 100, -20)] lo
      (by simp only [List.mem_cons, List.not_mem_nil, or_false, forall_eq_or_imp, forall_eq]; repeat' (first | linarith | apply And.intro)) (by arr_tac2 e3 subLS)
      (by simp only [subLS, List.getD_cons_succ, List.getD_cons_zero]; vok_tac)
  · exact Fits.sums hp hs [(b1 + 102 / 100, -5), (b2 + 102 / 100, -5), (b1 + 101 / 100, 5), (b2 + 101 / 100, 5), (b2 + 101 / 100 + 1 / 100, 10)] lo
      (by simp only [List.mem_cons, List.not_mem_nil, or_false, forall_eq_or_imp, forall_eq]; repeat' (first | linarith | apply And.intro)) (by arr_tac2 e3 subLS)
      (by simp only [subLS, List.getD_cons_succ, List.getD_cons_zero]; vok_tac)

end Axon
