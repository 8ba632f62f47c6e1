import Verif.Proofs.PredRamp
import Verif.Proofs.PredSubBlock
import Verif.Proofs.LinBuild

/-! # The linear combinator in the predictive simulator: accumulators to output rails -/
set_option linter.unusedSectionVars false
namespace Axon
open Spec
variable {K : Type*} [Field K] [LinearOrder K] [IsStrictOrderedRing K] [FloorRing K]

/-- The trains of the shared part of a linear combinator: `sync` spikes at `S`, the accumulators at `p`, `q` and `r`. -/
def coreLS (Tm A S p q r R C0 C1 : K) (L35 L36 L37 L38 L39 : List K) (x : ℕ) : List K :=
  [[p], [q], [r], [r], [q + 1, r + Tm + 1], [p + 1, r + Tm + 1], L37.map (· + 1), L38.map (· + 1), ((L37 ++ L38).take 1).map (· + 1), [S], [R + -1],
   [p + 2, r + Tm + 2], [R + 3, R + 3 + C0],
   [p + 3, r + Tm + 3], [p + 4], [r + Tm + 4], [p + A + 5], [R + 1 + C0], [R], [p + A + 6], [R + 2, R + 2 + C0],
   [q + 2, r + Tm + 2], [R + 3, R + 3 + C1],
   [q + 3, r + Tm + 3], [q + 4], [r + Tm + 4], [q + A + 5], [R + 1 + C1], [R], [q + A + 6], [R + 2, R + 2 + C1],
   [R + 4, R + 4 + C0], [R + 4, R + 4 + C1], [R + 4 + C0 + 1], [R + 4 + C1 + 1], L35, L36, L37, L38, L39].getD x []

theorem filter_inj' (k n : ℕ) (L : List K) : (L.map (fun t => (n, t))).filter (fun q => decide (q.1 = k)) = if n = k then L.map (fun t => (n, t)) else [] := by
  by_cases h : n = k
  · rw [if_pos h, List.filter_eq_self]; simp [h]
  · rw [if_neg h, List.filter_eq_nil_iff]; simp [h]

set_option maxHeartbeats 4000000 in
/-- From the accumulators to the output rails. -/
theorem lin_core_fits {E : PEnv K} {enc : Encoder K} (h1 : 1 ≤ enc.Tmin) (h2 : 0 < enc.Tcod) (hs : Sane E.exp E.dt) (hd : E.dt ≤ 1) (h5 : enc.Tmax + 2 * E.dt ≤ 500)
    (e3 : E.net.syns = linCore enc) (e4 : ∀ x < 40, E.net.par x = stdPar) {A S p q r R C0 C1 : K} (hA : A = up E.dt enc.Tmax)
    (hr : r = S + 1 + A) (hp0 : p ≤ r) (hp1 : r ≤ p + enc.Tcod) (hq0 : q ≤ r) (hq1 : r ≤ q + enc.Tcod) (hR : R = max p q + A + 8)
    (hC0 : C0 = up E.dt (enc.Tmin + (r - p) - (A - enc.Tmax))) (hC1 : C1 = up E.dt (enc.Tmin + (r - q) - (A - enc.Tmax)))
    (L35 L36 L37 L38 L39 : List K)
    (hsub : ∀ E' : PEnv K, Sane E'.exp E'.dt → E'.net.syns = psubSyns enc → (∀ x < 9, E'.net.par x = stdPar) → ∀ x < 9,
      Fits E' [(0, R + 4), (0, R + 4 + C0), (1, R + 4), (1, R + 4 + C1)] (subLS (R + 4) (R + 4 + C0) (R + 4) (R + 4 + C1) L35 L36 L37 L38 L39) x)
    (hout : (∃ a b, a + 1 ≤ b ∧ L37 = [a, b] ∧ L38 = []) ∨ (∃ a b, a + 1 ≤ b ∧ L37 = [] ∧ L38 = [a, b]) ∨ (L37 = [] ∧ L38 = []))
    (x : ℕ) (hx : x < 40) (x0 : x ≠ 0) (x1 : x ≠ 1) (x9 : x ≠ 9) : Fits E [] (coreLS enc.Tmin A S p q r R C0 C1 L35 L36 L37 L38 L39) x := by
  have hdt := hs.pos
  have hTm : enc.Tmax = enc.Tmin + enc.Tcod := rfl
  have hA1 := le_up hdt enc.Tmax
  have hA2 := up_lt hdt enc.Tmax
  rw [← hA] at hA1 hA2
  have hT0 : 0 < enc.Tmax := by linarith
  have hw : enc.wacc * enc.Tmax = 1000 := by unfold Encoder.wacc; field_simp; norm_num
  have hpR : p + A + 8 ≤ R := by have := le_max_left p q; linarith
  have hqR : q + A + 8 ≤ R := by have := le_max_right p q; linarith
  have c0 : 0 < C0 := by rw [hC0]; exact lt_of_lt_of_le (by linarith) (le_up hdt _)
  have c1 : 0 < C1 := by rw [hC1]; exact lt_of_lt_of_le (by linarith) (le_up hdt _)
  have hp := e4 x hx
  have hmem : ∀ (a : K), a ≤ r → r ≤ a + enc.Tcod → a + A + 8 ≤ R → ∀ (C : K), C = up E.dt (enc.Tmin + (r - a) - (A - enc.Tmax)) → ∀ k < 8,
      Fits (E.only (memSyns enc)) [(0, a + 3), (0, r + enc.Tmin + 3), (5, R)] (memLS (a + 3) (r + enc.Tmin + 3) (a + 3 + A + 3) [R + 1 + C] [R] [R + 2, R + 2 + C]) k := by
    intro a ha0 ha1 haR C hC k hk
    have e : (r - a) / enc.Tcod * enc.Tcod = r - a := by field_simp
    have := mem_fits (E := E.only (memSyns enc)) (a := a + 3) (b := r + enc.Tmin + 3) (R := R) (v := (r - a) / enc.Tcod) (C := C) h1 h2 hs hd h5 rfl (fun _ _ => rfl)
      (div_nonneg (by linarith) h2.le) ((div_le_one h2).mpr (by linarith)) (by rw [e]; ring)
      (by show a + 3 + up E.dt enc.Tmax + 2 < R; rw [← hA]; linarith)
      (by rw [e]; show C = up E.dt (enc.Tmin + (r - a) - (up E.dt enc.Tmax - enc.Tmax)); rw [← hA]; exact hC) k hk
    change Fits _ _ (memLS (a + 3) (r + enc.Tmin + 3) (a + 3 + up E.dt enc.Tmax + 3) _ _ _) k at this
    rw [← hA] at this
    exact this
  by_cases hx13 : 13 ≤ x ∧ x < 21
  · refine Fits.move (E' := E.only (memSyns enc)) (n' := x - 13) rfl rfl hp.symm ?_ ?_ (hmem p hp0 hp1 hpR C0 hC0 (x - 13) (by omega))
    · obtain ⟨u1, u2⟩ := hx13
      interval_cases x <;> simp [memLS, coreLS] <;> first | rfl | ring1 | (constructor <;> ring1) | skip
    · obtain ⟨u1, u2⟩ := hx13
      unfold linCore at e3
      rw [memSyns_eq]
      interval_cases x <;> (simp [arriving, PEnv.only, e3, coreLS, memLS, stdPar]) <;> try arr_finish
  by_cases hx23 : 23 ≤ x ∧ x < 31
  · refine Fits.move (E' := E.only (memSyns enc)) (n' := x - 23) rfl rfl hp.symm ?_ ?_ (hmem q hq0 hq1 hqR C1 hC1 (x - 23) (by omega))
    · obtain ⟨u1, u2⟩ := hx23
      interval_cases x <;> simp [memLS, coreLS] <;> first | rfl | ring1 | (constructor <;> ring1) | skip
    · obtain ⟨u1, u2⟩ := hx23
      unfold linCore at e3
      rw [memSyns_eq]
      interval_cases x <;> (simp [arriving, PEnv.only, e3, coreLS, memLS, stdPar]) <;> try arr_finish
  by_cases hx31 : 31 ≤ x ∧ x < 40
  · refine Fits.move (E' := E.only (psubSyns enc)) (n' := x - 31) rfl rfl hp.symm ?_ ?_ (hsub (E.only (psubSyns enc)) hs rfl (fun _ _ => rfl) (x - 31) (by omega))
    · obtain ⟨u1, u2⟩ := hx31
      interval_cases x <;> rfl
    · obtain ⟨u1, u2⟩ := hx31
      unfold linCore at e3
      unfold psubSyns
      interval_cases x <;> (simp [arriving, PEnv.only, e3, coreLS, subLS, stdPar, Function.comp_def]) <;>
        first | (arr_finish; done) |
          (simp only [← Multiset.coe_eq_coe, ← Multiset.coe_add, ← Multiset.cons_coe, ← Multiset.singleton_add, Multiset.coe_nil]; abel)
  unfold linCore at e3
  have hx' : x = 2 ∨ x = 3 ∨ x = 4 ∨ x = 5 ∨ x = 6 ∨ x = 7 ∨ x = 8 ∨ x = 10 ∨ x = 11 ∨ x = 12 ∨ x = 21 ∨ x = 22 := by omega
  rcases hx' with rfl | rfl | rfl | rfl | rfl | rfl | rfl | rfl | rfl | rfl | rfl | rfl
  · refine Fits.acc hp hs (a := S + 1) (x := enc.Tmax) hT0 hw h5 (by arr_tac2 e3 coreLS) ?_
    rw [← hA, ← hr]; rfl
  · refine Fits.acc hp hs (a := S + 1) (x := enc.Tmax) hT0 hw h5 (by arr_tac2 e3 coreLS) ?_
    rw [← hA, ← hr]; rfl
  · exact Fits.pair hp hs (a := q + 1) (b := r + enc.Tmin + 1) (by linarith) (by arr_tac2 e3 coreLS) rfl
  · exact Fits.pair hp hs (a := p + 1) (b := r + enc.Tmin + 1) (by linarith) (by arr_tac2 e3 coreLS) rfl
  · rcases hout with ⟨a, b, hab, ha, hb⟩ | ⟨a, b, hab, ha, hb⟩ | ⟨ha, hb⟩ <;> subst ha hb
    · exact Fits.pair hp hs (a := a + 1) (b := b + 1) (by linarith) (by arr_tac2 e3 coreLS) rfl
    · exact Fits.none (by simp [arriving, e3, coreLS]) rfl
    · exact Fits.none (by simp [arriving, e3, coreLS]) rfl
  · rcases hout with ⟨a, b, hab, ha, hb⟩ | ⟨a, b, hab, ha, hb⟩ | ⟨ha, hb⟩ <;> subst ha hb
    · exact Fits.none (by simp [arriving, e3, coreLS]) rfl
    · exact Fits.pair hp hs (a := a + 1) (b := b + 1) (by linarith) (by arr_tac2 e3 coreLS) rfl
    · exact Fits.none (by simp [arriving, e3, coreLS]) rfl
  · rcases hout with ⟨a, b, hab, ha, hb⟩ | ⟨a, b, hab, ha, hb⟩ | ⟨ha, hb⟩ <;> subst ha hb
    · exact Fits.first hp hs (a := a + 1) (b := b + 1) (by linarith) (by arr_tac2 e3 coreLS) rfl
    · exact Fits.first hp hs (a := a + 1) (b := b + 1) (by linarith) (by arr_tac2 e3 coreLS) rfl
    · exact Fits.none (by simp [arriving, e3, coreLS]) rfl
  · obtain ⟨lo, u1, u2⟩ : ∃ lo, lo < p + A + 7 ∧ lo < q + A + 7 :=
      ⟨min (p + A + 7) (q + A + 7) - 1, by linarith [min_le_left (p + A + 7) (q + A + 7)], by linarith [min_le_right (p + A + 7) (q + A + 7)]⟩
    refine Fits.sums hp hs [(p + A + 7, syncW 2), (q + A + 7, syncW 2)] lo (by simp [u1, u2]) (by arr_tac2 e3 coreLS) ?_
    show VOK _ _ [R + -1]
    have e : (syncW 2 : K) = 5 + 1 / 10000 := by norm_num [syncW]
    rw [hR, e]
    rcases le_total p q with h | h
    · rw [max_eq_right h]; vok_tac
    · rw [max_eq_left h]; vok_tac
  · exact Fits.pair hp hs (a := p + 2) (b := r + enc.Tmin + 2) (by linarith) (by arr_tac2 e3 coreLS) rfl
  · exact Fits.pair hp hs (a := R + 3) (b := R + 3 + C0) (by linarith) (by arr_tac2 e3 coreLS) rfl
  · exact Fits.pair hp hs (a := q + 2) (b := r + enc.Tmin + 2) (by linarith) (by arr_tac2 e3 coreLS) rfl
  · exact Fits.pair hp hs (a := R + 3) (b := R + 3 + C1) (by linarith) (by arr_tac2 e3 coreLS) rfl

end Axon
