import Verif.Props.PredSigned
import Verif.Props.PredNets2

/-! # The signed multiplier with scaling, in the predictive simulator -/
set_option linter.unusedSectionVars false
namespace Axon
open Spec

variable {E : PEnv ℝ} {enc : Encoder ℝ} {a b f A J C : ℝ}

/-- The synapses of the scalar multiplier, in the order they are made. -/
noncomputable def scalSyns (f : ℝ) (enc : Encoder ℝ) : List (Synapse ℝ) :=
    [⟨0, 1, 10, 1, .V⟩, ⟨0, 2, 1 / 2 * 10, 1, .V⟩, ⟨1, 1, -10, 1, .V⟩, ⟨1, 3, f * enc.wacc, 1 + enc.Tmin, .ge⟩,
    ⟨2, 4, f * enc.wacc, 2 * 1, .ge⟩, ⟨3, 4, -(f * enc.wacc), 1, .ge⟩, ⟨4, 5, 10, 1 + enc.Tmin, .V⟩, ⟨3, 4, enc.wacc, 1, .ge⟩,
    ⟨3, 5, 10, 2 * 1, .V⟩]

/-- The trains of a scalar multiplier whose input spikes at `a` and `b`. -/
def scalLS (Tm a b A C : ℝ) (x : ℕ) : List ℝ :=
  [[a, b], [a + 1], [b + 1], [a + Tm + 2 + A], [a + Tm + A + 3 + C], [a + Tm + A + 4, a + Tm + A + 4 + Tm + C]].getD x []

/-- The scalar multiplier, with any input. -/
theorem scal_fits (h1 : 1 ≤ enc.Tmin) (h2 : 0 < enc.Tcod) (hs : Sane E.exp E.dt) (e3 : E.net.syns = scalSyns f enc) (e4 : ∀ x < 6, E.net.par x = stdPar)
    (hf : 0 < f) (h5 : enc.Tmax / f + 2 * E.dt ≤ 500) (h6 : enc.Tmax + 2 * E.dt ≤ 500) (hb : b = a + enc.Tmin + J) (hJ : 0 < J ∨ J = 0 ∧ 1 ≤ f) (hfJ : f * J < enc.Tmax)
    (hA : A = up E.dt (enc.Tmax / f)) (hC : C = up E.dt (max 0 (f * J - f * (A - enc.Tmax / f)))) (x : ℕ) (hx : x < 6) :
    Fits E [(0, a), (0, b)] (scalLS enc.Tmin a b A C) x := by
  have hdt := hs.pos
  have hJ0 : 0 ≤ J := by rcases hJ with h | h; exacts [h.le, h.1.ge]
  have hTm : enc.Tmax = enc.Tmin + enc.Tcod := rfl
  have hT0 : 0 < enc.Tmax := by linarith
  have hw : enc.wacc * enc.Tmax = 1000 := by unfold Encoder.wacc; field_simp; norm_num
  have hw0 : 0 < enc.wacc := by unfold Encoder.wacc; positivity
  have hwf : f * enc.wacc * (enc.Tmax / f) = 1000 := by field_simp; linarith
  have hTf : 0 < enc.Tmax / f := by positivity
  have hA1 := le_up hdt (enc.Tmax / f)
  rw [← hA] at hA1
  have hyle : f * J - f * (A - enc.Tmax / f) ≤ enc.Tmax := by
    have := mul_nonneg hf.le (sub_nonneg.mpr hA1)
    linarith
  generalize hy : f * J - f * (A - enc.Tmax / f) = y at *
  have hC1 := le_up hdt (max 0 y)
  rw [← hC] at hC1
  have hC0 : 0 ≤ C := (le_max_left 0 y).trans hC1
  unfold scalSyns at e3
  have hp := e4 x hx
  interval_cases x
  · exact Fits.pair hp hs (a := a) (b := b) (by linarith) (by simp [arriving, e3, e4, stdPar]) rfl
  · exact Fits.first hp hs (a := a + 1) (b := b + 1) (by linarith) (by arr_tac2 e3 scalLS) rfl
  · exact Fits.last hp hs (a := a + 1) (b := b + 1) (by linarith) (by arr_tac2 e3 scalLS) rfl
  · refine Fits.acc hp hs (a := a + enc.Tmin + 2) hTf hwf h5 (by arr_tac2 e3 scalLS) ?_
    rw [← hA]; rfl
  · refine Fits.of [⟨b + 3, [(.ge, f * enc.wacc)]⟩, ⟨a + enc.Tmin + A + 3, [(.ge, -(f * enc.wacc)), (.ge, enc.wacc)]⟩] ?_ (by simp)
      (by arr_tac2 e3 scalLS) ?_
    · have : J < A := lt_of_lt_of_le (by rw [lt_div_iff₀ hf]; linarith) hA1
      simp; linarith
    rcases hJ with hJ | ⟨rfl, hf1⟩
    · obtain ⟨r, hr⟩ := predict_ok hp (lin 0 (f * enc.wacc))
      refine Reacts.quiet (r := r) (s' := lin 0 (f * enc.wacc)) (v := ⟨b + 3, [(.ge, f * enc.wacc)]⟩) (by rw [pass_lin hp]; simp [bumps, bump]) hr ?_ ?_
      · rintro m rfl
        refine ⟨_, rfl, ?_⟩
        have hfirst : predictSteps E.exp (E.net.par 4) (lin 0 (f * enc.wacc)) E.dt = .ok (some ⌈(enc.Tmax / f) / E.dt⌉) := by
          refine predict_first hp hs.exp hs.pos hs.steps (by positivity) (by simp) (maxSteps_gt hs.pos hTf.le h5)
            (Int.ceil_nonneg (div_nonneg hTf.le hs.pos.le)) ?_ ?_
          · rw [expected_lin]
            have h1 : enc.Tmax / f ≤ ⌈(enc.Tmax / f) / E.dt⌉ * E.dt := le_up hs.pos _
            have := mul_le_mul_of_nonneg_left h1 (show 0 ≤ f * enc.wacc / 100 by positivity)
            have e : f * enc.wacc / 100 * (enc.Tmax / f) = 10 := by linear_combination hwf / 100
            linarith
          · intro k k0 k1
            rw [expected_lin]
            have h1 : (k : ℝ) * E.dt < enc.Tmax / f := by
              rw [← lt_div_iff₀ hs.pos]; exact Int.lt_ceil.mp k1
            have := mul_lt_mul_of_pos_left h1 (show 0 < f * enc.wacc / 100 by positivity)
            have e : f * enc.wacc / 100 * (enc.Tmax / f) = 10 := by linear_combination hwf / 100
            linarith
        rw [hfirst] at hr
        have hm : ⌈(enc.Tmax / f) / E.dt⌉ = m := by injection hr with hr; injection hr
        have hmA : (m : ℝ) * E.dt = A := by rw [← hm, hA]; rfl
        rw [hmA]
        show a + enc.Tmin + A + 3 < b + 3 + A
        linarith
      · have hV : f * enc.wacc / 100 * (A - J) = 10 - enc.wacc / 100 * y := by
          rw [← hy]
          have : f * (enc.Tmax / f) = enc.Tmax := by field_simp
          linear_combination (1 / 100) * hw + (enc.wacc / 100) * this
        have hb : bumps (lin (0 + f * enc.wacc / 100 * (a + enc.Tmin + A + 3 - (b + 3))) (f * enc.wacc)) [(.ge, -(f * enc.wacc)), (.ge, enc.wacc)] =
            some (lin (10 - enc.wacc / 100 * y) enc.wacc) := by
          rw [← hV]; simp [bumps, bump]; left; rw [hb]; ring
        show Reacts E 4 _ _ _ [a + enc.Tmin + A + 3 + C]
        rcases le_total 0 y with hy0 | hy0
        · have := fire_later (L := []) (vs := []) (x := y) (t := a + enc.Tmin + A + 3) hp hs.exp hs.pos hs.steps hb hw0 (by ring) hy0 (by linarith)
            (by simp) Reacts.done
          rw [show up E.dt y = C by rw [hC, max_eq_right hy0]] at this
          exact this
        · have h0 : C = 0 := by
            rw [hC, max_eq_left hy0]; simp [up]
          rw [h0, add_zero]
          have := mul_nonpos_of_nonneg_of_nonpos (show 0 ≤ enc.wacc / 100 by positivity) hy0
          exact fire_now hp hs.exp hs.pos hs.steps (by linarith [hs.small]) hb (by linarith) hw0.le (by simp) Reacts.done
    · have hy0 : y ≤ 0 := by
        have := mul_nonneg hf.le (sub_nonneg.mpr hA1)
        linarith
      have h0 : C = 0 := by
        rw [hC, max_eq_left hy0]; simp [up]
      show Reacts E 4 _ _ _ [a + enc.Tmin + A + 3 + C]
      have hbb : bumps (lin (0 + 0 / 100 * (a + enc.Tmin + A + 3 - (b + 3))) 0) [(.ge, -(f * enc.wacc)), (.ge, enc.wacc)] =
          some (lin 0 ((1 - f) * enc.wacc)) := by
        simp [bumps, bump]; ring
      have := fire_later (E := E) (n := 4) (L := []) (vs := [⟨a + enc.Tmin + A + 3, [(.ge, -(f * enc.wacc)), (.ge, enc.wacc)]⟩]) (V := 0) (ge := 0) (l := 0) (V' := 0)
          (hits := [(.ge, f * enc.wacc)]) (ge' := f * enc.wacc) (x := enc.Tmax / f) (t := b + 3) hp hs.exp hs.pos hs.steps (by simp [bumps, bump])
          (by positivity) (by linear_combination hwf / 100) hTf.le h5 (by simp [← hA]; linarith)
          (quiet_never hp hs.pos hs.steps hbb (by norm_num) (mul_nonpos_of_nonpos_of_nonneg (by linarith) hw0.le) Reacts.done)
      rw [← hA] at this
      rw [h0, show a + enc.Tmin + A + 3 + 0 = b + 3 + A by rw [hb]; ring]
      rw [show a + enc.Tmin + A + 3 = b + 3 + A by rw [hb]; ring] at this
      rw [show a + enc.Tmin + A + 3 = b + 3 + A by rw [hb]; ring]
      exact this
  · exact Fits.pair hp hs (a := a + enc.Tmin + A + 4) (b := a + enc.Tmin + A + 4 + enc.Tmin + C) (by linarith) (by arr_tac2 e3 scalLS) rfl

/-- The synapses of the signed multiplier with scaling, around its multiplier and its scalar multiplier. -/
noncomputable def normOuter : List (Synapse ℝ) :=
  [⟨18, 0, 10, 1, .V⟩, ⟨19, 0, 10, 1, .V⟩, ⟨20, 1, 10, 1, .V⟩, ⟨21, 1, 10, 1, .V⟩,
   ⟨18, 24, 1 / 4 * 10, 1, .V⟩, ⟨18, 26, 1 / 4 * 10, 1, .V⟩, ⟨19, 25, 1 / 4 * 10, 1, .V⟩, ⟨19, 27, 1 / 4 * 10, 1, .V⟩,
   ⟨20, 24, 1 / 4 * 10, 1, .V⟩, ⟨20, 25, 1 / 4 * 10, 1, .V⟩, ⟨21, 26, 1 / 4 * 10, 1, .V⟩, ⟨21, 27, 1 / 4 * 10, 1, .V⟩,
   ⟨24, 25, 1 / 2 * -10, 1, .V⟩, ⟨24, 26, 1 / 2 * -10, 1, .V⟩, ⟨25, 24, 1 / 2 * -10, 1, .V⟩, ⟨25, 27, 1 / 2 * -10, 1, .V⟩,
   ⟨26, 24, 1 / 2 * -10, 1, .V⟩, ⟨26, 27, 1 / 2 * -10, 1, .V⟩, ⟨27, 25, 1 / 2 * -10, 1, .V⟩, ⟨27, 26, 1 / 2 * -10, 1, .V⟩,
   ⟨11, 12, 10, 1, .V⟩, ⟨17, 22, 10, 1, .V⟩, ⟨17, 23, 10, 1, .V⟩, ⟨24, 23, 2 * -10, 1, .V⟩, ⟨25, 22, 2 * -10, 1, .V⟩, ⟨26, 22, 2 * -10, 1, .V⟩, ⟨27, 23, 2 * -10, 1, .V⟩]

/-- The synapses of the scalar multiplier inside the signed multiplier with scaling. -/
noncomputable def scalSyns12 (f : ℝ) (enc : Encoder ℝ) : List (Synapse ℝ) :=
    [⟨12, 13, 10, 1, .V⟩, ⟨12, 14, 1 / 2 * 10, 1, .V⟩, ⟨13, 13, -10, 1, .V⟩, ⟨13, 15, f * enc.wacc, 1 + enc.Tmin, .ge⟩,
    ⟨14, 16, f * enc.wacc, 2 * 1, .ge⟩, ⟨15, 16, -(f * enc.wacc), 1, .ge⟩, ⟨16, 17, 10, 1 + enc.Tmin, .V⟩, ⟨15, 16, enc.wacc, 1, .ge⟩,
    ⟨15, 17, 10, 2 * 1, .V⟩]

set_option maxRecDepth 8000 in
theorem norm_syns (enc : Encoder ℝ) (f : ℝ) (name : Option String) : (signedMultiplierNormNetwork enc f name World.empty).2.syns.reverse =
    pmulSyns enc ++ (scalSyns12 f enc ++ normOuter) := rfl

/-- The trains of a signed multiplier with scaling whose inputs spike at `a1, b1` and `a2, b2`. -/
def normLS (m1 m2 : Bool) (Tm a1 b1 a2 b2 M P Q A C : ℝ) (L4 L5 L8 L10 : List ℝ) (x : ℕ) : List ℝ :=
  [[a1 + 1, b1 + 1], [a2 + 1, b2 + 1], [a1 + 1 + 1], [b1 + 1 + 1], L4, L5, [a2 + 1 + 1], [b2 + 1 + 1], L8, [M + 1 + 2], L10, [P, Q],
   [P + 1, Q + 1], [P + 1 + 1], [Q + 1 + 1], [P + 1 + Tm + 2 + A], [P + 1 + Tm + A + 3 + C], [P + 1 + Tm + A + 4, P + 1 + Tm + A + 4 + Tm + C],
   off m1 [a1, b1], off (!m1) [a1, b1], off m2 [a2, b2], off (!m2) [a2, b2],
   off (m1 != m2) [P + Tm + A + 6, P + Tm + A + 6 + Tm + C], off (m1 == m2) [P + Tm + A + 6, P + Tm + A + 6 + Tm + C],
   off (m1 || m2) [M + 1], off (!m1 || m2) [M + 1], off (m1 || !m2) [M + 1], off (!m1 || !m2) [M + 1]].getD x []

/-- The spikes a pair of rails is given. -/
def railInj (p q : ℕ) (m : Bool) (a b : ℝ) : List (ℕ × ℝ) := [(bif m then q else p, a), (bif m then q else p, b)]

set_option maxHeartbeats 8000000 in
/-- The signed multiplier with scaling, with any inputs, once the trains of its multiplier are known. -/
theorem norm_fits (h1 : 1 ≤ enc.Tmin) (h2 : 0 < enc.Tcod) (hs : Sane E.exp E.dt) (e3 : E.net.syns = pmulSyns enc ++ (scalSyns12 f enc ++ normOuter)) (e4 : ∀ x < 28, E.net.par x = stdPar)
    (hf : 0 < f) (h5 : enc.Tmax / f + 2 * E.dt ≤ 500) (h6 : enc.Tmax + 2 * E.dt ≤ 500) (m1 m2 : Bool) {a1 b1 a2 b2 M P Q : ℝ} {L4 L5 L8 L10 : List ℝ}
    (ha1 : 0 ≤ a1) (hab1 : a1 < b1) (ha2 : 0 ≤ a2) (hab2 : a2 < b2) (hM : M = max b1 b2) (hMP : M + 1 ≤ P)
    (hQ : Q = P + enc.Tmin + J) (hJ : 0 < J ∨ J = 0 ∧ 1 ≤ f) (hfJ : f * J < enc.Tmax)
    (hA : A = up E.dt (enc.Tmax / f)) (hC : C = up E.dt (max 0 (f * J - f * (A - enc.Tmax / f))))
    (hmul : ∀ x < 12, Fits (E.only (pmulSyns enc)) [(0, a1 + 1), (0, b1 + 1), (1, a2 + 1), (1, b2 + 1)] (mulLS (a1 + 1) (b1 + 1) (a2 + 1) (b2 + 1) (M + 1) L4 L5 L8 L10 [P, Q]) x)
    (x : ℕ) (hx : x < 28) :
    Fits E (railInj 18 19 m1 a1 b1 ++ railInj 20 21 m2 a2 b2) (normLS m1 m2 enc.Tmin a1 b1 a2 b2 M P Q A C L4 L5 L8 L10) x := by
  have hp := e4 x hx
  have hdt := hs.pos
  have hA0 : 0 ≤ A := by
    have := le_up hdt (enc.Tmax / f)
    have : 0 < enc.Tmax / f := by
      have : enc.Tmax = enc.Tmin + enc.Tcod := rfl
      exact div_pos (by linarith) hf
    linarith
  have hC0 : 0 ≤ C := by
    rw [hC]; exact (le_max_left 0 _).trans (le_up hdt _)
  have hJ0 : 0 ≤ J := by rcases hJ with h | h; exacts [h.le, h.1.ge]
  have hm1 : b1 ≤ M := by rw [hM]; exact le_max_left _ _
  have hm2 : b2 ≤ M := by rw [hM]; exact le_max_right _ _
  unfold railInj
  simp only [List.cons_append, List.nil_append]
  by_cases hx12 : x < 12
  · refine Fits.move (E' := E.only (pmulSyns enc)) (n' := x) rfl rfl hp.symm (by interval_cases x <;> rfl) ?_ (hmul x hx12)
    clear hmul
    unfold normOuter scalSyns12 at e3
    unfold pmulSyns at e3 ⊢
    simp only [List.cons_append, List.nil_append] at e3
    cases m1 <;> cases m2 <;> interval_cases x <;> simp [arriving, PEnv.only, e3, mulLS, normLS, stdPar]
  clear hmul
  by_cases hx18 : x < 18
  · have key := scal_fits (E := E.only (scalSyns f enc)) (a := P + 1) (b := Q + 1) (J := J) h1 h2 hs rfl (fun _ _ => rfl) hf h5 h6 (by rw [hQ]; ring) hJ hfJ hA hC (x - 12) (by omega)
    refine Fits.move (E' := E.only (scalSyns f enc)) (n' := x - 12) rfl rfl hp.symm (by interval_cases x <;> rfl) ?_ key
    clear key
    unfold pmulSyns normOuter scalSyns12 at e3
    unfold scalSyns
    simp only [List.cons_append, List.nil_append] at e3
    interval_cases x <;> cases m1 <;> cases m2 <;> simp [arriving, PEnv.only, e3, scalLS, normLS, stdPar]
  have hx' : x = 18 ∨ x = 19 ∨ x = 20 ∨ x = 21 ∨ x = 22 ∨ x = 23 ∨ x = 24 ∨ x = 25 ∨ x = 26 ∨ x = 27 := by omega
  unfold normOuter pmulSyns scalSyns12 at e3
  simp only [List.cons_append, List.nil_append] at e3
  have key : VOK [(a1 + 1, (5 / 2 : ℝ)), (b1 + 1, 5 / 2), (a2 + 1, 5 / 2), (b2 + 1, 5 / 2)] 0 [M + 1] := by
    rcases max_choice b1 b2 with h | h
    · rw [← hM] at h
      clear hM hA hC
      subst h; vok_tac
    · rw [← hM] at h
      clear hM hA hC
      subst h; vok_tac
  have half : ∀ {a b : ℝ}, 0 ≤ a → a < b → b ≤ M → VOK [(a + 1, (5 / 2 : ℝ)), (b + 1, 5 / 2), (M + 1 + 1, -5)] 0 [] := by
    intro a b _ _ _; vok_tac
  have pairFit : ∀ x, E.net.par x = stdPar → ∀ (inj : List (ℕ × ℝ)) (LS : ℕ → List ℝ), [Item.hit (P + enc.Tmin + A + 6) .V 10, Item.hit (P + enc.Tmin + A + 6 + enc.Tmin + C) .V 10].Perm (arriving E.net inj LS x) →
      LS x = [P + enc.Tmin + A + 6, P + enc.Tmin + A + 6 + enc.Tmin + C] → Fits E inj LS x := fun x hp inj LS ha hL =>
    Fits.pair hp hs (a := P + enc.Tmin + A + 6) (b := P + enc.Tmin + A + 6 + enc.Tmin + C) (by linarith) ha hL
  have muteFit : ∀ x, E.net.par x = stdPar → ∀ (inj : List (ℕ × ℝ)) (LS : ℕ → List ℝ), [Item.hit (M + 2) .V (-20), Item.hit (P + enc.Tmin + A + 6) .V 10, Item.hit (P + enc.Tmin + A + 6 + enc.Tmin + C) .V 10].Perm (arriving E.net inj LS x) →
      LS x = [] → Fits E inj LS x := fun x hp inj LS ha hL =>
    Fits.sums hp hs [(M + 2, -20), (P + enc.Tmin + A + 6, 10), (P + enc.Tmin + A + 6 + enc.Tmin + C, 10)] 0 (by simp; refine ⟨?_, ?_, ?_⟩ <;> linarith) ha (by rw [hL]; vok_tac)
  clear hM hA hC hfJ hJ
  rcases hx' with rfl | rfl | rfl | rfl | rfl | rfl | rfl | rfl | rfl | rfl
  · cases m1
    · exact Fits.pair hp hs (a := a1) (b := b1) hab1 (by cases m2 <;> simp [arriving, e3, e4, stdPar]) rfl
    · exact Fits.none (by cases m2 <;> simp [arriving, e3, e4, stdPar]) rfl
  · cases m1
    · exact Fits.none (by cases m2 <;> simp [arriving, e3, e4, stdPar]) rfl
    · exact Fits.pair hp hs (a := a1) (b := b1) hab1 (by cases m2 <;> simp [arriving, e3, e4, stdPar]) rfl
  · cases m2
    · exact Fits.pair hp hs (a := a2) (b := b2) hab2 (by cases m1 <;> simp [arriving, e3, e4, stdPar]) rfl
    · exact Fits.none (by cases m1 <;> simp [arriving, e3, e4, stdPar]) rfl
  · cases m2
    · exact Fits.none (by cases m1 <;> simp [arriving, e3, e4, stdPar]) rfl
    · exact Fits.pair hp hs (a := a2) (b := b2) hab2 (by cases m1 <;> simp [arriving, e3, e4, stdPar]) rfl
  · cases m1 <;> cases m2
    · exact pairFit 22 hp _ _ (by arr_tac2 e3 normLS) rfl
    · exact muteFit 22 hp _ _ (by arr_tac2 e3 normLS) rfl
    · exact muteFit 22 hp _ _ (by arr_tac2 e3 normLS) rfl
    · exact pairFit 22 hp _ _ (by arr_tac2 e3 normLS) rfl
  · cases m1 <;> cases m2
    · exact muteFit 23 hp _ _ (by arr_tac2 e3 normLS) rfl
    · exact pairFit 23 hp _ _ (by arr_tac2 e3 normLS) rfl
    · exact pairFit 23 hp _ _ (by arr_tac2 e3 normLS) rfl
    · exact muteFit 23 hp _ _ (by arr_tac2 e3 normLS) rfl
  · cases m1 <;> cases m2
    · exact Fits.sums hp hs [(a1 + 1, 5 / 2), (b1 + 1, 5 / 2), (a2 + 1, 5 / 2), (b2 + 1, 5 / 2)] 0 (by simp; refine ⟨?_, ?_, ?_, ?_⟩ <;> linarith) (by arr_tac2 e3 normLS) key
    · exact Fits.sums hp hs [(a1 + 1, 5 / 2), (b1 + 1, 5 / 2), (M + 1 + 1, -5)] 0 (by simp; refine ⟨?_, ?_, ?_⟩ <;> linarith) (by arr_tac2 e3 normLS) (half ha1 hab1 hm1)
    · exact Fits.sums hp hs [(a2 + 1, 5 / 2), (b2 + 1, 5 / 2), (M + 1 + 1, -5)] 0 (by simp; refine ⟨?_, ?_, ?_⟩ <;> linarith) (by arr_tac2 e3 normLS) (half ha2 hab2 hm2)
    · exact Fits.none (by simp [arriving, e3, e4, stdPar, normLS]) rfl
  · cases m1 <;> cases m2
    · exact Fits.sums hp hs [(a2 + 1, 5 / 2), (b2 + 1, 5 / 2), (M + 1 + 1, -5)] 0 (by simp; refine ⟨?_, ?_, ?_⟩ <;> linarith) (by arr_tac2 e3 normLS) (half ha2 hab2 hm2)
    · exact Fits.none (by simp [arriving, e3, e4, stdPar, normLS]) rfl
    · exact Fits.sums hp hs [(a1 + 1, 5 / 2), (b1 + 1, 5 / 2), (a2 + 1, 5 / 2), (b2 + 1, 5 / 2)] 0 (by simp; refine ⟨?_, ?_, ?_, ?_⟩ <;> linarith) (by arr_tac2 e3 normLS) key
    · exact Fits.sums hp hs [(a1 + 1, 5 / 2), (b1 + 1, 5 / 2), (M + 1 + 1, -5)] 0 (by simp; refine ⟨?_, ?_, ?_⟩ <;> linarith) (by arr_tac2 e3 normLS) (half ha1 hab1 hm1)
  · cases m1 <;> cases m2
    · exact Fits.sums hp hs [(a1 + 1, 5 / 2), (b1 + 1, 5 / 2), (M + 1 + 1, -5)] 0 (by simp; refine ⟨?_, ?_, ?_⟩ <;> linarith) (by arr_tac2 e3 normLS) (half ha1 hab1 hm1)
    · exact Fits.sums hp hs [(a1 + 1, 5 / 2), (b1 + 1, 5 / 2), (a2 + 1, 5 / 2), (b2 + 1, 5 / 2)] 0 (by simp; refine ⟨?_, ?_, ?_, ?_⟩ <;> linarith) (by arr_tac2 e3 normLS) key
    · exact Fits.none (by simp [arriving, e3, e4, stdPar, normLS]) rfl
    · exact Fits.sums hp hs [(a2 + 1, 5 / 2), (b2 + 1, 5 / 2), (M + 1 + 1, -5)] 0 (by simp; refine ⟨?_, ?_, ?_⟩ <;> linarith) (by arr_tac2 e3 normLS) (half ha2 hab2 hm2)
  · cases m1 <;> cases m2
    · exact Fits.none (by simp [arriving, e3, e4, stdPar, normLS]) rfl
    · exact Fits.sums hp hs [(a2 + 1, 5 / 2), (b2 + 1, 5 / 2), (M + 1 + 1, -5)] 0 (by simp; refine ⟨?_, ?_, ?_⟩ <;> linarith) (by arr_tac2 e3 normLS) (half ha2 hab2 hm2)
    · exact Fits.sums hp hs [(a1 + 1, 5 / 2), (b1 + 1, 5 / 2), (M + 1 + 1, -5)] 0 (by simp; refine ⟨?_, ?_, ?_⟩ <;> linarith) (by arr_tac2 e3 normLS) (half ha1 hab1 hm1)
    · exact Fits.sums hp hs [(a1 + 1, 5 / 2), (b1 + 1, 5 / 2), (a2 + 1, 5 / 2), (b2 + 1, 5 / 2)] 0 (by simp; refine ⟨?_, ?_, ?_, ?_⟩ <;> linarith) (by arr_tac2 e3 normLS) key

end Axon
