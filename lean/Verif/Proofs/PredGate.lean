import Verif.Proofs.PredNet
import Mathlib.Analysis.SpecialFunctions.Log.Basic

/-! # Integrators and exponential currents in the predictive simulator: tools -/
set_option linter.unusedSectionVars false
namespace Axon
open Spec

section
variable {K : Type*} [Field K] [LinearOrder K] [IsStrictOrderedRing K] [FloorRing K]
variable {E : PEnv K} {n : ℕ} {inj : List (ℕ × K)} {LS : ℕ → List K}

/-- An integrator started at `a` spikes as soon as it is full. -/
theorem Fits.acc (hp : E.net.par n = stdPar) (hs : Sane E.exp E.dt) {W x a : K} (hx : 0 < x) (hW : W * x = 1000)
    (h5 : x + 2 * E.dt ≤ 500) (ha : [Item.hit a .ge W].Perm (arriving E.net inj LS n)) (hL : LS n = [a + up E.dt x]) :
    Fits E inj LS n := by
  have hW0 : 0 < W := by by_contra h; nlinarith
  refine Fits.of [⟨a, [(.ge, W)]⟩] (by simp) (by simp) ha ?_
  rw [hL]
  exact fire_later (V' := 0) (ge' := W) (x := x) hp hs.exp hs.pos hs.steps (by simp [bumps, bump]) hW0 (by linear_combination hW / 100) hx.le h5
    (by simp) Reacts.done

/-- An integrator that runs from `a` to `b` and is resumed at `r` spikes as soon as it is full. -/
theorem Fits.store (hp : E.net.par n = stdPar) (hs : Sane E.exp E.dt) {W x a b r : K} (hW : W * x = 1000) (hab : a ≤ b)
    (hbr : b < r) (hx : b - a < x) (h5 : x + 2 * E.dt ≤ 500)
    (ha : [Item.hit a .ge W, Item.hit b .ge (-W), Item.hit r .ge W].Perm (arriving E.net inj LS n))
    (hL : LS n = [r + up E.dt (x - (b - a))]) : Fits E inj LS n := by
  have hx0 : 0 < x := by linarith
  have hW0 : 0 < W := by by_contra h; nlinarith
  have hlast : ∀ l, Reacts E n (lin (W / 100 * (b - a)) 0) l [⟨r, [(.ge, W)]⟩] (LS n) := by
    intro l
    rw [hL]
    exact fire_later (V' := W / 100 * (b - a)) (ge' := W) (x := x - (b - a)) hp hs.exp hs.pos hs.steps (by simp [bumps, bump]) hW0
      (by linear_combination hW / 100) (by linarith) (by linarith) (by simp) Reacts.done
  have hlt : W / 100 * (b - a) < 10 := by
    have : W / 100 * (b - a) < W / 100 * x := mul_lt_mul_of_pos_left hx (by positivity)
    have e : W / 100 * x = 10 := by linear_combination hW / 100
    linarith
  rcases hab.lt_or_eq with hlt' | rfl
  · refine Fits.of [⟨a, [(.ge, W)]⟩, ⟨b, [(.ge, -W)]⟩, ⟨r, [(.ge, W)]⟩] ?_ (by simp) ha ?_
    · simp only [List.map_cons, List.map_nil, List.pairwise_cons, List.mem_cons, List.not_mem_nil, or_false, forall_eq_or_imp, forall_eq]
      refine ⟨⟨?_, ?_⟩, ?_, ?_⟩ <;> first | linarith | simp
    · refine quiet_next hp hs.pos hs.steps (V' := 0) (ge' := W) (by simp [bumps, bump]) hW0.le (by simpa using hlt) ?_
      exact quiet_never hp hs.pos hs.steps (V' := W / 100 * (b - a)) (ge' := 0) (by simp [bumps, bump]) hlt le_rfl (hlast _)
  · refine Fits.of [⟨a, [(.ge, W), (.ge, -W)]⟩, ⟨r, [(.ge, W)]⟩] (by simp; linarith) (by simp) ha ?_
    exact quiet_never hp hs.pos hs.steps (V' := W / 100 * (a - a)) (ge' := 0) (by simp [bumps, bump]) hlt le_rfl (hlast _)

end

section
variable {E : PEnv ℝ} {n : ℕ} {inj : List (ℕ × ℝ)} {LS : ℕ → List ℝ}

/-- The neuron is discharging: its gate is open. -/
abbrev gated (V gf : ℝ) : NState ℝ := ⟨V, 0, gf, 1⟩

theorem pass_gated (hp : E.net.par n = stdPar) (hexp : E.exp = Real.exp) (V gf t l : ℝ) :
    (if t = l then gated V gf else pass E.exp (E.net.par n) (gated V gf) (t - l)) =
      gated (V + gf / 5 * (1 - Real.exp (-(t - l) / 20))) (gf * Real.exp (-(t - l) / 20)) := by
  by_cases h : t = l
  · simp [h]
  · simp [h, pass, hp, stdPar, hexp]; left; ring

theorem expected_gated (V gf d : ℝ) : expectedV Real.exp stdPar (gated V gf) d = V + gf / 5 * (1 - Real.exp (-d / 20)) := by
  simp [expectedV, stdPar]; left; ring

/-- The open gate fills the neuron: it spikes after `-20 * log v`, if `v` of it is filled already. -/
theorem predict_log (hp : E.net.par n = stdPar) (hexp : E.exp = Real.exp) (hs : Sane E.exp E.dt) {v : ℝ} (hv0 : 0 < v) (hv1 : v ≤ 1)
    (h5 : -20 * Real.log v + 2 * E.dt ≤ 500) :
    predictSteps E.exp (E.net.par n) (gated (10 * v) 50) E.dt = .ok (some ⌈(-20 * Real.log v) / E.dt⌉) := by
  have hl : 0 ≤ -20 * Real.log v := by have := Real.log_nonpos hv0.le hv1; linarith
  have hdt := hs.pos
  refine predict_first hp hs.exp hs.pos hs.steps le_rfl (by norm_num) (maxSteps_gt hs.pos hl h5) (Int.ceil_nonneg (by positivity)) ?_ ?_
  · rw [hexp, expected_gated]
    have h1 : -20 * Real.log v ≤ ⌈(-20 * Real.log v) / E.dt⌉ * E.dt := le_up hdt _
    have : Real.exp (-(⌈(-20 * Real.log v) / E.dt⌉ * E.dt) / 20) ≤ v := by
      rw [← Real.le_log_iff_exp_le hv0]; linarith
    linarith
  · intro k k0 k1
    rw [hexp, expected_gated]
    have h1 : (k : ℝ) * E.dt < -20 * Real.log v := by
      rw [← lt_div_iff₀ hdt]; exact Int.lt_ceil.mp k1
    have : v < Real.exp (-(k * E.dt) / 20) := by
      rw [← Real.log_lt_iff_lt_exp hv0]; linarith
    linarith

/-- An integrator that runs from `a` to `b` and is then filled by an exponential current from `c` on: it spikes the logarithm later. -/
theorem Fits.log (hp : E.net.par n = stdPar) (hexp : E.exp = Real.exp) (hs : Sane E.exp E.dt) {W x v a b c : ℝ} (hx : 0 < x) (hW : W * x = 1000)
    (hv0 : 0 < v) (hv1 : v < 1) (hb : b = a + v * x) (hbc : b ≤ c) (h5 : -20 * Real.log v + 2 * E.dt ≤ 500)
    (ha : [Item.hit a .ge W, Item.hit b .ge (-W), Item.hit c .gf 50, Item.hit c .gate 1].Perm (arriving E.net inj LS n))
    (hL : LS n = [c + up E.dt (-20 * Real.log v)]) : Fits E inj LS n := by
  have hW0 : 0 < W := by by_contra h; nlinarith
  have hvx : 0 < v * x := mul_pos hv0 hx
  have hV : W / 100 * (b - a) = 10 * v := by rw [hb]; linear_combination v * hW / 100
  have hp' := predict_log hp hexp hs hv0 hv1.le h5
  rcases hbc.lt_or_eq with hlt | rfl
  · refine Fits.of [⟨a, [(.ge, W)]⟩, ⟨b, [(.ge, -W)]⟩, ⟨c, [(.gf, 50), (.gate, 1)]⟩] ?_ (by simp) ha ?_
    · simp only [List.map_cons, List.map_nil, List.pairwise_cons, List.mem_cons, List.not_mem_nil, or_false, forall_eq_or_imp, forall_eq]
      refine ⟨⟨?_, ?_⟩, ?_, ?_⟩ <;> first | linarith | simp
    · refine quiet_next hp hs.pos hs.steps (V' := 0) (ge' := W) (by simp [bumps, bump]) hW0.le (by simp only; linarith) ?_
      refine quiet_never hp hs.pos hs.steps (V' := 10 * v) (ge' := 0) (by simp [bumps, bump, hV]) (by linarith) le_rfl ?_
      rw [hL]
      exact Reacts.fires (s' := gated (10 * v) 50) (v := ⟨c, [(.gf, 50), (.gate, 1)]⟩) (by rw [pass_lin hp]; simp [bumps, bump]) hp'
        (by simp) Reacts.done
  · refine Fits.of [⟨a, [(.ge, W)]⟩, ⟨b, [(.ge, -W), (.gf, 50), (.gate, 1)]⟩] (by simp; linarith) (by simp) ha ?_
    refine quiet_next hp hs.pos hs.steps (V' := 0) (ge' := W) (by simp [bumps, bump]) hW0.le (by simp only; linarith) ?_
    rw [hL]
    exact Reacts.fires (s' := gated (10 * v) 50) (v := ⟨b, [(.ge, -W), (.gf, 50), (.gate, 1)]⟩) (by rw [pass_lin hp]; simp [bumps, bump, hV]) hp'
      (by simp) Reacts.done

/-- With nothing stored, the exponential current alone never fills the neuron. -/
theorem Fits.log_zero (hp : E.net.par n = stdPar) (hexp : E.exp = Real.exp) (hs : Sane E.exp E.dt) {W a c : ℝ} (hac : a ≤ c)
    (ha : [Item.hit a .ge W, Item.hit a .ge (-W), Item.hit c .gf 50, Item.hit c .gate 1].Perm (arriving E.net inj LS n))
    (hL : LS n = []) : Fits E inj LS n := by
  have hnone : predictSteps E.exp (E.net.par n) (gated 0 50) E.dt = .ok Option.none := by
    refine predict_never hp hs.pos hs.steps fun d _ => ?_
    rw [hexp, expected_gated]
    have := Real.exp_pos (-d / 20)
    linarith
  rcases hac.lt_or_eq with hlt | rfl
  · refine Fits.of [⟨a, [(.ge, W), (.ge, -W)]⟩, ⟨c, [(.gf, 50), (.gate, 1)]⟩] (by simpa using hlt) (by simp) ha ?_
    refine quiet_never hp hs.pos hs.steps (V' := 0) (ge' := 0) (by simp [bumps, bump]) (by norm_num) le_rfl ?_
    rw [hL]
    exact Reacts.quiet (s' := gated 0 50) (v := ⟨c, [(.gf, 50), (.gate, 1)]⟩) (by rw [pass_lin hp]; simp [bumps, bump]) hnone
      (by simp) Reacts.done
  · refine Fits.of [⟨a, [(.ge, W), (.ge, -W), (.gf, 50), (.gate, 1)]⟩] (by simp) (by simp) ha ?_
    rw [hL]
    exact Reacts.quiet (s' := gated 0 50) (v := ⟨a, [(.ge, W), (.ge, -W), (.gf, 50), (.gate, 1)]⟩) (by rw [pass_lin hp]; simp [bumps, bump]) hnone
      (by simp) Reacts.done

/-- The first crossing of a neuron with constant drive and a closed gate. -/
theorem predict_ramp (hp : E.net.par n = stdPar) (hs : Sane E.exp E.dt) {V W gf y : ℝ} (hW0 : 0 < W) (hy : 0 ≤ y) (hV : V + W / 100 * y = 10)
    (h5 : y + 2 * E.dt ≤ 500) : predictSteps E.exp (E.net.par n) ⟨V, W, gf, 0⟩ E.dt = .ok (some ⌈y / E.dt⌉) := by
  have hdt := hs.pos
  have he : ∀ d, expectedV E.exp stdPar ⟨V, W, gf, 0⟩ d = V + W / 100 * d := by intro d; simp [expectedV, stdPar]
  refine predict_first hp hs.exp hs.pos hs.steps hW0.le (by simp) (maxSteps_gt hs.pos hy h5) (Int.ceil_nonneg (by positivity)) ?_ ?_
  · rw [he]
    have h1 : y ≤ ⌈y / E.dt⌉ * E.dt := le_up hdt _
    have := mul_le_mul_of_nonneg_left h1 (show 0 ≤ W / 100 by positivity)
    linarith
  · intro k k0 k1
    rw [he]
    have h1 : (k : ℝ) * E.dt < y := by
      rw [← lt_div_iff₀ hdt]; exact Int.lt_ceil.mp k1
    have := mul_lt_mul_of_pos_left h1 (show 0 < W / 100 by positivity)
    linarith

/-- An exponential current from `a` to `b`, then an integrator: it spikes `x` times the exponential later. -/
theorem Fits.exp (hp : E.net.par n = stdPar) (hexp : E.exp = Real.exp) (hs : Sane E.exp E.dt) {W x a b : ℝ} (hx : 0 < x) (hW : W * x = 1000)
    (hab : a ≤ b) (h5 : x + 2 * E.dt ≤ 500)
    (ha : [Item.hit a .gf 50, Item.hit a .gate 1, Item.hit b .gate (-1), Item.hit b .ge W].Perm (arriving E.net inj LS n))
    (hL : LS n = [b + up E.dt (x * Real.exp (-(b - a) / 20))]) : Fits E inj LS n := by
  have hW0 : 0 < W := by by_contra h; nlinarith
  have he1 : Real.exp (-(b - a) / 20) ≤ 1 := Real.exp_le_one_iff.mpr (by linarith)
  have he0 := Real.exp_pos (-(b - a) / 20)
  have hle : x * Real.exp (-(b - a) / 20) ≤ x := mul_le_of_le_one_right hx.le he1
  have hpos : 0 ≤ x * Real.exp (-(b - a) / 20) := by positivity
  rcases hab.lt_or_eq with hlt | rfl
  · refine Fits.of [⟨a, [(.gf, 50), (.gate, 1)]⟩, ⟨b, [(.gate, -1), (.ge, W)]⟩] (by simpa using hlt) (by simp) ha ?_
    have hnone : predictSteps E.exp (E.net.par n) (gated 0 50) E.dt = .ok Option.none := by
      refine predict_never hp hs.pos hs.steps fun d _ => ?_
      rw [hexp, expected_gated]
      have := Real.exp_pos (-d / 20)
      linarith
    refine Reacts.quiet (s' := gated 0 50) (v := ⟨a, [(.gf, 50), (.gate, 1)]⟩) (by rw [pass_lin hp]; simp [bumps, bump]) hnone (by simp) ?_
    rw [hL]
    exact Reacts.fires (s' := ⟨0 + 50 / 5 * (1 - Real.exp (-(b - a) / 20)), W, 50 * Real.exp (-(b - a) / 20), 0⟩) (v := ⟨b, [(.gate, -1), (.ge, W)]⟩)
      (by rw [pass_gated hp hexp]; simp [bumps, bump])
      (predict_ramp hp hs hW0 hpos (by linear_combination Real.exp (-(b - a) / 20) * hW / 100) (by linarith)) (by simp) Reacts.done
  · refine Fits.of [⟨a, [(.gf, 50), (.gate, 1), (.gate, -1), (.ge, W)]⟩] (by simp) (by simp) ha ?_
    rw [hL]
    exact Reacts.fires (s' := ⟨0, W, 50, 0⟩) (v := ⟨a, [(.gf, 50), (.gate, 1), (.gate, -1), (.ge, W)]⟩)
      (by rw [pass_lin hp]; simp [bumps, bump])
      (predict_ramp hp hs hW0 hpos (by simp; linear_combination hW / 100) (by linarith)) (by simp) Reacts.done

end
end Axon
