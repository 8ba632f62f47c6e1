import Verif.Props.PredNets2

/-! # Logarithm, exponential and product in the predictive simulator -/
set_option linter.unusedSectionVars false
namespace Axon
open Spec

/-- A time step of at most 1 ms and at least 1 ns, and the real exponential: reasonable conditions. -/
theorem sane_real {dt : ℝ} (h0 : 1 / 1000000 ≤ dt) (h1 : dt ≤ 1) : Sane Real.exp dt := by
  refine ⟨Real.exp_monotone, by linarith, by linarith, ?_⟩
  unfold maxSteps
  rw [if_pos (by have : 0 < dt := by linarith
                 positivity)]
  have : (500 : ℝ) / dt ≤ 500000000 := by rw [div_le_iff₀ (by linarith)]; linarith
  have h2 := Int.floor_le_floor this
  have : ⌊(500000000 : ℝ)⌋ = 500000000 := by norm_num
  rw [this] at h2
  omega

theorem waccBar_mul {enc : Encoder ℝ} (h2 : 0 < enc.Tcod) : enc.waccBar * enc.Tcod = 1000 := by
  unfold Encoder.waccBar; field_simp; norm_num

/-! ## C86: logarithm and exponential -/

/-- An integrator that is filled completely before the exponential current starts, at the same moment. -/
theorem Fits.log_one {E : PEnv ℝ} {n : ℕ} {inj : List (ℕ × ℝ)} {LS : ℕ → List ℝ} (hp : E.net.par n = stdPar) (hexp : E.exp = Real.exp) (hs : Sane E.exp E.dt)
    {W x a b : ℝ} (hx : 0 < x) (hW : W * x = 1000) (hb : b = a + x) (h5 : x + 2 * E.dt ≤ 500)
    (ha : [Item.hit a .ge W, Item.hit b .ge (-W), Item.hit b .gf 50, Item.hit b .gate 1].Perm (arriving E.net inj LS n))
    (hL : LS n = [b]) : Fits E inj LS n := by
  have hW0 : 0 < W := by by_contra h; nlinarith
  have hWx : W / 100 * x = 10 := by linear_combination hW / 100
  refine Fits.of [⟨a, [(.ge, W)]⟩, ⟨b, [(.ge, -W), (.gf, 50), (.gate, 1)]⟩] (by simp; linarith) (by simp) ha ?_
  rw [hL]
  rcases (le_up hs.pos x).lt_or_eq with hlt | heq
  · have hp0 : predictSteps E.exp (E.net.par n) (lin 0 W) E.dt = .ok (some ⌈x / E.dt⌉) := by
      have := predict_ramp (gf := 0) hp hs (V := 0) (y := x) hW0 hx.le (by linarith) h5
      exact this
    refine Reacts.quiet (s' := lin 0 W) (v := ⟨a, [(.ge, W)]⟩) (by rw [pass_lin hp]; simp [bumps, bump]) hp0 ?_ ?_
    · intro m hm
      injection hm with hm
      refine ⟨_, rfl, ?_⟩
      subst hm
      show b < a + up E.dt x
      linarith
    · have := predict_log hp hexp hs (v := 1) one_pos le_rfl (by simp; linarith [hs.small])
      have := Reacts.fires (s := lin 0 W) (l := a) (s' := gated (10 * 1) 50) (v := ⟨b, [(.ge, -W), (.gf, 50), (.gate, 1)]⟩) (vs := []) (L := [])
        (by rw [pass_lin hp]; simp only [bumps, bump]; rw [hb]; simp [hWx]) this (by simp) Reacts.done
      simpa using this
  · have := fire_later (E := E) (n := n) (vs := [⟨b, [(.ge, -W), (.gf, 50), (.gate, 1)]⟩]) (L := []) (V := 0) (ge := 0) (l := 0) (V' := 0) (hits := [(.ge, W)])
      (ge' := W) (x := x) (t := a) hp hs.exp hs.pos hs.steps (by simp [bumps, bump]) hW0 (by linarith) hx.le h5 (by simp [← heq, hb]) ?_
    · rw [← heq, ← hb] at this; exact this
    · refine Reacts.quiet (s' := ⟨0, -W, 50, 1⟩) (v := ⟨b, [(.ge, -W), (.gf, 50), (.gate, 1)]⟩) (by rw [pass_lin hp]; simp [bumps, bump])
        (predict_never hp hs.pos hs.steps fun d hd => ?_) (by simp) Reacts.done
      have e : expectedV E.exp stdPar ⟨0, -W, 50, 1⟩ d = -(W / 100 * d) + 10 * (1 - Real.exp (-d / 20)) := by
        simp [expectedV, stdPar, hexp]; ring
      rw [e]
      have h1 : 0 ≤ W / 100 * d := by positivity
      have h2 := Real.exp_pos (-d / 20)
      linarith

/-- The synapses of the logarithm network. -/
theorem log_syns (enc : Encoder ℝ) (name : Option String) : (logNetwork enc name World.empty).2.syns.reverse =
    [⟨0, 1, 10, 1, .V⟩, ⟨0, 2, 1 / 2 * 10, 1, .V⟩, ⟨1, 1, -10, 1, .V⟩, ⟨1, 3, enc.waccBar, 1 + enc.Tmin, .ge⟩,
    ⟨2, 3, 1, 1, .gate⟩, ⟨2, 3, -enc.waccBar, 1, .ge⟩, ⟨2, 3, 10 * 100 / 20, 1, .gf⟩, ⟨3, 4, 10, 1 + enc.Tmin, .V⟩, ⟨2, 4, 10, 2 * 1, .V⟩] := rfl

theorem log_pred (H : TimeHeap ℝ) {enc : Encoder ℝ} (h1 : 1 ≤ enc.Tmin) (h2 : 0 < enc.Tcod) {dt : ℝ} (hs : Sane Real.exp dt) (name : Option String)
    {v : ℝ} (hv0 : 0 ≤ v) (hv1 : v ≤ 1) (t0 : ℝ) (L3 L4 : List ℝ)
    (hfit : ∀ E : PEnv ℝ, Sane E.exp E.dt → E.exp = Real.exp → E.dt = dt → E.net.syns = (logNetwork enc name World.empty).2.syns.reverse → (∀ x < 5, E.net.par x = stdPar) →
      ∀ x < 5, 3 ≤ x → Fits E [(0, 0), (0, enc.Tmin + v * enc.Tcod)]
        (fun x => [[0, enc.Tmin + v * enc.Tcod], [1], [enc.Tmin + v * enc.Tcod + 1], L3, L4].getD x []) x) :
    PredEnds H Real.exp enc dt (logNetwork enc name World.empty).2 0 [.value v 0 t0] (fun log => log 4 = some L4) := by
  set w := (logNetwork enc name World.empty).2 with hwdef
  have hdt := hs.pos
  have hI := mul_nonneg hv0 h2.le
  have hsyn : w.syns.reverse = _ := log_syns enc name
  have hpos : ∀ s ∈ w.syns, 0 < s.delay := by
    intro s hs
    rw [← List.mem_reverse, hsyn] at hs
    fin_cases hs <;> simp only <;> first | linarith | norm_num
  refine LibOK.pred (log_lib enc name) H enc hdt hpos (by simp [CallOK, hv0, hv1]) (by simp [predSpikes])
    (fun x => [[0, enc.Tmin + v * enc.Tcod], [1], [enc.Tmin + v * enc.Tcod + 1], L3, L4].getD x [])
    (fun x hx => getD_none _ hx) ?_ (fun log h => h 4 (by norm_num))
  intro E e1 e2 e3 e4 x hx
  have hsE : Sane E.exp E.dt := by rw [e1, e2]; exact hs
  have hp := e4 x hx
  by_cases hx3 : 3 ≤ x
  · have := hfit E hsE e1 e2 e3 e4 x hx hx3
    simpa [predSpikes] using this
  · rw [hsyn] at e3
    interval_cases x
    · exact Fits.pair hp hsE (a := 0) (b := enc.Tmin + v * enc.Tcod) (by linarith) (by simp [arriving, e3, e4, stdPar, predSpikes]) rfl
    · exact Fits.first hp hsE (a := 1) (b := enc.Tmin + v * enc.Tcod + 1) (by linarith) (by arr_tac e3) rfl
    · exact Fits.last hp hsE (a := 1) (b := enc.Tmin + v * enc.Tcod + 1) (by linarith) (by arr_tac e3) rfl

/-- **C86**, `LogNetwork`: a value `v` in `(0, 1]` (large enough for the engine's search horizon of 500 ms) comes out as `-(20 / Tcod) * log v`,
up to one time step. -/
theorem C86_log (H : TimeHeap ℝ) {enc : Encoder ℝ} (h1 : 1 ≤ enc.Tmin) (h2 : 0 < enc.Tcod) {dt : ℝ} (hs : Sane Real.exp dt) (name : Option String)
    {v : ℝ} (hv0 : 0 < v) (hv1 : v ≤ 1) (h5 : -20 * Real.log v + 2 * dt ≤ 500) (h6 : enc.Tcod + 2 * dt ≤ 500) (t0 : ℝ) :
    let p := (logNetwork enc name World.empty).1
    let w := (logNetwork enc name World.empty).2
    PredEnds H Real.exp enc dt w p.mod [.value v p.input t0] (fun log => Shows enc dt (log p.output) (-(20 / enc.Tcod) * Real.log v)) := by
  intro p w
  show PredEnds H Real.exp enc dt w 0 [.value v 0 t0] (fun log => Shows enc dt (log 4) (-(20 / enc.Tcod) * Real.log v))
  have hdt := hs.pos
  have hI := mul_pos hv0 h2
  have hl : 0 ≤ -20 * Real.log v := by have := Real.log_nonpos hv0.le hv1; linarith
  have hD1 := le_up hdt (-20 * Real.log v)
  have hD2 := up_lt hdt (-20 * Real.log v)
  have key := log_pred H h1 h2 hs name hv0.le hv1 t0 [enc.Tmin + v * enc.Tcod + 2 + up dt (-20 * Real.log v)]
    [enc.Tmin + v * enc.Tcod + 3, enc.Tmin + v * enc.Tcod + 3 + enc.Tmin + up dt (-20 * Real.log v)] ?_
  · obtain ⟨N, st, a, b⟩ := key
    refine ⟨N, st, a, _, _, ?_, b, ?_⟩
    · linarith
    · have e : -(20 / enc.Tcod) * Real.log v * enc.Tcod = -20 * Real.log v := by field_simp
      rw [e, abs_le]; constructor <;> linarith
  · intro E hsE hexp hE e3 e4 x hx hx3
    have hp := e4 x hx
    rw [log_syns] at e3
    interval_cases x
    · rcases hv1.lt_or_eq with hlt | heq
      · exact Fits.log hp hexp hsE (a := enc.Tmin + 2) (b := enc.Tmin + v * enc.Tcod + 2) (c := enc.Tmin + v * enc.Tcod + 2) h2 (waccBar_mul h2) hv0 hlt (by ring) le_rfl
          (by rw [hE]; exact h5) (by arr_tac e3) (by rw [hE]; rfl)
      · have e0 : up dt (-20 * Real.log v) = 0 := by rw [heq]; simp [up]
        exact Fits.log_one hp hexp hsE (a := enc.Tmin + 2) (b := enc.Tmin + v * enc.Tcod + 2) h2 (waccBar_mul h2) (by rw [heq]; ring) (by rw [hE]; exact h6)
          (by arr_tac e3) (by show [enc.Tmin + v * enc.Tcod + 2 + up dt (-20 * Real.log v)] = _; rw [e0, add_zero])
    · exact Fits.pair hp hsE (a := enc.Tmin + v * enc.Tcod + 3) (b := enc.Tmin + v * enc.Tcod + 3 + enc.Tmin + up dt (-20 * Real.log v)) (by linarith) (by arr_tac e3) rfl

/-- **C86**, the logarithm of 0 is answered by a single spike, which is no value. -/
theorem C86_log_zero (H : TimeHeap ℝ) {enc : Encoder ℝ} (h1 : 1 ≤ enc.Tmin) (h2 : 0 < enc.Tcod) {dt : ℝ} (hs : Sane Real.exp dt) (name : Option String) (t0 : ℝ) :
    let p := (logNetwork enc name World.empty).1
    let w := (logNetwork enc name World.empty).2
    PredEnds H Real.exp enc dt w p.mod [.value 0 p.input t0] (fun log => log p.output = some [enc.Tmin + 3]) := by
  intro p w
  have key := log_pred H h1 h2 hs name le_rfl zero_le_one t0 [] [enc.Tmin + 3] ?_
  · exact key
  · intro E hsE hexp hE e3 e4 x hx hx3
    have hp := e4 x hx
    rw [log_syns] at e3
    interval_cases x
    · exact Fits.log_zero hp hexp hsE (a := enc.Tmin + 2) (c := enc.Tmin + 2) (W := enc.waccBar) le_rfl (by arr_tac e3) rfl
    · exact Fits.single hp hsE (a := enc.Tmin + 3) (by arr_tac e3) rfl

/-- A concrete case: the logarithm of 1/2 with the default parameters. -/
example (H : TimeHeap ℝ) : PredEnds H Real.exp ⟨10, 100⟩ (1 / 100) (logNetwork (⟨10, 100⟩ : Encoder ℝ) none World.empty).2 0
    [.value (1 / 2) 0 0] (fun log => Shows ⟨10, 100⟩ (1 / 100) (log 4) (-(20 / 100) * Real.log (1 / 2))) := by
  refine C86_log H (enc := ⟨10, 100⟩) (by norm_num) (by norm_num) (sane_real (by norm_num) (by norm_num)) none (v := 1 / 2) (by norm_num) (by norm_num) ?_ (by norm_num) 0
  have := Real.one_sub_inv_le_log_of_pos (show (0 : ℝ) < 1 / 2 by norm_num)
  norm_num at this ⊢
  linarith

/-- The synapses of the exponential network. -/
theorem exp_syns (enc : Encoder ℝ) (name : Option String) : (exponentialNetwork enc name World.empty).2.syns.reverse =
    [⟨0, 1, 10, 1, .V⟩, ⟨0, 2, 1 / 2 * 10, 1, .V⟩, ⟨1, 1, -10, 1, .V⟩, ⟨1, 3, 10 * 100 / 20, 1 + enc.Tmin, .gf⟩, ⟨1, 3, 1, 1 + enc.Tmin, .gate⟩,
    ⟨2, 3, -1, 1, .gate⟩, ⟨2, 3, enc.waccBar, 1, .ge⟩, ⟨3, 4, 10, 1 + enc.Tmin, .V⟩, ⟨2, 4, 10, 2 * 1, .V⟩] := rfl

/-- **C86**, `ExponentialNetwork`: a value `v` comes out as `exp (-v * Tcod / 20)`, up to one time step. -/
theorem C86_exponential (H : TimeHeap ℝ) {enc : Encoder ℝ} (h1 : 1 ≤ enc.Tmin) (h2 : 0 < enc.Tcod) {dt : ℝ} (hs : Sane Real.exp dt) (name : Option String)
    {v : ℝ} (hv0 : 0 ≤ v) (hv1 : v ≤ 1) (h6 : enc.Tcod + 2 * dt ≤ 500) (t0 : ℝ) :
    let p := (exponentialNetwork enc name World.empty).1
    let w := (exponentialNetwork enc name World.empty).2
    PredEnds H Real.exp enc dt w p.mod [.value v p.input t0] (fun log => Shows enc dt (log p.output) (Real.exp (-v * enc.Tcod / 20))) := by
  intro p w
  show PredEnds H Real.exp enc dt w 0 [.value v 0 t0] (fun log => Shows enc dt (log 4) (Real.exp (-v * enc.Tcod / 20)))
  have hdt := hs.pos
  have hI := mul_nonneg hv0 h2.le
  have he := Real.exp_pos (-v * enc.Tcod / 20)
  have hx0 : 0 < enc.Tcod * Real.exp (-v * enc.Tcod / 20) := by positivity
  have hD1 := le_up hdt (enc.Tcod * Real.exp (-v * enc.Tcod / 20))
  have hD2 := up_lt hdt (enc.Tcod * Real.exp (-v * enc.Tcod / 20))
  set D := up dt (enc.Tcod * Real.exp (-v * enc.Tcod / 20)) with hD
  set I := enc.Tmin + v * enc.Tcod with hIdef
  have hsyn : w.syns.reverse = _ := exp_syns enc name
  have hpos : ∀ s ∈ w.syns, 0 < s.delay := by
    intro s hs
    rw [← List.mem_reverse, hsyn] at hs
    fin_cases hs <;> simp only <;> first | linarith | norm_num
  refine LibOK.pred (exponential_lib enc name) H enc hdt hpos (by simp [CallOK, hv0, hv1]) (by simp [predSpikes])
    (fun x => [[0, I], [1], [I + 1], [I + 2 + D], [I + 3, I + 3 + enc.Tmin + D]].getD x [])
    (fun x hx => getD_none _ hx) ?_ ?_
  · intro E e1 e2 e3 e4 x hx
    have hsE : Sane E.exp E.dt := by rw [e1, e2]; exact hs
    have hp := e4 x hx
    rw [hsyn] at e3
    interval_cases x
    · exact Fits.pair hp hsE (a := 0) (b := I) (by linarith) (by simp [arriving, e3, e4, stdPar, predSpikes, hIdef]) rfl
    · exact Fits.first hp hsE (a := 1) (b := I + 1) (by linarith) (by arr_tac e3) rfl
    · exact Fits.last hp hsE (a := 1) (b := I + 1) (by linarith) (by arr_tac e3) rfl
    · refine Fits.exp hp e1 hsE (a := enc.Tmin + 2) (b := I + 2) h2 (waccBar_mul h2) (by linarith) (by rw [e2]; exact h6) (by arr_tac e3) ?_
      rw [e2, show -(I + 2 - (enc.Tmin + 2)) / 20 = -v * enc.Tcod / 20 by rw [hIdef]; ring, ← hD]; rfl
    · exact Fits.pair hp hsE (a := I + 3) (b := I + 3 + enc.Tmin + D) (by linarith) (by arr_tac e3) rfl
  · intro log h
    refine ⟨_, _, ?_, h 4 (by norm_num), ?_⟩
    · linarith
    · rw [abs_le]; constructor <;> linarith

/-- A concrete case with the default parameters. -/
example (H : TimeHeap ℝ) : PredEnds H Real.exp ⟨10, 100⟩ (1 / 100) (exponentialNetwork (⟨10, 100⟩ : Encoder ℝ) none World.empty).2 0
    [.value (1 / 5) 0 0] (fun log => Shows ⟨10, 100⟩ (1 / 100) (log 4) (Real.exp (-(1 / 5) * 100 / 20))) :=
  C86_exponential H (enc := ⟨10, 100⟩) (by norm_num) (by norm_num) (sane_real (by norm_num) (by norm_num)) none (v := 1 / 5) (by norm_num) (by norm_num) (by norm_num) 0

/-! ## The theorems of this file on concrete cases -/

/-- `C86_log_zero` with the default encoder: a single spike at 13 ms. -/
example (H : TimeHeap ℝ) : PredEnds H Real.exp ⟨10, 100⟩ (1 / 100) (logNetwork (⟨10, 100⟩ : Encoder ℝ) none World.empty).2 0
    [.value 0 0 0] (fun log => log 4 = some [10 + 3]) :=
  C86_log_zero H (enc := ⟨10, 100⟩) (by norm_num) (by norm_num) (sane_real (by norm_num) (by norm_num)) none 0

end Axon
