import Verif.Proofs.Subtractor
import Verif.Props.Memory

/-! # C46: the subtractor -/
set_option linter.unusedSectionVars false
namespace Axon
open Spec
variable {K : Type*} [Field K] [LinearOrder K] [IsStrictOrderedRing K] [FloorRing K]

/-- A session with a subtractor: the trains of its outputs. -/
theorem sub_session (H : EventHeap K) {ord : ℕ → List ℕ → List ℕ} (hord : SetOrder ord) {enc : Encoder K}
    {dt : K} (hdt : 0 < dt) (hdt' : dt < 1 / 50) (h2 : 0 < enc.Tcod) (hd : dt ≤ enc.Tmin)
    (name : Option String) {v1 v2 t0 : K} (T : K) (h10 : 0 ≤ v1) (h11 : v1 ≤ 1) (h20 : 0 ≤ v2) (h21 : v2 ≤ 1) (ht : 0 ≤ t0) :
    let p := (subtractorNetwork enc name World.empty).1
    let w := (subtractorNetwork enc name World.empty).2
    ∃ ns S F st, session H ord enc dt T w p.mod [.value v1 p.input1 t0, .value v2 p.input2 t0] = .ok st ∧
      SessionRun enc dt T w 9 ([Call.value v1 0 t0, Call.value v2 1 t0].flatMap (callSpikes enc)) ns S F st ∧
      let s1 := arrInj dt (t0 + enc.Tmin + v1 * enc.Tcod) 1
      let s2 := arrInj dt (t0 + enc.Tmin + v2 * enc.Tcod) 1
      Train F 6 (if s2 ≤ s1 then [s2 + dly dt (3 * 1 + 2 * (1 / 100) : K), s1 + dly dt (enc.Tmin + (3 * 1 + 2 * (1 / 100)) : K)] else []) ∧
      Train F 7 (if s1 + (dly dt (2 * (1 / 100) : K) - dly dt (1 / 100 : K)) ≤ s2 then
        [s1 + dly dt (3 * 1 + 2 * (1 / 100) : K), s2 + dly dt (enc.Tmin + (3 * 1 + 2 * (1 / 100)) : K)] else []) := by
  intro p w
  have h1 : 0 < enc.Tmin := by linarith
  obtain ⟨ns, S, F, st, hses, R⟩ := (subtractor_lib enc name).run H hord enc hdt T
    (cs := [.value v1 0 t0, .value v2 1 t0]) (by simp [CallOK, h10, h11, h20, h21])
  have E := R.embeds [2, 3, 4, 5, 6, 7, 8] (by simp) (by simp [injTimes, callSpikes])
  have i1 := R.input hdt (k := 0) (by norm_num) rfl (A := [t0, t0 + enc.Tmin + v1 * enc.Tcod]) rfl 1
  have i2 := R.input hdt (k := 1) (by norm_num) rfl (A := [t0, t0 + enc.Tmin + v2 * enc.Tcod]) rfl 1
  have va := value_arr hdt h1 h2 (v := v1) (t0 := t0) hd h10 ht
  have vb := value_arr hdt h1 h2 (v := v2) (t0 := t0) hd h20 ht
  have := sub_core R.run hdt hdt' hd (x := 0) E i1 i2 va.1 vb.1 va.2.1.le vb.2.1.le
  exact ⟨ns, S, F, st, hses, R, this⟩

theorem sub_dly {dt Tmin : K} (hdt : 0 < dt) (hT : 0 < Tmin) :
    |((dly dt (Tmin + (3 * 1 + 2 * (1 / 100)) : K) : K) * dt - (dly dt (3 * 1 + 2 * (1 / 100) : K) : K) * dt) - Tmin| < dt := by
  obtain ⟨d1, d2⟩ := dly_bd hdt (show (0 : K) < 3 * 1 + 2 * (1 / 100) by norm_num)
  obtain ⟨e1, e2⟩ := dly_bd hdt (show (0 : K) < Tmin + (3 * 1 + 2 * (1 / 100)) by linarith)
  rw [abs_lt]; constructor <;> linarith

/-- **C46, non-negative differences.** A `SubtractorNetwork` given `v1 ≥ v2` at the same time emits `v1 - v2` on
`output_plus` (up to `2*dt`) and nothing on `output_minus`. -/
theorem C46_subtractor_plus (H : EventHeap K) {ord : ℕ → List ℕ → List ℕ} (hord : SetOrder ord) {enc : Encoder K}
    {dt : K} (hdt : 0 < dt) (hdt' : dt < 1 / 50) (h2 : 0 < enc.Tcod) (hd : dt ≤ enc.Tmin)
    (name : Option String) {v1 v2 t0 T : K} (h11 : v1 ≤ 1) (h20 : 0 ≤ v2) (ht : 0 ≤ t0)
    (hT : t0 + 2 * enc.Tmin + v1 * enc.Tcod + 5 ≤ T) (h12 : v2 ≤ v1) :
    let p := (subtractorNetwork enc name World.empty).1
    let w := (subtractorNetwork enc name World.empty).2
    ∃ st, session H ord enc dt T w p.mod [.value v1 p.input1 t0, .value v2 p.input2 t0] = .ok st ∧
      Carries enc dt (2 * dt) (st.spikeLog p.outputPlus) (v1 - v2) ∧ Quiet (st.spikeLog p.outputMinus) := by
  intro p w
  obtain ⟨ns, S, F, st, hses, R, t6, t7⟩ := sub_session H hord hdt hdt' h2 hd name (t0 := t0) T (le_trans h20 h12) h11 h20 (le_trans h12 h11) ht
  have h1 : 0 < enc.Tmin := by linarith
  have hv : v2 * enc.Tcod ≤ v1 * enc.Tcod := mul_le_mul_of_nonneg_right h12 h2.le
  have hv2 : 0 ≤ v2 * enc.Tcod := mul_nonneg h20 h2.le
  obtain ⟨a1, a2⟩ := arrInj_bd (τ := t0 + enc.Tmin + v1 * enc.Tcod) (D := 1) hdt (by linarith)
  obtain ⟨b1, b2⟩ := arrInj_bd (τ := t0 + enc.Tmin + v2 * enc.Tcod) (D := 1) hdt (by linarith)
  have hle : arrInj dt (t0 + enc.Tmin + v2 * enc.Tcod) 1 ≤ arrInj dt (t0 + enc.Tmin + v1 * enc.Tcod) 1 := step_le hdt (by linarith)
  have hD := subDelays (Tmin := enc.Tmin) hdt hdt' hd
  have hx := sub_dly (Tmin := enc.Tmin) hdt h1
  rw [abs_lt] at hx
  obtain ⟨e1, e2⟩ := dly_bd hdt (show (0 : K) < enc.Tmin + (3 * 1 + 2 * (1 / 100)) by linarith)
  rw [if_pos hle] at t6
  rw [if_neg (by have := hD.h2; omega)] at t7
  refine ⟨st, hses, ⟨_, _, R.pair (k := 6) (by norm_num) hdt rfl t6 (by have := hD.h6; omega) ?_, ?_⟩, R.quiet (k := 7) (by norm_num) rfl t7⟩
  · push_cast; linarith
  · push_cast
    rw [abs_le]
    constructor <;> linarith

/-- **C46, negative differences.** If `v2` exceeds `v1` by at least `(Tneu + dt)/Tcod`, the network emits `v2 - v1` on
`output_minus` and nothing on `output_plus`. -/
theorem C46_subtractor_minus (H : EventHeap K) {ord : ℕ → List ℕ → List ℕ} (hord : SetOrder ord) {enc : Encoder K}
    {dt : K} (hdt : 0 < dt) (hdt' : dt < 1 / 50) (h2 : 0 < enc.Tcod) (hd : dt ≤ enc.Tmin)
    (name : Option String) {v1 v2 t0 T : K} (h10 : 0 ≤ v1) (h21 : v2 ≤ 1) (ht : 0 ≤ t0)
    (hT : t0 + 2 * enc.Tmin + v2 * enc.Tcod + 5 ≤ T) (h12 : v1 * enc.Tcod + (1 / 100 + dt) ≤ v2 * enc.Tcod) :
    let p := (subtractorNetwork enc name World.empty).1
    let w := (subtractorNetwork enc name World.empty).2
    ∃ st, session H ord enc dt T w p.mod [.value v1 p.input1 t0, .value v2 p.input2 t0] = .ok st ∧
      Carries enc dt (2 * dt) (st.spikeLog p.outputMinus) (v2 - v1) ∧ Quiet (st.spikeLog p.outputPlus) := by
  intro p w
  have hlt : v1 < v2 := lt_of_mul_lt_mul_right (show v1 * enc.Tcod < v2 * enc.Tcod by linarith) h2.le
  obtain ⟨ns, S, F, st, hses, R, t6, t7⟩ := sub_session H hord hdt hdt' h2 hd name (t0 := t0) T h10 (by linarith) (by linarith) h21 ht
  have h1 : 0 < enc.Tmin := by linarith
  have hv1 : 0 ≤ v1 * enc.Tcod := mul_nonneg h10 h2.le
  obtain ⟨a1, a2⟩ := arrInj_bd (τ := t0 + enc.Tmin + v1 * enc.Tcod) (D := 1) hdt (by linarith)
  obtain ⟨b1, b2⟩ := arrInj_bd (τ := t0 + enc.Tmin + v2 * enc.Tcod) (D := 1) hdt (by linarith)
  have hD := subDelays (Tmin := enc.Tmin) hdt hdt' hd
  obtain ⟨m1, m2⟩ := dly_bd hdt (show (0 : K) < 1 / 100 by norm_num)
  obtain ⟨n1, n2⟩ := dly_bd hdt (show (0 : K) < 2 * (1 / 100) by norm_num)
  have hx := sub_dly (Tmin := enc.Tmin) hdt h1
  rw [abs_lt] at hx
  obtain ⟨e1, e2⟩ := dly_bd hdt (show (0 : K) < enc.Tmin + (3 * 1 + 2 * (1 / 100)) by linarith)
  have hle : arrInj dt (t0 + enc.Tmin + v1 * enc.Tcod) 1 + (dly dt (2 * (1 / 100) : K) - dly dt (1 / 100 : K)) ≤
      arrInj dt (t0 + enc.Tmin + v2 * enc.Tcod) 1 := by
    refine step_le hdt ?_
    push_cast [Nat.cast_sub hD.h2.le]
    linarith
  rw [if_pos hle] at t7
  rw [if_neg (by have := hD.h2; omega)] at t6
  refine ⟨st, hses, ⟨_, _, R.pair (k := 7) (by norm_num) hdt rfl t7 (by have := hD.h6; omega) ?_, ?_⟩, R.quiet (k := 6) (by norm_num) rfl t6⟩
  · push_cast; linarith
  · push_cast
    rw [abs_le]
    constructor <;> linarith

/-- **C46, dead zone.** If `v2` exceeds `v1` by less than about `Tneu/Tcod` (more exactly: by at least `dt/Tcod` and at most
`(Tneu - 2*dt)/Tcod`), the network answers nothing at all: both outputs stay silent. -/
theorem C46_subtractor_dead_zone (H : EventHeap K) {ord : ℕ → List ℕ → List ℕ} (hord : SetOrder ord) {enc : Encoder K}
    {dt : K} (hdt : 0 < dt) (hdt' : dt < 1 / 50) (h2 : 0 < enc.Tcod) (hd : dt ≤ enc.Tmin)
    (name : Option String) {v1 v2 t0 : K} (T : K) (h10 : 0 ≤ v1) (h21 : v2 ≤ 1) (ht : 0 ≤ t0)
    (h12 : v1 * enc.Tcod + dt ≤ v2 * enc.Tcod) (h12' : v2 * enc.Tcod + 2 * dt ≤ v1 * enc.Tcod + 1 / 100) :
    let p := (subtractorNetwork enc name World.empty).1
    let w := (subtractorNetwork enc name World.empty).2
    ∃ st, session H ord enc dt T w p.mod [.value v1 p.input1 t0, .value v2 p.input2 t0] = .ok st ∧
      Quiet (st.spikeLog p.outputMinus) ∧ Quiet (st.spikeLog p.outputPlus) := by
  intro p w
  have hlt : v1 < v2 := lt_of_mul_lt_mul_right (show v1 * enc.Tcod < v2 * enc.Tcod by linarith) h2.le
  obtain ⟨ns, S, F, st, hses, R, t6, t7⟩ := sub_session H hord hdt hdt' h2 hd name (t0 := t0) T h10 (by linarith) (by linarith) h21 ht
  have h1 : 0 < enc.Tmin := by linarith
  have hv1 : 0 ≤ v1 * enc.Tcod := mul_nonneg h10 h2.le
  obtain ⟨a1, a2⟩ := arrInj_bd (τ := t0 + enc.Tmin + v1 * enc.Tcod) (D := 1) hdt (by linarith)
  obtain ⟨b1, b2⟩ := arrInj_bd (τ := t0 + enc.Tmin + v2 * enc.Tcod) (D := 1) hdt (by linarith)
  have hD := subDelays (Tmin := enc.Tmin) hdt hdt' hd
  obtain ⟨m1, m2⟩ := dly_bd hdt (show (0 : K) < 1 / 100 by norm_num)
  obtain ⟨n1, n2⟩ := dly_bd hdt (show (0 : K) < 2 * (1 / 100) by norm_num)
  have hlt1 : arrInj dt (t0 + enc.Tmin + v1 * enc.Tcod) 1 < arrInj dt (t0 + enc.Tmin + v2 * enc.Tcod) 1 := step_lt hdt (by linarith)
  have hlt2 : arrInj dt (t0 + enc.Tmin + v2 * enc.Tcod) 1 <
      arrInj dt (t0 + enc.Tmin + v1 * enc.Tcod) 1 + (dly dt (2 * (1 / 100) : K) - dly dt (1 / 100 : K)) := by
    refine step_lt hdt ?_
    push_cast [Nat.cast_sub hD.h2.le]
    linarith
  rw [if_neg (by omega)] at t7
  rw [if_neg (by omega)] at t6
  exact ⟨st, hses, R.quiet (k := 7) (by norm_num) rfl t7, R.quiet (k := 6) (by norm_num) rfl t6⟩

/-- Concrete cases of C46 with the default encoder and time step: 0.7 - 0.2, 0.2 - 0.7 and the dead zone 0.2 - 0.20005. -/
example : (∃ st, session (sortedHeap _) (fun _ l => l) ⟨10, 100⟩ (1 / 1000) 300
      (subtractorNetwork (⟨10, 100⟩ : Encoder ℚ) none World.empty).2 0 [.value (7 / 10) 0 0, .value (2 / 10) 1 0] = .ok st ∧
      Carries ⟨10, 100⟩ (1 / 1000) (2 * (1 / 1000)) (st.spikeLog 6) (7 / 10 - 2 / 10) ∧ Quiet (st.spikeLog 7)) ∧
    (∃ st, session (sortedHeap _) (fun _ l => l) ⟨10, 100⟩ (1 / 1000) 300
      (subtractorNetwork (⟨10, 100⟩ : Encoder ℚ) none World.empty).2 0 [.value (2 / 10) 0 0, .value (7 / 10) 1 0] = .ok st ∧
      Carries ⟨10, 100⟩ (1 / 1000) (2 * (1 / 1000)) (st.spikeLog 7) (7 / 10 - 2 / 10) ∧ Quiet (st.spikeLog 6)) ∧
    (∃ st, session (sortedHeap _) (fun _ l => l) ⟨10, 100⟩ (1 / 1000) 300
      (subtractorNetwork (⟨10, 100⟩ : Encoder ℚ) none World.empty).2 0 [.value (2 / 10) 0 0, .value (20005 / 100000) 1 0] = .ok st ∧
      Quiet (st.spikeLog 7) ∧ Quiet (st.spikeLog 6)) :=
  ⟨C46_subtractor_plus (sortedHeap _) id_setOrder (enc := (⟨10, 100⟩ : Encoder ℚ)) (by norm_num) (by norm_num)
    (by norm_num) (by norm_num) none (by norm_num) (by norm_num) (by norm_num) (by norm_num) (by norm_num),
   C46_subtractor_minus (sortedHeap _) id_setOrder (enc := (⟨10, 100⟩ : Encoder ℚ)) (by norm_num) (by norm_num)
    (by norm_num) (by norm_num) none (by norm_num) (by norm_num) (by norm_num) (by norm_num) (by norm_num),
   C46_subtractor_dead_zone (sortedHeap _) id_setOrder (enc := (⟨10, 100⟩ : Encoder ℚ)) (by norm_num) (by norm_num)
    (by norm_num) (by norm_num) none 300 (by norm_num) (by norm_num) (by norm_num) (by norm_num) (by norm_num)⟩

end Axon
