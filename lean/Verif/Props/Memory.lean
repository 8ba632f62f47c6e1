import Verif.Proofs.Memory
import Verif.Proofs.LibNets
import Verif.Props.Networks

/-! # C41: the memory network -/
set_option linter.unusedSectionVars false
namespace Axon
open Spec
variable {K : Type*} [Field K] [LinearOrder K] [IsStrictOrderedRing K] [FloorRing K]

theorem memory_lib (enc : Encoder K) (name) : LibOK (memoryNetwork enc name World.empty).2 8 :=
  LibOK.of (blockOK_of_check rfl) rfl

/-- An injected value arrives as two spikes at least one synaptic delay and at most `Tmax` apart. -/
theorem value_gap {dt : K} (hdt : 0 < dt) {enc : Encoder K} (h1 : 0 < enc.Tmin) (h2 : 0 < enc.Tcod)
    (hd : 1 + dt ≤ enc.Tmin) {v t0 : K} (hv : 0 ≤ v) (hv1 : v ≤ 1) (ht : 0 ≤ t0) :
    arrInj dt t0 1 + dly dt 1 ≤ arrInj dt (t0 + enc.Tmin + v * enc.Tcod) 1 ∧
    arrInj dt (t0 + enc.Tmin + v * enc.Tcod) 1 ≤ arrInj dt t0 1 + ⌈enc.Tmax / dt⌉₊ := by
  have hvc : 0 ≤ v * enc.Tcod := mul_nonneg hv h2.le
  have hvc' : v * enc.Tcod ≤ enc.Tcod := mul_le_of_le_one_left h2.le hv1
  obtain ⟨a1, a2⟩ := arrInj_bd (τ := t0) (D := 1) hdt (by linarith)
  obtain ⟨b1, b2⟩ := arrInj_bd (τ := t0 + enc.Tmin + v * enc.Tcod) (D := 1) hdt (by linarith)
  obtain ⟨d1, d2⟩ := dly_bd hdt (one_pos (α := K))
  have hm := Nat.le_ceil (enc.Tmax / dt)
  rw [div_le_iff₀ hdt] at hm
  refine ⟨step_le hdt ?_, step_le hdt ?_⟩
  · push_cast; linarith
  · push_cast; unfold Encoder.Tmax at hm ⊢; linarith

/-- **C41.** A `MemoryNetwork` that is given the value `v` at time `t0` signals `ready` exactly once; after a recall
at any time from then on, `output` carries `v`. -/
theorem C41_memory (H : EventHeap K) {ord : ℕ → List ℕ → List ℕ} (hord : SetOrder ord) {enc : Encoder K}
    {dt : K} (hdt : 0 < dt) (h2 : 0 < enc.Tcod) (hd : 1 + dt ≤ enc.Tmin) (hd3 : 3 * dt ≤ enc.Tmin)
    (name : Option String) {v t0 : K} (hv0 : 0 ≤ v) (hv1 : v ≤ 1) (ht : 0 ≤ t0) :
    let p := (memoryNetwork enc name World.empty).1
    let w := (memoryNetwork enc name World.empty).2
    ∃ k : ℕ, (k : K) * dt < t0 + enc.Tmax + 3 + 3 * dt ∧
      ∀ tr, (k : K) * dt ≤ tr → ∀ T, tr + enc.Tmin + v * enc.Tcod + 2 + 3 * dt ≤ T →
      ∃ st, session H ord enc dt T w p.mod [.value v p.input t0, .spike p.recall tr] = .ok st ∧
        st.spikeLog p.ready = some [(k : K) * dt] ∧ Carries enc dt (3 * dt) (st.spikeLog p.output) v := by
  intro p w
  have h1 : 0 < enc.Tmin := by linarith
  have hTmax : 0 < enc.Tmax := add_pos h1 h2
  have hvc : 0 ≤ v * enc.Tcod := mul_nonneg hv0 h2.le
  obtain ⟨c1, c2, c3, c4, c5⟩ := value_arr hdt h1 h2 (by linarith) hv0 ht
  obtain ⟨g1, g2⟩ := value_gap hdt h1 h2 hd hv0 hv1 ht
  obtain ⟨d1, d2⟩ := dly_bd hdt (one_pos (α := K))
  obtain ⟨e1, e2⟩ := dly_bd hdt (two_pos (α := K))
  have hm := Nat.ceil_lt_add_one (div_pos hTmax hdt).le
  have hm' := mul_lt_mul_of_pos_right hm hdt
  rw [add_mul, div_mul_cancel₀ _ hdt.ne', one_mul] at hm'
  have hm1 : 1 ≤ ⌈enc.Tmax / dt⌉₊ := Nat.one_le_iff_ne_zero.mpr (Nat.ceil_pos.mpr (div_pos hTmax hdt)).ne'
  refine ⟨arrInj dt t0 1 + dly dt 1 + ⌈enc.Tmax / dt⌉₊ - 1 + dly dt 1, ?_, ?_⟩
  · rw [Nat.add_sub_assoc hm1]
    push_cast [Nat.cast_sub hm1]
    linarith
  intro tr htr T hT
  have htr0 : 0 ≤ tr := le_trans (mul_nonneg (Nat.cast_nonneg _) hdt.le) htr
  obtain ⟨r1, r1'⟩ := arrInj_bd (τ := tr) (D := 1) hdt (by linarith)
  obtain ⟨r2, r2'⟩ := arrInj_bd (τ := tr) (D := 2) hdt (by linarith)
  obtain ⟨ns, S, F, st, hses, R⟩ := (memory_lib enc name).run H hord enc hdt T
    (cs := [.value v 0 t0, .spike 5 tr]) (by simp [CallOK, hv0, hv1])
  have E := R.embeds [1, 2, 3, 4, 6, 7] (by simp) (by simp [injTimes, callSpikes])
  have iI := R.input hdt (k := 0) (by norm_num) rfl (A := [t0, t0 + enc.Tmin + v * enc.Tcod]) rfl 1
  have iR := fun D => R.input hdt (k := 5) (by norm_num) rfl (A := [tr]) rfl D
  rw [abs_lt] at c3
  have hba : ((arrInj dt (t0 + enc.Tmin + v * enc.Tcod) 1 - arrInj dt t0 1 : ℕ) : K) =
      (arrInj dt (t0 + enc.Tmin + v * enc.Tcod) 1 : K) - (arrInj dt t0 1 : K) := Nat.cast_sub c2.le
  have hd1 : dly dt (1 : K) ≤ arrInj dt tr 1 + (arrInj dt (t0 + enc.Tmin + v * enc.Tcod) 1 - arrInj dt t0 1) + dly dt 2 := by
    have := dly_mono hdt (show (1 : K) ≤ 2 by norm_num); omega
  have hrr : arrInj dt tr 2 < arrInj dt tr 1 + (arrInj dt (t0 + enc.Tmin + v * enc.Tcod) 1 - arrInj dt t0 1) + dly dt 2 - dly dt 1 := by
    apply step_lt hdt
    rw [Nat.cast_sub hd1]
    push_cast [hba]
    linarith
  have hrd : arrInj dt t0 1 + dly dt 1 + ⌈enc.Tmax / dt⌉₊ - 1 + dly dt 1 < arrInj dt tr 1 :=
    step_lt hdt (by linarith)
  obtain ⟨t6, t7⟩ := mem_recall R.run hdt hTmax (x := 0) E iI c1 g1 g2 (iR 1) (iR 2) hrd (arrInj_pos _ _ _) hrr
  have hq : ((arrInj dt tr 1 + (arrInj dt (t0 + enc.Tmin + v * enc.Tcod) 1 - arrInj dt t0 1) + dly dt 2 - dly dt 1 : ℕ) : K)
      = (arrInj dt tr 1 : K) + ((arrInj dt (t0 + enc.Tmin + v * enc.Tcod) 1 : K) - (arrInj dt t0 1 : K)) + (dly dt 2 : K) - (dly dt 1 : K) := by
    rw [Nat.cast_sub hd1]
    push_cast [hba]
    ring
  refine ⟨st, hses, ?_, _, _, R.pair (k := 7) (by norm_num) hdt rfl t7 hrr ?_, ?_⟩
  · exact R.log 6 (by norm_num) _ t6 (by simp) (by intro i hi; rw [List.mem_singleton] at hi; subst hi; linarith)
  · rw [hq]; linarith
  · rw [hq, abs_le]
    constructor <;> linarith

/-- A concrete case of C41: default encoder, dt = 1/1000, the value 0.3 stored at 0 and recalled at 500. -/
example : ∃ k : ℕ, (k : ℚ) * (1 / 1000) < 0 + 110 + 3 + 3 * (1 / 1000) ∧
    ∃ st, session (sortedHeap _) (fun _ l => l) ⟨10, 100⟩ (1 / 1000) 600
      (memoryNetwork (⟨10, 100⟩ : Encoder ℚ) none World.empty).2 0 [.value (3 / 10) 0 0, .spike 5 500] = .ok st ∧
      st.spikeLog 6 = some [(k : ℚ) * (1 / 1000)] ∧ Carries ⟨10, 100⟩ (1 / 1000) (3 * (1 / 1000)) (st.spikeLog 7) (3 / 10) := by
  obtain ⟨k, hk, h⟩ := C41_memory (sortedHeap _) id_setOrder (enc := (⟨10, 100⟩ : Encoder ℚ)) (dt := 1 / 1000) (by norm_num)
    (by norm_num) (by norm_num) (by norm_num) none (v := 3 / 10) (t0 := 0) (by norm_num) (by norm_num) (by norm_num)
  norm_num [Encoder.Tmax] at hk
  exact ⟨k, by norm_num; exact hk, h 500 (by norm_num; linarith) 600 (by norm_num)⟩

/-! ## C42 -/

theorem invMemory_lib (enc : Encoder K) (name) : LibOK (invertingMemoryNetwork enc name World.empty).2 6 :=
  LibOK.of (blockOK_of_check rfl) rfl

/-- **C42.** An `InvertingMemoryNetwork` that is given the value `v` at time `t0` and recalled at any time after
the value has been stored emits `1 - v` (up to the neuron delay `Tneu = 1/100` by which the network delays its first
output spike, and `3*dt`). -/
theorem C42_inverting_memory (H : EventHeap K) {ord : ℕ → List ℕ → List ℕ} (hord : SetOrder ord) {enc : Encoder K}
    {dt : K} (hdt : 0 < dt) (h2 : 0 < enc.Tcod) (hd : 1 + dt ≤ enc.Tmin) (hd3 : 3 * dt + 1 / 100 ≤ enc.Tmin)
    (name : Option String) {v t0 tr T : K} (hv0 : 0 ≤ v) (hv1 : v ≤ 1) (ht : 0 ≤ t0)
    (htr : t0 + enc.Tmin + v * enc.Tcod + 1 + 2 * dt ≤ tr)
    (hT : tr + enc.Tmin + (1 - v) * enc.Tcod + 2 + 4 * dt ≤ T) :
    let p := (invertingMemoryNetwork enc name World.empty).1
    let w := (invertingMemoryNetwork enc name World.empty).2
    ∃ st, session H ord enc dt T w p.mod [.value v p.input t0, .spike p.recall tr] = .ok st ∧
      ∃ k l : ℕ, Pair dt (st.spikeLog p.output) k l ∧
        |((l : K) * dt - (k : K) * dt) - (enc.Tmin + (1 - v) * enc.Tcod - 1 / 100)| ≤ 3 * dt := by
  intro p w
  have h1 : 0 < enc.Tmin := by linarith
  have hTmax : 0 < enc.Tmax := add_pos h1 h2
  have hvc : 0 ≤ v * enc.Tcod := mul_nonneg hv0 h2.le
  have hvc' : v * enc.Tcod ≤ enc.Tcod := mul_le_of_le_one_left h2.le hv1
  obtain ⟨c1, c2, c3, c4, c5⟩ := value_arr hdt h1 h2 (by linarith) hv0 ht
  obtain ⟨g1, g2⟩ := value_gap hdt h1 h2 hd hv0 hv1 ht
  obtain ⟨d1, d2⟩ := dly_bd hdt (one_pos (α := K))
  obtain ⟨e1, e2⟩ := dly_bd hdt (show 0 < 1 + enc.Tmin by linarith)
  have hm := Nat.ceil_lt_add_one (div_pos hTmax hdt).le
  have hm' := mul_lt_mul_of_pos_right hm hdt
  rw [add_mul, div_mul_cancel₀ _ hdt.ne', one_mul] at hm'
  have hm2 := Nat.le_ceil (enc.Tmax / dt)
  rw [div_le_iff₀ hdt] at hm2
  have hm1 : 1 ≤ ⌈enc.Tmax / dt⌉₊ := Nat.one_le_iff_ne_zero.mpr (Nat.ceil_pos.mpr (div_pos hTmax hdt)).ne'
  obtain ⟨r1, r1'⟩ := arrInj_bd (τ := tr) (D := 1) hdt (by linarith)
  obtain ⟨r2, r2'⟩ := arrInj_bd (τ := tr) (D := 2 + 1 / 100) hdt (by linarith)
  obtain ⟨ns, S, F, st, hses, R⟩ := (invMemory_lib enc name).run H hord enc hdt T
    (cs := [.value v 0 t0, .spike 4 tr]) (by simp [CallOK, hv0, hv1])
  have E := R.embeds [1, 2, 3, 5] (by simp) (by simp [injTimes, callSpikes])
  have iI := R.input hdt (k := 0) (by norm_num) rfl (A := [t0, t0 + enc.Tmin + v * enc.Tcod]) rfl 1
  have iR := fun D => R.input hdt (k := 4) (by norm_num) rfl (A := [tr]) rfl D
  rw [abs_lt] at c3
  unfold Encoder.Tmax at hm' hm2
  have hrd : arrInj dt (t0 + enc.Tmin + v * enc.Tcod) 1 + dly dt 1 < arrInj dt tr 1 :=
    step_lt hdt (by push_cast; linarith)
  have hrd' : arrInj dt t0 1 + dly dt (1 + enc.Tmin) < arrInj dt tr 1 :=
    step_lt hdt (by push_cast; linarith)
  have hn : arrInj dt (t0 + enc.Tmin + v * enc.Tcod) 1 + dly dt 1 < arrInj dt t0 1 + dly dt (1 + enc.Tmin) + ⌈enc.Tmax / dt⌉₊ :=
    step_lt hdt (by push_cast; unfold Encoder.Tmax; linarith)
  have hrr : arrInj dt tr (2 + 1 / 100) + (arrInj dt (t0 + enc.Tmin + v * enc.Tcod) 1 + dly dt 1) <
      arrInj dt tr 1 + ⌈enc.Tmax / dt⌉₊ - 1 + (arrInj dt t0 1 + dly dt (1 + enc.Tmin)) + dly dt 1 := by
    apply step_lt hdt
    push_cast [Nat.cast_sub (show 1 ≤ arrInj dt tr 1 + ⌈enc.Tmax / dt⌉₊ by omega)]
    unfold Encoder.Tmax
    linarith
  have t := invmem_recall R.run hdt hTmax (x := 0) E iI c1 g1 (iR 1) (iR _) hrd hrd' (arrInj_pos _ _ _) hn hrr
  have hq : ((arrInj dt tr 1 + ⌈enc.Tmax / dt⌉₊ - 1 + (arrInj dt t0 1 + dly dt (1 + enc.Tmin)) -
      arrInj dt (t0 + enc.Tmin + v * enc.Tcod) 1 : ℕ) : K) = (arrInj dt tr 1 : K) + (⌈enc.Tmax / dt⌉₊ : K) - 1 +
        ((arrInj dt t0 1 : K) + (dly dt (1 + enc.Tmin) : K)) - (arrInj dt (t0 + enc.Tmin + v * enc.Tcod) 1 : K) := by
    rw [Nat.cast_sub (by omega)]
    push_cast [Nat.cast_sub (show 1 ≤ arrInj dt tr 1 + ⌈enc.Tmax / dt⌉₊ by omega)]
    ring
  have hlt : arrInj dt tr (2 + 1 / 100) < arrInj dt tr 1 + ⌈enc.Tmax / dt⌉₊ - 1 + (arrInj dt t0 1 + dly dt (1 + enc.Tmin)) -
      arrInj dt (t0 + enc.Tmin + v * enc.Tcod) 1 := by
    clear hq; omega
  refine ⟨st, hses, _, _, R.pair (k := 5) (by norm_num) hdt rfl t hlt ?_, ?_⟩
  · rw [hq]; unfold Encoder.Tmax; linarith
  · rw [hq, abs_le]
    unfold Encoder.Tmax
    constructor <;> linarith

/-- A concrete case of C42: 0.3 stored at 0, recalled at 200. -/
example : ∃ st, session (sortedHeap _) (fun _ l => l) ⟨10, 100⟩ (1 / 1000) 600
      (invertingMemoryNetwork (⟨10, 100⟩ : Encoder ℚ) none World.empty).2 0 [.value (3 / 10) 0 0, .spike 4 200] = .ok st ∧
      ∃ k l : ℕ, Pair (1 / 1000) (st.spikeLog 5) k l ∧
        |((l : ℚ) * (1 / 1000) - (k : ℚ) * (1 / 1000)) - (10 + (1 - 3 / 10) * 100 - 1 / 100)| ≤ 3 * (1 / 1000) :=
  C42_inverting_memory (sortedHeap _) id_setOrder (enc := (⟨10, 100⟩ : Encoder ℚ)) (by norm_num)
    (by norm_num) (by norm_num) (by norm_num) none (by norm_num) (by norm_num) (by norm_num) (by norm_num) (by norm_num)

/-! ## C43 -/

theorem smem_times {dt : K} (hdt : 0 < dt) {enc : Encoder K} (h2 : 0 < enc.Tcod) (hd : 1 + dt ≤ enc.Tmin)
    {v t0 tr T : K} (hv0 : 0 ≤ v) (hv1 : v ≤ 1) (ht : 0 ≤ t0) (htr : t0 + enc.Tmax + 2 + 3 * dt ≤ tr)
    (hT : tr + enc.Tmin + v * enc.Tcod + 4 + 4 * dt ≤ T) {a b r : ℕ} (ha : a = arrInj dt t0 1)
    (hb : b = arrInj dt (t0 + enc.Tmin + v * enc.Tcod) 1) (hr : r = arrInj dt tr 1) :
    a + dly dt 1 + dly dt 1 + ⌈enc.Tmax / dt⌉₊ - 1 < r ∧ b + dly dt 1 < r ∧
    r + dly dt 2 + dly dt 1 < r + dly dt 2 + (b - a) + dly dt 1 ∧
    ((r + dly dt 2 + (b - a) + dly dt 1 : ℕ) : K) * dt ≤ T ∧
    |(((r + dly dt 2 + (b - a) + dly dt 1 : ℕ) : K) * dt - ((r + dly dt 2 + dly dt 1 : ℕ) : K) * dt) -
      (enc.Tmin + v * enc.Tcod)| ≤ dt := by
  subst ha hb hr
  have h1 : 0 < enc.Tmin := by linarith
  have hTmax : 0 < enc.Tmax := add_pos h1 h2
  have hvc : 0 ≤ v * enc.Tcod := mul_nonneg hv0 h2.le
  have hvc' : v * enc.Tcod ≤ enc.Tcod := mul_le_of_le_one_left h2.le hv1
  obtain ⟨c1, c2, c3, c4, c5⟩ := value_arr hdt h1 h2 (by linarith) hv0 ht
  obtain ⟨d1, d2⟩ := dly_bd hdt (one_pos (α := K))
  obtain ⟨e1, e2⟩ := dly_bd hdt (two_pos (α := K))
  have hm := Nat.ceil_lt_add_one (div_pos hTmax hdt).le
  have hm' := mul_lt_mul_of_pos_right hm hdt
  rw [add_mul, div_mul_cancel₀ _ hdt.ne', one_mul] at hm'
  have hm1 : 1 ≤ ⌈enc.Tmax / dt⌉₊ := Nat.one_le_iff_ne_zero.mpr (Nat.ceil_pos.mpr (div_pos hTmax hdt)).ne'
  obtain ⟨r1, r1'⟩ := arrInj_bd (τ := tr) (D := 1) hdt (by linarith)
  rw [abs_lt] at c3
  refine ⟨?_, ?_, by omega, ?_, ?_⟩
  · refine step_lt hdt ?_
    rw [Nat.add_sub_assoc hm1]
    push_cast [Nat.cast_sub hm1]
    linarith
  · refine step_lt hdt ?_
    unfold Encoder.Tmax at htr
    push_cast
    linarith
  · push_cast [Nat.cast_sub c2.le]
    linarith
  · push_cast [Nat.cast_sub c2.le]
    rw [abs_le]
    constructor <;> linarith

/-- **C43.** A `SignedMemoryNetwork` that is given a value on one rail at time `t0` and recalled at any time after it
has been stored emits the value on the output rail of the same sign; the other rail is silent.  (The neuron `ready`
fires together with the output.) -/
theorem C43_signed_memory (H : EventHeap K) {ord : ℕ → List ℕ → List ℕ} (hord : SetOrder ord) {enc : Encoder K}
    {dt : K} (hdt : 0 < dt) (h2 : 0 < enc.Tcod) (hd : 1 + dt ≤ enc.Tmin)
    (name : Option String) (neg : Bool) {v t0 tr T : K} (hv0 : 0 ≤ v) (hv1 : v ≤ 1) (ht : 0 ≤ t0)
    (htr : t0 + enc.Tmax + 2 + 3 * dt ≤ tr) (hT : tr + enc.Tmin + v * enc.Tcod + 4 + 4 * dt ≤ T) :
    let p := (signedMemoryNetwork enc name World.empty).1
    let w := (signedMemoryNetwork enc name World.empty).2
    ∃ st, session H ord enc dt T w p.mod
        [.value v (if neg then p.inputNeg else p.inputPos) t0, .spike p.recall tr] = .ok st ∧
      Carries enc dt dt (st.spikeLog (if neg then p.outputNeg else p.outputPos)) v ∧
      Quiet (st.spikeLog (if neg then p.outputPos else p.outputNeg)) ∧
      Carries enc dt dt (st.spikeLog p.ready) v := by
  intro p w
  have h1 : 0 < enc.Tmin := by linarith
  have hTmax : 0 < enc.Tmax := add_pos h1 h2
  obtain ⟨c1, c2, -, -, -⟩ := value_arr hdt h1 h2 (by linarith) hv0 ht
  obtain ⟨g1, g2⟩ := value_gap hdt h1 h2 hd hv0 hv1 ht
  obtain ⟨s1, s2, s3, s4, s5⟩ := smem_times hdt h2 hd hv0 hv1 ht htr hT rfl rfl rfl
  cases neg with
  | false =>
    obtain ⟨ns, S, F, st, hses, R⟩ := (signedMemory_lib enc name).run H hord enc hdt T
      (cs := [.value v 0 t0, .spike 4 tr]) (by simp [CallOK, hv0, hv1])
    have E := R.embeds [2, 3, 5, 6, 7, 8, 9, 10, 11, 12, 13, 14, 15] (by simp) (by simp [injTimes, callSpikes])
    have iI := R.input hdt (k := 0) (by norm_num) rfl (A := [t0, t0 + enc.Tmin + v * enc.Tcod]) rfl 1
    have iJ := R.input hdt (k := 1) (by norm_num) rfl (A := []) rfl 1
    have iR := R.input hdt (k := 4) (by norm_num) rfl (A := [tr]) rfl 1
    obtain ⟨t1, t2, t3⟩ := smem_recall R.run hdt hTmax (x := 0) E false iI iJ c1 g1 g2 iR s1 s2
    exact ⟨st, hses, ⟨_, _, R.pair (k := 5) (by norm_num) hdt rfl t1 s3 s4, s5⟩, R.quiet (k := 6) (by norm_num) rfl t2,
      ⟨_, _, R.pair (k := 7) (by norm_num) hdt rfl t3 s3 s4, s5⟩⟩
  | true =>
    obtain ⟨ns, S, F, st, hses, R⟩ := (signedMemory_lib enc name).run H hord enc hdt T
      (cs := [.value v 1 t0, .spike 4 tr]) (by simp [CallOK, hv0, hv1])
    have E := R.embeds [2, 3, 5, 6, 7, 8, 9, 10, 11, 12, 13, 14, 15] (by simp) (by simp [injTimes, callSpikes])
    have iI := R.input hdt (k := 1) (by norm_num) rfl (A := [t0, t0 + enc.Tmin + v * enc.Tcod]) rfl 1
    have iJ := R.input hdt (k := 0) (by norm_num) rfl (A := []) rfl 1
    have iR := R.input hdt (k := 4) (by norm_num) rfl (A := [tr]) rfl 1
    obtain ⟨t1, t2, t3⟩ := smem_recall R.run hdt hTmax (x := 0) E true iI iJ c1 g1 g2 iR s1 s2
    exact ⟨st, hses, ⟨_, _, R.pair (k := 6) (by norm_num) hdt rfl t1 s3 s4, s5⟩, R.quiet (k := 5) (by norm_num) rfl t2,
      ⟨_, _, R.pair (k := 7) (by norm_num) hdt rfl t3 s3 s4, s5⟩⟩

/-- A concrete case of C43: -0.3 stored at 0, recalled at 200. -/
example : ∃ st, session (sortedHeap _) (fun _ l => l) ⟨10, 100⟩ (1 / 1000) 600
      (signedMemoryNetwork (⟨10, 100⟩ : Encoder ℚ) none World.empty).2 0 [.value (3 / 10) 1 0, .spike 4 200] = .ok st ∧
      Carries ⟨10, 100⟩ (1 / 1000) (1 / 1000) (st.spikeLog 6) (3 / 10) ∧ Quiet (st.spikeLog 5) ∧
      Carries ⟨10, 100⟩ (1 / 1000) (1 / 1000) (st.spikeLog 7) (3 / 10) :=
  C43_signed_memory (sortedHeap _) id_setOrder (enc := (⟨10, 100⟩ : Encoder ℚ)) (by norm_num)
    (by norm_num) (by norm_num) none true (by norm_num) (by norm_num) (by norm_num) (by norm_num [Encoder.Tmax]) (by norm_num)

end Axon
