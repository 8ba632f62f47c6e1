import Verif.Model.Encoder
import Mathlib.Tactic.Ring
import Mathlib.Tactic.FieldSimp
import Mathlib.Tactic.Linarith
import Mathlib.Algebra.Order.Field.Basic
import Mathlib.Order.Interval.Set.Basic

/-! # C01, C02: the data encoder -/
set_option linter.unusedSectionVars false
namespace Axon
variable {K : Type*} [Field K] [LinearOrder K] [IsStrictOrderedRing K]

/-- **C01.** `encode_value` succeeds exactly on `[0,1]`; then it returns a pair whose two spikes are
`0` and the interval, and decoding the distance between them gives back `v`. -/
theorem C01_round_trip (e : Encoder K) (hT : e.Tcod ≠ 0) (v : K) :
    (0 ≤ v ∧ v ≤ 1 → ∃ I, e.encodeValue v = .ok (0, I) ∧ e.decodeInterval (I - 0) = v) ∧
    (¬ (0 ≤ v ∧ v ≤ 1) → e.encodeValue v = .error .assertionError) := by
  constructor
  · intro h
    refine ⟨e.Tmin + v * e.Tcod, by simp [Encoder.encodeValue, h], ?_⟩
    unfold Encoder.decodeInterval
    field_simp
    ring
  · intro h
    simp only [Encoder.encodeValue, if_neg h]

example : ((⟨10, 100⟩ : Encoder ℚ)).Tcod ≠ 0 ∧ (0 : ℚ) ≤ 1/4 ∧ (1/4 : ℚ) ≤ 1 := by norm_num

/-- **C02.** For `Tcod > 0` the encoder is strictly increasing, its image is exactly
`[Tmin, Tmax]`, each interval there is the encoding of exactly one value (the decoded one), and a
timing error `d` shifts the decoded value by exactly `d / Tcod`. -/
theorem C02_order_isomorphism (e : Encoder K) (hT : 0 < e.Tcod) :
    (∀ v w I J, e.encodeValue v = .ok (0, I) → e.encodeValue w = .ok (0, J) → (v < w ↔ I < J)) ∧
    (∀ I, (∃ v, e.encodeValue v = .ok (0, I)) ↔ e.Tmin ≤ I ∧ I ≤ e.Tmax) ∧
    (∀ I v, e.encodeValue v = .ok (0, I) → v = e.decodeInterval I) ∧
    (∀ I d, e.decodeInterval (I + d) = e.decodeInterval I + d / e.Tcod) := by
  have enc : ∀ v I, e.encodeValue v = .ok (0, I) ↔ (0 ≤ v ∧ v ≤ 1) ∧ I = e.Tmin + v * e.Tcod := by
    intro v I
    unfold Encoder.encodeValue
    split
    next h => simp [h, eq_comm]
    next h => simp [h]
  refine ⟨?_, ?_, ?_, ?_⟩
  · intro v w I J hv hw
    rw [enc] at hv hw
    rw [hv.2, hw.2, add_lt_add_iff_left, mul_lt_mul_iff_left₀ hT]
  · intro I
    constructor
    · rintro ⟨v, hv⟩
      rw [enc] at hv
      obtain ⟨⟨h0, h1⟩, rfl⟩ := hv
      constructor
      · have := mul_nonneg h0 hT.le; linarith
      · unfold Encoder.Tmax
        have := mul_le_mul_of_nonneg_right h1 hT.le; linarith
    · rintro ⟨h0, h1⟩
      unfold Encoder.Tmax at h1
      refine ⟨(I - e.Tmin) / e.Tcod, ?_⟩
      rw [enc]
      refine ⟨⟨div_nonneg (by linarith) hT.le, (div_le_one hT).mpr (by linarith)⟩, ?_⟩
      field_simp; ring
  · intro I v hv
    rw [enc] at hv
    unfold Encoder.decodeInterval
    rw [hv.2]; field_simp; ring
  · intro I d
    unfold Encoder.decodeInterval
    field_simp; ring

example : (0:ℚ) < (⟨10, 100⟩ : Encoder ℚ).Tcod ∧
    (⟨10, 100⟩ : Encoder ℚ).encodeValue (1/2) = .ok (0, 60) := by
  constructor
  · norm_num
  · norm_num [Encoder.encodeValue]

/-! ## The theorems of this file on concrete cases -/

/-- `C01_round_trip` for the default encoder (`Tmin = 10`, `Tcod = 100`): `1/4` is encoded as a pair
that decodes to `1/4`, and `2` is refused. -/
example : (∃ I, (⟨10, 100⟩ : Encoder ℚ).encodeValue (1/4) = .ok (0, I) ∧
      (⟨10, 100⟩ : Encoder ℚ).decodeInterval (I - 0) = 1/4) ∧
    (⟨10, 100⟩ : Encoder ℚ).encodeValue 2 = .error .assertionError :=
  ⟨(C01_round_trip ⟨10, 100⟩ (by norm_num) (1/4)).1 (by norm_num),
    (C01_round_trip ⟨10, 100⟩ (by norm_num) 2).2 (by norm_num)⟩

/-- `C02_order_isomorphism` for the default encoder: 35 ms is the encoding of a value, 9 ms is not,
and a timing error of 1 ms shifts a decoded value by `1/100`. -/
example : (∃ v, (⟨10, 100⟩ : Encoder ℚ).encodeValue v = .ok (0, 35)) ∧
    (¬ ∃ v, (⟨10, 100⟩ : Encoder ℚ).encodeValue v = .ok (0, 9)) ∧
    (⟨10, 100⟩ : Encoder ℚ).decodeInterval (35 + 1) =
      (⟨10, 100⟩ : Encoder ℚ).decodeInterval 35 + 1 / 100 := by
  obtain ⟨_, h2, _, h4⟩ := C02_order_isomorphism (⟨10, 100⟩ : Encoder ℚ) (by norm_num)
  refine ⟨(h2 35).mpr (by norm_num [Encoder.Tmax]), fun h => ?_, h4 35 1⟩
  have := ((h2 9).mp h).1
  norm_num at this

end Axon
