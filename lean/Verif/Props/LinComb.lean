import Verif.Spec.LinComb
import Verif.Proofs.LinBuild
import Verif.Props.Sync
import Verif.Props.Signed

/-! # C52: the linear combinator and the adder -/
set_option linter.unusedSectionVars false
set_option linter.unusedSimpArgs false
namespace Axon
open Spec
variable {K : Type*} [Field K] [LinearOrder K] [IsStrictOrderedRing K] [FloorRing K]

theorem term_pos (c x : K) : (if decide (x < 0) != decide (0 < c) then |c| * |x| else 0) = max (c * x) 0 := by
  rw [← abs_mul]
  by_cases hx : x < 0 <;> by_cases hc : 0 < c
  · have : c * x < 0 := mul_neg_of_pos_of_neg hc hx
    simp [hx, hc, max_eq_right this.le]
  · have : 0 ≤ c * x := mul_nonneg_of_nonpos_of_nonpos (not_lt.mp hc) hx.le
    simp [hx, hc, max_eq_left this, abs_of_nonneg this]
  · have : 0 ≤ c * x := mul_nonneg hc.le (not_lt.mp hx)
    simp [hx, hc, max_eq_left this, abs_of_nonneg this]
  · have : c * x ≤ 0 := mul_nonpos_of_nonpos_of_nonneg (not_lt.mp hc) (not_lt.mp hx)
    simp [hx, hc, max_eq_right this]

theorem term_neg (c x : K) : (if !(decide (x < 0) != decide (0 < c)) then |c| * |x| else 0) = max (-(c * x)) 0 := by
  rw [← abs_mul]
  by_cases hx : x < 0 <;> by_cases hc : 0 < c
  · have : c * x < 0 := mul_neg_of_pos_of_neg hc hx
    simp [hx, hc, max_eq_left (neg_nonneg.mpr this.le), abs_of_neg this]
  · have : 0 ≤ c * x := mul_nonneg_of_nonpos_of_nonpos (not_lt.mp hc) hx.le
    simp [hx, hc, max_eq_right (neg_nonpos.mpr this)]
  · have : 0 ≤ c * x := mul_nonneg hc.le (not_lt.mp hx)
    simp [hx, hc, max_eq_right (neg_nonpos.mpr this)]
  · have : c * x ≤ 0 := mul_nonpos_of_nonpos_of_nonneg (not_lt.mp hc) (not_lt.mp hx)
    simp [hx, hc, max_eq_left (neg_nonneg.mpr this), abs_of_nonpos this]

theorem signed_abs (x : K) : signed (decide (x < 0)) |x| = x := by
  unfold signed
  by_cases h : x < 0
  · simp [h, abs_of_neg h]
  · simp [h, abs_of_nonneg (not_lt.mp h)]

/-- A session on a linear combinator in terms of the naive run. -/
theorem lin_setup (H : EventHeap K) {ord : ℕ → List ℕ → List ℕ} (hord : SetOrder ord) {enc : Encoder K}
    {dt : K} (hdt : 0 < dt) (kind : ModKind) (name : Option String) (coeff : List K) {x t : ℕ → K} (T : K) (hx : ∀ i < coeff.length, |x i| ≤ 1) :
    let p := (linearCombinatorNetwork kind enc coeff name World.empty).1
    let w := (linearCombinatorNetwork kind enc coeff name World.empty).2
    ∃ inj ns S F st, session H ord enc dt T w p.mod (putAll p coeff.length x t) = .ok st ∧
      SessionRun enc dt T w (40 + 6 * coeff.length) inj ns S F st ∧
      LinAt (w.net ns) fresh inj enc 0 coeff.length (fun i => coeff.getD i 0) ∧
      (∀ k < 40, injTimes inj k = []) ∧
      ∀ i < coeff.length,
        Arr dt inj F (40 + 6 * i) 1 (on (!decide (x i < 0)) [arrInj dt (t i) 1, arrInj dt (t i + enc.Tmin + |x i| * enc.Tcod) 1]) ∧
        Arr dt inj F (40 + 6 * i + 1) 1 (on (decide (x i < 0)) [arrInj dt (t i) 1, arrInj dt (t i + enc.Tmin + |x i| * enc.Tcod) 1]) := by
  intro p w
  obtain ⟨lib, syns, ports⟩ := lin_spec enc kind name coeff
  have hp : p = _ := ports
  have hm : p.mod = 0 := by rw [hp]
  set N := coeff.length with hN
  let f : ℕ → ℕ := fun i => if x i < 0 then 40 + 6 * i + 1 else 40 + 6 * i
  have hfr : ∀ i, f i = 40 + 6 * i ∨ f i = 40 + 6 * i + 1 := fun i => by
    by_cases h : x i < 0
    · right; simp [f, h]
    · left; simp [f, h]
  have hf : ∀ i j, f i = f j → i = j := fun i j h => by
    have := hfr i; have := hfr j; omega
  have hcs : putAll p N x t = (List.range N).map (fun i => Call.value |x i| (f i) (t i)) := by
    unfold putAll putSigned
    apply List.map_congr_left
    intro i hi
    have hi' : i < N := List.mem_range.mp hi
    rw [hp]
    simp [f, hi']
  rw [hcs, hm]
  obtain ⟨ns, S, F, st, hses, R⟩ := lib.run H hord enc hdt T (cs := (List.range N).map (fun i => Call.value |x i| (f i) (t i))) (by
      intro c hc
      obtain ⟨j, hj, rfl⟩ := List.mem_map.mp hc
      exact ⟨abs_nonneg _, hx j (List.mem_range.mp hj)⟩)
  have E := R.embeds (linInner N) (by
      intro k hk
      exact List.mem_range.mp (List.mem_filter.mp hk).1) (by
      intro k hk
      have := (List.mem_filter.mp hk).2
      refine injTimes_values_none enc (f := f) (fun i => |x i|) t _ (fun i => ?_)
      have := hfr i
      simp at *
      omega)
  rw [syns] at E
  have hin : ∀ i < N, ∀ k < 2, insOf w.syns (40 + 6 * i + k) = [] := by
    intro i hi k hk
    show insOf (linearCombinatorNetwork kind enc coeff name World.empty).2.syns _ = []
    rw [syns, insOf_lin_chan _ _ _ _ _ _ hi (by omega)]
    unfold insOf
    rw [List.filter_eq_nil_iff]
    intro s hs hc
    have := linRoundSyns_post enc _ _ _ s hs
    have := of_decide_eq_true hc
    omega
  refine ⟨_, ns, S, F, st, hses, R, LinAt.of E, ?_, ?_⟩
  · intro k hk
    refine injTimes_values_none enc (f := f) (fun i => |x i|) t _ (fun i => ?_)
    have := hfr i
    omega
  · intro i hi
    refine R.signed hdt (by omega) (by omega) (hin i hi 0 (by omega)) (hin i hi 1 (by omega)) (decide (x i < 0)) ?_ ?_ 1
    · by_cases h : x i < 0
      · simp only [h, decide_true, if_true]
        refine injTimes_values_none enc (f := f) (fun i => |x i|) t _ (fun j => ?_)
        by_cases e : j = i
        · subst e; simp [f, h]
        · have := hfr j; omega
      · have := injTimes_values enc hf (fun i => |x i|) t (List.range N) List.nodup_range i
        rw [if_pos (List.mem_range.mpr hi)] at this
        simpa [f, h] using this
    · by_cases h : x i < 0
      · have := injTimes_values enc hf (fun i => |x i|) t (List.range N) List.nodup_range i
        rw [if_pos (List.mem_range.mpr hi)] at this
        simpa [f, h] using this
      · simp only [h, decide_false, if_false, Bool.false_eq_true]
        refine injTimes_values_none enc (f := f) (fun i => |x i|) t _ (fun j => ?_)
        by_cases e : j = i
        · subst e; simp [f, h]
        · have := hfr j; omega

/-- The outcome of a session on a linear combinator, in terms of the naive run. -/
theorem lin_outcome (H : EventHeap K) {ord : ℕ → List ℕ → List ℕ} (hord : SetOrder ord) {enc : Encoder K}
    {dt : K} (hdt : 0 < dt) (hdt' : dt < 1 / 50) (h2 : 0 < enc.Tcod) (hd : 1 + 2 * dt + 2 * dt * absSum coeff ≤ enc.Tmin) (kind : ModKind) (name : Option String)
    (hN : coeff ≠ []) {x t : ℕ → K} (hx : ∀ i < coeff.length, |x i| ≤ 1) (ht : ∀ i < coeff.length, 0 ≤ t i)
    (hP : plusPart coeff x * enc.Tcod + 2 * dt * absSum coeff ≤ enc.Tcod)
    (hQ : minusPart coeff x * enc.Tcod + 2 * dt * absSum coeff ≤ enc.Tcod) {T : K}
    (hT : ∀ i < coeff.length, t i + 4 * enc.Tmax + 2 * enc.Tmin + 20 + 17 * dt ≤ T) :
    let p := (linearCombinatorNetwork kind enc coeff name World.empty).1
    let w := (linearCombinatorNetwork kind enc coeff name World.empty).2
    ∃ st, session H ord enc dt T w p.mod (putAll p coeff.length x t) = .ok st ∧
      ∃ z : ℤ, |(z : K) * dt - combination coeff x * enc.Tcod| < 2 * dt * absSum coeff + dt ∧
        (0 ≤ z → Carries enc dt (2 * dt * absSum coeff + 2 * dt) (st.spikeLog p.outputPlus) (combination coeff x) ∧ Quiet (st.spikeLog p.outputMinus)) ∧
        (z + ((dly dt (2 * (1 / 100) : K) - dly dt (1 / 100 : K) : ℕ) : ℤ) ≤ 0 →
          Carries enc dt (2 * dt * absSum coeff + 2 * dt) (st.spikeLog p.outputMinus) (-combination coeff x) ∧ Quiet (st.spikeLog p.outputPlus)) ∧
        (z < 0 → 0 < z + ((dly dt (2 * (1 / 100) : K) - dly dt (1 / 100 : K) : ℕ) : ℤ) →
          Quiet (st.spikeLog p.outputPlus) ∧ Quiet (st.spikeLog p.outputMinus)) := by
  intro p w
  obtain ⟨inj, ns, S, F, st, hses, R, hL, hni, hA⟩ := lin_setup H hord (enc := enc) hdt kind name coeff (t := t) T hx
  refine ⟨st, hses, ?_⟩
  obtain ⟨-, -, ports⟩ := lin_spec enc kind name coeff
  have e6 : p.outputPlus = 6 := by show (linearCombinatorNetwork kind enc coeff name World.empty).1.outputPlus = 6; rw [ports]
  have e7 : p.outputMinus = 7 := by show (linearCombinatorNetwork kind enc coeff name World.empty).1.outputMinus = 7; rw [ports]
  rw [e6, e7]
  set N := coeff.length with hNd
  have hN1 : 1 ≤ N := List.length_pos_iff.mpr hN
  have hs0 : 0 ≤ absSum coeff := Finset.sum_nonneg fun _ _ => abs_nonneg _
  have hs0' : 0 ≤ 2 * dt * absSum coeff := by positivity
  have h1 : 0 < enc.Tmin := by linarith
  have hva := fun i (hi : i < N) => value_arr hdt h1 h2 (v := |x i|) (t0 := t i) (by linarith) (abs_nonneg _) (ht i hi)
  obtain ⟨j0, hj0, hmax⟩ : ∃ j0 < N, ∀ j < N, arrInj dt (t j + enc.Tmin + |x j| * enc.Tcod) 1 ≤ arrInj dt (t j0 + enc.Tmin + |x j0| * enc.Tcod) 1 := by
    obtain ⟨j0, h, h'⟩ := Finset.exists_max_image (Finset.range N) (fun j => arrInj dt (t j + enc.Tmin + |x j| * enc.Tcod) 1) ⟨0, by simp; omega⟩
    exact ⟨j0, by simpa using h, fun j hj => h' j (by simpa using hj)⟩
  have herr : linErr dt N (fun i => coeff.getD i 0) (fun _ => dt) = 2 * dt * absSum coeff := by
    unfold linErr absSum
    rw [Finset.mul_sum]
    exact Finset.sum_congr rfl fun i _ => by ring
  have hpos : (∑ i ∈ Finset.range N, if toPlus (fun i => coeff.getD i 0) (fun i => decide (x i < 0)) i then |coeff.getD i 0| * |x i| else 0) = plusPart coeff x :=
    Finset.sum_congr rfl fun i _ => term_pos _ _
  have hneg : (∑ i ∈ Finset.range N, if !toPlus (fun i => coeff.getD i 0) (fun i => decide (x i < 0)) i then |coeff.getD i 0| * |x i| else 0) = minusPart coeff x :=
    Finset.sum_congr rfl fun i _ => term_neg _ _
  obtain ⟨z, hz, hp, hm, hq⟩ := lin_core_gen R.run hdt hdt' h2 hL hN1 (neg := fun i => decide (x i < 0))
    (a := fun i => arrInj dt (t i) 1) (b := fun i => arrInj dt (t i + enc.Tmin + |x i| * enc.Tcod) 1)
    (fun i hi => by simpa only [Nat.zero_add] using (hA i hi).1) (fun i hi => by simpa only [Nat.zero_add] using (hA i hi).2)
    (fun i hi => (hva i hi).1) hmax ⟨j0, hj0, rfl⟩ (v := fun i => |x i|) (ε := fun _ => dt) (fun i hi => (hva i hi).2.2.1.le)
    (fun i _ => abs_nonneg _) (fun _ _ => by linarith) (fun _ _ => by linarith) (by rw [herr]; linarith)
    (by rw [herr, hpos]; exact hP) (by rw [herr, hneg]; exact hQ) (y := combination coeff x)
    (Finset.sum_congr rfl fun i _ => by simp only [signed_abs])
  rw [herr] at hz hp hm
  have hT0 := hT j0 hj0
  have hx0 : |x j0| * enc.Tcod ≤ enc.Tcod := mul_le_of_le_one_left h2.le (hx j0 hj0)
  obtain ⟨-, z2⟩ := arrInj_bd (τ := t j0 + enc.Tmin + |x j0| * enc.Tcod) (D := 1) hdt (by have := ht j0 hj0; positivity)
  have hTe : enc.Tmax = enc.Tmin + enc.Tcod := rfl
  refine ⟨z, hz, fun h => ?_, fun h => ?_, fun h h' => ?_⟩
  · obtain ⟨P, Q, o1, o2, -, hPQ, he, hQT⟩ := hp h
    exact ⟨⟨P, Q, R.pair (k := 6) (by omega) hdt (hni 6 (by omega)) o1 hPQ (by linarith), he⟩, R.quiet (k := 7) (by omega) (hni 7 (by omega)) o2⟩
  · obtain ⟨P, Q, o1, o2, -, hPQ, he, hQT⟩ := hm h
    refine ⟨⟨P, Q, R.pair (k := 7) (by omega) hdt (hni 7 (by omega)) o2 hPQ (by linarith), ?_⟩, R.quiet (k := 6) (by omega) (hni 6 (by omega)) o1⟩
    rw [neg_mul, ← sub_eq_add_neg]; exact he
  · obtain ⟨o1, o2⟩ := hq h h'
    exact ⟨R.quiet (k := 6) (by omega) (hni 6 (by omega)) o1, R.quiet (k := 7) (by omega) (hni 7 (by omega)) o2⟩

/-- **C52.** A `LinearCombinatorNetwork(coeffs)` that is given the signed values `x i` at arbitrary times `t i` emits
`y = Σ coeffs[i] * x i`: the magnitude on the rail of the right sign, nothing on the other rail, with an error of at most
`2*dt*Σ|coeffs[i]| + 2*dt`. The positive and the negative terms must each sum up to at most 1 (minus the error), and `y` must not be
too close to zero. -/
theorem C52_linear_combination (H : EventHeap K) {ord : ℕ → List ℕ → List ℕ} (hord : SetOrder ord) {enc : Encoder K}
    {dt : K} (hdt : 0 < dt) (hdt' : dt < 1 / 50) (h2 : 0 < enc.Tcod) {coeff : List K} (hd : 1 + 2 * dt + 2 * dt * absSum coeff ≤ enc.Tmin) (kind : ModKind)
    (name : Option String) (hN : coeff ≠ []) {x t : ℕ → K} (hx : ∀ i < coeff.length, |x i| ≤ 1) (ht : ∀ i < coeff.length, 0 ≤ t i)
    (hP : plusPart coeff x * enc.Tcod + 2 * dt * absSum coeff ≤ enc.Tcod)
    (hQ : minusPart coeff x * enc.Tcod + 2 * dt * absSum coeff ≤ enc.Tcod)
    (hy : 2 * dt * absSum coeff ≤ combination coeff x * enc.Tcod ∨
      combination coeff x * enc.Tcod + 2 * dt * absSum coeff + 1 / 100 + dt ≤ 0) {T : K}
    (hT : ∀ i < coeff.length, t i + 4 * enc.Tmax + 2 * enc.Tmin + 20 + 17 * dt ≤ T) :
    let p := (linearCombinatorNetwork kind enc coeff name World.empty).1
    let w := (linearCombinatorNetwork kind enc coeff name World.empty).2
    ∃ st, session H ord enc dt T w p.mod (putAll p coeff.length x t) = .ok st ∧
      CarriesSigned enc dt (2 * dt * absSum coeff + 2 * dt) (st.spikeLog p.outputPlus) (st.spikeLog p.outputMinus) (combination coeff x) := by
  intro p w
  obtain ⟨st, hses, z, hz, hp, hm, -⟩ := lin_outcome H hord hdt hdt' h2 hd kind name hN hx ht hP hQ hT
  refine ⟨st, hses, ?_⟩
  have hs0 : 0 ≤ absSum coeff := Finset.sum_nonneg fun _ _ => abs_nonneg _
  have hs0' : 0 ≤ 2 * dt * absSum coeff := by positivity
  obtain ⟨m1, m2⟩ := dly_bd hdt (show (0 : K) < 1 / 100 by norm_num)
  obtain ⟨m3, m4⟩ := dly_bd hdt (show (0 : K) < 2 * (1 / 100) by norm_num)
  rw [abs_lt] at hz
  unfold CarriesSigned
  rcases hy with hy | hy
  · have hy0 : ¬ combination coeff x < 0 := fun hc => by
      have : combination coeff x * enc.Tcod < 0 := mul_neg_of_neg_of_pos hc h2
      linarith
    rw [if_neg hy0, if_neg hy0, abs_of_nonneg (not_lt.mp hy0)]
    refine hp ?_
    have : (-1 : K) < z := by
      by_contra hc
      have := mul_le_mul_of_nonneg_right (not_lt.mp hc) hdt.le
      linarith
    have : (-1 : ℤ) < z := by exact_mod_cast this
    omega
  · have hy0 : combination coeff x < 0 := by
      by_contra hc
      have : 0 ≤ combination coeff x * enc.Tcod := mul_nonneg (not_lt.mp hc) h2.le
      linarith
    rw [if_pos hy0, if_pos hy0, abs_of_neg hy0]
    have hq2 := (subDelays (Tmin := enc.Tmin) hdt hdt' (by linarith)).h2
    refine hm ?_
    have : (z : K) + ((dly dt (2 * (1 / 100) : K) - dly dt (1 / 100 : K) : ℕ) : K) < 1 := by
      by_contra hc
      have := mul_le_mul_of_nonneg_right (not_lt.mp hc) hdt.le
      push_cast [Nat.cast_sub hq2.le] at this
      linarith
    have : z + ((dly dt (2 * (1 / 100) : K) - dly dt (1 / 100 : K) : ℕ) : ℤ) < 1 := by exact_mod_cast this
    omega

/-- **C52, close to zero.** Whatever the result, the network answers at most once, and if it answers the answer is right up to the
same error (with sign: a result within the error of zero may come out on the wrong rail). -/
theorem C52_any_result (H : EventHeap K) {ord : ℕ → List ℕ → List ℕ} (hord : SetOrder ord) {enc : Encoder K}
    {dt : K} (hdt : 0 < dt) (hdt' : dt < 1 / 50) (h2 : 0 < enc.Tcod) {coeff : List K} (hd : 1 + 2 * dt + 2 * dt * absSum coeff ≤ enc.Tmin) (kind : ModKind)
    (name : Option String) (hN : coeff ≠ []) {x t : ℕ → K} (hx : ∀ i < coeff.length, |x i| ≤ 1) (ht : ∀ i < coeff.length, 0 ≤ t i)
    (hP : plusPart coeff x * enc.Tcod + 2 * dt * absSum coeff ≤ enc.Tcod)
    (hQ : minusPart coeff x * enc.Tcod + 2 * dt * absSum coeff ≤ enc.Tcod) {T : K}
    (hT : ∀ i < coeff.length, t i + 4 * enc.Tmax + 2 * enc.Tmin + 20 + 17 * dt ≤ T) :
    let p := (linearCombinatorNetwork kind enc coeff name World.empty).1
    let w := (linearCombinatorNetwork kind enc coeff name World.empty).2
    ∃ st, session H ord enc dt T w p.mod (putAll p coeff.length x t) = .ok st ∧
      ((Carries enc dt (2 * dt * absSum coeff + 2 * dt) (st.spikeLog p.outputPlus) (combination coeff x) ∧ Quiet (st.spikeLog p.outputMinus)) ∨
       (Carries enc dt (2 * dt * absSum coeff + 2 * dt) (st.spikeLog p.outputMinus) (-combination coeff x) ∧ Quiet (st.spikeLog p.outputPlus)) ∨
       (Quiet (st.spikeLog p.outputPlus) ∧ Quiet (st.spikeLog p.outputMinus) ∧
         |combination coeff x * enc.Tcod| < 2 * dt * absSum coeff + 1 / 100 + dt)) := by
  intro p w
  obtain ⟨st, hses, z, hz, hp, hm, hq⟩ := lin_outcome H hord hdt hdt' h2 hd kind name hN hx ht hP hQ hT
  refine ⟨st, hses, ?_⟩
  by_cases c1 : 0 ≤ z
  · exact .inl (hp c1)
  by_cases c2 : z + ((dly dt (2 * (1 / 100) : K) - dly dt (1 / 100 : K) : ℕ) : ℤ) ≤ 0
  · exact .inr (.inl (hm c2))
  refine .inr (.inr ⟨(hq (by omega) (by omega)).1, (hq (by omega) (by omega)).2, ?_⟩)
  have hs0 : 0 ≤ absSum coeff := Finset.sum_nonneg fun _ _ => abs_nonneg _
  have hs0' : 0 ≤ 2 * dt * absSum coeff := by positivity
  obtain ⟨m1, m2⟩ := dly_bd hdt (show (0 : K) < 1 / 100 by norm_num)
  obtain ⟨m3, m4⟩ := dly_bd hdt (show (0 : K) < 2 * (1 / 100) by norm_num)
  have hq2 := (subDelays (Tmin := enc.Tmin) hdt hdt' (by linarith)).h2
  rw [abs_lt] at hz ⊢
  have k1 : (z : K) ≤ -1 := by exact_mod_cast (by omega : z ≤ -1)
  have k2 : (1 : K) ≤ z + ((dly dt (2 * (1 / 100) : K) - dly dt (1 / 100 : K) : ℕ) : K) := by
    exact_mod_cast (by omega : 1 ≤ z + ((dly dt (2 * (1 / 100) : K) - dly dt (1 / 100 : K) : ℕ) : ℤ))
  have k3 := mul_le_mul_of_nonneg_right k1 hdt.le
  have k4 := mul_le_mul_of_nonneg_right k2 hdt.le
  push_cast [Nat.cast_sub hq2.le] at k4
  constructor <;> linarith

/-- **C52, the dead zone.** A result a little below zero is lost: neither output answers. -/
theorem C52_dead_zone (H : EventHeap K) {ord : ℕ → List ℕ → List ℕ} (hord : SetOrder ord) {enc : Encoder K}
    {dt : K} (hdt : 0 < dt) (hdt' : dt < 1 / 50) (h2 : 0 < enc.Tcod) {coeff : List K} (hd : 1 + 2 * dt + 2 * dt * absSum coeff ≤ enc.Tmin) (kind : ModKind)
    (name : Option String) (hN : coeff ≠ []) {x t : ℕ → K} (hx : ∀ i < coeff.length, |x i| ≤ 1) (ht : ∀ i < coeff.length, 0 ≤ t i)
    (hP : plusPart coeff x * enc.Tcod + 2 * dt * absSum coeff ≤ enc.Tcod)
    (hQ : minusPart coeff x * enc.Tcod + 2 * dt * absSum coeff ≤ enc.Tcod)
    (hlo : combination coeff x * enc.Tcod + 2 * dt * absSum coeff + dt ≤ 0)
    (hhi : 2 * dt * absSum coeff + 2 * dt ≤ combination coeff x * enc.Tcod + 1 / 100) {T : K}
    (hT : ∀ i < coeff.length, t i + 4 * enc.Tmax + 2 * enc.Tmin + 20 + 17 * dt ≤ T) :
    let p := (linearCombinatorNetwork kind enc coeff name World.empty).1
    let w := (linearCombinatorNetwork kind enc coeff name World.empty).2
    ∃ st, session H ord enc dt T w p.mod (putAll p coeff.length x t) = .ok st ∧
      Quiet (st.spikeLog p.outputPlus) ∧ Quiet (st.spikeLog p.outputMinus) := by
  intro p w
  obtain ⟨st, hses, z, hz, hp, hm, hq⟩ := lin_outcome H hord hdt hdt' h2 hd kind name hN hx ht hP hQ hT
  refine ⟨st, hses, hq ?_ ?_⟩
  · rw [abs_lt] at hz
    have : (z : K) < 0 := by
      by_contra hc
      have := mul_nonneg (not_lt.mp hc) hdt.le
      linarith
    exact_mod_cast this
  · rw [abs_lt] at hz
    have hs0 : 0 ≤ absSum coeff := Finset.sum_nonneg fun _ _ => abs_nonneg _
    have hs0' : 0 ≤ 2 * dt * absSum coeff := by positivity
    obtain ⟨m1, m2⟩ := dly_bd hdt (show (0 : K) < 1 / 100 by norm_num)
    obtain ⟨m3, m4⟩ := dly_bd hdt (show (0 : K) < 2 * (1 / 100) by norm_num)
    have hq2 := (subDelays (Tmin := enc.Tmin) hdt hdt' (by linarith)).h2
    have : (0 : K) < z + ((dly dt (2 * (1 / 100) : K) - dly dt (1 / 100 : K) : ℕ) : K) := by
      by_contra hc
      have := mul_nonpos_of_nonpos_of_nonneg (not_lt.mp hc) hdt.le
      push_cast [Nat.cast_sub hq2.le] at this
      linarith
    exact_mod_cast this

/-- **C52, the adder.** An `AdderNetwork` that is given the signed values `x1`, `x2` at arbitrary times emits `x1 + x2`, on the rail
of its sign, with an error of at most `6*dt`. -/
theorem C52_adder (H : EventHeap K) {ord : ℕ → List ℕ → List ℕ} (hord : SetOrder ord) {enc : Encoder K}
    {dt : K} (hdt : 0 < dt) (hdt' : dt < 1 / 50) (h2 : 0 < enc.Tcod) (hd : 1 + 6 * dt ≤ enc.Tmin) (name : Option String)
    {x1 x2 t1 t2 T : K} (hx1 : |x1| ≤ 1) (hx2 : |x2| ≤ 1) (ht1 : 0 ≤ t1) (ht2 : 0 ≤ t2)
    (hs : 0 ≤ x1 → 0 ≤ x2 → (x1 + x2) * enc.Tcod + 4 * dt ≤ enc.Tcod) (hs' : x1 ≤ 0 → x2 ≤ 0 → -(x1 + x2) * enc.Tcod + 4 * dt ≤ enc.Tcod)
    (hx1' : |x1| * enc.Tcod + 4 * dt ≤ enc.Tcod) (hx2' : |x2| * enc.Tcod + 4 * dt ≤ enc.Tcod)
    (hy : 4 * dt ≤ (x1 + x2) * enc.Tcod ∨ (x1 + x2) * enc.Tcod + 5 * dt + 1 / 100 ≤ 0)
    (hT1 : t1 + 4 * enc.Tmax + 2 * enc.Tmin + 20 + 17 * dt ≤ T) (hT2 : t2 + 4 * enc.Tmax + 2 * enc.Tmin + 20 + 17 * dt ≤ T) :
    let p := (adderNetwork enc name World.empty).1
    let w := (adderNetwork enc name World.empty).2
    ∃ st, session H ord enc dt T w p.mod [putSigned x1 p.inputPlus[0]! p.inputMinus[0]! t1, putSigned x2 p.inputPlus[1]! p.inputMinus[1]! t2] = .ok st ∧
      CarriesSigned enc dt (6 * dt) (st.spikeLog p.outputPlus) (st.spikeLog p.outputMinus) (x1 + x2) := by
  intro p w
  have ha : absSum [(1 : K), 1] = 2 := by unfold absSum; norm_num [Finset.sum_range_succ]
  have hp : plusPart [1, 1] (fun i => if i = 0 then x1 else x2) = max x1 0 + max x2 0 := by unfold plusPart; simp [Finset.sum_range_succ]
  have hn : minusPart [1, 1] (fun i => if i = 0 then x1 else x2) = max (-x1) 0 + max (-x2) 0 := by unfold minusPart; simp [Finset.sum_range_succ]
  have hc : combination [1, 1] (fun i => if i = 0 then x1 else x2) = x1 + x2 := by unfold combination; simp [Finset.sum_range_succ]
  have e6 : 2 * dt * 2 + 2 * dt = 6 * dt := by ring
  obtain ⟨st, hses, hC⟩ := C52_linear_combination H hord hdt hdt' h2 (coeff := [1, 1]) (by rw [ha]; linarith) .adder name (by simp)
    (x := fun i => if i = 0 then x1 else x2) (t := fun i => if i = 0 then t1 else t2)
    (by intro i _; by_cases h : i = 0 <;> simpa [h]) (by intro i _; by_cases h : i = 0 <;> simpa [h])
    (by
      rw [ha, hp]
      rcases le_total x1 0 with h | h <;> rcases le_total x2 0 with h' | h'
      · rw [max_eq_right h, max_eq_right h']
        have := mul_nonneg (abs_nonneg x1) h2.le
        linarith
      · rw [max_eq_right h, max_eq_left h']
        rw [abs_of_nonneg h'] at hx2'
        linarith
      · rw [max_eq_left h, max_eq_right h']
        rw [abs_of_nonneg h] at hx1'
        linarith
      · rw [max_eq_left h, max_eq_left h']
        have := hs h h'
        linarith)
    (by
      rw [ha, hn]
      rcases le_total x1 0 with h | h <;> rcases le_total x2 0 with h' | h'
      · rw [max_eq_left (by linarith : 0 ≤ -x1), max_eq_left (by linarith : 0 ≤ -x2)]
        have := hs' h h'
        linarith
      · rw [max_eq_left (by linarith : 0 ≤ -x1), max_eq_right (by linarith : -x2 ≤ 0)]
        rw [abs_of_nonpos h] at hx1'
        linarith
      · rw [max_eq_right (by linarith : -x1 ≤ 0), max_eq_left (by linarith : 0 ≤ -x2)]
        rw [abs_of_nonpos h'] at hx2'
        linarith
      · rw [max_eq_right (by linarith : -x1 ≤ 0), max_eq_right (by linarith : -x2 ≤ 0)]
        have := mul_nonneg (abs_nonneg x1) h2.le
        linarith)
    (by rw [ha, hc]; rcases hy with hy | hy
        · left; linarith
        · right; linarith)
    (T := T) (by intro i _; by_cases h : i = 0 <;> simpa [h])
  rw [ha, hc, e6] at hC
  exact ⟨st, hses, hC⟩

/-- A concrete case of C52: 0.5*0.6 - 0.25*0.8 + 0.5*(-0.9), on the simulator's default step. -/
example : ∃ st, session (sortedHeap _) (fun _ l => l) ⟨10, 100⟩ (1 / 1000) 700
      (linearCombinatorNetwork .plain (⟨10, 100⟩ : Encoder ℚ) [1 / 2, -1 / 4, 1 / 2] none World.empty).2 (linearCombinatorNetwork .plain (⟨10, 100⟩ : Encoder ℚ) [1 / 2, -1 / 4, 1 / 2] none World.empty).1.mod
      (putAll (linearCombinatorNetwork .plain (⟨10, 100⟩ : Encoder ℚ) [1 / 2, -1 / 4, 1 / 2] none World.empty).1 3
        (fun i => [3 / 5, 4 / 5, -9 / 10].getD i 0) (fun i => 50 * i)) = .ok st ∧
      CarriesSigned ⟨10, 100⟩ (1 / 1000) (9 / 2000) (st.spikeLog (linearCombinatorNetwork .plain (⟨10, 100⟩ : Encoder ℚ) [1 / 2, -1 / 4, 1 / 2] none World.empty).1.outputPlus)
        (st.spikeLog (linearCombinatorNetwork .plain (⟨10, 100⟩ : Encoder ℚ) [1 / 2, -1 / 4, 1 / 2] none World.empty).1.outputMinus) (-7 / 20) := by
  have ha : absSum ([1 / 2, -1 / 4, 1 / 2] : List ℚ) = 5 / 4 := by unfold absSum; norm_num [Finset.sum_range_succ, abs_div]
  have hc : combination ([1 / 2, -1 / 4, 1 / 2] : List ℚ) (fun i => [3 / 5, 4 / 5, -9 / 10].getD i 0) = -7 / 20 := by
    unfold combination; norm_num [Finset.sum_range_succ]
  have hp : plusPart ([1 / 2, -1 / 4, 1 / 2] : List ℚ) (fun i => [3 / 5, 4 / 5, -9 / 10].getD i 0) = 3 / 10 := by
    unfold plusPart; norm_num [Finset.sum_range_succ]
  have hn : minusPart ([1 / 2, -1 / 4, 1 / 2] : List ℚ) (fun i => [3 / 5, 4 / 5, -9 / 10].getD i 0) = 13 / 20 := by
    unfold minusPart; norm_num [Finset.sum_range_succ]
  obtain ⟨st, h, h'⟩ := C52_linear_combination (sortedHeap _) id_setOrder (enc := (⟨10, 100⟩ : Encoder ℚ)) (dt := 1 / 1000) (by norm_num) (by norm_num) (by norm_num)
    (coeff := [1 / 2, -1 / 4, 1 / 2]) (by rw [ha]; norm_num) .plain none (by simp)
    (x := fun i => [3 / 5, 4 / 5, -9 / 10].getD i 0) (t := fun i => 50 * i)
    (by intro i hi; simp only [List.length_cons, List.length_nil] at hi; interval_cases i <;> norm_num [abs_div])
    (by intro i _; positivity)
    (by rw [ha, hp]; norm_num) (by rw [ha, hn]; norm_num) (by rw [ha, hc]; norm_num) (T := 700)
    (by intro i hi; simp only [List.length_cons, List.length_nil] at hi; interval_cases i <;> norm_num [Encoder.Tmax])
  rw [ha, hc] at h'
  refine ⟨st, h, ?_⟩
  convert h' using 1
  norm_num

/-- A concrete case of the adder: 0.3 + (-0.75). -/
example : ∃ st, session (sortedHeap _) (fun _ l => l) ⟨10, 100⟩ (1 / 1000) 700
      (adderNetwork (⟨10, 100⟩ : Encoder ℚ) none World.empty).2 (adderNetwork (⟨10, 100⟩ : Encoder ℚ) none World.empty).1.mod
      [putSigned (3 / 10) (adderNetwork (⟨10, 100⟩ : Encoder ℚ) none World.empty).1.inputPlus[0]! (adderNetwork (⟨10, 100⟩ : Encoder ℚ) none World.empty).1.inputMinus[0]! 17, putSigned (-3 / 4) (adderNetwork (⟨10, 100⟩ : Encoder ℚ) none World.empty).1.inputPlus[1]! (adderNetwork (⟨10, 100⟩ : Encoder ℚ) none World.empty).1.inputMinus[1]! 0] = .ok st ∧
      CarriesSigned ⟨10, 100⟩ (1 / 1000) (6 * (1 / 1000)) (st.spikeLog (adderNetwork (⟨10, 100⟩ : Encoder ℚ) none World.empty).1.outputPlus) (st.spikeLog (adderNetwork (⟨10, 100⟩ : Encoder ℚ) none World.empty).1.outputMinus) (3 / 10 + -3 / 4) :=
  C52_adder (sortedHeap _) id_setOrder (enc := (⟨10, 100⟩ : Encoder ℚ)) (dt := 1 / 1000) (by norm_num) (by norm_num) (by norm_num) (by norm_num) none
    (by norm_num [abs_div]) (by norm_num [abs_div]) (by norm_num) (by norm_num) (by norm_num) (by norm_num) (by norm_num [abs_div]) (by norm_num [abs_div])
    (by norm_num) (by norm_num [Encoder.Tmax]) (by norm_num [Encoder.Tmax])

/-- A concrete case of C52_any_result: 0.5 + (-0.50006), a result within the error of zero. -/
example : ∃ st, session (sortedHeap _) (fun _ l => l) ⟨10, 100⟩ (1 / 2000) 700
      (linearCombinatorNetwork .adder (⟨10, 100⟩ : Encoder ℚ) [1, 1] none World.empty).2 (linearCombinatorNetwork .adder (⟨10, 100⟩ : Encoder ℚ) [1, 1] none World.empty).1.mod
      (putAll (linearCombinatorNetwork .adder (⟨10, 100⟩ : Encoder ℚ) [1, 1] none World.empty).1 2
        (fun i => [1 / 2, -50006 / 100000].getD i 0) (fun _ => 0)) = .ok st ∧
      ((Carries ⟨10, 100⟩ (1 / 2000) (2 * (1 / 2000) * 2 + 2 * (1 / 2000)) (st.spikeLog (linearCombinatorNetwork .adder (⟨10, 100⟩ : Encoder ℚ) [1, 1] none World.empty).1.outputPlus) (-6 / 100000) ∧ Quiet (st.spikeLog (linearCombinatorNetwork .adder (⟨10, 100⟩ : Encoder ℚ) [1, 1] none World.empty).1.outputMinus)) ∨
       (Carries ⟨10, 100⟩ (1 / 2000) (2 * (1 / 2000) * 2 + 2 * (1 / 2000)) (st.spikeLog (linearCombinatorNetwork .adder (⟨10, 100⟩ : Encoder ℚ) [1, 1] none World.empty).1.outputMinus) (-(-6 / 100000)) ∧ Quiet (st.spikeLog (linearCombinatorNetwork .adder (⟨10, 100⟩ : Encoder ℚ) [1, 1] none World.empty).1.outputPlus)) ∨
       (Quiet (st.spikeLog (linearCombinatorNetwork .adder (⟨10, 100⟩ : Encoder ℚ) [1, 1] none World.empty).1.outputPlus) ∧ Quiet (st.spikeLog (linearCombinatorNetwork .adder (⟨10, 100⟩ : Encoder ℚ) [1, 1] none World.empty).1.outputMinus) ∧
         |(-6 / 100000 : ℚ) * 100| < 2 * (1 / 2000) * 2 + 1 / 100 + 1 / 2000)) := by
  have ha : absSum ([1, 1] : List ℚ) = 2 := by unfold absSum; norm_num [Finset.sum_range_succ]
  have hc : combination ([1, 1] : List ℚ) (fun i => [1 / 2, -50006 / 100000].getD i 0) = -6 / 100000 := by
    unfold combination; norm_num [Finset.sum_range_succ]
  have hp : plusPart ([1, 1] : List ℚ) (fun i => [1 / 2, -50006 / 100000].getD i 0) = 1 / 2 := by
    unfold plusPart; norm_num [Finset.sum_range_succ]
  have hn : minusPart ([1, 1] : List ℚ) (fun i => [1 / 2, -50006 / 100000].getD i 0) = 50006 / 100000 := by
    unfold minusPart; norm_num [Finset.sum_range_succ]
  have := C52_any_result (sortedHeap _) id_setOrder (enc := (⟨10, 100⟩ : Encoder ℚ)) (dt := 1 / 2000) (by norm_num) (by norm_num) (by norm_num)
    (coeff := [1, 1]) (by rw [ha]; norm_num) .adder none (by simp)
    (x := fun i => [1 / 2, -50006 / 100000].getD i 0) (t := fun _ => 0)
    (by intro i hi; simp only [List.length_cons, List.length_nil] at hi; interval_cases i <;> norm_num [abs_div])
    (by intro i _; norm_num)
    (by rw [ha, hp]; norm_num) (by rw [ha, hn]; norm_num) (T := 700)
    (by intro i hi; norm_num [Encoder.Tmax])
  rw [ha, hc] at this
  exact this

/-- A concrete case of the dead zone: 0.5 + (-0.50006) gets no answer. -/
example : ∃ st, session (sortedHeap _) (fun _ l => l) ⟨10, 100⟩ (1 / 2000) 700
      (linearCombinatorNetwork .adder (⟨10, 100⟩ : Encoder ℚ) [1, 1] none World.empty).2 (linearCombinatorNetwork .adder (⟨10, 100⟩ : Encoder ℚ) [1, 1] none World.empty).1.mod
      (putAll (linearCombinatorNetwork .adder (⟨10, 100⟩ : Encoder ℚ) [1, 1] none World.empty).1 2
        (fun i => [1 / 2, -50006 / 100000].getD i 0) (fun _ => 0)) = .ok st ∧
      Quiet (st.spikeLog (linearCombinatorNetwork .adder (⟨10, 100⟩ : Encoder ℚ) [1, 1] none World.empty).1.outputPlus) ∧
        Quiet (st.spikeLog (linearCombinatorNetwork .adder (⟨10, 100⟩ : Encoder ℚ) [1, 1] none World.empty).1.outputMinus) := by
  have ha : absSum ([1, 1] : List ℚ) = 2 := by unfold absSum; norm_num [Finset.sum_range_succ]
  have hc : combination ([1, 1] : List ℚ) (fun i => [1 / 2, -50006 / 100000].getD i 0) = -6 / 100000 := by
    unfold combination; norm_num [Finset.sum_range_succ]
  have hp : plusPart ([1, 1] : List ℚ) (fun i => [1 / 2, -50006 / 100000].getD i 0) = 1 / 2 := by
    unfold plusPart; norm_num [Finset.sum_range_succ]
  have hn : minusPart ([1, 1] : List ℚ) (fun i => [1 / 2, -50006 / 100000].getD i 0) = 50006 / 100000 := by
    unfold minusPart; norm_num [Finset.sum_range_succ]
  exact C52_dead_zone (sortedHeap _) id_setOrder (enc := (⟨10, 100⟩ : Encoder ℚ)) (dt := 1 / 2000) (by norm_num) (by norm_num) (by norm_num)
    (coeff := [1, 1]) (by rw [ha]; norm_num) .adder none (by simp)
    (x := fun i => [1 / 2, -50006 / 100000].getD i 0) (t := fun _ => 0)
    (by intro i hi; simp only [List.length_cons, List.length_nil] at hi; interval_cases i <;> norm_num [abs_div])
    (by intro i _; norm_num)
    (by rw [ha, hp]; norm_num) (by rw [ha, hn]; norm_num) (by rw [ha, hc]; norm_num) (by rw [ha, hc]; norm_num) (T := 700)
    (by intro i hi; norm_num [Encoder.Tmax])

end Axon
