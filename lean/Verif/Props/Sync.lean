import Verif.Proofs.SyncBuild
import Verif.Proofs.Silent
import Verif.Props.Memory

/-! # C44, C45: the synchronizer -/
set_option linter.unusedSectionVars false
namespace Axon
open Spec
variable {K : Type*} [Field K] [LinearOrder K] [IsStrictOrderedRing K] [FloorRing K]

theorem round_rest (enc : Encoder K) (N sync b : ℕ) (o : ℕ) (h : sync < b) :
    insOf (roundSyns enc N sync b) (b + o) = insOf [⟨sync, b + 7, 10, 1, .V⟩, ⟨b + 8, sync, syncW N, 1, .V⟩, ⟨b + 9, b + 1, 10, 1, .V⟩,
      ⟨b, b + 2, 10, 1, .V⟩] (b + o) ++ insOf ((memSyns enc).map (Synapse.shift (b + 2))) (b + o) := insOf_append ..

theorem memShift_low (enc : Encoder K) (b k : ℕ) (hk : k < b + 1) :
    insOf ((memSyns enc).map (Synapse.shift b)) k = [] := by
  unfold insOf
  rw [List.filter_eq_nil_iff]
  intro s hs'
  obtain ⟨t, ht, rfl⟩ := List.mem_map.mp hs'
  have := memSyns_bd enc t ht
  intro hc
  have := of_decide_eq_true hc
  simp only [Synapse.shift] at this; omega

theorem SyncAt.of {net : Net K} {s0 inj} {enc : Encoder K} {x N : ℕ} {I : List ℕ}
    (E : Embeds net s0 inj x (chanSyns enc N 0 1 N) I)
    (hI : ∀ k, k = 0 ∨ (1 ≤ k ∧ k < 1 + 10 * N ∧ k % 10 ≠ 1) → k ∈ I) : SyncAt net s0 inj enc x N := by
  have key : ∀ j < N, ∀ o < 10, 1 ≤ o → InS net (x + (1 + 10 * j + o))
      ((insOf (roundSyns enc N 0 (1 + 10 * j)) (1 + 10 * j + o)).map (Synapse.shift x)) := by
    intro j hj o ho ho1
    have := E.ins (1 + 10 * j + o) (hI _ (by omega))
    rwa [insOf_chan enc N (by omega) N j o hj ho] at this
  refine ⟨fun k hk => E.std k (hI k hk), fun k hk => E.noinj k (hI k hk), ?_, ?_, ?_, ?_, ?_⟩
  · have := E.ins 0 (hI 0 (.inl rfl))
    refine this.trans (((insOf_sync enc N (by omega) N).map _).trans (List.Perm.of_eq ?_))
    rw [List.map_map]
    apply List.map_congr_left
    intro j _
    simp only [Function.comp, Synapse.shift, Synapse.mk.injEq]
    refine ⟨by omega, by omega, trivial, trivial, trivial⟩
  · intro j hj
    have hin : ∀ k ∈ [1, 2, 3, 4, 6, 7], k < 8 ∧ 1 ≤ k ∧ k ≠ 5 := by intro k hk; fin_cases hk <;> simp
    refine ⟨fun k hk => ?_, fun k hk => ?_, fun k hk => ?_⟩
    · have := hin k hk
      rw [show x + 10 * j + 3 + k = x + (10 * j + 3 + k) from by omega]
      exact E.std _ (hI _ (by omega))
    · have := hin k hk
      rw [show x + 10 * j + 3 + k = x + (10 * j + 3 + k) from by omega]
      exact E.noinj _ (hI _ (by omega))
    · have hk' := hin k hk
      have := key j hj (k + 2) (by omega) (by omega)
      rw [round_rest _ _ _ _ _ (by omega)] at this
      rw [show x + 10 * j + 3 + k = x + (1 + 10 * j + (k + 2)) from by omega]
      refine this.trans (List.Perm.of_eq ?_)
      rw [show 1 + 10 * j + (k + 2) = 1 + 10 * j + 2 + k from by omega, insOf_memShift]
      have e0 : insOf [⟨0, 1 + 10 * j + 7, 10, 1, .V⟩, ⟨1 + 10 * j + 8, 0, syncW N, 1, .V⟩, ⟨1 + 10 * j + 9, 1 + 10 * j + 1, 10, 1, .V⟩,
          (⟨1 + 10 * j, 1 + 10 * j + 2, 10, 1, .V⟩ : Synapse K)] (1 + 10 * j + 2 + k) = [] := by
        unfold insOf
        rw [List.filter_eq_nil_iff]
        intro s hs hc
        have := of_decide_eq_true hc
        simp only [List.mem_cons, List.not_mem_nil, or_false] at hs
        rcases hs with rfl | rfl | rfl | rfl <;> (dsimp only at this; omega)
      rw [e0, List.nil_append, List.map_map]
      apply List.map_congr_left
      intro s _
      simp only [Function.comp, Synapse.shift, Synapse.mk.injEq]
      refine ⟨by omega, by omega, trivial, trivial, trivial⟩
  · intro j hj
    have := key j hj 2 (by omega) (by omega)
    rw [round_rest _ _ _ _ _ (by omega), memShift_low _ _ _ (by omega)] at this
    rw [show x + 10 * j + 3 = x + (1 + 10 * j + 2) from by omega]
    refine this.trans (List.Perm.of_eq ?_)
    unfold insOf
    rw [List.filter_cons_of_neg (by intro hc; have := of_decide_eq_true hc; dsimp only at this; omega),
      List.filter_cons_of_neg (by intro hc; have := of_decide_eq_true hc; dsimp only at this; omega),
      List.filter_cons_of_neg (by intro hc; have := of_decide_eq_true hc; dsimp only at this; omega),
      List.filter_cons_of_pos (by simp)]
    simp only [List.filter_nil, List.append_nil, List.map_cons, List.map_nil, Synapse.shift, List.cons.injEq, Synapse.mk.injEq, and_true]
    omega
  · intro j hj
    have := key j hj 7 (by omega) (by omega)
    rw [round_rest _ _ _ _ _ (by omega), show 1 + 10 * j + 7 = 1 + 10 * j + 2 + 5 from by omega, insOf_memShift] at this
    rw [show x + 10 * j + 8 = x + (1 + 10 * j + 2 + 5) from by omega]
    refine this.trans (List.Perm.of_eq ?_)
    rw [show insOf (memSyns enc) 5 = [] from ?_]
    · unfold insOf
      rw [List.filter_cons_of_pos (by simp),
        List.filter_cons_of_neg (by intro hc; have := of_decide_eq_true hc; dsimp only at this; omega),
        List.filter_cons_of_neg (by intro hc; have := of_decide_eq_true hc; dsimp only at this; omega),
        List.filter_cons_of_neg (by intro hc; have := of_decide_eq_true hc; dsimp only at this; omega)]
      simp only [List.filter_nil, List.map_nil, List.append_nil, List.map_cons, Synapse.shift, List.cons.injEq, Synapse.mk.injEq, and_true]
      omega
    · unfold insOf
      rw [List.filter_eq_nil_iff]
      intro s hs' hc
      have := memSyns_bd enc s hs'
      have := of_decide_eq_true hc
      omega
  · intro j hj
    have := key j hj 1 (by omega) (by omega)
    rw [round_rest _ _ _ _ _ (by omega), memShift_low _ _ _ (by omega)] at this
    rw [show x + 10 * j + 2 = x + (1 + 10 * j + 1) from by omega]
    refine this.trans (List.Perm.of_eq ?_)
    unfold insOf
    rw [List.filter_cons_of_neg (by intro hc; have := of_decide_eq_true hc; dsimp only at this; omega),
      List.filter_cons_of_neg (by intro hc; have := of_decide_eq_true hc; dsimp only at this; omega),
      List.filter_cons_of_pos (by simp),
      List.filter_cons_of_neg (by intro hc; have := of_decide_eq_true hc; dsimp only at this; omega)]
    simp only [List.filter_nil, List.append_nil, List.map_cons, List.map_nil, Synapse.shift, List.cons.injEq, Synapse.mk.injEq, and_true]
    omega

/-- Spikes injected by a list of `apply_input_value` calls on distinct neurons. -/
theorem injTimes_values (enc : Encoder K) {f : ℕ → ℕ} (hf : ∀ i j, f i = f j → i = j) (v t : ℕ → K) : ∀ (l : List ℕ), l.Nodup → ∀ j,
    injTimes ((l.map (fun j => Call.value (v j) (f j) (t j))).flatMap (callSpikes enc)) (f j) =
      if j ∈ l then [t j, t j + enc.Tmin + v j * enc.Tcod] else []
  | [], _, j => by simp [injTimes]
  | i :: l, hn, j => by
    have ih := injTimes_values enc hf v t l (List.nodup_cons.mp hn).2 j
    have hi := (List.nodup_cons.mp hn).1
    have happ : ∀ a b : List (ℕ × K), ∀ n, injTimes (a ++ b) n = injTimes a n ++ injTimes b n := by
      intro a b n; simp [injTimes]
    rw [List.map_cons, List.flatMap_cons, happ, ih]
    by_cases e : i = j
    · subst e
      rw [if_neg hi]
      simp [injTimes, callSpikes]
    · have e' : f i ≠ f j := fun h => e (hf i j h)
      simp [injTimes, callSpikes, e', Ne.symm e]

theorem injTimes_values_none (enc : Encoder K) {f : ℕ → ℕ} (v t : ℕ → K) (l : List ℕ) {n : ℕ} (h : ∀ i, f i ≠ n) :
    injTimes ((l.map (fun j => Call.value (v j) (f j) (t j))).flatMap (callSpikes enc)) n = [] := by
  unfold injTimes
  rw [List.map_eq_nil_iff, List.filter_eq_nil_iff]
  intro q hq
  obtain ⟨c, hc, hq⟩ := List.mem_flatMap.mp hq
  obtain ⟨i, _, rfl⟩ := List.mem_map.mp hc
  simp only [callSpikes, List.mem_cons, List.not_mem_nil, or_false] at hq
  have := h i
  rcases hq with rfl | rfl <;> simpa using this

/-- What every session with a synchronizer looks like, whichever channels `act` receive values. -/
theorem sync_session (H : EventHeap K) {ord : ℕ → List ℕ → List ℕ} (hord : SetOrder ord) {enc : Encoder K}
    {dt : K} (hdt : 0 < dt) (name : Option String) {N : ℕ} {v t : ℕ → K} (act : ℕ → Bool)
    (hv : ∀ j < N, 0 ≤ v j ∧ v j ≤ 1) (T : K) :
    let p := (synchronizerNetwork enc N name World.empty).1
    let w := (synchronizerNetwork enc N name World.empty).2
    ∃ ns S F st, session H ord enc dt T w p.mod
        (((List.range N).filter act).map (fun j => Call.value (v j) (p.inputs[j]!) (t j))) = .ok st ∧
      SessionRun enc dt T w (1 + 10 * N) (((((List.range N).filter act).map (fun j => Call.value (v j) (1 + 10 * j) (t j)))).flatMap
        (callSpikes enc)) ns S F st ∧
      SyncAt (w.net ns) fresh (((((List.range N).filter act).map (fun j => Call.value (v j) (1 + 10 * j) (t j)))).flatMap
        (callSpikes enc)) enc 0 N ∧
      (∀ j < N, Arr dt (((((List.range N).filter act).map (fun j => Call.value (v j) (1 + 10 * j) (t j)))).flatMap
        (callSpikes enc)) F (0 + 10 * j + 1) 1
          (if act j then [arrInj dt (t j) 1, arrInj dt (t j + enc.Tmin + v j * enc.Tcod) 1] else [])) ∧
      (∀ j < N, act j = false → Mute (((((List.range N).filter act).map (fun j => Call.value (v j) (1 + 10 * j) (t j)))).flatMap
        (callSpikes enc)) F (0 + 10 * j + 1)) := by
  intro p w
  obtain ⟨lib, syns, e0, e1, e2, e3, e4⟩ := sync_spec enc N name
  have hcs : ((List.range N).filter act).map (fun j => Call.value (v j) (p.inputs[j]!) (t j)) =
      ((List.range N).filter act).map (fun j => Call.value (v j) (1 + 10 * j) (t j)) := by
    apply List.map_congr_left
    intro j hj
    have hj' : j < N := by simpa using (List.mem_filter.mp hj).1
    have : p.inputs[j]! = 1 + 10 * j := by
      show (synchronizerNetwork enc N name World.empty).1.inputs[j]! = _
      rw [e2]; simp [hj']
    rw [this]
  have hm : p.mod = 0 := e0
  rw [hcs, hm]
  obtain ⟨ns, S, F, st, hses, R⟩ := lib.run H hord enc hdt T
    (cs := ((List.range N).filter act).map (fun j => Call.value (v j) (1 + 10 * j) (t j))) (by
      intro c hc
      obtain ⟨j, hj, rfl⟩ := List.mem_map.mp hc
      exact hv j (by simpa using (List.mem_filter.mp hj).1))
  have hnd : ((List.range N).filter act).Nodup := List.nodup_range.filter _
  have hI : ∀ k, k = 0 ∨ (1 ≤ k ∧ k < 1 + 10 * N ∧ k % 10 ≠ 1) →
      k ∈ (List.range (1 + 10 * N)).filter (fun k => decide (k % 10 ≠ 1)) := by
    intro k hk
    rw [List.mem_filter, List.mem_range]
    refine ⟨by omega, ?_⟩
    rw [decide_eq_true_eq]; omega
  have E := R.embeds ((List.range (1 + 10 * N)).filter (fun k => decide (k % 10 ≠ 1)))
    (by intro k hk; simpa using (List.mem_filter.mp hk).1) (by
      intro k hk
      have := of_decide_eq_true (List.mem_filter.mp hk).2
      exact injTimes_values_none enc (f := fun j => 1 + 10 * j) v t _ (by intro i; omega))
  rw [syns] at E
  have hin : ∀ j < N, insOf w.syns (1 + 10 * j) = [] := by
    intro j hj
    show insOf (synchronizerNetwork enc N name World.empty).2.syns (1 + 10 * j) = []
    rw [syns, ← Nat.add_zero (1 + 10 * j), insOf_chan enc N (by omega) N j 0 hj (by omega), round_rest _ _ _ _ _ (by omega),
      memShift_low _ _ _ (by omega), List.append_nil]
    unfold insOf
    rw [List.filter_eq_nil_iff]
    intro s hs hc
    have := of_decide_eq_true hc
    simp only [List.mem_cons, List.not_mem_nil, or_false] at hs
    rcases hs with rfl | rfl | rfl | rfl <;> (dsimp only at this; omega)
  have hit : ∀ j < N, injTimes ((((List.range N).filter act).map (fun j => Call.value (v j) (1 + 10 * j) (t j))).flatMap (callSpikes enc))
      (1 + 10 * j) = if act j then [t j, t j + enc.Tmin + v j * enc.Tcod] else [] := by
    intro j hj
    rw [injTimes_values enc (f := fun j => 1 + 10 * j) (by intro a b; omega) v t _ hnd j]
    simp [hj]
  refine ⟨ns, S, F, st, hses, R, SyncAt.of E hI, ?_, ?_⟩
  · intro j hj
    have := R.input hdt (k := 1 + 10 * j) (by omega) (hin j hj) (hit j hj) 1
    rw [show 0 + 10 * j + 1 = 1 + 10 * j by omega]
    convert this using 2
    split_ifs <;> simp
  · intro j hj ha
    have h1 := hit j hj
    rw [if_neg (by simp [ha])] at h1
    rw [show 0 + 10 * j + 1 = 1 + 10 * j by omega]
    refine ⟨silent R.run (R.std _ (by omega)) ?_, h1⟩
    rw [← hin j hj]
    exact (List.reverse_perm w.syns).filter _

/-- **C44.** A `SynchronizerNetwork` with `N ≤ 316` inputs that receives the value `v j` on its `j`-th input at time
`t j`: all outputs spike for the first time in the same step `p`, and the `j`-th output carries `v j` up to `dt`.
Moreover (first half of C45) the `sync` neuron fires exactly once, after each of the `ready` signals (one per channel). -/
theorem C44_synchronizer (H : EventHeap K) {ord : ℕ → List ℕ → List ℕ} (hord : SetOrder ord) {enc : Encoder K}
    {dt : K} (hdt : 0 < dt) (h2 : 0 < enc.Tcod) (hd : 1 + dt ≤ enc.Tmin) (name : Option String) {N : ℕ} (hN1 : 1 ≤ N)
    (hN : N ≤ 316) {v t : ℕ → K} (hv : ∀ j < N, 0 ≤ v j ∧ v j ≤ 1) (ht : ∀ j < N, 0 ≤ t j) {T : K}
    (hT : ∀ j < N, t j + 2 * enc.Tmax + 9 + 9 * dt ≤ T) :
    let p := (synchronizerNetwork enc N name World.empty).1
    let w := (synchronizerNetwork enc N name World.empty).2
    ∃ st, session H ord enc dt T w p.mod ((List.range N).map (fun j => Call.value (v j) (p.inputs[j]!) (t j))) = .ok st ∧
      (∃ k : ℕ, ∀ j < N, ∃ l : ℕ, Pair dt (st.spikeLog p.outputs[j]!) k l ∧
        |((l : K) * dt - (k : K) * dt) - (enc.Tmin + v j * enc.Tcod)| ≤ dt) ∧
      ∃ s : ℕ, st.spikeLog p.sync = some [(s : K) * dt] ∧
        ∀ j < N, ∃ r : ℕ, r < s ∧ st.spikeLog (p.blocks.map (·.ready))[j]! = some [(r : K) * dt] := by
  intro p w
  obtain ⟨ns, S, F, st, hses, R, hS, hA, -⟩ := sync_session H hord (enc := enc) hdt name (N := N) (v := v) (t := t)
    (fun _ => true) hv T
  obtain ⟨-, -, -, e1, -, e3, e4⟩ := sync_spec enc N name
  rw [List.filter_true] at hses R hS hA
  have h1 : 0 < enc.Tmin := by linarith
  have hTmax : 0 < enc.Tmax := add_pos h1 h2
  obtain ⟨d1, d2⟩ := dly_bd hdt (one_pos (α := K))
  obtain ⟨f1, f2⟩ := dly_bd hdt (two_pos (α := K))
  have hm := Nat.ceil_lt_add_one (div_pos hTmax hdt).le
  have hm' := mul_lt_mul_of_pos_right hm hdt
  rw [add_mul, div_mul_cancel₀ _ hdt.ne', one_mul] at hm'
  have hm1 : 1 ≤ ⌈enc.Tmax / dt⌉₊ := Nat.one_le_iff_ne_zero.mpr (Nat.ceil_pos.mpr (div_pos hTmax hdt)).ne'
  obtain ⟨j0, hj0, hmax⟩ : ∃ j0 < N, ∀ j < N, arrInj dt (t j) 1 ≤ arrInj dt (t j0) 1 := by
    obtain ⟨j0, h, h'⟩ := Finset.exists_max_image (Finset.range N) (fun j => arrInj dt (t j) 1) ⟨0, by simp; omega⟩
    exact ⟨j0, by simpa using h, fun j hj => h' j (by simpa using hj)⟩
  have hva := fun j hj => value_arr hdt h1 h2 (v := v j) (t0 := t j) (by linarith) (hv j hj).1 (ht j hj)
  have hvg := fun j hj => value_gap hdt h1 h2 hd (hv j hj).1 (hv j hj).2 (ht j hj)
  obtain ⟨ts, tO⟩ := sync_core R.run hdt hTmax hS hN1 hN
    (a := fun j => arrInj dt (t j) 1) (b := fun j => arrInj dt (t j + enc.Tmin + v j * enc.Tcod) 1)
    (fun j hj => by simpa using hA j hj) (fun j hj => (hva j hj).1) (fun j hj => (hvg j hj).1) (fun j hj => (hvg j hj).2)
    (M := arrInj dt (t j0) 1) hmax ⟨j0, hj0, rfl⟩
  have hd1 := one_le_dly dt (1 : K)
  have hM := (hva j0 hj0).2.2.2.1
  have hT0 := hT j0 hj0
  have hnoinj : ∀ k, k % 10 ≠ 1 → injTimes (((List.range N).map (fun j => Call.value (v j) (1 + 10 * j) (t j))).flatMap
      (callSpikes enc)) k = [] := fun k hk => injTimes_values_none enc (f := fun j => 1 + 10 * j) v t _ (by intro i; omega)
  have hbnd : ((arrInj dt (t j0) 1 + dly dt 1 + dly dt 1 + ⌈enc.Tmax / dt⌉₊ - 1 + dly dt 1 + dly dt 1 + dly dt 1 + dly dt 2 + dly dt 1 : ℕ) : K) * dt
      < t j0 + enc.Tmax + 9 + 8 * dt := by
    push_cast [Nat.cast_sub (show 1 ≤ arrInj dt (t j0) 1 + dly dt 1 + dly dt 1 + ⌈enc.Tmax / dt⌉₊ by omega)]
    linarith
  refine ⟨st, hses, ⟨arrInj dt (t j0) 1 + dly dt 1 + dly dt 1 + ⌈enc.Tmax / dt⌉₊ - 1 + dly dt 1 + dly dt 1 + dly dt 1 + dly dt 2 + dly dt 1, fun j hj => ?_⟩,
    ⟨arrInj dt (t j0) 1 + dly dt 1 + dly dt 1 + ⌈enc.Tmax / dt⌉₊ - 1 + dly dt 1 + dly dt 1, ?_, fun j hj => ?_⟩⟩
  · obtain ⟨c1, c2, c3, c4, c5⟩ := hva j hj
    have hvj := hv j hj
    have hvc' : v j * enc.Tcod ≤ enc.Tcod := mul_le_of_le_one_left h2.le hvj.2
    have e : p.outputs[j]! = 0 + 10 * j + 2 := by
      show (synchronizerNetwork enc N name World.empty).1.outputs[j]! = _
      rw [e3]; simp [hj]; omega
    rw [abs_lt] at c3
    rw [e]
    refine ⟨_, R.pair (by omega) hdt (hnoinj _ (by omega)) (tO j hj).1 (by omega) ?_, ?_⟩
    · rw [Nat.cast_add, add_mul, Nat.cast_sub c2.le]
      unfold Encoder.Tmax at hT0 hbnd
      unfold Encoder.Tmax
      linarith
    · rw [Nat.cast_add, Nat.cast_sub c2.le, abs_le]
      constructor <;> linarith
  · have e : p.sync = 0 := e1
    rw [e]
    have := R.log 0 (by omega) _ ts (by simp) (by
      intro i hi; rw [List.mem_singleton] at hi; subst hi
      have : ((arrInj dt (t j0) 1 + dly dt 1 + dly dt 1 + ⌈enc.Tmax / dt⌉₊ - 1 + dly dt 1 + dly dt 1 : ℕ) : K) * dt ≤
        ((arrInj dt (t j0) 1 + dly dt 1 + dly dt 1 + ⌈enc.Tmax / dt⌉₊ - 1 + dly dt 1 + dly dt 1 + dly dt 1 + dly dt 2 + dly dt 1 : ℕ) : K) * dt :=
          mul_le_mul_of_nonneg_right (Nat.cast_le.mpr (by omega)) hdt.le
      unfold Encoder.Tmax at *
      linarith)
    rw [hnoinj 0 (by omega)] at this
    exact this
  · have e : (p.blocks.map (·.ready))[j]! = 0 + 10 * j + 9 := by
      show ((synchronizerNetwork enc N name World.empty).1.blocks.map (·.ready))[j]! = _
      rw [e4]; simp [hj]; omega
    have hmj := hmax j hj
    refine ⟨arrInj dt (t j) 1 + dly dt 1 + dly dt 1 + ⌈enc.Tmax / dt⌉₊ - 1 + dly dt 1, by omega, ?_⟩
    rw [e]
    have := R.log _ (by omega) _ (tO j hj).2 (by simp) (by
      intro i hi; rw [List.mem_singleton] at hi; subst hi
      have : ((arrInj dt (t j) 1 + dly dt 1 + dly dt 1 + ⌈enc.Tmax / dt⌉₊ - 1 + dly dt 1 : ℕ) : K) * dt ≤
        ((arrInj dt (t j0) 1 + dly dt 1 + dly dt 1 + ⌈enc.Tmax / dt⌉₊ - 1 + dly dt 1 + dly dt 1 + dly dt 1 + dly dt 2 + dly dt 1 : ℕ) : K) * dt :=
          mul_le_mul_of_nonneg_right (Nat.cast_le.mpr (by omega)) hdt.le
      unfold Encoder.Tmax at *
      linarith)
    rw [hnoinj _ (by omega)] at this
    exact this

/-- A concrete case of C44: three values at three different times. -/
example : ∃ st, session (sortedHeap _) (fun _ l => l) ⟨10, 100⟩ (1 / 1000) 1000
      (synchronizerNetwork (⟨10, 100⟩ : Encoder ℚ) 3 none World.empty).2 0
      ((List.range 3).map (fun j : ℕ => Call.value ((j : ℚ) / 3)
        ((synchronizerNetwork (⟨10, 100⟩ : Encoder ℚ) 3 none World.empty).1.inputs[j]!) (100 * (j : ℚ)))) = .ok st ∧
      ∃ k : ℕ, ∀ j : ℕ, j < 3 → ∃ l : ℕ, Pair (1 / 1000)
        (st.spikeLog (synchronizerNetwork (⟨10, 100⟩ : Encoder ℚ) 3 none World.empty).1.outputs[j]!) k l ∧
        |((l : ℚ) * (1 / 1000) - (k : ℚ) * (1 / 1000)) - (10 + (j : ℚ) / 3 * 100)| ≤ 1 / 1000 := by
  obtain ⟨st, h, h', -⟩ := C44_synchronizer (sortedHeap _) id_setOrder (enc := (⟨10, 100⟩ : Encoder ℚ)) (dt := 1 / 1000) (by norm_num)
    (by norm_num) (by norm_num) none (N := 3) (by norm_num) (by norm_num) (v := fun j => (j : ℚ) / 3) (t := fun j => 100 * (j : ℚ))
    (by intro j hj; interval_cases j <;> norm_num) (by intro j hj; interval_cases j <;> norm_num) (T := 1000)
    (by intro j hj; interval_cases j <;> norm_num [Encoder.Tmax])
  exact ⟨st, h, h'⟩

/-! ## C45 -/
section run
variable {net : Net K} {dt : K} {inj : List (ℕ × K)} {s0 : ℕ → NState K} {S : ℕ → ℕ → NState K}
  {F : ℕ → ℕ → Bool}

theorem sum_evs_le (N : ℕ) (C : ℕ → List ℕ) {w : K} (hw : 0 ≤ w) (lo i : ℕ) (hC : ∀ j < N, (C j).length ≤ 1) :
    ∀ n ≤ N, ((((List.range n).flatMap (fun j => (C j).map (fun a => (a, w)))).map
      (fun e : ℕ × K => if lo < e.1 ∧ e.1 ≤ i then e.2 else 0)).sum) ≤ (((List.range n).filter (fun j => decide (C j ≠ []))).length : K) * w
  | 0, _ => by simp
  | n + 1, hn => by
    have ih := sum_evs_le N C hw lo i hC n (by omega)
    have h1 := hC n (by omega)
    rw [List.range_succ, List.flatMap_append, List.map_append, List.sum_append, List.filter_append, List.length_append]
    push_cast
    rw [add_mul]
    refine add_le_add ih ?_
    match hc : C n with
    | [] => simp [hc]
    | [a] =>
      simp only [List.flatMap_cons, hc, List.flatMap_nil, List.append_nil, List.map_cons, List.map_nil, List.sum_cons, List.sum_nil, add_zero]
      rw [List.filter_cons_of_pos (by simp [hc])]
      split_ifs <;> simp [hw]
    | a :: b :: l => rw [hc] at h1; simp at h1

/-- A neuron driven at most once by each of `N` sources, at least one of which is silent, where `N - 1` events are not
enough, is silent. -/
theorem gather_none (hr : IsRun net dt inj s0 S F) {x N : ℕ} (hx : IsStd net s0 x) {src : ℕ → ℕ} {D w : K} (hw : 0 < w)
    (hL : InS net x ((List.range N).map (fun j => ⟨src j, x, w, D, .V⟩))) (hN : ((N - 1 : ℕ) : K) * w < 10)
    {C : ℕ → List ℕ} (hC : ∀ j < N, (C j).length ≤ 1) (hA : ∀ j < N, Arr dt inj F (src j) D (C j))
    (h2 : ∃ j < N, C j = []) : Train F x [] := by
  refine Train.of fun n => ?_
  have hev : evs ((List.range N).map (fun j => ((⟨src j, x, w, D, .V⟩ : Synapse K), C j))) =
      (List.range N).flatMap (fun j => (C j).map (fun a => (a, w))) := by
    unfold evs
    rw [List.flatMap_map]
  have hE := inE_of (dt := dt) (inj := inj) (F := F) (n := n) hL .V
    ((List.range N).map (fun j => ((⟨src j, x, w, D, .V⟩ : Synapse K), C j)))
    (by rw [List.filter_eq_self.mpr (by simp), List.map_map]; rfl)
    (by intro p hp; obtain ⟨j, hj, rfl⟩ := List.mem_map.mp hp; exact (hA j (by simpa using hj)).to _)
  rw [hev] at hE
  obtain ⟨j0, hj0, hs⟩ := h2
  refine train_none hr hx hE (inE_nil hL .ge (by simp)) (inE_nil hL .gf (by simp)) (inE_nil hL .gate (by simp)) ?_
  intro i _ _
  rw [Phi_V]
  have hlt : ((List.range N).filter (fun j => decide (C j ≠ []))).length ≤ N - 1 := by
    by_contra hc
    have hle := List.length_filter_le (fun j => decide (C j ≠ [])) (List.range N)
    rw [List.length_range] at hle
    have heq : ((List.range N).filter (fun j => decide (C j ≠ []))).length = (List.range N).length := by
      rw [List.length_range]; omega
    have := List.length_filter_eq_length_iff.mp heq j0 (by simpa using hj0)
    simp [hs] at this
  calc _ ≤ (((List.range N).filter (fun j => decide (C j ≠ []))).length : K) * w := sum_evs_le N C hw.le 0 i hC N le_rfl
    _ ≤ ((N - 1 : ℕ) : K) * w := mul_le_mul_of_nonneg_right (Nat.cast_le.mpr hlt) hw.le
    _ < 10 := hN

/-- A memory whose input is mute never signals `ready`. -/
theorem mem_idle (hr : IsRun net dt inj s0 S F) (hdt : 0 < dt) {enc : Encoder K} {x : ℕ}
    (hE : Embeds net s0 inj x (memSyns enc) [1, 2, 3, 4, 6, 7]) (hm : Mute inj F x) : Mute inj F (x + 6) := by
  have m1 := silent_one hr hdt (hE.std 1 (by simp)) (hE.noinj 1 (by simp)) (hE.ins 1 (by simp))
    (by show ∀ s ∈ [⟨x + 1, x + 1, -10, 1, .V⟩, (⟨x, x + 1, 10, 1, .V⟩ : Synapse K)], _; simp [hm])
  have m3 := silent_one hr hdt (hE.std 3 (by simp)) (hE.noinj 3 (by simp)) (L := [⟨x + 1, x + 3, enc.wacc, 1, .ge⟩]) (hE.ins 3 (by simp))
    (by simp [m1])
  exact silent_one hr hdt (hE.std 6 (by simp)) (hE.noinj 6 (by simp)) (L := [⟨x + 3, x + 6, 10, 1, .V⟩]) (hE.ins 6 (by simp))
    (by simp [m3])

/-- Ready signals of a synchronizer some of whose channels get no value. -/
theorem sync_ready (hr : IsRun net dt inj s0 S F) (hdt : 0 < dt) {enc : Encoder K} (hT : 0 < enc.Tmax) {x N : ℕ}
    (h : SyncAt net s0 inj enc x N) {a b : ℕ → ℕ} (act : ℕ → Bool)
    (hI : ∀ j < N, Arr dt inj F (x + 10 * j + 1) 1 (if act j then [a j, b j] else []))
    (hmute : ∀ j < N, act j = false → Mute inj F (x + 10 * j + 1)) (ha : ∀ j < N, 1 ≤ a j)
    (hab : ∀ j < N, a j + dly dt 1 ≤ b j) (j : ℕ) (hj : j < N) :
    Arr dt inj F (x + 10 * j + 9) 1
      (if act j then [a j + dly dt 1 + dly dt 1 + ⌈enc.Tmax / dt⌉₊ - 1 + dly dt 1 + dly dt 1] else []) := by
  have n3 := h.noinj (10 * j + 3) (by omega)
  rw [← Nat.add_assoc] at n3
  have s3 := h.std (10 * j + 3) (by omega)
  rw [← Nat.add_assoc] at s3
  have n9 := h.noinj (10 * j + 9) (by omega)
  rw [← Nat.add_assoc] at n9
  cases hact : act j with
  | true =>
    have hI' := hI j hj
    rw [hact, if_pos rfl] at hI'
    have t := relay1 hr s3 (le_refl 10) (h.inp j hj) hI' (by have := ha j hj; have := hab j hj; simp; omega)
    have hd := one_le_dly dt (1 : K)
    have aI := t.arr2 hdt (by have := hab j hj; omega) n3 1
    rw [if_pos rfl]
    exact (mem_store hr hdt hT (h.mem j hj) aI (by omega) (by have := hab j hj; omega)).2.2.arr1 hdt n9 1
  | false =>
    have m3 := silent_one hr hdt s3 n3 (h.inp j hj) (by simp [hmute j hj hact])
    have := mem_idle hr hdt (h.mem j hj) m3
    rw [if_neg (by simp)]
    exact this.arr hdt 1

end run

/-- **C45 (waiting).** With `N ≤ 316` inputs, whenever some input has received no value, the `sync` neuron stays silent,
whatever the other inputs received and when. -/
theorem C45_waits_for_all (H : EventHeap K) {ord : ℕ → List ℕ → List ℕ} (hord : SetOrder ord) {enc : Encoder K}
    {dt : K} (hdt : 0 < dt) (h2 : 0 < enc.Tcod) (hd : 1 + dt ≤ enc.Tmin) (name : Option String) {N : ℕ}
    (hN : N ≤ 316) {v t : ℕ → K} (hv : ∀ j < N, 0 ≤ v j ∧ v j ≤ 1) (ht : ∀ j < N, 0 ≤ t j) (T : K)
    (act : ℕ → Bool) (hact : ∃ j < N, act j = false) :
    let p := (synchronizerNetwork enc N name World.empty).1
    let w := (synchronizerNetwork enc N name World.empty).2
    ∃ st, session H ord enc dt T w p.mod
        (((List.range N).filter act).map (fun j => Call.value (v j) (p.inputs[j]!) (t j))) = .ok st ∧
      Quiet (st.spikeLog p.sync) := by
  intro p w
  obtain ⟨ns, S, F, st, hses, R, hS, hA, hM⟩ := sync_session H hord (enc := enc) hdt name (N := N) (v := v) (t := t) act hv T
  obtain ⟨-, -, -, e1, -⟩ := sync_spec enc N name
  have h1 : 0 < enc.Tmin := by linarith
  obtain ⟨j0, hj0, hja⟩ := hact
  have hr := sync_ready R.run hdt (add_pos h1 h2) hS act hA hM (fun j _ => arrInj_pos _ _ _)
    (fun j hj => (value_gap hdt h1 h2 hd (hv j hj).1 (hv j hj).2 (ht j hj)).1)
  have hs := hS.std 0 (by simp)
  rw [Nat.add_zero] at hs
  have ts := gather_none R.run hs syncW_pos hS.sync ((syncW_lt (by omega)).mpr hN)
    (C := fun j => if act j then [arrInj dt (t j) 1 + dly dt 1 + dly dt 1 + ⌈enc.Tmax / dt⌉₊ - 1 + dly dt 1 + dly dt 1] else [])
    (by intro j _; split_ifs <;> simp) hr ⟨j0, hj0, by simp [hja]⟩
  have e : p.sync = 0 := e1
  rw [e]
  exact ⟨st, hses, R.quiet (k := 0) (by omega) (hS.noinj 0 (by simp)) ts⟩

/-- **C45 (limit).** With more than 316 inputs the synchronizer does not wait: if all inputs but the last receive their
values at the same time, the `sync` neuron fires although the last input has received nothing. -/
theorem C45_limit (H : EventHeap K) {ord : ℕ → List ℕ → List ℕ} (hord : SetOrder ord) {enc : Encoder K}
    {dt : K} (hdt : 0 < dt) (h2 : 0 < enc.Tcod) (hd : 1 + dt ≤ enc.Tmin) (name : Option String) {N : ℕ}
    (hN : 316 < N) {v : ℕ → K} {t0 : K} (hv : ∀ j < N, 0 ≤ v j ∧ v j ≤ 1) (ht : 0 ≤ t0) {T : K}
    (hT : t0 + enc.Tmax + 5 + 5 * dt ≤ T) :
    let p := (synchronizerNetwork enc N name World.empty).1
    let w := (synchronizerNetwork enc N name World.empty).2
    ∃ st, session H ord enc dt T w p.mod
        (((List.range N).filter (fun j => decide (j < N - 1))).map (fun j => Call.value (v j) (p.inputs[j]!) t0)) = .ok st ∧
      ∃ s : ℕ, st.spikeLog p.sync = some [(s : K) * dt] := by
  intro p w
  obtain ⟨ns, S, F, st, hses, R, hS, hA, hM⟩ := sync_session H hord (enc := enc) hdt name (N := N) (v := v) (t := fun _ => t0)
    (fun j => decide (j < N - 1)) hv T
  obtain ⟨-, -, -, e1, -⟩ := sync_spec enc N name
  have h1 : 0 < enc.Tmin := by linarith
  have hTmax : 0 < enc.Tmax := add_pos h1 h2
  have hr := sync_ready R.run hdt hTmax hS _ hA hM (fun j _ => arrInj_pos _ _ _)
    (fun j hj => (value_gap hdt h1 h2 hd (hv j hj).1 (hv j hj).2 ht).1)
  have hs := hS.std 0 (by simp)
  rw [Nat.add_zero] at hs
  have hm1 : 1 ≤ ⌈enc.Tmax / dt⌉₊ := Nat.one_le_iff_ne_zero.mpr (Nat.ceil_pos.mpr (div_pos hTmax hdt)).ne'
  have hd1 := one_le_dly dt (1 : K)
  obtain ⟨a1, a2⟩ := arrInj_bd (τ := t0) (D := 1) hdt (by linarith)
  have hap := arrInj_pos dt t0 1
  obtain ⟨d1, d2⟩ := dly_bd hdt (one_pos (α := K))
  have hm := Nat.ceil_lt_add_one (div_pos hTmax hdt).le
  have hm' := mul_lt_mul_of_pos_right hm hdt
  rw [add_mul, div_mul_cancel₀ _ hdt.ne', one_mul] at hm'
  let s := arrInj dt t0 1 + dly dt 1 + dly dt 1 + ⌈enc.Tmax / dt⌉₊ - 1 + dly dt 1 + dly dt 1
  have hsum : ∀ lo i n, n ≤ N → ((((List.range n).flatMap (fun j => (if decide (j < N - 1) then [s] else []).map (fun a => (a, syncW (K := K) N)))).map
      (fun e : ℕ × K => if lo < e.1 ∧ e.1 ≤ i then e.2 else 0)).sum) = if lo < s ∧ s ≤ i then ((min n (N - 1) : ℕ) : K) * syncW N else 0 := by
    intro lo i n
    induction n with
    | zero => intro _; simp
    | succ n ih =>
      intro hn
      rw [List.range_succ, List.flatMap_append, List.map_append, List.sum_append, ih (by omega)]
      by_cases hlt : n < N - 1
      · simp only [List.flatMap_cons, List.flatMap_nil, hlt, decide_true, if_true, List.map_cons, List.map_nil, List.append_nil,
          List.sum_cons, List.sum_nil, add_zero]
        rw [show min n (N - 1) = n by omega, show min (n + 1) (N - 1) = n + 1 by omega]
        split_ifs
        · push_cast; ring
        · simp
      · simp only [List.flatMap_cons, List.flatMap_nil, hlt, decide_false, if_false, List.map_nil, List.append_nil,
          List.sum_nil, add_zero, Bool.false_eq_true]
        rw [show min n (N - 1) = N - 1 by omega, show min (n + 1) (N - 1) = N - 1 by omega]
  have ts : Train F 0 [s] := by
    refine Train.of fun n => ?_
    have hE := inE_of (dt := dt) (F := F) (n := n) hS.sync .V
      ((List.range N).map (fun j => ((⟨0 + 10 * j + 9, 0, syncW N, 1, .V⟩ : Synapse K), if decide (j < N - 1) then [s] else [])))
      (by rw [List.filter_eq_self.mpr (by simp), List.map_map]; rfl)
      (by intro p hp; obtain ⟨j, hj, rfl⟩ := List.mem_map.mp hp; exact (hr j (by simpa using hj)).to _)
    have hev : evs ((List.range N).map (fun j => ((⟨0 + 10 * j + 9, 0, syncW N, 1, .V⟩ : Synapse K), if decide (j < N - 1) then [s] else []))) =
        (List.range N).flatMap (fun j => (if decide (j < N - 1) then [s] else []).map (fun a => (a, syncW (K := K) N))) := by
      unfold evs
      rw [List.flatMap_map]
    rw [hev] at hE
    refine train_one R.run hs hE (inE_nil hS.sync .ge (by simp)) (inE_nil hS.sync .gf (by simp)) (inE_nil hS.sync .gate (by simp))
      (p := s) (by show 1 ≤ s; simp only [s]; omega) ?_ ?_ ?_
    · intro i _ hi
      rw [Phi_V, hsum _ _ N le_rfl, if_neg (by omega)]; norm_num
    · rw [Phi_V, hsum _ _ N le_rfl, if_pos (by simp only [s]; omega), show min N (N - 1) = N - 1 by omega, ← not_lt, syncW_lt (by omega)]
      omega
    · intro i hi
      rw [Phi_V, hsum _ _ N le_rfl, if_neg (by omega)]; norm_num
  have e : p.sync = 0 := e1
  rw [e]
  refine ⟨st, hses, s, ?_⟩
  have := R.log 0 (by omega) _ ts (by simp) (by
    intro i hi; rw [List.mem_singleton] at hi; subst hi
    simp only [s]
    push_cast [Nat.cast_sub (show 1 ≤ arrInj dt t0 1 + dly dt 1 + dly dt 1 + ⌈enc.Tmax / dt⌉₊ by omega)]
    linarith)
  have hn := hS.noinj 0 (by simp)
  rw [Nat.add_zero] at hn
  rw [hn] at this
  exact this

/-- Concrete cases of C45: with three inputs and only two values the synchronizer stays silent; with 400 inputs and 399
values it does not. -/
example : (∃ st, session (sortedHeap _) (fun _ l => l) ⟨10, 100⟩ (1 / 1000) 1000
      (synchronizerNetwork (⟨10, 100⟩ : Encoder ℚ) 3 none World.empty).2 0
      (((List.range 3).filter (fun j => decide (j ≠ 1))).map (fun j : ℕ => Call.value (1 / 2)
        ((synchronizerNetwork (⟨10, 100⟩ : Encoder ℚ) 3 none World.empty).1.inputs[j]!) 0)) = .ok st ∧ Quiet (st.spikeLog 0)) ∧
    ∃ st, session (sortedHeap _) (fun _ l => l) ⟨10, 100⟩ (1 / 1000) 1000
      (synchronizerNetwork (⟨10, 100⟩ : Encoder ℚ) 400 none World.empty).2 0
      (((List.range 400).filter (fun j => decide (j < 399))).map (fun j : ℕ => Call.value (1 / 2)
        ((synchronizerNetwork (⟨10, 100⟩ : Encoder ℚ) 400 none World.empty).1.inputs[j]!) 0)) = .ok st ∧
      ∃ s : ℕ, st.spikeLog 0 = some [(s : ℚ) * (1 / 1000)] :=
  ⟨C45_waits_for_all (sortedHeap _) id_setOrder (enc := (⟨10, 100⟩ : Encoder ℚ)) (by norm_num) (by norm_num) (by norm_num) none
    (N := 3) (by norm_num) (v := fun _ => 1 / 2) (t := fun _ => 0) (by norm_num) (by norm_num) 1000 (fun j => decide (j ≠ 1)) ⟨1, by simp⟩,
   C45_limit (sortedHeap _) id_setOrder (enc := (⟨10, 100⟩ : Encoder ℚ)) (by norm_num) (by norm_num) (by norm_num) none
    (N := 400) (by norm_num) (v := fun _ => 1 / 2) (t0 := 0) (by norm_num) (by norm_num) (by norm_num [Encoder.Tmax])⟩

end Axon
