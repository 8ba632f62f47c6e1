import Verif.Proofs.Agree
import Verif.Props.PredSub
import Verif.Proofs.Session

/-! # C106: the two simulators agree spike for spike on networks of potential synapses -/
set_option linter.unusedSectionVars false
namespace Axon
open Spec
variable {K : Type*} [Field K] [LinearOrder K] [IsStrictOrderedRing K] [FloorRing K]

theorem numSteps_iff {T dt : K} (hdt : 0 < dt) (i : ℕ) (hi : 0 < i) : i ≤ numSteps T dt ↔ (i : K) * dt ≤ T := by
  refine ⟨fun h => ?_, le_numSteps hdt⟩
  unfold numSteps at h
  have h1 : ((i : ℤ)) ≤ ⌊T / dt⌋ := by omega
  have := Int.le_floor.mp h1
  rw [le_div_iff₀ hdt] at this
  exact_mod_cast this

/-- A predictive session, taken apart: its logs are a behaviour of the network. -/
theorem predSession_logs {H : TimeHeap K} {exp : K → K} {enc : Encoder K} {dt : K} (hdt : 0 < dt) {w : World K} {m : ℕ} {ns : List ℕ}
    (hns : w.neurons m = .ok ns) (hdel : ∀ s ∈ (w.net ns).syns, 0 < s.delay) (hR : Runnable (w.net ns)) {cs : List (Call K)}
    (hin : ∀ q ∈ cs.flatMap (predSpikes enc), q.1 ∈ ns) {fuel : ℕ} {st : PSim K} (h : predSession H exp enc dt w m cs fuel = some (.ok st)) :
    ∃ L, Consistent ⟨H, exp, w.net ns, enc, dt⟩ fresh (fun _ => 0) (cs.flatMap (predSpikes enc)) L ∧ ∀ n ∈ ns, st.spikeLog n = some (L n) := by
  set E : PEnv K := ⟨H, exp, w.net ns, enc, dt⟩ with hE
  unfold predSession at h
  rw [hns] at h
  simp only at h
  cases hi : PSim.init E fresh (fun _ => 0) 0 with
  | error e => rw [hi] at h; simp at h
  | ok st0 =>
    rw [hi] at h
    simp only at h
    cases hc : st0.calls E cs with
    | error e => rw [hc] at h; simp at h
    | ok st1 =>
      rw [hc] at h
      simp only at h
      refine ⟨fun n => (st.spikeLog n).getD [], C78_logs_are_consistent E hdt hdel hi hc h, ?_⟩
      obtain ⟨N, st', h1, h2⟩ := C78_computes_the_behaviour E hdt hdel hR hi hc hin (C78_logs_are_consistent E hdt hdel hi hc h)
      have : st1.simulate E (max N fuel) = some (.ok st) := by
        unfold PSim.simulate at h ⊢
        split at h
        · simp at h
        · rename_i hf
          rw [if_neg hf]
          cases hl : st1.loop E fuel with
          | none => rw [hl] at h; simp at h
          | some r => rw [PSim.loop_mono E fuel (max N fuel) st1 r (le_max_right _ _) hl]; rw [hl] at h; exact h
      rw [h1 _ (le_max_left _ _)] at this
      simp only [Option.some.injEq, Except.ok.injEq] at this
      subst this
      exact h2

/-- **C106.**  On a network whose synapses all act on the potential, with delays of a whole number of time steps, spikes injected on the time grid into
pure inputs make both simulators compute the same spikes: whenever `PredSimulator.simulate()` ends, `Simulator.simulate(T)` with the same calls does not raise,
and it logs for every other neuron exactly the spikes of the predictive simulator up to time `T`, in the same order, and for the inputs the same spikes.
All spikes are on the time grid. -/
theorem C106_engines_agree (HE : EventHeap K) {ord : ℕ → List ℕ → List ℕ} (hord : SetOrder ord) (HT : TimeHeap K) {exp : K → K} {enc : Encoder K} {dt : K}
    (hs : Sane exp dt) {w : World K} {m : ℕ} {ns : List ℕ} (hns : w.neurons m = .ok ns) (wf : WellFormed (w.net ns)) (hrest : Resting (w.net ns) fresh)
    (hpos : ∀ n ∈ ns, 0 < (w.par n).tm ∧ 0 < (w.par n).tf) (hV : PotentialOnly (w.net ns) dt)
    {cs : List (Call K)} (hcs : ∀ c ∈ cs, CallOK c ∧ AtZero c) (hg : GridInputs (w.net ns) dt fresh (cs.flatMap (callSpikes enc)))
    {fuel : ℕ} {stP : PSim K} (hP : predSession HT exp enc dt w m cs fuel = some (.ok stP)) (T : K) :
    ∃ stS, session HE ord enc dt T w m cs = .ok stS ∧ ∀ n ∈ ns, ∃ l l', stP.spikeLog n = some l ∧ stS.spikeLog n = some l' ∧
      (∀ x ∈ l, ∃ j : ℕ, x = j * dt) ∧
      ((∀ q ∈ cs.flatMap (callSpikes enc), q.1 ≠ n) → l' = l.filter (fun t => t ≤ T)) ∧
      ((∃ q ∈ cs.flatMap (callSpikes enc), q.1 = n) → l'.Perm l) := by
  have hdt := hs.pos
  have hspk : cs.flatMap (predSpikes enc) = cs.flatMap (callSpikes enc) := by
    have : ∀ c ∈ cs, predSpikes enc c = callSpikes enc c := by
      intro c hc
      have := (hcs c hc).2
      cases c with
      | spike n t => rfl
      | value v n t0 => simp only [AtZero] at this; subst this; simp [predSpikes, callSpikes]
    exact List.flatMap_congr this
  have hR : Runnable (w.net ns) := by
    refine ⟨?_, wf.target, fun n hn => ⟨wf.tm n hn, wf.tf n hn⟩⟩
    intro s hsy
    rw [(hV s hsy).1]; simp [Known]
  have hdel : ∀ s ∈ (w.net ns).syns, 0 < s.delay := by
    intro s hsy
    obtain ⟨-, k, hk, hd⟩ := hV s hsy
    rw [hd]; exact mul_pos (by exact_mod_cast hk) hdt
  obtain ⟨L, hcon, hlog⟩ := predSession_logs hdt hns hdel hR (by rw [hspk]; exact fun q hq => (hg.2 q hq).1.1) hP
  rw [hspk] at hcon
  set inj := cs.flatMap (callSpikes enc) with hinj
  have hrun := dense_isRun (w.net ns) dt inj fresh
  obtain ⟨stS, h1, o⟩ := simulate_outcome HE hord wf hdt hrest hrun T
  refine ⟨stS, ?_, ?_⟩
  · unfold session
    rw [hns]
    simp only [calls_eq HE (w.net ns) enc cs _ (fun c hc => (hcs c hc).1)]
    exact h1
  · intro n hn
    refine ⟨L n, _, hlog n hn, o.log_mem hn, fun x hx => ?_, ?_, ?_⟩
    · obtain ⟨j, hj, -⟩ := spikes_grid (E := ⟨HT, exp, w.net ns, enc, dt⟩) hs hpos wf hV hg hrest hcon n x hx
      exact ⟨j, hj⟩
    · intro hno
      have hit : injTimes inj n = [] := by
        unfold injTimes
        rw [List.filter_eq_nil_iff.mpr (fun q hq => by simpa using hno q hq)]; rfl
      rw [hit, List.nil_append]
      have hag := engines_agree (E := ⟨HT, exp, w.net ns, enc, dt⟩) hs hpos wf hV hg hrest hcon hrun
      have hsort := spikes_nodup (E := ⟨HT, exp, w.net ns, enc, dt⟩) hs hpos hV hrest hcon hn
      have hem : (emitted dt (denseF (w.net ns) dt inj fresh) (numSteps T dt) n).Pairwise (· < ·) := by
        unfold emitted
        rw [List.pairwise_map]
        refine ((List.pairwise_lt_range' 1).filter _).imp ?_
        intro a b hab
        exact mul_lt_mul_of_pos_right (by exact_mod_cast hab) hdt
      refine List.Perm.eq_of_pairwise (le := (· < ·)) (fun a b _ _ h h' => absurd h (not_lt.mpr h'.le)) hem (hsort.filter _) ?_
      refine (List.perm_ext_iff_of_nodup (hem.imp fun h => h.ne) ((hsort.filter _).imp fun h => h.ne)).mpr ?_
      intro x
      unfold emitted
      rw [List.mem_map, List.mem_filter]
      constructor
      · rintro ⟨i, hi, rfl⟩
        obtain ⟨hi1, hi2⟩ := List.mem_filter.mp hi
        have hi3 := List.mem_range'_1.mp hi1
        exact ⟨(hag i n hno).mp hi2, by simpa using (numSteps_iff hdt i (by omega)).mp (by omega)⟩
      · rintro ⟨hx, hxT⟩
        obtain ⟨j, hj, h0⟩ := spikes_grid (E := ⟨HT, exp, w.net ns, enc, dt⟩) hs hpos wf hV hg hrest hcon n x hx
        have hj0 := h0 hno
        simp only at hj
        subst hj
        refine ⟨j, List.mem_filter.mpr ⟨List.mem_range'_1.mpr ?_, (hag j n hno).mpr hx⟩, rfl⟩
        have := (numSteps_iff hdt j hj0).mpr (by simpa using hxT)
        omega
    · rintro ⟨q, hq, rfl⟩
      have hin := (hg.2 q hq).1
      have hF := run_input_silent (E := ⟨HT, exp, w.net ns, enc, dt⟩) hV hrest hrun hin.1 hin.2.1
      have : emitted dt (denseF (w.net ns) dt inj fresh) (numSteps T dt) q.1 = [] := by
        unfold emitted
        rw [List.filter_eq_nil_iff.mpr (fun i _ => by simp [hF i])]; rfl
      rw [this, List.append_nil]
      have hsort := spikes_nodup (E := ⟨HT, exp, w.net ns, enc, dt⟩) hs hpos hV hrest hcon hn
      have hnd : (injTimes inj q.1).Nodup := by
        unfold injTimes
        refine List.Nodup.map_on ?_ (hg.1.filter _)
        intro a ha b hb e
        have h1 := (List.mem_filter.mp ha).2
        have h2 := (List.mem_filter.mp hb).2
        simp only [decide_eq_true_eq] at h1 h2
        exact Prod.ext (h1.trans h2.symm) e
      refine (List.perm_ext_iff_of_nodup hnd (hsort.imp fun h => h.ne)).mpr ?_
      intro x
      rw [input_spikes (E := ⟨HT, exp, w.net ns, enc, dt⟩) hs hpos wf hV hg hrest hcon hin x]
      unfold injTimes
      rw [List.mem_map]
      constructor
      · rintro ⟨a, ha, rfl⟩
        obtain ⟨h1, h2⟩ := List.mem_filter.mp ha
        simp only [decide_eq_true_eq] at h2
        rw [← h2]; exact h1
      · intro h
        exact ⟨(q.1, x), List.mem_filter.mpr ⟨h, by simp⟩, rfl⟩

theorem grid_maxSteps {k : ℕ} (hk : 0 < k) (hk' : k ≤ 10 ^ 12) : maxSteps ((1 : K) / (100 * k)) < 2 ^ 64 := by
  have hkK : (0 : K) < k := by exact_mod_cast hk
  have e : (500 : K) / (1 / (100 * k)) = ((50000 * k : ℕ) : K) := by push_cast; field_simp; norm_num
  unfold maxSteps
  rw [e, if_pos (by positivity), Int.floor_natCast]
  omega

/-- The subtractor on the time grid of step `1/(100 k)`. -/
theorem sub_grid (HE : EventHeap K) {ord : ℕ → List ℕ → List ℕ} (hord : SetOrder ord) {enc : Encoder K} {k a b c : ℕ} (hk : 0 < k) (hk' : k ≤ 10 ^ 12)
    (h1 : 1 ≤ enc.Tmin) (h2 : 0 < enc.Tcod) (ha : enc.Tmin = a * (1 / (100 * k))) (name : Option String) {v1 v2 : K} (hv1 : 0 ≤ v1 ∧ v1 ≤ 1) (hv2 : 0 ≤ v2 ∧ v2 ≤ 1)
    (hb : v1 * enc.Tcod = b * (1 / (100 * k))) (hc : v2 * enc.Tcod = c * (1 / (100 * k))) {L6 L7 : List K} (T : K)
    (hP : PredEnds (sortedHeap _ : TimeHeap K) id enc (1 / (100 * k)) (subtractorNetwork enc name World.empty).2 0 [.value v1 0 0, .value v2 1 0]
      (fun log => log 6 = some L6 ∧ log 7 = some L7)) :
    ∃ st, session HE ord enc (1 / (100 * k)) T (subtractorNetwork enc name World.empty).2 0 [.value v1 0 0, .value v2 1 0] = .ok st ∧
      st.spikeLog 6 = some (L6.filter (fun t => t ≤ T)) ∧ st.spikeLog 7 = some (L7.filter (fun t => t ≤ T)) ∧
      (∀ x ∈ L6 ++ L7, ∃ j : ℕ, x = j * (1 / (100 * k))) := by
  have hkK : (0 : K) < k := by exact_mod_cast hk
  set dt : K := 1 / (100 * k) with hdt
  have hdt0 : 0 < dt := by rw [hdt]; positivity
  have h100 : (1 : K) / 100 = k * dt := by rw [hdt]; field_simp
  have hs : Sane (id : K → K) dt := by
    refine ⟨monotone_id, hdt0, ?_, ?_⟩
    · have : (1 : K) ≤ k := by exact_mod_cast hk
      nlinarith
    · exact grid_maxSteps hk hk'
  have hlib := subtractor_lib enc name
  set w := (subtractorNetwork enc name World.empty).2 with hw
  obtain ⟨ns, hns, hmem⟩ := hlib.block.neurons
  have wf := hlib.wf hmem
  rw [hlib.len] at hmem
  have hpar : ∀ n ∈ ns, w.par n = stdPar := fun n hn => hlib.wpar (by rw [hlib.len]; exact (hmem n).mp hn)
  have hsyn : (w.net ns).syns = _ := sub_syns enc name
  obtain ⟨N, stP, h3, h4, h5⟩ := hP
  have hV : PotentialOnly (w.net ns) dt := by
    have e1 : (1 : K) = (100 * k : ℕ) * dt := by push_cast; linarith
    have e2 : (2 : K) * (1 / 100) = (2 * k : ℕ) * dt := by push_cast; linarith
    have e3 : (3 : K) * 1 + 2 * (1 / 100) = (302 * k : ℕ) * dt := by push_cast; linarith
    have e4 : enc.Tmin + ((3 : K) * 1 + 2 * (1 / 100)) = (a + 302 * k : ℕ) * dt := by rw [e3, ha]; push_cast; ring
    intro s hsy
    rw [hsyn] at hsy
    fin_cases hsy <;> refine ⟨rfl, ?_⟩ <;>
      first | exact ⟨_, by omega, e1⟩ | exact ⟨k, hk, h100⟩ | exact ⟨_, by omega, e2⟩ | exact ⟨_, by omega, e3⟩ | exact ⟨_, by omega, e4⟩
  have hpure : ∀ n < 2, PureInput (w.net ns) fresh n := by
    intro n hn
    refine ⟨(hmem n).mpr (by omega), ?_, by simp [fresh], ?_⟩
    · intro s hsy
      rw [hsyn] at hsy
      fin_cases hsy <;> simp only <;> omega
    · show 0 ≤ (w.par n).Vreset
      rw [hpar n ((hmem n).mpr (by omega))]; simp [stdPar]
  have hI1 : 0 ≤ v1 * enc.Tcod := mul_nonneg hv1.1 h2.le
  have hI2 : 0 ≤ v2 * enc.Tcod := mul_nonneg hv2.1 h2.le
  obtain ⟨st, h6, h7⟩ := C106_engines_agree HE hord (sortedHeap _ : TimeHeap K) hs hns wf (by
      intro n hn
      have : (w.net ns).par n = stdPar := hpar n hn
      rw [this]; simp [fresh, stdPar]) (by
      intro n hn; rw [hpar n hn]; norm_num [stdPar]) hV (cs := [.value v1 0 0, .value v2 1 0]) (by
      intro c hc
      simp only [List.mem_cons, List.not_mem_nil, or_false] at hc
      rcases hc with rfl | rfl
      · exact ⟨hv1, rfl⟩
      · exact ⟨hv2, rfl⟩) (by
      constructor
      · simp only [List.flatMap_cons, List.flatMap_nil, callSpikes, List.append_nil, List.cons_append, List.nil_append, List.nodup_cons, List.mem_cons, Prod.mk.injEq,
          List.not_mem_nil, or_false, not_or, List.nodup_nil]
        refine ⟨⟨fun h => ?_, by simp, by simp⟩, ⟨by simp, by simp⟩, fun h => ?_, by simp, trivial⟩ <;> linarith [h.2]
      · intro q hq
        simp only [List.flatMap_cons, List.flatMap_nil, callSpikes, List.append_nil, List.cons_append, List.nil_append, List.mem_cons, List.not_mem_nil, or_false] at hq
        rcases hq with rfl | rfl | rfl | rfl
        · exact ⟨hpure 0 (by omega), 0, by simp⟩
        · exact ⟨hpure 0 (by omega), a + b, by simp only; rw [ha, hb]; push_cast; ring⟩
        · exact ⟨hpure 1 (by omega), 0, by simp⟩
        · exact ⟨hpure 1 (by omega), a + c, by simp only; rw [ha, hc]; push_cast; ring⟩) (h3 N le_rfl) T
  obtain ⟨l6, l6', g1, g2, g3, g4, -⟩ := h7 6 ((hmem 6).mpr (by omega))
  obtain ⟨l7, l7', g5, g6, g7, g8, -⟩ := h7 7 ((hmem 7).mpr (by omega))
  have e6 : l6 = L6 := by rw [g1] at h4; simpa using h4
  have e7 : l7 = L7 := by rw [g5] at h5; simpa using h5
  subst e6 e7
  refine ⟨st, h6, ?_, ?_, ?_⟩
  · rw [g2, g4 (by simp [callSpikes])]
  · rw [g6, g8 (by simp [callSpikes])]
  · intro x hx
    rcases List.mem_append.mp hx with h | h
    · exact g3 x h
    · exact g7 x h

/-- **C106**, `SubtractorNetwork` in the time-stepped simulator: when the step is `1/(100 k)` ms and the minimal interval and the coding intervals of the operands are
whole numbers of steps, the answer is not just within two steps (C46) but exact, and the dead zone is exactly `0 < (v2 - v1) * Tcod < 1/100`. -/
theorem C106_subtractor_exact (HE : EventHeap K) {ord : ℕ → List ℕ → List ℕ} (hord : SetOrder ord) {enc : Encoder K} {k a b c : ℕ} (hk : 0 < k) (hk' : k ≤ 10 ^ 12)
    (h1 : 1 ≤ enc.Tmin) (h2 : 0 < enc.Tcod) (ha : enc.Tmin = a * (1 / (100 * k))) (name : Option String) {v1 v2 T : K} (hv1 : 0 ≤ v1 ∧ v1 ≤ 1) (hv2 : 0 ≤ v2 ∧ v2 ≤ 1)
    (hb : v1 * enc.Tcod = b * (1 / (100 * k))) (hc : v2 * enc.Tcod = c * (1 / (100 * k))) (hT : 2 * enc.Tmin + max v1 v2 * enc.Tcod + 402 / 100 ≤ T) :
    let p := (subtractorNetwork enc name World.empty).1
    let w := (subtractorNetwork enc name World.empty).2
    ∃ st, session HE ord enc (1 / (100 * k)) T w p.mod [.value v1 p.input1 0, .value v2 p.input2 0] = .ok st ∧
      ((v2 ≤ v1 ∨ 1 / 100 ≤ (v2 - v1) * enc.Tcod) → CarriesSigned enc (1 / (100 * k)) 0 (st.spikeLog p.outputPlus) (st.spikeLog p.outputMinus) (v1 - v2)) ∧
      ((v1 < v2 ∧ (v2 - v1) * enc.Tcod < 1 / 100) → Quiet (st.spikeLog p.outputPlus) ∧ Quiet (st.spikeLog p.outputMinus)) := by
  intro p w
  have hkK : (0 : K) < k := by exact_mod_cast hk
  have hdt0 : (0 : K) < 1 / (100 * k) := by positivity
  have hs : Sane (id : K → K) (1 / (100 * k)) := by
    refine ⟨monotone_id, hdt0, ?_, ?_⟩
    · have : (1 : K) ≤ k := by exact_mod_cast hk
      rw [div_le_iff₀ (by positivity)]; linarith
    · exact grid_maxSteps hk hk'
  have hmul : max v1 v2 * enc.Tcod = max (v1 * enc.Tcod) (v2 * enc.Tcod) := max_mul_of_nonneg _ _ h2.le
  rw [hmul] at hT
  have hT1 := le_max_left (v1 * enc.Tcod) (v2 * enc.Tcod)
  have hT2 := le_max_right (v1 * enc.Tcod) (v2 * enc.Tcod)
  have hd : (enc.Tmin + v2 * enc.Tcod) - (enc.Tmin + v1 * enc.Tcod) = (v2 - v1) * enc.Tcod := by ring
  have hd' : (enc.Tmin + v1 * enc.Tcod) - (enc.Tmin + v2 * enc.Tcod) = (v1 - v2) * enc.Tcod := by ring
  have pair : ∀ {log : Option (List K)} {x y v : K}, log = some [x, y] → (∃ j : ℕ, x = j * (1 / (100 * k))) → (∃ j : ℕ, y = j * (1 / (100 * k))) → x < y →
      y - x = enc.Tmin + v * enc.Tcod → Carries enc (1 / (100 * k)) 0 log v := by
    rintro log x y v hl ⟨i, rfl⟩ ⟨j, rfl⟩ hxy he
    refine ⟨i, j, ⟨?_, hl⟩, by rw [he]; simp⟩
    have := lt_of_mul_lt_mul_right hxy hdt0.le
    exact_mod_cast this
  by_cases hle : v2 ≤ v1
  · have h0 : v2 * enc.Tcod ≤ v1 * enc.Tcod := mul_le_mul_of_nonneg_right hle h2.le
    have key : PredEnds (sortedHeap _ : TimeHeap K) id enc (1 / (100 * k)) w 0 [.value v1 0 0, .value v2 1 0] (fun log =>
        log 6 = some [(enc.Tmin + v2 * enc.Tcod) + 402 / 100, (enc.Tmin + v1 * enc.Tcod) + enc.Tmin + 402 / 100] ∧ log 7 = some []) := by
      by_cases hc : 1 / 100 ≤ (v1 - v2) * enc.Tcod
      · exact sub_plus _ h1 h2 hs name hv1 hv2 0 0 (by rw [hd']; exact hc)
      · exact sub_plus_near _ h1 h2 hs name hv1 hv2 0 0 (by linarith) (by rw [hd']; exact not_le.mp hc)
    obtain ⟨st, g1, g2, g3, g4⟩ := sub_grid HE hord hk hk' h1 h2 ha name hv1 hv2 hb hc T key
    refine ⟨st, g1, fun _ => ?_, fun h => absurd h.1 (not_lt.mpr hle)⟩
    rw [List.filter_eq_self.mpr] at g2
    · unfold CarriesSigned
      rw [if_neg (by linarith), if_neg (by linarith), abs_of_nonneg (by linarith)]
      exact ⟨pair g2 (g4 _ (by simp)) (g4 _ (by simp)) (by linarith) (by ring), g3⟩
    · intro x hx
      simp only [List.mem_cons, List.not_mem_nil, or_false] at hx
      rcases hx with rfl | rfl <;> simp only [decide_eq_true_eq] <;> linarith
  · have hlt := not_le.mp hle
    by_cases hdz : 1 / 100 ≤ (v2 - v1) * enc.Tcod
    · obtain ⟨st, g1, g2, g3, g4⟩ := sub_grid HE hord hk hk' h1 h2 ha name hv1 hv2 hb hc T (sub_minus _ h1 h2 hs name hv1 hv2 0 0 (by rw [hd]; exact hdz))
      refine ⟨st, g1, fun _ => ?_, fun h => absurd hdz (not_le.mpr h.2)⟩
      rw [List.filter_eq_self.mpr] at g3
      · unfold CarriesSigned
        rw [if_pos (by linarith), if_pos (by linarith), abs_of_neg (by linarith)]
        exact ⟨pair g3 (g4 _ (by simp)) (g4 _ (by simp)) (by linarith) (by ring), g2⟩
      · intro x hx
        simp only [List.mem_cons, List.not_mem_nil, or_false] at hx
        rcases hx with rfl | rfl <;> simp only [decide_eq_true_eq] <;> linarith
    · obtain ⟨st, g1, g2, g3, g4⟩ := sub_grid HE hord hk hk' h1 h2 ha name hv1 hv2 hb hc T (sub_dead _ h1 h2 hs name hv1 hv2 0 0
        (by rw [hd]; exact mul_pos (by linarith) h2) (by rw [hd]; exact not_le.mp hdz))
      refine ⟨st, g1, fun h => absurd h (by rintro (h | h) <;> linarith), fun _ => ⟨g2, g3⟩⟩

/-- A concrete case: 1/5 - 3/4 with the default encoder and step 1/100. -/
example : ∃ st, session (sortedHeap _) (fun _ l => l) ⟨10, 100⟩ (1 / (100 * (1 : ℕ)) : ℚ) 110 (subtractorNetwork (⟨10, 100⟩ : Encoder ℚ) none World.empty).2 0
    [.value (1 / 5) 0 0, .value (3 / 4) 1 0] = .ok st ∧ CarriesSigned ⟨10, 100⟩ (1 / (100 * (1 : ℕ)) : ℚ) 0 (st.spikeLog 6) (st.spikeLog 7) (1 / 5 - 3 / 4) := by
  obtain ⟨st, h, h1, -⟩ := C106_subtractor_exact (K := ℚ) (sortedHeap _) (ord := fun _ l => l) (fun _ l => List.Perm.refl l) (enc := ⟨10, 100⟩) (k := 1) (a := 1000) (b := 2000) (c := 7500)
    (by norm_num) (by norm_num) (by norm_num) (by norm_num) (by norm_num) none (v1 := 1 / 5) (v2 := 3 / 4) (T := 110) (by norm_num) (by norm_num) (by norm_num) (by norm_num)
    (by norm_num [max_def])
  exact ⟨st, h, h1 (by norm_num)⟩

end Axon
