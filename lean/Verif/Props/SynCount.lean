import Verif.Props.SpikeCount

/-! # C88: processed synaptic updates, against the spike log and against the published table -/
set_option linter.unusedSectionVars false
namespace Axon
open Spec
variable {K : Type*} [Field K] [LinearOrder K] [IsStrictOrderedRing K] [FloorRing K]

theorem countP_sum {α : Type*} (l : List α) (p : α → Bool) : l.countP p = (l.map fun a => if p a = true then 1 else 0).sum := by
  induction l with
  | nil => rfl
  | cons b m ih => rw [List.countP_cons, List.map_cons, List.sum_cons, ih]; omega

/-- Counting pairs by rows or by columns. -/
theorem count_exchange {α β : Type*} (l : List α) (m : List β) (p : α → β → Bool) :
    (l.map fun a => m.countP (p a)).sum = (m.map fun b => l.countP fun a => p a b).sum := by
  induction l with
  | nil => simp
  | cons a l ih =>
    rw [List.map_cons, List.sum_cons, ih]
    simp only [List.countP_cons]
    rw [List.sum_map_add, add_comm]
    congr 1
    exact countP_sum m (p a)

/-- All events known after step `N`, of one kind: one per spike and synapse. -/
theorem count_tagged {net : Net K} {dt : K} {inj : List (ℕ × K)} {s0 : ℕ → NState K} {S : ℕ → ℕ → NState K} {F : ℕ → ℕ → Bool}
    (hr : IsRun net dt inj s0 S F) (k : SynKind) (N : ℕ) :
    (tagged net dt inj F N).countP (fun x => x.2.kind = k) =
      ((net.syns.filter (fun s => s.kind = k)).map fun s => (injTimes inj s.pre).length + (emitted dt F N s.pre).length).sum := by
  have hf : ∀ f : Synapse K → ℕ, ((net.syns.filter (fun s => s.kind = k)).map f).sum = (net.syns.map fun s => if s.kind = k then f s else 0).sum := by
    intro f
    induction net.syns with
    | nil => rfl
    | cons s l ih =>
      rw [List.filter_cons, List.map_cons, List.sum_cons, ← ih]
      by_cases h : s.kind = k <;> simp [h]
  have hout : ∀ n, (net.out n).countP (fun s => decide (s.kind = k)) = net.syns.countP (fun s => decide (s.pre = n ∧ s.kind = k)) := by
    intro n
    unfold Net.out
    rw [List.countP_filter]
    refine List.countP_congr fun s _ => ?_
    simp [and_comm]
  rw [List.sum_map_add]
  unfold tagged
  rw [List.countP_append]
  congr 1
  · unfold tagInj
    rw [List.countP_flatMap]
    have : (inj.map (List.countP (fun x : ℕ × Event K => decide (x.2.kind = k)) ∘ fun q => (net.out q.1).map fun s => (arrInj dt q.2 s.delay, synEvent q.2 s))) =
        inj.map fun q => net.syns.countP (fun s => decide (s.pre = q.1 ∧ s.kind = k)) := by
      refine List.map_congr_left fun q _ => ?_
      rw [← hout, Function.comp, List.countP_map]
      rfl
    rw [this, count_exchange, hf]
    congr 1
    refine List.map_congr_left fun s _ => ?_
    by_cases h : s.kind = k
    · simp only [h, and_true, if_true, injTimes, List.length_map, ← List.countP_eq_length_filter]
      exact List.countP_congr fun q _ => by simp [eq_comm]
    · simp [h]
  · rw [List.countP_flatMap]
    let P : List (ℕ × ℕ) := (List.range (N + 1)).flatMap fun j => (net.neurons.dedup.filter (fun n => F j n)).map fun n => (j, n)
    have e1 : ((List.range (N + 1)).map (List.countP (fun x : ℕ × Event K => decide (x.2.kind = k)) ∘ tagFired net dt F)).sum =
        (P.map fun q => net.syns.countP (fun s => decide (s.pre = q.2 ∧ s.kind = k))).sum := by
      rw [List.map_flatMap, sum_flat]
      congr 1
      refine List.map_congr_left fun j _ => ?_
      unfold tagFired
      rw [Function.comp, List.countP_flatMap, List.map_map]
      congr 1
      refine List.map_congr_left fun n _ => ?_
      simp only [Function.comp]
      rw [← hout, List.countP_map]
      rfl
    rw [e1, count_exchange, hf]
    congr 1
    refine List.map_congr_left fun s _ => ?_
    by_cases h : s.kind = k
    swap
    · simp [h]
    simp only [h, and_true, if_true]
    have e2 : P.countP (fun q => decide (s.pre = q.2)) = (List.range (N + 1)).countP (fun j => F j s.pre) := by
      rw [List.countP_flatMap, countP_sum (List.range (N + 1))]
      congr 1
      refine List.map_congr_left fun j _ => ?_
      simp only [Function.comp]
      rw [List.countP_map]
      have : (net.neurons.dedup.filter (fun n => F j n)).countP ((fun q : ℕ × ℕ => decide (s.pre = q.2)) ∘ fun n => (j, n)) =
          (net.neurons.dedup.filter (fun n => F j n)).count s.pre := by
        rw [List.count]
        exact List.countP_congr fun n _ => by simp only [Function.comp, decide_eq_true_eq, beq_iff_eq]; exact eq_comm
      rw [this]
      cases hF : F j s.pre
      · rw [List.count_eq_zero_of_not_mem]
        · rfl
        · simp [hF]
      · rw [List.count_eq_one_of_mem (List.Nodup.filter _ (List.nodup_dedup _))]
        · rfl
        · rw [List.mem_filter, List.mem_dedup]; exact ⟨hr.F_mem hF, hF⟩
    rw [e2]
    unfold emitted
    rw [List.length_map, List.range_eq_range', List.range'_succ, List.countP_cons, (hr.start s.pre).2, List.countP_eq_length_filter]
    simp

/-- **C88, from the log.** Once the event queue has run empty, the counter of each synapse type is the number of spikes in the log, each spike
counted once for every synapse of that type leaving its neuron. -/
theorem C88_counters_from_log (H : EventHeap K) {ord : ℕ → List ℕ → List ℕ} (hord : SetOrder ord) {net : Net K} (wf : WellFormed net) {dt : K} (hdt : 0 < dt)
    (inj : List (ℕ × K)) {s0 : ℕ → NState K} (hrest : Resting net s0) (T : K) {st : Sim K}
    (h : ((Sim.init net s0).injectAll H net inj).simulate H ord net dt T = .ok st) (hq : st.queue = []) (k : SynKind) :
    st.cnt k = ((net.syns.filter (fun s => s.kind = k)).map fun s => ((st.spikeLog s.pre).getD []).length).sum := by
  have hr := dense_isRun net dt inj s0
  obtain ⟨st', h', o⟩ := simulate_outcome H hord wf hdt hrest hr T
  rw [h] at h'
  obtain rfl := Except.ok.inj h'
  have hall : (tagged net dt inj (denseF net dt inj s0) (numSteps T dt)).filter (fun x => decide (x.1 ≤ numSteps T dt)) =
      tagged net dt inj (denseF net dt inj s0) (numSteps T dt) := by
    rw [List.filter_eq_self]
    intro x hx
    by_contra hc
    have : x.2 ∈ st.queue := o.queue.mem_iff.mpr (List.mem_map.mpr ⟨x, List.mem_filter.mpr ⟨hx, by simpa using hc⟩, rfl⟩)
    rw [hq] at this
    cases this
  rw [o.cnt, hall, ← List.countP_eq_length_filter, count_tagged hr]
  congr 1
  refine List.map_congr_left fun s _ => ?_
  rw [o.log]
  by_cases hc : s.pre ∈ net.neurons ∨ injTimes inj s.pre ≠ []
  · rw [if_pos hc]; simp
  · rw [if_neg hc]
    push Not at hc
    have : emitted dt (denseF net dt inj s0) (numSteps T dt) s.pre = [] := by
      unfold emitted
      rw [List.map_eq_nil_iff, List.filter_eq_nil_iff]
      exact fun i _ hF => hc.1 (hr.F_mem hF)
    rw [hc.2, this]; rfl

/-- If every neuron fires finitely often, the queue runs empty. -/
theorem queue_settles {net : Net K} {dt : K} {inj : List (ℕ × K)} {s0 : ℕ → NState K} {S : ℕ → ℕ → NState K} {F : ℕ → ℕ → Bool}
    (_hr : IsRun net dt inj s0 S F) (hfin : ∀ n ∈ net.neurons, ∃ c, Fires F n c) :
    ∃ N0, ∀ N ≥ N0, ∀ x ∈ tagged net dt inj F N, x.1 ≤ N := by
  obtain ⟨M, hM⟩ : ∃ M, ∀ n ∈ net.neurons, ∀ i, F i n = true → i ≤ M := by
    obtain ⟨M, h⟩ := uniform_steps net.neurons (P := fun n N => ∀ i, F i n = true → i ≤ N) fun n hn => by
      obtain ⟨c, l, hl, -, -⟩ := hfin n hn
      exact ⟨l.sum, fun N hN i hi => (List.single_le_sum (by simp) i ((hl i).mp hi)).trans hN⟩
    exact ⟨M, h M le_rfl⟩
  refine ⟨((tagged net dt inj F M).map Prod.fst).sum + M, fun N hN x hx => ?_⟩
  have hx' : x ∈ tagged net dt inj F M := by
    unfold tagged at hx ⊢
    rw [List.mem_append, List.mem_flatMap] at hx ⊢
    refine hx.imp_right ?_
    rintro ⟨j, hj, hx⟩
    refine ⟨j, ?_, hx⟩
    unfold tagFired at hx
    obtain ⟨n, hn, -⟩ := List.mem_flatMap.mp hx
    rw [List.mem_filter, List.mem_dedup] at hn
    have := hM n hn.1 j (by simpa using hn.2)
    exact List.mem_range.mpr (by omega)
  have := List.single_le_sum (l := (tagged net dt inj F M).map Prod.fst) (by simp) x.1 (List.mem_map.mpr ⟨x, hx', rfl⟩)
  omega

/-- The updates of kind `k` caused inside the module of an operation whose neurons fire as `l` says. -/
def innerUpdates (op : OpType) (r : K) (l : List ℕ) (k : SynKind) : ℕ :=
  (((spawnEmpty op r).2.syns.filter (fun s => s.kind = k)).map fun s => l.getD s.pre 0).sum

set_option maxHeartbeats 2000000 in
/-- The synapses inside a multiplier: source and type. -/
theorem mul_shape (r : K) : ((spawnEmpty .mul r).2.syns.map fun s => (s.pre, s.kind)) =
    [(27, .V), (26, .V), (25, .V), (24, .V), (17, .V), (17, .V), (11, .V), (27, .V), (27, .V), (26, .V), (26, .V), (25, .V), (25, .V), (24, .V), (24, .V), (21, .V), (21, .V), (20, .V), (20, .V), (19, .V), (19, .V), (18, .V), (18, .V), (21, .V), (20, .V), (19, .V), (18, .V), (15, .V), (15, .ge), (16, .V), (15, .ge), (14, .ge), (13, .ge), (13, .V), (12, .V), (12, .V), (5, .V), (5, .V), (11, .V), (1, .V), (0, .V), (10, .V), (9, .gf), (9, .gate), (9, .gate), (9, .gf), (8, .V), (8, .ge), (8, .gate), (4, .gate), (4, .gf), (7, .V), (7, .ge), (6, .ge), (6, .V), (1, .V), (1, .V), (3, .V), (3, .ge), (2, .ge), (2, .V), (0, .V), (0, .V)] := rfl

set_option maxHeartbeats 2000000 in
/-- The synapses inside an adder: source and type. -/
theorem add_shape (r : K) : ((spawnEmpty .add r).2.syns.map fun s => (s.pre, s.kind)) =
    [(51, .ge), (49, .ge), (50, .ge), (48, .ge), (51, .V), (50, .V), (49, .V), (48, .V), (47, .V), (47, .V), (46, .V), (46, .V), (45, .ge), (43, .ge), (44, .ge), (42, .ge), (45, .V), (44, .V), (43, .V), (42, .V), (41, .V), (41, .V), (40, .V), (40, .V), (3, .V), (2, .V), (1, .V), (0, .V), (9, .ge), (9, .ge), (9, .ge), (9, .ge), (4, .V), (5, .V), (8, .V), (38, .V), (37, .V), (38, .V), (37, .V), (22, .V), (12, .V), (39, .V), (39, .V), (34, .V), (33, .V), (34, .V), (33, .V), (39, .V), (38, .V), (37, .V), (35, .V), (36, .V), (33, .V), (34, .V), (34, .V), (33, .V), (34, .V), (33, .V), (34, .V), (33, .V), (32, .V), (31, .V), (10, .V), (29, .V), (30, .V), (21, .V), (26, .V), (27, .V), (28, .V), (28, .ge), (26, .ge), (25, .ge), (24, .ge), (24, .V), (23, .V), (23, .V), (10, .V), (19, .V), (20, .V), (11, .V), (16, .V), (17, .V), (18, .V), (18, .ge), (16, .ge), (15, .ge), (14, .ge), (14, .V), (13, .V), (13, .V)] := rfl

theorem innerUpdates_shape (op : OpType) (r : K) (l : List ℕ) (k : SynKind) : innerUpdates op r l k =
    ((((spawnEmpty op r).2.syns.map fun s => (s.pre, s.kind)).filter (fun q => q.2 = k)).map fun q => l.getD q.1 0).sum := by
  unfold innerUpdates
  rw [List.filter_map, List.map_map]
  rfl

theorem innerUpdates_neg (r : K) (m : Bool) : innerUpdates .neg r (negFires m) .V = 2 ∧ innerUpdates .neg r (negFires m) .ge = 0 ∧
    innerUpdates .neg r (negFires m) .gf = 0 ∧ innerUpdates .neg r (negFires m) .gate = 0 := by
  cases m <;> exact ⟨rfl, rfl, rfl, rfl⟩

theorem innerUpdates_mul (r : K) (m₁ m₂ : Bool) : innerUpdates .mul r (smulnFires m₁ m₂) .V = 48 ∧ innerUpdates .mul r (smulnFires m₁ m₂) .ge = 9 ∧
    innerUpdates .mul r (smulnFires m₁ m₂) .gf = 3 ∧ innerUpdates .mul r (smulnFires m₁ m₂) .gate = 4 := by
  simp only [innerUpdates_shape, mul_shape]
  cases m₁ <;> cases m₂ <;> exact ⟨rfl, rfl, rfl, rfl⟩

theorem innerUpdates_add (r : K) (A B m₁ m₂ : Bool) (hAB : B = true → A = true) :
    innerUpdates .add r (addFires A B m₁ m₂) .V = 76 + 2 * (bif A && !B then 1 else 0) ∧ innerUpdates .add r (addFires A B m₁ m₂) .ge = 16 ∧
    innerUpdates .add r (addFires A B m₁ m₂) .gf = 0 ∧ innerUpdates .add r (addFires A B m₁ m₂) .gate = 0 := by
  simp only [innerUpdates_shape, add_shape]
  cases A <;> cases B
  · cases m₁ <;> cases m₂ <;> exact ⟨rfl, rfl, rfl, rfl⟩
  · simp at hAB
  · cases m₁ <;> cases m₂ <;> exact ⟨rfl, rfl, rfl, rfl⟩
  · cases m₁ <;> cases m₂ <;> exact ⟨rfl, rfl, rfl, rfl⟩

/-- What C88 says of a program: it compiles and loads, and in every simulation that is long enough the counters `processed_syn_per_type` for
`ge`, `gf` and `gate` are those that the energy estimation has announced, while for `V` it has announced too little: it leaves out two updates per
operand of an operation (the wires between the modules), six per multiplication, and two for each of some `z` of the additions.
`nodes` enumerates the operations of the program. -/
def Spec.UpdatesAgainstTable (H : EventHeap K) (ord : ℕ → List ℕ → List ℕ) (h : SHeap K) (limit root : ℕ) (r dt : K) : Prop :=
  ∃ plan w net st0, ∃ nodes : List ℕ, ∃ announced : SynCounts, compileComputation h limit root r World.empty = .ok (plan, w) ∧
    initWithPlan H defaultEncoder w (fun n => NState.fresh (w.par n)) plan = .ok (net, st0) ∧
    w.energyCounts plan.net = .ok announced ∧ nodes.Nodup ∧ (∀ v, v ∈ nodes ↔ Spec.Reach h root v) ∧
    ∃ z T0, z ≤ nodes.countP (fun v => h.op v = .add) ∧ ∀ T, T0 ≤ T → ∃ st, st0.simulate H ord net dt T = .ok st ∧ st.queue = [] ∧
      st.cnt .ge = announced.ge ∧ st.cnt .gf = announced.gf ∧ st.cnt .gate = announced.gm ∧
      st.cnt .V = announced.V + 2 * (nodes.map fun v => (h.prev v).length).sum + 6 * nodes.countP (fun v => h.op v = .mul) + 2 * z

/-- What an operation adds to the counters, its operand wires left out; `z`: the extra pair of an addition. -/
def opUpdates (op : OpType) (z : ℕ) : SynKind → ℕ
  | .V => match op with | .neg => 2 | .add => 76 + 2 * z | .mul => 48 | _ => 0
  | .ge => match op with | .add => 16 | .mul => 9 | _ => 0
  | .gf => match op with | .mul => 3 | _ => 0
  | .gate => match op with | .mul => 4 | _ => 0
  | .other _ => 0

theorem OpFires.updates {op : OpType} {l : List ℕ} (h : OpFires op l) (r : K) :
    ∃ z, z ≤ (if op = .add then 1 else 0) ∧ ∀ k, k.Known → innerUpdates op r l k = opUpdates op z k := by
  cases op with
  | load => exact ⟨0, Nat.zero_le _, by rintro k (rfl | rfl | rfl | rfl) <;> rfl⟩
  | neg =>
    obtain ⟨m, rfl⟩ := h
    obtain ⟨a, b, c, d⟩ := innerUpdates_neg r m
    refine ⟨0, Nat.zero_le _, ?_⟩
    rintro k (rfl | rfl | rfl | rfl)
    exacts [a, b, c, d]
  | add =>
    obtain ⟨A, B, m₁, m₂, hAB, rfl⟩ := h
    obtain ⟨a, b, c, d⟩ := innerUpdates_add r A B m₁ m₂ hAB
    refine ⟨bif A && !B then 1 else 0, by cases A <;> cases B <;> simp, ?_⟩
    rintro k (rfl | rfl | rfl | rfl)
    exacts [a, b, c, d]
  | mul =>
    obtain ⟨m₁, m₂, rfl⟩ := h
    obtain ⟨a, b, c, d⟩ := innerUpdates_mul r m₁ m₂
    refine ⟨0, Nat.zero_le _, ?_⟩
    rintro k (rfl | rfl | rfl | rfl)
    exacts [a, b, c, d]
  | _ => exact h.elim

theorem sum_updates (h : SHeap K) (l : List ℕ) (hg : ∀ v ∈ l, Compilable (h.op v)) (z : ℕ → ℕ) (hz : ∀ v ∈ l, z v ≤ if h.op v = .add then 1 else 0) :
    (l.map z).sum ≤ l.countP (fun v => h.op v = .add) ∧
    (l.map fun v => opUpdates (h.op v) (z v) .V).sum = 2 * l.countP (fun v => h.op v = .neg) + 42 * l.countP (fun v => h.op v = .mul) +
      76 * l.countP (fun v => h.op v = .add) + 6 * l.countP (fun v => h.op v = .mul) + 2 * (l.map z).sum ∧
    (l.map fun v => opUpdates (h.op v) (z v) .ge).sum = 9 * l.countP (fun v => h.op v = .mul) + 16 * l.countP (fun v => h.op v = .add) ∧
    (l.map fun v => opUpdates (h.op v) (z v) .gf).sum = 3 * l.countP (fun v => h.op v = .mul) ∧
    (l.map fun v => opUpdates (h.op v) (z v) .gate).sum = 4 * l.countP (fun v => h.op v = .mul) := by
  induction l with
  | nil => simp
  | cons v l ih =>
    obtain ⟨i1, i2, i3, i4, i5⟩ := ih (fun u hu => hg u (by simp [hu])) (fun u hu => hz u (by simp [hu]))
    simp only [List.map_cons, List.sum_cons, List.countP_cons]
    rw [i2, i3, i4, i5]
    have := hz v (by simp)
    rcases hg v (by simp) with e | e | e | e <;> rw [e] at this ⊢ <;> simp [opUpdates] at this ⊢ <;> omega


set_option maxHeartbeats 1000000 in
/-- **C88.** The published synaptic update counts against the simulator's counters, for every program within its budget that does not multiply by
a loaded zero, and for every simulation that is long enough: exact for `ge`, `gf` and `gate`, too low for `V`. -/
theorem C88_energy_table (H : EventHeap K) {ord : ℕ → List ℕ → List ℕ} (hord : SetOrder ord) {h : SHeap K} (ho : OperandsOlder h)
    (ha : AritiesOK h) {limit root : ℕ} (hroot : root < h.length) (hl : h.length ≤ limit) {r : K} (hr : 0 < r) (hr' : r ≤ 100) {dt : K}
    (hdt : 0 < dt) (hdt' : dt < 1 / 50) {x ε D : K} (hB : Budget h r dt root x ε D)
    (hz : ∀ v, Spec.Reach h root v → h.op v = .mul → ∀ u ∈ h.prev v, ¬ ZeroSource h u) :
    UpdatesAgainstTable H ord h limit root r dt := by
  have hle : ∀ v, Spec.Reach h root v → h.op v = .load → |h.data v| ≤ r := fun v hv hlo => by
    obtain ⟨_, _, _, hb⟩ := hB.reach hv
    exact hb.loaded hlo
  obtain ⟨plan, w', hc⟩ := (C57_succeeds_iff ho ha hroot hl r .empty).mpr ⟨hr', hr.ne', fun v hv => by
    obtain ⟨_, _, _, hb⟩ := hB.reach hv
    exact hb.compilable, fun v hv hlo => (div_le_one hr).mpr ((le_abs_self _).trans (hle v hv hlo))⟩
  obtain ⟨-, ns, -, hns, -, -, ⟨l, el, hpar⟩, hown⟩ := compiled_net ho hroot hl .empty hc
  obtain ⟨L, ns', F, hns', hload, -⟩ := C58_load ho hroot hl hr .empty hc H defaultEncoder (fun n => NState.fresh (w'.par n))
  obtain rfl : ns = ns' := Except.ok.inj (hns.symm.trans hns')
  have hg : ∀ v ∈ L.nodes, GoodNode h v := fun v hv => (compile_ok_cond ho hroot hl .empty hc).2.2.1 v ((F.nodes v).mp hv)
  have hpar' : ∀ o ∈ w'.neus, o.par = ⟨10, 100, 20, 0⟩ := by
    intro o ho'; rw [el] at ho'
    exact hpar o (by simpa [World.empty] using ho')
  obtain ⟨hwf, hp⟩ := compiled_wf F hg hpar' hown hns
  have hrest : Resting (w'.net ns) (fun n => NState.fresh (w'.par n)) := by
    intro n hn
    have := hp n hn
    simp only [World.net, this, NState.fresh]
    norm_num
  have hrun := dense_isRun (w'.net ns) dt (loadSpikes defaultEncoder h r L) (fun n => NState.fresh (w'.par n))
  have mem : ∀ v ∈ L.nodes, ∀ k < (spawnEmpty (h.op v) r).2.neus.length, L.off v + k ∈ ns := fun v hv k hk =>
    (faithful_mem F hns _).mpr ⟨v, hv, (F.copy v hv _).mpr ⟨k, hk, rfl⟩⟩
  have hstd : ∀ v ∈ L.nodes, ∀ k < (spawnEmpty (h.op v) r).2.neus.length,
      IsStd (w'.net ns) (fun n => NState.fresh (w'.par n)) (L.off v + k) := by
    intro v hv k hk
    have := hp _ (mem v hv k hk)
    refine ⟨mem v hv k hk, this, ?_⟩
    simp only [this, NState.fresh]
  have C : CRun h root r dt w' plan L ns _ _ _ := ⟨F, hg, hrun, hstd⟩
  have hload' := hload (fun v hv hlo => (abs_le.mp (hle v hv hlo)).1)
  -- the announced counts
  obtain ⟨nodes, -, hn1, hn2, -, he⟩ := C62_compiled ho hroot hl .empty hc
  have hperm : nodes.Perm L.nodes := (List.perm_ext_iff_of_nodup hn1 F.nodup).mpr fun v => by rw [hn2, F.nodes]
  simp only [hperm.countP_eq] at he
  -- how the modules fire
  have hbud : ∀ v ∈ L.nodes, ∃ x ε D, Budget h r dt v x ε D := fun v hv => hB.reach ((F.nodes v).mp hv)
  have hfires : ∀ v ∈ L.nodes, BlockFires (denseF (w'.net ns) dt (loadSpikes defaultEncoder h r L) fun n => NState.fresh (w'.par n)) (L.off v)
      (spawnEmpty (h.op v) r).2.neus.length (OpFires (h.op v)) := by
    intro v hv
    obtain ⟨_, _, _, hb⟩ := hbud v hv
    exact C.fires hr hdt hdt' hb hv (hz v ((F.nodes v).mp hv))
  have hem : ∀ v, ∃ l : List ℕ, v ∈ L.nodes → OpFires (h.op v) l ∧ ∃ N0, ∀ N ≥ N0, ∀ k < (spawnEmpty (h.op v) r).2.neus.length,
      (emitted dt (denseF (w'.net ns) dt (loadSpikes defaultEncoder h r L) fun n => NState.fresh (w'.par n)) N (L.off v + k)).length = l.getD k 0 := by
    intro v
    by_cases hv : v ∈ L.nodes
    · obtain ⟨l, -, h2, h3⟩ := (hfires v hv).emitted (fun x => (hrun.start x).2) dt
      exact ⟨l, fun _ => ⟨h2, h3⟩⟩
    · exact ⟨[], fun h => absurd h hv⟩
  choose l hl1 using hem
  have hzs : ∀ v, ∃ z, v ∈ L.nodes → z ≤ (if h.op v = .add then 1 else 0) ∧ ∀ k, k.Known → innerUpdates (h.op v) r (l v) k = opUpdates (h.op v) z k := by
    intro v
    by_cases hv : v ∈ L.nodes
    · obtain ⟨z, hz⟩ := (hl1 v hv).1.updates r
      exact ⟨z, fun _ => hz⟩
    · exact ⟨0, fun h => absurd h hv⟩
  choose z hz1 using hzs
  obtain ⟨N1, hN1⟩ := uniform_steps L.nodes fun v hv => (hl1 v hv).2
  obtain ⟨N2, hN2⟩ := queue_settles hrun (fun n hn => by
    obtain ⟨v, hv, hi⟩ := (faithful_mem F hns n).mp hn
    obtain ⟨k, hk, rfl⟩ := (F.copy v hv n).mp hi
    obtain ⟨_, -, -, hf⟩ := hfires v hv
    exact ⟨_, hf k hk⟩)
  have hnode : ∀ v, ∃ D, v ∈ L.nodes → ∀ T, D ≤ T → (injTimes (loadSpikes defaultEncoder h r L) (L.out v).plus).length +
      (emitted dt (denseF (w'.net ns) dt (loadSpikes defaultEncoder h r L) fun n => NState.fresh (w'.par n)) (numSteps T dt) (L.out v).plus).length +
      ((injTimes (loadSpikes defaultEncoder h r L) (L.out v).minus).length +
      (emitted dt (denseF (w'.net ns) dt (loadSpikes defaultEncoder h r L) fun n => NState.fresh (w'.par n)) (numSteps T dt) (L.out v).minus).length) = 2 := by
    intro v
    by_cases hv : v ∈ L.nodes
    · obtain ⟨_, _, D, hb⟩ := hbud v hv
      obtain ⟨neg, -, -, s, t, -, hT⟩ := C.node hr hdt hdt' hb hv
      refine ⟨D, fun _ T hDT => ?_⟩
      obtain ⟨h1, h2⟩ := hT T hDT
      rw [← List.length_append, ← List.length_append, h1, h2]
      cases neg <;> rfl
    · exact ⟨0, fun h => absurd h hv⟩
  choose Dv hDv using hnode
  obtain ⟨hsum1, hsV, hsge, hsgf, hsgate⟩ := sum_updates h L.nodes (fun v hv => (hg v hv).1) z (fun v hv => (hz1 v hv).1)
  have hTD : ∃ Dm, ∀ v ∈ L.nodes, Dv v ≤ Dm := by
    generalize L.nodes = nodes'
    induction nodes' with
    | nil => exact ⟨0, by simp⟩
    | cons v l ih =>
      obtain ⟨Dm, h⟩ := ih
      refine ⟨max (Dv v) Dm, fun u hu => ?_⟩
      rcases List.mem_cons.mp hu with rfl | hu
      · exact le_max_left _ _
      · exact (h u hu).trans (le_max_right _ _)
  obtain ⟨Dm, hDm⟩ := hTD
  refine ⟨plan, w', _, _, L.nodes, _, hc, hload', he, F.nodup, F.nodes, (L.nodes.map z).sum, max (((max N1 N2 : ℕ) : K) * dt) Dm, hsum1, fun T hT => ?_⟩
  obtain ⟨st, h1, out⟩ := simulate_outcome H hord hwf hdt hrest hrun T
  have hNT : max N1 N2 ≤ numSteps T dt := le_numSteps hdt ((le_max_left _ _).trans hT)
  have hDT : Dm ≤ T := (le_max_right _ _).trans hT
  have hall := hN2 (numSteps T dt) (by omega)
  have hq : st.queue = [] := by
    have : (tagged (w'.net ns) dt (loadSpikes defaultEncoder h r L) (denseF (w'.net ns) dt (loadSpikes defaultEncoder h r L) fun n => NState.fresh (w'.par n))
        (numSteps T dt)).filter (fun x => decide (numSteps T dt < x.1)) = [] := by
      rw [List.filter_eq_nil_iff]
      intro x hx
      simpa using hall x hx
    have hp := out.queue
    rw [this] at hp
    exact hp.eq_nil
  have hcnt : ∀ k : SynKind, k.Known → st.cnt k = (L.nodes.map fun v => opUpdates (h.op v) (z v) k).sum +
      if k = .V then 2 * (L.nodes.map fun v => (h.prev v).length).sum else 0 := by
    intro k hk
    have hfilt : (tagged (w'.net ns) dt (loadSpikes defaultEncoder h r L) (denseF (w'.net ns) dt (loadSpikes defaultEncoder h r L) fun n => NState.fresh (w'.par n))
        (numSteps T dt)).filter (fun x => decide (x.1 ≤ numSteps T dt)) = _ := List.filter_eq_self.mpr fun x hx => by simpa using hall x hx
    rw [out.cnt, hfilt, ← List.countP_eq_length_filter, count_tagged hrun]
    obtain ⟨inner, e, -, hpi⟩ := F.synapses
    have e' : (w'.net ns).syns = inner ++ operandWires h L := by
      show w'.syns.reverse = _; rw [e]; rfl
    rw [e', List.filter_append, List.map_append, List.sum_append]
    congr 1
    · rw [((hpi.filter _).map _).sum_eq, List.filter_flatMap, List.map_flatMap, sum_flat]
      congr 1
      refine List.map_congr_left fun v hv => ?_
      rw [← (hz1 v hv).2 k hk]
      unfold innerUpdates
      rw [List.filter_map, List.map_map]
      congr 1
      refine List.map_congr_left fun s hs => ?_
      have hs' : s ∈ (spawnEmpty (h.op v) r).2.syns := (List.mem_filter.mp hs).1
      have hpre := ((spawnFacts r (hg v hv).1).ok.syn_bd s hs').1
      have hop : h.op v ≠ .load := by
        intro hop; rw [hop] at hs'; cases hs'
      show (injTimes _ (L.off v + s.pre)).length + (emitted dt _ _ (L.off v + s.pre)).length = _
      rw [C.noinj hv hop hpre, hN1 (numSteps T dt) (by omega) v hv s.pre hpre]
      simp
    · unfold operandWires
      rw [List.filter_flatMap, List.map_flatMap, sum_flat]
      have hw : ∀ v ∈ L.nodes, ((((h.prev v).zipIdx.flatMap fun x => wire (K := K) (L.out x.1) (L.inp v x.2)).filter (fun s => decide (s.kind = k))).map fun s =>
          (injTimes (loadSpikes defaultEncoder h r L) s.pre).length + (emitted dt (denseF (w'.net ns) dt (loadSpikes defaultEncoder h r L)
            fun n => NState.fresh (w'.par n)) (numSteps T dt) s.pre).length).sum = if k = .V then 2 * (h.prev v).length else 0 := by
        intro v hv
        rw [List.filter_flatMap, List.map_flatMap, sum_flat]
        have hx : ∀ x ∈ (h.prev v).zipIdx, (((wire (K := K) (L.out x.1) (L.inp v x.2)).filter (fun s => decide (s.kind = k))).map fun s =>
          (injTimes (loadSpikes defaultEncoder h r L) s.pre).length + (emitted dt (denseF (w'.net ns) dt (loadSpikes defaultEncoder h r L)
            fun n => NState.fresh (w'.par n)) (numSteps T dt) s.pre).length).sum = if k = .V then 2 else 0 := by
          intro x hx
          have hu : x.1 ∈ L.nodes := (F.nodes _).mpr (((F.nodes _).mp hv).tail (List.fst_mem_of_mem_zipIdx hx))
          by_cases hkV : k = .V
          · subst hkV
            simpa [wire] using hDv x.1 hu T ((hDm x.1 hu).trans hDT)
          · simp [wire, hkV, Ne.symm hkV]
        rw [List.map_congr_left hx]
        by_cases hkV : k = .V <;> simp [hkV, mul_comm]
      rw [List.map_congr_left hw]
      by_cases hkV : k = .V
      · simp only [hkV, if_true]
        rw [List.sum_map_mul_left]
      · simp [hkV]
  refine ⟨st, h1, hq, ?_, ?_, ?_, ?_⟩
  · rw [hcnt .ge (by simp [SynKind.Known]), hsge]; rfl
  · rw [hcnt .gf (by simp [SynKind.Known]), hsgf]; rfl
  · rw [hcnt .gate (by simp [SynKind.Known]), hsgate]; rfl
  · rw [hcnt .V (by simp [SynKind.Known]), hsV, if_pos rfl]; dsimp only; omega

/-- `(2 + 3) * 4`: announced are 118 updates of `V`, the simulator processes 132 or 134. -/
example (H : EventHeap ℚ) {ord : ℕ → List ℕ → List ℕ} (hord : SetOrder ord) : UpdatesAgainstTable H ord (exSum ℚ) 1000 4 100 (1 / 1000) :=
  C88_energy_table H hord exSum_ok.1 exSum_ok.2 (limit := 1000) (by simp [exSum]) (by simp [exSum]) (by norm_num) (by norm_num)
    (by norm_num) (by norm_num) exSum_budget (by
      intro v _ hop u hu hz
      have : v = 4 := by
        by_contra hv
        rcases (by omega : v = 0 ∨ v = 1 ∨ v = 2 ∨ v = 3 ∨ 5 ≤ v) with rfl | rfl | rfl | rfl | h5 <;> simp [SHeap.op, exSum] at hop
        rw [List.getElem?_eq_none (by simpa using h5)] at hop
        simp at hop
      subst this
      have : u = 3 ∨ u = 2 := by simpa [SHeap.prev, exSum] using hu
      rcases this with rfl | rfl <;> cases hz with
      | load hop' _ hx => simp [SHeap.op, SHeap.data, exSum] at hop' hx
      | neg hop' => simp [SHeap.op, exSum] at hop')

/-- A concrete case of C88_counters_from_log: a spike at time 0 through the example network; its `V` synapse has been used once. -/
example : ∃ st, ((Sim.init exNet exS0).injectAll (sortedHeap _) exNet [(0, 0)]).simulate (sortedHeap _) (fun _ l => l) exNet (1 / 2) 10 = .ok st ∧
    st.queue = [] ∧ st.cnt .V = ((exNet.syns.filter (fun s => s.kind = .V)).map fun s => ((st.spikeLog s.pre).getD []).length).sum := by
  obtain ⟨st, h, o⟩ := simulate_outcome (sortedHeap _) id_setOrder exNet_wf (by norm_num : (0 : ℚ) < 1 / 2) exNet_rest (dense_isRun exNet (1 / 2) [(0, 0)] exS0) 10
  have hq : st.queue = [] := by
    have hn : numSteps (10 : ℚ) (1 / 2) = 20 := by decide +kernel
    have := o.queue
    rw [hn, show ((tagged exNet (1 / 2) [(0, 0)] (denseF exNet (1 / 2) [(0, 0)] exS0) 20).filter (fun x => decide (20 < x.1))).map (·.2) = [] by decide +kernel] at this
    exact this.eq_nil
  exact ⟨st, h, hq, C88_counters_from_log (sortedHeap _) id_setOrder exNet_wf (by norm_num) _ exNet_rest 10 h hq .V⟩

end Axon
