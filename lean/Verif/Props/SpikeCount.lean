import Verif.Props.EndToEnd
import Verif.Props.Report

/-! # C71: the published spike counts -/
set_option linter.unusedSectionVars false
namespace Axon
open Spec
variable {K : Type*} [Field K] [LinearOrder K] [IsStrictOrderedRing K] [FloorRing K]

/-- The spikes of the neurons of an operation (those injected are not counted here). -/
def firesFor : OpType → ℕ
  | .load => 0
  | .neg => 4
  | .add => 58
  | .mul => 29
  | _ => 0

theorem CRun.fires {h : SHeap K} {root : ℕ} {r dt : K} {w' : World K} {plan : Plan K} {L : Layout} {ns : List ℕ} {s0 : ℕ → NState K}
    {S : ℕ → ℕ → NState K} {F : ℕ → ℕ → Bool} (C : CRun h root r dt w' plan L ns s0 S F) (hr : 0 < r) (hdt : 0 < dt) (hdt' : dt < 1 / 50) {v : ℕ}
    {x ε D : K} (hB : Budget h r dt v x ε D) (hv : v ∈ L.nodes) (hz : h.op v = .mul → ∀ u ∈ h.prev v, ¬ ZeroSource h u) :
    BlockFires F (L.off v) (spawnEmpty (h.op v) r).2.neus.length (OpFires (h.op v)) := by
  have hop' : ∀ {v u : ℕ}, v ∈ L.nodes → u ∈ h.prev v → u ∈ L.nodes := fun hv hu =>
    (C.faith.nodes _).mpr (((C.faith.nodes _).mp hv).tail hu)
  cases hB with
  | load hop _ hx hε hD => rw [hop]; exact (C.load_full hr hdt (by linarith) hv hop hx hε hD).2
  | neg hop hp hu hD => rw [hop]; exact (C.neg_full hdt hv hop hp (C.node hr hdt hdt' hu (hop' hv (by rw [hp]; simp))) hD).2
  | add hop hp b₁ b₂ hε₁ hε₂ hpos hneg hzero hε hD₁ hD₂ =>
    rw [hop, (add_block r).2.1]
    exact (C.add_full hr hdt hdt' hv hop hp (C.node hr hdt hdt' b₁ (hop' hv (by rw [hp]; simp))) (C.node hr hdt hdt' b₂ (hop' hv (by rw [hp]; simp)))
      hε₁ hε₂ hpos hneg hzero hε hD₁ hD₂).2
  | mul hop hp b₁ b₂ hx₁ hx₁' hx₂ hx₂' hxx hdecay hsmall hamp hε hD₁ hD₂ =>
    rw [hop, (mul_block r).2.1]
    exact (C.mul_full hr hdt (by linarith) hv hop hp (C.node hr hdt hdt' b₁ (hop' hv (by rw [hp]; simp)))
      (C.node hr hdt hdt' b₂ (hop' hv (by rw [hp]; simp))) hx₁ hx₁' hx₂ hx₂' hxx hdecay hsmall hamp hε hD₁ hD₂).2
  | mulZero hop hp b₁ b₂ hzs =>
    rcases hzs with hzs | hzs
    · exact (hz hop _ (by rw [hp]; simp) hzs).elim
    · exact (hz hop _ (by rw [hp]; simp) hzs).elim

/-- From some step on the log has all spikes of a neuron. -/
theorem Fires.emitted {F : ℕ → ℕ → Bool} {x n : ℕ} (h : Fires F x n) (h0 : F 0 x = false) (dt : K) :
    ∃ N0, ∀ N ≥ N0, (emitted dt F N x).length = n := by
  obtain ⟨l, hl, hnd, rfl⟩ := h
  refine ⟨l.sum, fun N hN => ?_⟩
  unfold Spec.emitted
  rw [List.length_map]
  refine List.Perm.length_eq ((List.perm_ext_iff_of_nodup (List.Nodup.filter _ List.nodup_range') hnd).mpr fun i => ?_)
  rw [List.mem_filter, List.mem_range'_1, hl i]
  constructor
  · exact fun h => h.2
  · intro hi
    have h1 : i ≤ l.sum := List.single_le_sum (by simp) i hi
    have h2 : i ≠ 0 := by
      rintro rfl
      have := (hl 0).mpr hi
      rw [h0] at this; cases this
    exact ⟨by omega, hi⟩

/-- A block of neurons: from some step on the log has all its spikes. -/
theorem BlockFires.emitted {F : ℕ → ℕ → Bool} {a n : ℕ} {P : List ℕ → Prop} (h : BlockFires F a n P) (h0 : ∀ x, F 0 x = false) (dt : K) :
    ∃ l : List ℕ, l.length = n ∧ P l ∧ ∃ N0, ∀ N ≥ N0, ∀ k < n, (emitted dt F N (a + k)).length = l.getD k 0 := by
  obtain ⟨l, hl, hP, hf⟩ := h
  have : ∀ m ≤ n, ∃ N0, ∀ N ≥ N0, ∀ k < m, (Spec.emitted dt F N (a + k)).length = l.getD k 0 := by
    intro m
    induction m with
    | zero => intro _; exact ⟨0, fun _ _ k hk => by omega⟩
    | succ m ih =>
      intro hm
      obtain ⟨N1, h1⟩ := ih (by omega)
      obtain ⟨N2, h2⟩ := (hf m (by omega)).emitted (h0 _) dt
      refine ⟨max N1 N2, fun N hN k hk => ?_⟩
      rcases Nat.lt_succ_iff_lt_or_eq.mp hk with hk | rfl
      · exact h1 N (by omega) k hk
      · exact h2 N (by omega)
  exact ⟨l, hl, hP, this n le_rfl⟩

/-- The total of a block. -/
theorem BlockFires.total {F : ℕ → ℕ → Bool} {a n : ℕ} {op : OpType} (h : BlockFires F a n (OpFires op)) (h0 : ∀ x, F 0 x = false) (dt : K) :
    ∃ N0, ∀ N ≥ N0, ((List.range n).map fun k => (Spec.emitted dt F N (a + k)).length).sum = firesFor op := by
  obtain ⟨l, hl, hP, N0, h⟩ := h.emitted h0 dt
  refine ⟨N0, fun N hN => ?_⟩
  have hs : l.sum = firesFor op := by
    cases op with
    | load => rw [show l = [0, 0] from hP]; rfl
    | neg => obtain ⟨m, rfl⟩ := hP; cases m <;> rfl
    | add => obtain ⟨A, B, m₁, m₂, hAB, rfl⟩ := hP; cases A <;> cases B <;> cases m₁ <;> cases m₂ <;> first | rfl | simp at hAB
    | mul => obtain ⟨m₁, m₂, rfl⟩ := hP; cases m₁ <;> cases m₂ <;> rfl
    | _ => exact hP.elim
  rw [← hs]
  have e : l = (List.range n).map fun k => l.getD k 0 := by
    apply List.ext_getElem
    · simp [hl]
    · intro i h1 h2; simp [h1]
  conv_rhs => rw [e]
  congr 1
  refine List.map_congr_left fun k hk => h N hN k (List.mem_range.mp hk)

/-- The published counts, from the operations. -/
theorem table_firesFor {op : OpType} (hop : Compilable op) : tableSpikes (kindFor op) = (if op = .load then 2 else 0) + firesFor op := by
  rcases hop with e | e | e | e <;> rw [e] <;> rfl

theorem sum_cost (h : SHeap K) (l : List ℕ) (hg : ∀ v ∈ l, Compilable (h.op v)) :
    (l.map fun v => tableSpikes (kindFor (h.op v))).sum = 2 * l.countP (fun v => h.op v = .load) + 4 * l.countP (fun v => h.op v = .neg) +
      29 * l.countP (fun v => h.op v = .mul) + 58 * l.countP (fun v => h.op v = .add) := by
  induction l with
  | nil => simp
  | cons v l ih =>
    simp only [List.map_cons, List.sum_cons, List.countP_cons]
    rw [ih fun u hu => hg u (by simp [hu])]
    rcases hg v (by simp) with e | e | e | e <;> rw [e] <;> simp [kindFor, tableSpikes] <;> omega

/-- The spikes the log has of the neurons listed in `ns`. -/
def Spec.loggedSpikes (log : ℕ → Option (List K)) (ns : List ℕ) : ℕ := (ns.map fun n => ((log n).getD []).length).sum

theorem nodup_flat {α : Type*} {l : List α} (hl : l.Nodup) {f : α → List ℕ} (h1 : ∀ v ∈ l, (f v).Nodup)
    (h2 : ∀ u ∈ l, ∀ v ∈ l, ∀ n, n ∈ f u → n ∈ f v → u = v) : (l.flatMap f).Nodup := by
  induction l with
  | nil => simp
  | cons v l ih =>
    rw [List.flatMap_cons, List.nodup_append]
    rw [List.nodup_cons] at hl
    refine ⟨h1 v (by simp), ih hl.2 (fun u hu => h1 u (by simp [hu])) (fun u hu w hw => h2 u (by simp [hu]) w (by simp [hw])), ?_⟩
    rintro a ha b hb rfl
    obtain ⟨u, hu, hb⟩ := List.mem_flatMap.mp hb
    have := h2 v (by simp) u (by simp [hu]) a ha hb
    subst this
    exact hl.1 hu

theorem sum_flat {α : Type*} (l : List α) (f : α → List ℕ) : (l.flatMap f).sum = (l.map fun v => (f v).sum).sum := by
  induction l with
  | nil => rfl
  | cons v l ih => rw [List.flatMap_cons, List.sum_append, ih]; rfl

theorem uniform_steps {α : Type*} (l : List α) {P : α → ℕ → Prop} (h : ∀ v ∈ l, ∃ N0, ∀ N ≥ N0, P v N) : ∃ N0, ∀ N ≥ N0, ∀ v ∈ l, P v N := by
  induction l with
  | nil => exact ⟨0, by simp⟩
  | cons v l ih =>
    obtain ⟨N1, h1⟩ := h v (by simp)
    obtain ⟨N2, h2⟩ := ih fun u hu => h u (by simp [hu])
    refine ⟨max N1 N2, fun N hN u hu => ?_⟩
    rcases List.mem_cons.mp hu with rfl | hu
    · exact h1 N (by omega)
    · exact h2 N (by omega) u hu

/-- What C71 says of a program: it compiles and loads, the spike estimation names every module once, and in every simulation that is long enough
`count_spikes` returns the announced total (`keys` enumerates the dictionary of the log), and each module has as many spikes in the log as announced
for it (`ns` enumerates the module's neurons, those of its submodules included). -/
def Spec.SpikesAsAnnounced (H : EventHeap K) (ord : ℕ → List ℕ → List ℕ) (h : SHeap K) (limit root : ℕ) (r dt : K) : Prop :=
  ∃ plan w net st0 lines total, compileComputation h limit root r World.empty = .ok (plan, w) ∧
    initWithPlan H defaultEncoder w (fun n => NState.fresh (w.par n)) plan = .ok (net, st0) ∧
    w.spikeEstimation plan.net = .ok (false, lines, total) ∧ lines.map (·.1) = w.subnetworks plan.net ∧
    ∃ T0, ∀ T, T0 ≤ T → ∃ st, st0.simulate H ord net dt T = .ok st ∧
      (∀ keys : List ℕ, keys.Nodup → (∀ n, n ∈ keys ↔ (st.spikeLog n).isSome) → countSpikes st.spikeLog keys = total) ∧
      ∀ m c, (m, c) ∈ lines → ∀ ns : List ℕ, ns.Nodup → (∀ n, n ∈ ns ↔ Inside w m n) → loggedSpikes st.spikeLog ns = c

set_option maxHeartbeats 1000000 in
/-- **C71.** The published spike counts are exact: for every program within its budget that does not multiply by a loaded zero, and for
every simulation that is long enough, the simulator counts as many spikes as `report_spike_estimation_for_net` has announced,
in total and for each module. -/
theorem C71_spike_estimation_exact (H : EventHeap K) {ord : ℕ → List ℕ → List ℕ} (hord : SetOrder ord) {h : SHeap K} (ho : OperandsOlder h)
    (ha : AritiesOK h) {limit root : ℕ} (hroot : root < h.length) (hl : h.length ≤ limit) {r : K} (hr : 0 < r) (hr' : r ≤ 100) {dt : K}
    (hdt : 0 < dt) (hdt' : dt < 1 / 50) {x ε D : K} (hB : Budget h r dt root x ε D)
    (hz : ∀ v, Spec.Reach h root v → h.op v = .mul → ∀ u ∈ h.prev v, ¬ ZeroSource h u) :
    SpikesAsAnnounced H ord h limit root r dt := by
  have hle : ∀ v, Spec.Reach h root v → h.op v = .load → |h.data v| ≤ r := fun v hv hlo => by
    obtain ⟨_, _, _, hb⟩ := hB.reach hv
    exact hb.loaded hlo
  obtain ⟨plan, w', hc⟩ := (C57_succeeds_iff ho ha hroot hl r .empty).mpr ⟨hr', hr.ne', fun v hv => by
    obtain ⟨_, _, _, hb⟩ := hB.reach hv
    exact hb.compilable, fun v hv hlo => (div_le_one hr).mpr ((le_abs_self _).trans (hle v hv hlo))⟩
  obtain ⟨-, ns, -, hns, -, -, ⟨l, el, hpar⟩, hown⟩ := compiled_net ho hroot hl .empty hc
  obtain ⟨L, ns', F, hns', hload, -⟩ := C58_load ho hroot hl hr .empty hc H defaultEncoder (fun n => NState.fresh (w'.par n))
  obtain rfl : ns = ns' := Except.ok.inj (hns.symm.trans hns')
  have hg : ∀ v ∈ L.nodes, GoodNode h v := fun v hv => (compile_ok_cond ho hroot hl .empty hc).2.2.1 v ((F.nodes v).mp hv)
  have hpar' : ∀ o ∈ w'.neus, o.par = ⟨10, 100, 20, 0⟩ := by
    intro o ho'; rw [el] at ho'
    exact hpar o (by simpa [World.empty] using ho')
  obtain ⟨hwf, hp⟩ := compiled_wf F hg hpar' hown hns
  have hrest : Resting (w'.net ns) (fun n => NState.fresh (w'.par n)) := by
    intro n hn
    have := hp n hn
    simp only [World.net, this, NState.fresh]
    norm_num
  have hrun := dense_isRun (w'.net ns) dt (loadSpikes defaultEncoder h r L) (fun n => NState.fresh (w'.par n))
  have mem : ∀ v ∈ L.nodes, ∀ k < (spawnEmpty (h.op v) r).2.neus.length, L.off v + k ∈ ns := fun v hv k hk =>
    (faithful_mem F hns _).mpr ⟨v, hv, (F.copy v hv _).mpr ⟨k, hk, rfl⟩⟩
  have hstd : ∀ v ∈ L.nodes, ∀ k < (spawnEmpty (h.op v) r).2.neus.length,
      IsStd (w'.net ns) (fun n => NState.fresh (w'.par n)) (L.off v + k) := by
    intro v hv k hk
    have := hp _ (mem v hv k hk)
    refine ⟨mem v hv k hk, this, ?_⟩
    simp only [this, NState.fresh]
  have C : CRun h root r dt w' plan L ns _ _ _ := ⟨F, hg, hrun, hstd⟩
  have hload' := hload (fun v hv hlo => (abs_le.mp (hle v hv hlo)).1)
  -- the estimate
  have hkind : ∀ v ∈ L.nodes, w'.kindOf (L.place v) = kindFor (h.op v) := by
    intro v hv; unfold World.kindOf; rw [F.kind v hv]; rfl
  have hnp : ∀ s ∈ w'.subnetworks plan.net, w'.kindOf s ≠ .plain := by
    rw [F.modules]
    intro s hs
    obtain ⟨v, hv, rfl⟩ := List.mem_map.mp hs
    rw [hkind v hv]
    rcases (hg v hv).1 with e | e | e | e <;> rw [e] <;> simp [kindFor]
  obtain ⟨lines, hl1, hl2⟩ := (C62_spike_estimation w' plan.net).1 hnp
  obtain ⟨nodes, lines', hn1, hn2, he, -⟩ := C62_compiled ho hroot hl .empty hc
  have hperm : nodes.Perm L.nodes := (List.perm_ext_iff_of_nodup hn1 F.nodup).mpr fun v => by rw [hn2, F.nodes]
  rw [hl1] at he
  obtain ⟨htop, hel⟩ := Prod.mk.inj (Except.ok.inj he)
  obtain ⟨rfl, htot⟩ := Prod.mk.inj hel
  rw [htop, htot, ← sum_cost h nodes (fun v hv => (hg v (hperm.mem_iff.mp hv)).1), (hperm.map _).sum_eq] at hl1
  refine ⟨plan, w', _, _, lines, _, hc, hload', hl1, by rw [hl2, List.map_map]; exact List.map_id' _, ?_⟩
  -- the count
  have hN := uniform_steps L.nodes fun v hv => by
    obtain ⟨_, _, _, hb⟩ := hB.reach ((F.nodes v).mp hv)
    exact (C.fires hr hdt hdt' hb hv (hz v ((F.nodes v).mp hv))).total (fun x => (hrun.start x).2) dt
  obtain ⟨N0, hN0⟩ := hN
  refine ⟨(N0 : K) * dt, fun T hT => ?_⟩
  obtain ⟨st, h1, out⟩ := simulate_outcome H hord hwf hdt hrest hrun T
  refine ⟨st, h1, ?_⟩
  have hfires := hN0 (numSteps T dt) (le_numSteps hdt hT)
  have hblock : ∀ v ∈ L.nodes, loggedSpikes st.spikeLog ((List.range (spawnEmpty (h.op v) r).2.neus.length).map (L.off v + ·)) =
      tableSpikes (kindFor (h.op v)) := by
    intro v hv
    rw [table_firesFor (hg v hv).1, ← hfires v hv]
    unfold loggedSpikes
    rw [List.map_map]
    have : ((List.range (spawnEmpty (h.op v) r).2.neus.length).map fun k => (injTimes (loadSpikes defaultEncoder h r L) (L.off v + k)).length).sum =
        if h.op v = .load then 2 else 0 := by
      by_cases hop : h.op v = .load
      · rw [if_pos hop]
        have hlen : (spawnEmpty (h.op v) r).2.neus.length = 2 := by rw [hop]; rfl
        have hout : L.out v = ⟨L.off v + 0, L.off v + 1⟩ := by rw [F.outCopy v hv, hop]; rfl
        have e := fun k (hk : k < 2) => placed_inj F hg (defaultEncoder : Encoder K) hv (k := k) (by omega)
        rw [hlen]
        simp only [List.range_succ, List.range_zero, List.nil_append, List.cons_append, List.map_cons, List.map_nil, List.sum_cons, List.sum_nil]
        rw [e 0 (by omega), e 1 (by omega), hout]
        by_cases hs : 0 ≤ h.data v <;> simp [hop, hs]
      · rw [if_neg hop]
        refine List.sum_eq_zero fun c hcm => ?_
        obtain ⟨k, hk, rfl⟩ := List.mem_map.mp hcm
        rw [C.noinj hv hop (List.mem_range.mp hk)]; rfl
    rw [← this, ← List.sum_map_add]
    congr 1
    refine List.map_congr_left fun k hk => ?_
    simp only [Function.comp]
    rw [out.log_mem (mem v hv k (List.mem_range.mp hk))]
    simp
  have hinside : ∀ v ∈ L.nodes, ∀ n, n ∈ (List.range (spawnEmpty (h.op v) r).2.neus.length).map (L.off v + ·) ↔ Inside w' (L.place v) n := by
    intro v hv n
    rw [F.copy v hv, List.mem_map]
    constructor
    · rintro ⟨k, hk, rfl⟩; exact ⟨k, List.mem_range.mp hk, rfl⟩
    · rintro ⟨k, hk, rfl⟩; exact ⟨k, List.mem_range.mpr hk, rfl⟩
  have hnd : ∀ v ∈ L.nodes, ((List.range (spawnEmpty (h.op v) r).2.neus.length).map (L.off v + ·)).Nodup := fun v _ =>
    List.nodup_range.map fun a b e => by simpa using e
  constructor
  · intro keys hk1 hk2
    have hkey : keys.Perm (L.nodes.flatMap fun v => (List.range (spawnEmpty (h.op v) r).2.neus.length).map (L.off v + ·)) := by
      refine (List.perm_ext_iff_of_nodup hk1 (nodup_flat F.nodup hnd fun u hu v hv n h1 h2 => F.disjoint u hu v hv n ((hinside u hu n).mp h1)
        ((hinside v hv n).mp h2))).mpr fun n => ?_
      rw [hk2, out.log, List.mem_flatMap]
      have hin : n ∈ ns ↔ ∃ v ∈ L.nodes, n ∈ (List.range (spawnEmpty (h.op v) r).2.neus.length).map (L.off v + ·) := by
        rw [faithful_mem F hns]
        constructor
        · rintro ⟨v, hv, hi⟩; exact ⟨v, hv, (hinside v hv n).mpr hi⟩
        · rintro ⟨v, hv, hi⟩; exact ⟨v, hv, (hinside v hv n).mp hi⟩
      rw [← hin]
      have hinj : injTimes (loadSpikes defaultEncoder h r L) n ≠ [] → n ∈ ns := by
        intro hne
        obtain ⟨t, ht⟩ := List.exists_mem_of_ne_nil _ hne
        simp only [injTimes, List.mem_map, List.mem_filter, loadSpikes, List.mem_flatMap] at ht
        obtain ⟨q, ⟨⟨v, ⟨hv, -⟩, hq⟩, hqn⟩, -⟩ := ht
        obtain ⟨a, b, -⟩ := F.out v hv
        have hqn : q.1 = n := by simpa using hqn
        have : q.1 = (L.out v).plus ∨ q.1 = (L.out v).minus := by
          simp only [List.mem_cons, List.not_mem_nil, or_false] at hq
          rcases hq with rfl | rfl <;> (split_ifs <;> simp)
        rw [faithful_mem F hns]
        rcases this with e | e
        · exact ⟨v, hv, _, .refl, by rw [← hqn, e]; exact a⟩
        · exact ⟨v, hv, _, .refl, by rw [← hqn, e]; exact b⟩
      constructor
      · intro hs
        by_contra hc
        have hi : injTimes (loadSpikes defaultEncoder h r L) n = [] := by
          by_contra hi; exact hc (hinj hi)
        have hc' : n ∉ (w'.net ns).neurons := hc
        simp [hc', hi] at hs
      · intro hs
        have hs' : n ∈ (w'.net ns).neurons := hs
        simp [hs']
    unfold countSpikes
    rw [foldl_add_eq, zero_add]
    rw [(hkey.map _).sum_eq, List.map_flatMap]
    rw [sum_flat]
    congr 1
    exact List.map_congr_left fun v hv => hblock v hv
  · intro m c hmc ms hms hms'
    rw [hl2, F.modules, List.map_map] at hmc
    obtain ⟨v, hv, e⟩ := List.mem_map.mp hmc
    obtain ⟨e1, e2⟩ := Prod.mk.inj e
    subst e1
    rw [← e2, hkind v hv, ← hblock v hv]
    have : ms.Perm ((List.range (spawnEmpty (h.op v) r).2.neus.length).map (L.off v + ·)) :=
      (List.perm_ext_iff_of_nodup hms (hnd v hv)).mpr fun n => by rw [hms', hinside v hv]
    exact (this.map _).sum_eq

theorem zeroSource_data {h : SHeap ℝ} (hd : DataOK h) {v : ℕ} (hz : ZeroSource h v) : v < h.length → OperandsOlder h → h.data v = 0 := by
  induction hz with
  | load hop hp hx => exact fun _ _ => hx
  | @neg v u hop hp hu ih =>
    intro hv ho
    have hlt : u < v := ho v hv u (by rw [hp]; simp)
    have h0 := ih (by omega) ho
    have := hd v hv (by rw [hop]; simp)
    rw [hop, hp] at this
    simp only [opValue, List.map_cons, List.map_nil, h0, neg_zero] at this
    exact (Option.some.inj this).symm

/-- **C71, small time steps.** The published spike counts are exact, for all small enough time steps, for every program whose operations
are in range and that does not multiply by zero. -/
theorem C71_small_steps {h : SHeap ℝ} (ho : OperandsOlder h) (ha : AritiesOK h) (hd : DataOK h) {limit root : ℕ} (hroot : root < h.length)
    (hl : h.length ≤ limit) {r : ℝ} (hr : 0 < r) (hr' : r ≤ 100) (hR : ∀ u, Spec.Reach h root u → InRange False h r u) :
    ∃ d0 > 0, ∀ dt, 0 < dt → dt ≤ d0 → ∀ (H : EventHeap ℝ) (ord : ℕ → List ℕ → List ℕ), SetOrder ord →
      SpikesAsAnnounced H ord h limit root r dt := by
  obtain ⟨D, hD⟩ := budget_exists ho ha hd hr root hroot hR
  obtain ⟨d, hd0, hB⟩ := hD 1 one_pos
  refine ⟨min d (1 / 100), lt_min hd0 (by norm_num), fun dt h0 h1 H ord hord => ?_⟩
  refine C71_spike_estimation_exact H hord ho ha hroot hl hr hr' h0 (by linarith [h1.trans (min_le_right _ _)])
    (hB dt h0 (h1.trans (min_le_left _ _)) (fun h => h.elim)) fun v hv hop u hu hz => ?_
  have hvl : v < h.length := reach_lt ho hroot hv
  have hul : u < h.length := (ho v hvl u hu).trans hvl
  have hu0 := zeroSource_data hd hz hul ho
  have hin := hR v hv
  have har := ha v hvl
  rw [hop] at har
  match hpv : h.prev v, har with
  | [a, b], _ =>
    simp only [InRange, hop, hpv, false_and, or_false] at hin
    rw [hpv] at hu
    simp at hu
    rcases hu with rfl | rfl
    · exact hin.2.2.1 hu0
    · exact hin.2.2.2.1 hu0

/-- `(2 + 3) * 4`: 3 loads, a sum and a product, so 93 spikes. -/
example (H : EventHeap ℚ) {ord : ℕ → List ℕ → List ℕ} (hord : SetOrder ord) : SpikesAsAnnounced H ord (exSum ℚ) 1000 4 100 (1 / 1000) :=
  C71_spike_estimation_exact H hord exSum_ok.1 exSum_ok.2 (limit := 1000) (by simp [exSum]) (by simp [exSum]) (by norm_num) (by norm_num)
    (by norm_num) (by norm_num) exSum_budget (by
      intro v _ hop u hu hz
      have : v = 4 := by
        by_contra hv
        rcases (by omega : v = 0 ∨ v = 1 ∨ v = 2 ∨ v = 3 ∨ 5 ≤ v) with rfl | rfl | rfl | rfl | h5 <;> simp [SHeap.op, exSum] at hop
        rw [List.getElem?_eq_none (by simpa using h5)] at hop
        simp at hop
      subst this
      have : u = 3 ∨ u = 2 := by simpa [SHeap.prev, exSum] using hu
      rcases this with rfl | rfl <;> cases hz with
      | load hop' _ hx => simp [SHeap.op, SHeap.data, exSum] at hop' hx
      | neg hop' => simp [SHeap.op, exSum] at hop')

/-- In range, hence also for all small time steps. -/
example : ∃ d0 > 0, ∀ dt, 0 < dt → dt ≤ d0 → ∀ (H : EventHeap ℝ) (ord : ℕ → List ℕ → List ℕ), SetOrder ord →
    SpikesAsAnnounced H ord (exSum ℝ) 1000 4 100 dt := by
  obtain ⟨o1, o2⟩ := C54_graph_ok 1000 (.mul (.add (.var 0) (.var 1)) (.var 2)) (([2, 3, 4] : List ℝ).map fun x => ⟨x, [], .load⟩)
    (by simp [UsesBelow]) (loads_ok _).1 (loads_ok _).2.1 exSum_eval
  have o3 := C54_data_ok 1000 (.mul (.add (.var 0) (.var 1)) (.var 2)) (([2, 3, 4] : List ℝ).map fun x => ⟨x, [], .load⟩)
    (by simp [UsesBelow]) (loads_ok _).1 (loads_ok _).2.1 (loads_ok _).2.2 exSum_eval
  exact C71_small_steps o1 o2 o3 (by simp [exSum]) (by simp [exSum]) (by norm_num) le_rfl exSum_range

end Axon
