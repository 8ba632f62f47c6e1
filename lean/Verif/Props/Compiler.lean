import Verif.Proofs.CompilerMain
import Verif.Props.Simulator
import Verif.Props.Scalar

/-! # C56, C57, C58: what compile_computation builds, when it fails, and loading the plan -/
set_option linter.unusedSectionVars false
namespace Axon
open Spec
variable {K : Type*} [Field K] [LinearOrder K] [IsStrictOrderedRing K]

/-- The condition under which compilation succeeds. -/
theorem compile_ok_cond {h : SHeap K} (ho : OperandsOlder h) {limit root : ℕ} (hroot : root < h.length)
    (hl : h.length ≤ limit) {r : K} {w : World K} (hw : Built w) {plan : Plan K} {w' : World K}
    (hc : compileComputation h limit root r w = .ok (plan, w')) :
    r ≤ 100 ∧ r ≠ 0 ∧ (∀ v, Reach h root v → GoodNode h v) ∧
      (∀ v, Reach h root v → h.op v = .load → h.data v / r ≤ 1) := by
  by_contra hn
  obtain ⟨e, he⟩ := (compile_main (limit := limit) ho hroot (by omega) r hw.ok).2 hn
  rw [hc] at he; cases he

theorem reach_lt {h : SHeap K} (ho : OperandsOlder h) {root : ℕ} (hroot : root < h.length) {v : ℕ}
    (hv : Reach h root v) : v < h.length := by
  induction hv with
  | refl => exact hroot
  | tail h1 h2 ih => exact (ho _ ih _ h2).trans ih

/-- C56: a successful compilation puts the graph, faithfully, on top of whatever existed before. -/
theorem C56_faithful {h : SHeap K} (ho : OperandsOlder h) {limit root : ℕ} (hroot : root < h.length)
    (hl : h.length ≤ limit) {r : K} {w : World K} (hw : Built w) {plan : Plan K} {w' : World K}
    (hc : compileComputation h limit root r w = .ok (plan, w')) :
    ∃ L, Faithful h root r w w' plan L := by
  obtain ⟨plan', w'', L, w1, w2, pl2, mB, nB, e, F, -⟩ :=
    (compile_main (limit := limit) ho hroot (by omega) r hw.ok).1 (compile_ok_cond ho hroot hl hw hc)
  rw [hc] at e
  obtain ⟨rfl, rfl⟩ := Prod.mk.inj (Except.ok.inj e)
  exact ⟨L, F⟩

/-- C57: compilation succeeds exactly when `0 ≠ max_range ≤ 100`, every reachable operation has a network
(no division, no power), and no reachable loaded value exceeds the range. -/
theorem C57_succeeds_iff {h : SHeap K} (ho : OperandsOlder h) (ha : AritiesOK h) {limit root : ℕ}
    (hroot : root < h.length) (hl : h.length ≤ limit) (r : K) {w : World K} (hw : Built w) :
    (∃ plan w', compileComputation h limit root r w = .ok (plan, w')) ↔
      r ≤ 100 ∧ r ≠ 0 ∧ (∀ v, Reach h root v → Compilable (h.op v)) ∧
        (∀ v, Reach h root v → h.op v = .load → h.data v / r ≤ 1) := by
  have hg : (∀ v, Reach h root v → GoodNode h v) ↔ ∀ v, Reach h root v → Compilable (h.op v) :=
    forall_congr' (fun v => ⟨fun h' hr => (h' hr).1, fun h' hr => ⟨h' hr, ha v (reach_lt ho hroot hr)⟩⟩)
  rw [← hg]
  constructor
  · rintro ⟨plan, w', hc⟩; exact compile_ok_cond ho hroot hl hw hc
  · intro h'
    obtain ⟨plan, w', -, -, -, -, -, -, e, -⟩ := (compile_main (limit := limit) ho hroot (by omega) r hw.ok).1 h'
    exact ⟨plan, w', e⟩

/-- C57: the range check comes first. -/
theorem C57_range_error (h : SHeap K) (limit root : ℕ) (r : K) (w : World K) (hr : 100 < r) :
    compileComputation h limit root r w = .error .assertionError := by
  unfold compileComputation; rw [if_pos (not_le.mpr hr)]

/-- C57: with a positive range, the loaded-value condition is a plain upper bound; values below `-max_range`
are accepted by the compiler. -/
theorem C57_positive_range {r : K} (hr : 0 < r) (v : K) : v / r ≤ 1 ↔ v ≤ r := by
  rw [div_le_one hr]

/-- Running a list of injection calls one of which is out of range raises ValueError. -/
theorem calls_bad [FloorRing K] (H : EventHeap K) (net : Net K) (enc : Encoder K) : ∀ (cs : List (Call K)) (st : Sim K),
    (∃ c ∈ cs, ¬ CallOK c) → st.calls H net enc cs = .error .valueError
  | [], _, ⟨_, h, _⟩ => by simp at h
  | c :: cs, st, hb => by
    unfold Sim.calls
    rw [List.foldlM_cons]
    by_cases hc : CallOK c
    · rw [call_eq H net enc st c hc]
      refine calls_bad H net enc cs _ ?_
      obtain ⟨d, hd, hdb⟩ := hb
      rcases List.mem_cons.mp hd with rfl | hd
      · exact (hdb hc).elim
      · exact ⟨d, hd, hdb⟩
    · cases c with
      | spike n t => exact (hc trivial).elim
      | value v n t0 =>
        have e : st.call H net enc (.value v n t0) = .error .valueError := by
          unfold Sim.call Sim.applyInputValue; exact if_pos hc
        rw [e]; rfl

theorem abs_div_ok_iff {r : K} (hr : 0 < r) {v : K} (hv : v / r ≤ 1) :
    (0 ≤ |v| / r ∧ |v| / r ≤ 1) ↔ -r ≤ v := by
  rw [div_le_one hr] at hv ⊢
  constructor
  · rintro ⟨-, h⟩; exact (abs_le.mp h).1
  · intro h; exact ⟨div_nonneg (abs_nonneg v) hr.le, abs_le.mpr ⟨h, hv⟩⟩

theorem compiled_net {h : SHeap K} (ho : OperandsOlder h) {limit root : ℕ} (hroot : root < h.length)
    (hl : h.length ≤ limit) {r : K} {w : World K} (hw : Built w) {plan : Plan K} {w' : World K}
    (hc : compileComputation h limit root r w = .ok (plan, w')) :
    ∃ L ns, Faithful h root r w w' plan L ∧ w'.neurons plan.net = .ok ns ∧ ((w.sub.map (·.2)).Nodup → ns.Nodup) ∧
      (∀ v ∈ L.nodes, GoodNode h v) ∧ (∃ l, w'.neus = l ++ w.neus ∧ ∀ o ∈ l, o.par = ⟨10, 100, 20, 0⟩) ∧
      (∀ x ∈ w'.own, x.2 < w'.neus.length) := by
  have hcond := compile_ok_cond ho hroot hl hw hc
  obtain ⟨plan', w'', L, w1, w2, pl2, mB, nB, e, F, hnet, rfl, P, -, -, e3⟩ :=
    (compile_main (limit := limit) ho hroot (by omega) r hw.ok).1 hcond
  rw [hc] at e
  obtain ⟨rfl, rfl⟩ := Prod.mk.inj (Except.ok.inj e)
  rw [hnet] at P
  obtain ⟨ns, h1, h2⟩ := placed_neurons hw.ok P e3
  refine ⟨L, ns, F, by rw [hnet]; exact h1, h2, fun v hv => hcond.2.2.1 v ((F.nodes v).mp hv), ?_, ?_⟩
  · obtain ⟨l, e, hp⟩ := P.par
    exact ⟨l, by rw [e3]; exact e, hp⟩
  · rw [e3]; exact P.bd.own_lt

/-- What loading a plan does: each loaded value `v` is injected as two spikes, `Tmin + |v|/r·Tcod` apart, on the
rail of its sign. -/
def loadSpikes (enc : Encoder K) (h : SHeap K) (r : K) (L : Layout) : List (ℕ × K) :=
  (L.nodes.filter (fun v => h.op v = .load)).flatMap (fun v =>
    let rail := if 0 ≤ h.data v then (L.out v).plus else (L.out v).minus
    [(rail, 0), (rail, enc.Tmin + |h.data v| / r * enc.Tcod)])

/-- C58: with a positive range, loading a compiled plan succeeds exactly when no loaded value is below `-max_range`;
then each loaded value is injected on the rail of its sign, and otherwise ValueError is raised. -/
theorem C58_load [FloorRing K] {h : SHeap K} (ho : OperandsOlder h) {limit root : ℕ} (hroot : root < h.length)
    (hl : h.length ≤ limit) {r : K} (hr : 0 < r) {w : World K} (hw : Built w) {plan : Plan K} {w' : World K}
    (hc : compileComputation h limit root r w = .ok (plan, w')) (H : EventHeap K) (enc : Encoder K) (nst : ℕ → NState K) :
    ∃ L ns, Faithful h root r w w' plan L ∧ w'.neurons plan.net = .ok ns ∧
      ((∀ v, Reach h root v → h.op v = .load → -r ≤ h.data v) →
        initWithPlan H enc w' nst plan = .ok (w'.net ns, (loadSpikes enc h r L).foldl
          (fun st q => st.applyInputSpike H (w'.net ns) q.1 q.2) (Sim.init (w'.net ns) nst))) ∧
      ((∃ v, Reach h root v ∧ h.op v = .load ∧ h.data v < -r) →
        initWithPlan H enc w' nst plan = .error .valueError) := by
  obtain ⟨L, ns, F, hns, -⟩ := compiled_net ho hroot hl hw hc
  have hcond := compile_ok_cond ho hroot hl hw hc
  refine ⟨L, ns, F, hns, ?_, ?_⟩
  · intro hv
    have hok : ∀ c ∈ plan.triggers.map (fun t => Call.value t.value t.neuron 0), CallOK c := by
      intro c hcm
      rw [F.triggers, List.map_map] at hcm
      obtain ⟨v, hvm, rfl⟩ := List.mem_map.mp hcm
      obtain ⟨h1, h2⟩ := List.mem_filter.mp hvm
      have hre := (F.nodes v).mp h1
      have hlo : h.op v = .load := by simpa using h2
      exact (abs_div_ok_iff hr (hcond.2.2.2 v hre hlo)).mpr (hv v hre hlo)
    unfold initWithPlan
    simp only [hns]
    rw [calls_eq H _ enc _ _ hok]
    simp only [Except.ok.injEq, Prod.mk.injEq, true_and]
    unfold Sim.injectAll
    congr 1
    rw [F.triggers, loadSpikes, List.map_map]
    simp only [List.flatMap_def, List.map_map]
    congr 1
    refine List.map_congr_left (fun v _ => ?_)
    simp [callSpikes]
  · rintro ⟨v, hre, hlo, hlt⟩
    unfold initWithPlan
    simp only [hns]
    rw [calls_bad]
    refine ⟨.value (|h.data v| / r) (if 0 ≤ h.data v then (L.out v).plus else (L.out v).minus) 0, ?_, ?_⟩
    · rw [F.triggers, List.map_map]
      exact List.mem_map.mpr ⟨v, List.mem_filter.mpr ⟨(F.nodes v).mpr hre, by simpa using hlo⟩, rfl⟩
    · intro hok
      exact absurd ((abs_div_ok_iff hr (hcond.2.2.2 v hre hlo)).mp hok) (not_le.mpr hlt)

/-- C58: with a negative range a plan can be loaded only if every loaded value is zero. -/
theorem C58_negative_range [FloorRing K] {h : SHeap K} (ho : OperandsOlder h) {limit root : ℕ} (hroot : root < h.length)
    (hl : h.length ≤ limit) {r : K} (hr : r < 0) {w : World K} (hw : Built w) {plan : Plan K} {w' : World K}
    (hc : compileComputation h limit root r w = .ok (plan, w')) (H : EventHeap K) (enc : Encoder K) (nst : ℕ → NState K)
    (hv : ∃ v, Reach h root v ∧ h.op v = .load ∧ h.data v ≠ 0) :
    initWithPlan H enc w' nst plan = .error .valueError := by
  obtain ⟨L, ns, F, hns, -⟩ := compiled_net ho hroot hl hw hc
  obtain ⟨v, hre, hlo, h0⟩ := hv
  unfold initWithPlan
  simp only [hns]
  rw [calls_bad]
  refine ⟨.value (|h.data v| / r) (if 0 ≤ h.data v then (L.out v).plus else (L.out v).minus) 0, ?_, ?_⟩
  · rw [F.triggers, List.map_map]
    exact List.mem_map.mpr ⟨v, List.mem_filter.mpr ⟨(F.nodes v).mpr hre, by simpa using hlo⟩, rfl⟩
  · intro hok
    exact absurd hok.1 (not_le.mpr (div_neg_of_pos_of_neg (abs_pos.mpr h0) hr))

/-- C58: a program compiled in a fresh process and loaded can be simulated, for every positive time step, every
simulation time and every set iteration order, without any exception. -/
theorem C58_simulates [FloorRing K] {h : SHeap K} (ho : OperandsOlder h) {limit root : ℕ} (hroot : root < h.length)
    (hl : h.length ≤ limit) {r : K} (hr : 0 < r) {plan : Plan K} {w' : World K}
    (hc : compileComputation h limit root r World.empty = .ok (plan, w'))
    (hv : ∀ v, Reach h root v → h.op v = .load → -r ≤ h.data v)
    (H : EventHeap K) (enc : Encoder K) {ord : ℕ → List ℕ → List ℕ} (hord : SetOrder ord) {dt : K} (hdt : 0 < dt) (T : K) :
    ∃ net st st', initWithPlan H enc w' (fun n => NState.fresh (w'.par n)) plan = .ok (net, st) ∧
      net.neurons.Nodup ∧ WellFormed net ∧ st.simulate H ord net dt T = .ok st' := by
  obtain ⟨L, ns, F, hns, hnd, hg, ⟨l, el, hpar⟩, hown⟩ := compiled_net ho hroot hl .empty hc
  obtain ⟨L', ns', F', hns', hload, -⟩ := C58_load ho hroot hl hr .empty hc H enc (fun n => NState.fresh (w'.par n))
  obtain rfl : ns = ns' := Except.ok.inj (hns.symm.trans hns')
  have hpar' : ∀ o ∈ w'.neus, o.par = ⟨10, 100, 20, 0⟩ := by
    intro o ho'; rw [el] at ho'
    exact hpar o (by simpa [World.empty] using ho')
  obtain ⟨hwf, hp⟩ := compiled_wf F hg hpar' hown hns
  have hrest : Resting (w'.net ns) (fun n => NState.fresh (w'.par n)) := by
    intro n hn
    have := hp n hn
    simp only [World.net, this, NState.fresh]
    norm_num
  obtain ⟨st', h1, -⟩ := simulate_outcome H hord hwf hdt hrest
    (dense_isRun (w'.net ns) dt (loadSpikes enc h r L') (fun n => NState.fresh (w'.par n))) T
  exact ⟨w'.net ns, _, st', hload hv, hnd (by simp [World.empty]), hwf, h1⟩

/-- `-(x + x*y)` with `x = 2`, `y = -3`: a shared operand, all four kinds of operations. -/
def exProg : SHeap ℚ := [⟨2, [], .load⟩, ⟨-3, [], .load⟩, ⟨-6, [0, 1], .mul⟩, ⟨-4, [0, 2], .add⟩, ⟨4, [3], .neg⟩]

theorem exProg_ok : OperandsOlder exProg ∧ AritiesOK exProg := by
  constructor
  · intro v hv p hp
    have : v = 0 ∨ v = 1 ∨ v = 2 ∨ v = 3 ∨ v = 4 := by simp [exProg] at hv; omega
    rcases this with rfl | rfl | rfl | rfl | rfl <;> simp [SHeap.prev, exProg] at hp <;> omega
  · intro v hv
    have : v = 0 ∨ v = 1 ∨ v = 2 ∨ v = 3 ∨ v = 4 := by simp [exProg] at hv; omega
    rcases this with rfl | rfl | rfl | rfl | rfl <;> rfl

/-- The example program compiles and loads with range 10. -/
example : (∃ plan w', compileComputation exProg 1000 4 10 World.empty = .ok (plan, w')) ∧
    (∀ v, Reach exProg 4 v → exProg.op v = .load → -10 ≤ exProg.data v) ∧ Reach exProg 4 0 := by
  have hb : ∀ v, Reach exProg 4 v → v = 0 ∨ v = 1 ∨ v = 2 ∨ v = 3 ∨ v = 4 := by
    intro v hv
    have := reach_lt exProg_ok.1 (show 4 < exProg.length by simp [exProg]) hv
    simp [exProg] at this; omega
  refine ⟨(C57_succeeds_iff exProg_ok.1 exProg_ok.2 (by simp [exProg]) (by simp [exProg]) 10 .empty).mpr
    ⟨by norm_num, by norm_num, ?_, ?_⟩, ?_, ?_⟩
  · intro v hv
    rcases hb v hv with rfl | rfl | rfl | rfl | rfl <;> simp [SHeap.op, exProg, Compilable]
  · intro v hv hl
    rcases hb v hv with rfl | rfl | rfl | rfl | rfl <;> simp [SHeap.data, exProg] <;> norm_num
  · intro v hv hl
    rcases hb v hv with rfl | rfl | rfl | rfl | rfl <;> simp [SHeap.data, exProg] <;> norm_num
  · exact (Relation.ReflTransGen.single (show 3 ∈ exProg.prev 4 by simp [SHeap.prev, exProg])).tail
      (show 0 ∈ exProg.prev 3 by simp [SHeap.prev, exProg])

/-- A load below `-max_range` compiles but cannot be loaded: `Scalar(-20)` with range 10. -/
example : (∃ plan w', compileComputation ([⟨-20, [], .load⟩] : SHeap ℚ) 1000 0 10 World.empty = .ok (plan, w')) ∧
    ∃ v, Reach ([⟨-20, [], .load⟩] : SHeap ℚ) 0 v ∧ SHeap.op [⟨-20, [], .load⟩] v = .load ∧
      SHeap.data ([⟨-20, [], .load⟩] : SHeap ℚ) v < -10 := by
  have ho : OperandsOlder ([⟨-20, [], .load⟩] : SHeap ℚ) := by
    intro v hv p hp
    have : v = 0 := by simpa using hv
    subst this; simp [SHeap.prev] at hp
  have ha : AritiesOK ([⟨-20, [], .load⟩] : SHeap ℚ) := by
    intro v hv
    have : v = 0 := by simpa using hv
    subst this; rfl
  have hb : ∀ v, Reach ([⟨-20, [], .load⟩] : SHeap ℚ) 0 v → v = 0 := by
    intro v hv
    have := reach_lt ho (show 0 < ([⟨-20, [], .load⟩] : SHeap ℚ).length by simp) hv
    simpa using this
  refine ⟨(C57_succeeds_iff ho ha (by simp) (by simp) 10 .empty).mpr ⟨by norm_num, by norm_num, ?_, ?_⟩, 0, .refl, rfl, ?_⟩
  · intro v hv; rw [hb v hv]; exact Or.inl rfl
  · intro v hv _; rw [hb v hv]; simp [SHeap.data]; norm_num
  · simp [SHeap.data]; norm_num

end Axon
