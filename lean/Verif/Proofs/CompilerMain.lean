import Verif.Proofs.CompilerBuild
import Verif.Spec.Dense
import Mathlib.Tactic.NormNum

/-! # The compiler as a whole -/
set_option linter.unusedSectionVars false
namespace Axon
open Spec
variable {K : Type*} [Field K] [LinearOrder K] [IsStrictOrderedRing K]

/-- Header of a plug. -/
def hdOf (pl : Plugs) (p : PlugId) : Header := (pl p).getD ⟨0, 0⟩

theorem wireModules_eq (pl : Plugs) : ∀ (conns : List (PlugId × PlugId)) (w : World K),
    (∀ c ∈ conns, (pl c.1).isSome ∧ (pl c.2).isSome) →
    wireModules conns pl w =
      { w with syns := (conns.flatMap (fun c => wire (hdOf pl c.1) (hdOf pl c.2))).reverse ++ w.syns }
  | [], w, _ => rfl
  | c :: conns, w, hc => by
    obtain ⟨h1, h2⟩ := hc c (by simp)
    obtain ⟨a, ha⟩ := Option.isSome_iff_exists.mp h1
    obtain ⟨b, hb⟩ := Option.isSome_iff_exists.mp h2
    have := wireModules_eq pl conns (wireOne pl w c) (fun d hd => hc d (by simp [hd]))
    unfold wireModules at this ⊢
    rw [List.foldl_cons, this]
    simp only [wireOne, ha, hb, connect, hdOf, wire, Option.getD_some, List.flatMap_cons, List.reverse_append,
      List.append_assoc]
    rfl

theorem mkTrigger_ok_iff (v r : K) (hd : Header) (hr : r ≤ 100) :
    (∃ t, mkTrigger v r hd = .ok t) ↔ r ≠ 0 ∧ v / r ≤ 1 := by
  unfold mkTrigger
  by_cases h0 : r = 0
  · simp [h0]
  · rw [if_neg h0]
    by_cases h1 : v / r ≤ 1
    · rw [if_neg (not_not.mpr h1), if_neg (not_not.mpr hr)]; simp [h0, h1]
    · rw [if_pos h1]; simp [h1]

theorem mkTrigger_eq {v r : K} {hd : Header} {t} (h : mkTrigger v r hd = .ok t) :
    t = ⟨|v| / r, if 0 ≤ v then hd.plus else hd.minus⟩ := by
  unfold mkTrigger at h
  split at h
  · cases h
  · split at h
    · cases h
    · split at h
      · cases h
      · exact (Except.ok.inj h).symm

theorem triggers_fold (h : SHeap K) (r : K) (hr : r ≤ 100) (pl : Plugs) : ∀ (nodes : List ℕ) (ts : List (Trigger K)),
    (∀ v ∈ nodes, (pl (.out v)).isSome) →
    let f := fun (ts : List (Trigger K)) (op : Scaffold K) =>
      if op.optype = .load then
        match pl op.outp with
        | some hd =>
          match mkTrigger op.value r hd with
          | .error e => (.error e : Except PyErr (List (Trigger K)))
          | .ok t => .ok (ts ++ [t])
        | none => .ok ts
      else .ok ts
    ((∀ v ∈ nodes, h.op v = .load → r ≠ 0 ∧ h.data v / r ≤ 1) →
      (nodes.map (fun v => (flattenNode h v).1)).foldlM f ts = .ok (ts ++ (nodes.filter (fun v => h.op v = .load)).map
        (fun v => ⟨|h.data v| / r, if 0 ≤ h.data v then (hdOf pl (.out v)).plus else (hdOf pl (.out v)).minus⟩))) ∧
    (¬ (∀ v ∈ nodes, h.op v = .load → r ≠ 0 ∧ h.data v / r ≤ 1) →
      ∃ e, (nodes.map (fun v => (flattenNode h v).1)).foldlM f ts = .error e)
  | [], ts, _ => by simp [pure, Except.pure]
  | v :: nodes, ts, hpl => by
    intro f
    obtain ⟨hd, hhd⟩ := Option.isSome_iff_exists.mp (hpl v (by simp))
    have hpl' : ∀ u ∈ nodes, (pl (.out u)).isSome := fun u hu => hpl u (by simp [hu])
    rw [List.map_cons, List.foldlM_cons]
    by_cases hop : h.op v = .load
    · have e0 : f ts (flattenNode h v).1 = match mkTrigger (h.data v) r hd with
          | .error e => .error e
          | .ok t => .ok (ts ++ [t]) := by
        simp only [f, flattenNode, if_pos hop, hhd]
      rw [e0]
      by_cases hv : r ≠ 0 ∧ h.data v / r ≤ 1
      · obtain ⟨t, ht⟩ := (mkTrigger_ok_iff (h.data v) r hd hr).mpr hv
        rw [ht]
        have ih := triggers_fold h r hr pl nodes (ts ++ [t]) hpl'
        constructor
        · intro hall
          refine (ih.1 (fun u hu => hall u (by simp [hu]))).trans ?_
          rw [List.filter_cons_of_pos (by simpa using hop), List.map_cons, mkTrigger_eq ht]
          simp [hdOf, hhd]
        · intro hn
          refine ih.2 (fun hall => hn ?_)
          intro u hu
          rcases List.mem_cons.mp hu with rfl | hu
          · exact fun _ => hv
          · exact hall u hu
      · constructor
        · intro hall; exact (hv (hall v (by simp) hop)).elim
        · intro _
          cases ht : mkTrigger (h.data v) r hd with
          | error e => exact ⟨e, rfl⟩
          | ok t => exact (hv ((mkTrigger_ok_iff _ _ _ hr).mp ⟨t, ht⟩)).elim
    · have e0 : f ts (flattenNode h v).1 = .ok ts := by simp only [f, flattenNode, if_neg hop]
      rw [e0]
      have ih := triggers_fold h r hr pl nodes ts hpl'
      constructor
      · intro hall
        refine (ih.1 (fun u hu => hall u (by simp [hu]))).trans ?_
        rw [List.filter_cons_of_neg (by simpa using hop)]
      · intro hn
        refine ih.2 (fun hall => hn ?_)
        intro u hu
        rcases List.mem_cons.mp hu with rfl | hu
        · exact fun h' => (hop h').elim
        · exact hall u hu

/-- In a graph of operations with the right arities every node reaches a load. -/
theorem reaches_load {h : SHeap K} (ho : OperandsOlder h) {root : ℕ} (hroot : root < h.length) 
    (hg : ∀ v, Reach h root v → GoodNode h v) : ∃ v, Reach h root v ∧ h.op v = .load := by
  suffices H : ∀ n v, v ≤ n → v < h.length → Reach h root v → ∃ u, Reach h root u ∧ h.op u = .load from
    H root root le_rfl hroot .refl
  intro n
  induction n using Nat.strong_induction_on with
  | _ n ih =>
    intro v hvn hv hr
    by_cases hl : h.op v = .load
    · exact ⟨v, hr, hl⟩
    · obtain ⟨hc, ha⟩ := hg v hr
      have hpos : 0 < (h.prev v).length := by
        rw [ha]; rcases hc with e | e | e | e
        · exact (hl e).elim
        all_goals (rw [e]; simp [arity])
      obtain ⟨p, hp⟩ := List.exists_mem_of_length_pos hpos
      have hlt := ho v hv p hp
      exact ih p (by omega) p le_rfl (by omega) (hr.tail hp)

theorem inTree_blk {h : SHeap K} {norm : K} {net : ℕ} {nodes : List ℕ} {w1 w2 : World K} {pl1 pl2 : Plugs}
    {mB nB : ℕ → ℕ} (P : Placed h norm net nodes w1 w2 pl1 pl2 mB nB) {v : ℕ} (hv : v ∈ nodes)
    (hB : BlockOK (blk h norm v)) {m : ℕ} : InTree w2 (mB v) m ↔
      ∃ a < (blk h norm v).mods.length, m = mB v + a ∧ InTree (blk h norm v) 0 a := by
  constructor
  · intro ht
    induction ht with
    | refl => exact ⟨0, hB.pos, rfl, .refl⟩
    | tail h1 h2 ih =>
      obtain ⟨a, ha, rfl, hi⟩ := ih
      obtain ⟨c', rfl, hc⟩ := (P.blkSub v hv a _ ha).mp h2
      exact ⟨c', (hB.sub_bd _ hc).2, rfl, hi.tail hc⟩
  · rintro ⟨a, ha, rfl, hi⟩
    induction hi with
    | refl => exact .refl
    | tail h1 h2 ih =>
      have hlt := (hB.sub_bd _ h2).1
      exact (ih hlt).tail ((P.blkSub v hv _ _ hlt).mpr ⟨_, rfl, h2⟩)

theorem inside_iff {h : SHeap K} {norm : K} {net : ℕ} {nodes : List ℕ} {w1 w2 : World K} {pl1 pl2 : Plugs}
    {mB nB : ℕ → ℕ} (P : Placed h norm net nodes w1 w2 pl1 pl2 mB nB) {v : ℕ} (hv : v ∈ nodes)
    (hB : BlockOK (blk h norm v)) (n : ℕ) : Inside w2 (mB v) n ↔ ∃ k < (blk h norm v).neus.length, n = nB v + k := by
  constructor
  · rintro ⟨m', h1, h2⟩
    obtain ⟨a, ha, rfl, hi⟩ := (inTree_blk P hv hB).mp h1
    obtain ⟨c', rfl, hc⟩ := (P.blkOwn v hv a n ha).mp h2
    exact ⟨c', (hB.own_bd _ hc).2, rfl⟩
  · rintro ⟨k, hk, rfl⟩
    obtain ⟨m, hm, ho⟩ := hB.tree k hk
    have hlt := (hB.own_bd _ ho).1
    exact ⟨mB v + m, (inTree_blk P hv hB).mpr ⟨m, hlt, rfl, hm⟩, (P.blkOwn v hv m _ hlt).mpr ⟨k, rfl, ho⟩⟩

theorem port_blk {h : SHeap K} {norm : K} {net : ℕ} {nodes : List ℕ} {w1 w2 : World K} {pl1 pl2 : Plugs}
    {mB nB : ℕ → ℕ} (P : Placed h norm net nodes w1 w2 pl1 pl2 mB nB) {v : ℕ} (hv : v ∈ nodes)
    (hB : BlockOK (blk h norm v)) {nm : String × String} {hd : Header} (hp : PortOf (blk h norm v) 0 nm hd) :
    PortOf w2 (mB v) nm (hd.shift (nB v)) := by
  obtain ⟨h1, h2, h3, h4⟩ := hp
  have l1 := (hB.own_bd _ h1).2
  have l2 := (hB.own_bd _ h2).2
  refine ⟨(P.blkOwn v hv 0 _ hB.pos).mpr ⟨_, rfl, h1⟩, (P.blkOwn v hv 0 _ hB.pos).mpr ⟨_, rfl, h2⟩, ?_, ?_⟩
  · show w2.neus.reverse[nB v + hd.plus]?.map (·.name) = _
    rw [P.blkNeu v hv _ l1, Option.map_map]; exact h3
  · show w2.neus.reverse[nB v + hd.minus]?.map (·.name) = _
    rw [P.blkNeu v hv _ l2, Option.map_map]; exact h4

/-- The layout of a compiled program. -/
def layoutOf (h : SHeap K) (norm : K) (nodes : List ℕ) (mB nB : ℕ → ℕ) : Layout :=
  ⟨nodes, mB, nB, fun v => (prt h norm v).out.shift (nB v),
    fun v k => (((prt h norm v).ins[k]?).map (Header.shift (nB v))).getD ⟨0, 0⟩⟩

theorem flatten_conns (h : SHeap K) (nodes : List ℕ) (f : PlugId × PlugId → List (Synapse K)) :
    (nodes.flatMap (fun v => (flattenNode h v).2)).flatMap f =
      nodes.flatMap (fun v => (h.prev v).zipIdx.flatMap (fun x => f (.out x.1, .inp v x.2))) := by
  simp only [flattenNode, List.flatMap_def, List.map_flatten, List.flatten_flatten, List.map_map, List.map_flatten]
  congr 2
  simp [Function.comp_def]

theorem inNames_length {op : OpType} (hc : Compilable op) : (inNames op).length = arity op := by
  rcases hc with rfl | rfl | rfl | rfl <;> rfl

/-- compile_computation, described completely. -/
theorem compile_main {h : SHeap K} (ho : OperandsOlder h) {limit root : ℕ} (hroot : root < h.length)
    (hl : root < limit) (r : K) {w : World K} (hw : w.OK) :
    ((r ≤ 100 ∧ r ≠ 0 ∧ (∀ v, Reach h root v → GoodNode h v) ∧
      (∀ v, Reach h root v → h.op v = .load → h.data v / r ≤ 1)) →
      ∃ plan w' L w1 w2 pl2 mB nB, compileComputation h limit root r w = .ok (plan, w') ∧
        Faithful h root r w w' plan L ∧ plan.net = w.mods.length ∧ w1 = (newModule .plain (some "enclosing_module") w).2 ∧
        Placed h r plan.net L.nodes w1 w2 (fun _ => none) pl2 mB nB ∧ L.place = mB ∧ L.off = nB ∧
        w' = { w2 with syns := w'.syns }) ∧
    (¬ (r ≤ 100 ∧ r ≠ 0 ∧ (∀ v, Reach h root v → GoodNode h v) ∧
      (∀ v, Reach h root v → h.op v = .load → h.data v / r ≤ 1)) →
      ∃ e, compileComputation h limit root r w = .error e) := by
  obtain ⟨nodes, edges, et, hnd, hhead, hmem, -, -⟩ := trace_spec ho hroot hl
  have hflat : flatten h limit root = .ok (nodes.map (fun v => (flattenNode h v).1),
      nodes.flatMap (fun v => (flattenNode h v).2), .out root) := by simp [flatten, et]
  have hroot' : root ∈ nodes := (hmem root).mpr .refl
  by_cases hr : r ≤ 100
  swap
  · exact ⟨fun h' => (hr h'.1).elim, fun _ => ⟨.assertionError, by unfold compileComputation; rw [if_pos hr]⟩⟩
  have hgoodiff : (∀ v, Reach h root v → GoodNode h v) ↔ ∀ v ∈ nodes, GoodNode h v :=
    forall_congr' (fun v => by rw [hmem v])
  by_cases hg : ∀ v ∈ nodes, GoodNode h v
  swap
  · refine ⟨fun h' => (hg (hgoodiff.mp h'.2.2.1)).elim, fun _ => ?_⟩
    push Not at hg
    obtain ⟨e, he⟩ := instantiate_bad (h := h) r w.mods.length nodes
      ((newModule .plain (some "enclosing_module") w).2, fun _ => none) hg
    refine ⟨e, ?_⟩
    unfold compileComputation
    rw [if_neg (not_not.mpr hr), hflat]
    simp only [buildStickNet]
    rw [show (newModule .plain (some "enclosing_module") w).1 = w.mods.length from rfl, he]
  -- all operations compile
  set w1 := (newModule .plain (some "enclosing_module") w).2 with hw1
  have hw1ok : w1.OK := hw.newModule _ _
  have hnet : w.mods.length < w1.mods.length := by simp [hw1, newModule]
  obtain ⟨w2, pl, mB, nB, ei, P⟩ := instantiate_good r w.mods.length nodes w1 (fun _ => none) hnd hg hw1ok hnet
  have hF : ∀ v ∈ nodes, SpawnFacts (h.op v) (prt h r v) (blk h r v) := fun v hv => spawnFacts r (hg v hv).1
  have hclosed : ∀ v ∈ nodes, ∀ p ∈ h.prev v, p ∈ nodes := fun v hv p hp =>
    (hmem p).mpr (((hmem v).mp hv).tail hp)
  have hinp : ∀ v ∈ nodes, ∀ k < arity (h.op v), ∃ hd, (prt h r v).ins[k]? = some hd ∧ pl (.inp v k) = some (hd.shift (nB v)) := by
    intro v hv k hk
    have hk' : k < (prt h r v).ins.length := by rw [(hF v hv).ins]; exact hk
    refine ⟨_, List.getElem?_eq_getElem hk', ?_⟩
    rw [P.plInp v hv k hk, List.getElem?_eq_getElem hk']; rfl
  have hconn : ∀ c ∈ nodes.flatMap (fun v => (flattenNode h v).2), (pl c.1).isSome ∧ (pl c.2).isSome := by
    intro c hc
    obtain ⟨v, hv, hc⟩ := List.mem_flatMap.mp hc
    simp only [flattenNode, List.mem_map] at hc
    obtain ⟨⟨p, k⟩, hx, rfl⟩ := hc
    have hpk := List.mem_zipIdx_iff_getElem?.mp hx
    obtain ⟨hk, hpe⟩ := List.getElem?_eq_some_iff.mp hpk
    have hp : p ∈ h.prev v := List.mem_of_getElem? hpk
    rw [(hg v hv).2] at hk
    obtain ⟨hd, -, e⟩ := hinp v hv k hk
    exact ⟨by rw [P.plOut p (hclosed v hv p hp)]; rfl, by simp only; rw [e]; rfl⟩
  have hwire := wireModules_eq (K := K) pl _ w2 hconn
  have hreader : getOutputReader pl (.out root) r =
      some ⟨((prt h r root).out.shift (nB root)).plus, ((prt h r root).out.shift (nB root)).minus, r⟩ := by
    simp [getOutputReader, P.plOut root hroot']
  have htrig := triggers_fold h r hr pl nodes [] (fun v hv => by rw [P.plOut v hv]; rfl)
  have hloadiff : (r ≠ 0 ∧ ∀ v, Reach h root v → h.op v = .load → h.data v / r ≤ 1) ↔
      ∀ v ∈ nodes, h.op v = .load → r ≠ 0 ∧ h.data v / r ≤ 1 := by
    constructor
    · rintro ⟨h0, h1⟩ v hv hl; exact ⟨h0, h1 v ((hmem v).mp hv) hl⟩
    · intro h1
      obtain ⟨v, hv, hl⟩ := reaches_load ho hroot (hgoodiff.mpr hg)
      exact ⟨(h1 v ((hmem v).mpr hv) hl).1, fun u hu hl => (h1 u ((hmem u).mpr hu) hl).2⟩
  constructor
  · rintro ⟨-, h0, -, hld⟩
    have ht := htrig.1 (hloadiff.mp ⟨h0, hld⟩)
    rw [List.nil_append] at ht
    set ts := (nodes.filter (fun v => h.op v = .load)).map (fun v =>
      (⟨|h.data v| / r, if 0 ≤ h.data v then (hdOf pl (.out v)).plus else (hdOf pl (.out v)).minus⟩ : Trigger K)) with hts
    have hne : ts.length ≠ 0 := by
      obtain ⟨v, hv, hl⟩ := reaches_load ho hroot (hgoodiff.mpr hg)
      have : v ∈ nodes.filter (fun v => h.op v = .load) := by simp [(hmem v).mpr hv, hl]
      rw [hts, List.length_map]
      exact (List.length_pos_of_mem this).ne'
    refine ⟨⟨w.mods.length, ts, ⟨((prt h r root).out.shift (nB root)).plus, ((prt h r root).out.shift (nB root)).minus, r⟩⟩,
      wireModules (nodes.flatMap (fun v => (flattenNode h v).2)) pl w2, layoutOf h r nodes mB nB, w1, w2, pl, mB, nB, ?_, ?_,
      rfl, rfl, P, rfl, rfl, ?_⟩
    · unfold compileComputation
      rw [if_neg (not_not.mpr hr), hflat]
      simp only [buildStickNet]
      rw [show (newModule .plain (some "enclosing_module") w).1 = w.mods.length from rfl, ← hw1, ei]
      have ht' : getInputTriggers (nodes.map (fun v => (flattenNode h v).1)) r pl = .ok ts := ht
      simp only [ht', hreader, if_neg hne]
    · have hout : ∀ v ∈ nodes, hdOf pl (.out v) = (prt h r v).out.shift (nB v) := by
        intro v hv; rw [hdOf, P.plOut v hv]; rfl
      have hsyn : ∃ l, (wireModules (nodes.flatMap (fun v => (flattenNode h v).2)) pl w2).syns.reverse =
          w.syns.reverse ++ l ++ operandWires h (layoutOf h r nodes mB nB) ∧
          l.Perm (nodes.flatMap fun v => (blk h r v).syns.map (Synapse.shift (nB v))) := by
        obtain ⟨l, e, hp⟩ := P.syns
        refine ⟨l.reverse, ?_, (List.reverse_perm l).trans hp⟩
        rw [hwire]
        simp only [List.reverse_append, List.reverse_reverse, e]
        congr 1
        rw [flatten_conns]
        simp only [operandWires, layoutOf, List.flatMap_def]
        congr 1
        refine List.map_congr_left (fun v hv => ?_)
        congr 1
        refine List.map_congr_left (fun x hx => ?_)
        have hpk := List.mem_zipIdx_iff_getElem?.mp hx
        obtain ⟨hk, -⟩ := List.getElem?_eq_some_iff.mp hpk
        rw [(hg v hv).2] at hk
        rw [hout _ (hclosed v hv _ (List.mem_of_getElem? hpk))]
        obtain ⟨hd, e1, e2⟩ := hinp v hv _ hk
        simp only [hdOf, e2, e1, Option.map_some, Option.getD_some]
      have hins : ∀ (v m n : ℕ), Inside (wireModules (nodes.flatMap (fun v => (flattenNode h v).2)) pl w2) (mB v) n ↔ Inside w2 (mB v) n := by
        intro v m n; rw [hwire]; rfl
      have hport : ∀ m nm hd, PortOf w2 m nm hd → PortOf (wireModules (nodes.flatMap (fun v => (flattenNode h v).2)) pl w2) m nm hd := by
        intro m nm hd; rw [hwire]; exact id
      obtain ⟨ls, els, pls⟩ := hsyn
      refine
      { nodup := hnd, nodes := hmem, modules := ?_, distinct := ?_, top := ?_, kind := ?_, out := ?_, inp := ?_,
        synapses := ⟨ls, els, ?_, pls⟩, disjoint := ?_, copy := ?_, outCopy := fun _ _ => rfl, inpCopy := ?_, reader := rfl,
        triggers := ?_ }
      · rw [hwire]
        obtain ⟨l, e, -, e2⟩ := P.sub
        show ((w2.sub.filter (fun x => x.1 = w.mods.length)).map (·.2)).reverse = _
        rw [e, List.filter_append, List.map_append, List.reverse_append, e2]
        have : w1.sub.filter (fun x => decide (x.1 = w.mods.length)) = [] := by
          rw [List.filter_eq_nil_iff]
          intro x hx
          have := hw.sub_fst x hx
          simp only [World.mCount] at this
          simp; omega
        rw [this]; rfl
      · show (nodes.map mB).Nodup
        rw [List.Nodup, List.pairwise_map]
        refine P.disj.imp_of_mem ?_
        intro a b ha hb hab
        have := ((hF a ha).ok).pos
        omega
      · rw [hwire]
        obtain ⟨l, e, e2⟩ := P.own
        show ((w2.own.filter (fun x => x.1 = w.mods.length)).map (·.2)).reverse = []
        rw [e, List.filter_append]
        have e1 : w1.own.filter (fun x => decide (x.1 = w.mods.length)) = [] := by
          rw [List.filter_eq_nil_iff]
          intro x hx
          have := hw.own_mod x hx
          simp only [World.mCount] at this
          simp; omega
        have e3 : l.filter (fun x => decide (x.1 = w.mods.length)) = [] := by
          rw [List.filter_eq_nil_iff]
          intro x hx
          have := (e2 x hx).1
          simp; omega
        rw [e1, e3]; rfl
      · intro v hv
        rw [hwire]
        have := P.blkMod v hv 0 (hF v hv).ok.pos
        show w2.mods.reverse[mB v]?.map (·.kind) = _
        rw [Nat.add_zero] at this
        rw [this]; exact (hF v hv).kind
      · intro v hv
        exact hport _ _ _ (port_blk P hv (hF v hv).ok (hF v hv).out)
      · intro v hv k nm hk
        have hk' : k < arity (h.op v) := by
          rw [← inNames_length (hg v hv).1]; exact (List.getElem?_eq_some_iff.mp hk).1
        obtain ⟨hd, e1, -⟩ := hinp v hv k hk'
        have := port_blk P hv (hF v hv).ok ((hF v hv).inp k hd nm e1 hk)
        refine hport _ _ _ ?_
        show PortOf w2 (mB v) nm ((((prt h r v).ins[k]?).map (Header.shift (nB v))).getD ⟨0, 0⟩)
        rw [e1]; exact this
      · intro s hs
        obtain ⟨v, hv, hs⟩ := List.mem_flatMap.mp (pls.mem_iff.mp hs)
        obtain ⟨t, ht, rfl⟩ := List.mem_map.mp hs
        have hb := (hF v hv).ok.syn_bd t ht
        refine ⟨v, hv, (hins v 0 _).mpr ((inside_iff P hv (hF v hv).ok _).mpr ⟨_, hb.1, rfl⟩),
          (hins v 0 _).mpr ((inside_iff P hv (hF v hv).ok _).mpr ⟨_, hb.2, rfl⟩)⟩
      · intro u hu v hv n h1 h2
        by_contra huv
        obtain ⟨k1, hk1, e1⟩ := (inside_iff P hu (hF u hu).ok n).mp ((hins u 0 n).mp h1)
        obtain ⟨k2, hk2, e2⟩ := (inside_iff P hv (hF v hv).ok n).mp ((hins v 0 n).mp h2)
        let R : ℕ → ℕ → Prop := fun v u => nB v + (blk h r v).neus.length ≤ nB u ∨ nB u + (blk h r u).neus.length ≤ nB v
        have hp : nodes.Pairwise R := P.disj.imp (fun h' => Or.inl h'.2)
        haveI : Std.Symm R := ⟨fun a b h' => Or.symm h'⟩
        have : nB u + (blk h r u).neus.length ≤ nB v ∨ nB v + (blk h r v).neus.length ≤ nB u := hp.forall hu hv huv
        omega
      · intro v hv n
        exact (hins v 0 n).trans (inside_iff P hv (hF v hv).ok n)
      · intro v hv k hk
        obtain ⟨hd, e1, -⟩ := hinp v hv k hk
        show some ((((prt h r v).ins[k]?).map (Header.shift (nB v))).getD ⟨0, 0⟩) = _
        rw [e1]; rfl
      · show ts = _
        rw [hts]
        refine List.map_congr_left (fun v hv => ?_)
        rw [hout v (List.mem_filter.mp hv).1]; rfl
    · rw [hwire]
  · intro hn
    have hn' : ¬ ∀ v ∈ nodes, h.op v = .load → r ≠ 0 ∧ h.data v / r ≤ 1 := fun h' =>
      hn ⟨hr, (hloadiff.mpr h').1, hgoodiff.mpr hg, (hloadiff.mpr h').2⟩
    obtain ⟨e, he⟩ := htrig.2 hn'
    refine ⟨e, ?_⟩
    unfold compileComputation
    rw [if_neg (not_not.mpr hr), hflat]
    simp only [buildStickNet]
    rw [show (newModule .plain (some "enclosing_module") w).1 = w.mods.length from rfl, ← hw1, ei]
    have he' : getInputTriggers (nodes.map (fun v => (flattenNode h v).1)) r pl = .error e := he
    simp only [he']

theorem neuronsFuel_congr {w w' : World K} (h1 : w.own = w'.own) (h2 : w.sub = w'.sub) :
    ∀ f m, w.neuronsFuel f m = w'.neuronsFuel f m
  | 0, _ => rfl
  | f + 1, m => by
    have e1 : w.subnetworks m = w'.subnetworks m := by unfold World.subnetworks; rw [h2]
    have e2 : w.topNeurons m = w'.topNeurons m := by unfold World.topNeurons; rw [h1]
    have e3 : (fun s => w.neuronsFuel f s) = fun s => w'.neuronsFuel f s := funext (neuronsFuel_congr h1 h2 f)
    rw [World.neuronsFuel, World.neuronsFuel, e1, e2, e3]

/-- The neurons of a compiled network: `net.neurons` does not raise. -/
theorem placed_neurons {h : SHeap K} {norm : K} {nodes : List ℕ} {w w2 w' : World K} {pl2 : Plugs}
    {mB nB : ℕ → ℕ} (hw : w.OK)
    (P : Placed h norm w.mods.length nodes (newModule .plain (some "enclosing_module") w).2 w2 (fun _ => none) pl2 mB nB)
    (hw' : w' = { w2 with syns := w'.syns }) :
    ∃ ns, w'.neurons w.mods.length = .ok ns ∧ ((w.sub.map (·.2)).Nodup → ns.Nodup) := by
  have eo : w'.own = w2.own := by rw [hw']
  have es : w'.sub = w2.sub := by rw [hw']
  have em : w'.mods = w2.mods := by rw [hw']
  have hlt : w.mods.length < (newModule (K := K) .plain (some "enclosing_module") w).2.mods.length := by simp [newModule]
  have hlen : w.mods.length < w2.mods.length := by
    obtain ⟨l, e⟩ := P.mods
    rw [e, List.length_append]; omega
  have hfuel : w'.neurons w.mods.length = w2.neurons w.mods.length := by
    unfold World.neurons World.mCount; rw [em]; exact neuronsFuel_congr eo es _ _
  have hup : ∀ a b, w.mods.length ≤ a → Child w2 a b → a < b := by
    intro a b ha hc
    rcases P.lt hlt _ hc with hx | hx
    · have := hw.sub_fst _ hx
      simp only [World.mCount] at this; omega
    · exact hx
  have hin : ∀ m, InTree w2 w.mods.length m → w.mods.length ≤ m := by
    intro m hm
    induction hm with
    | refl => exact le_rfl
    | tail h1 h2 ih => exact ih.trans (hup _ _ ih h2).le
  have htr : ∀ m m', w.mods.length ≤ m → Relation.TransGen (Child w2) m m' → m < m' := by
    intro m m' hm ht
    induction ht with
    | single h1 => exact hup _ _ hm h1
    | tail h1 h2 ih => exact ih.trans (hup _ _ (by omega) h2)
  have hac : ¬ Cyclic w2 w.mods.length := fun ⟨m, h1, h2⟩ => absurd (htr m m (hin m h1) h2) (lt_irrefl m)
  rw [hfuel]
  cases e : w2.neurons w.mods.length with
  | error err => exact (hac (neurons_error_cyclic P.bd hlen e).2).elim
  | ok ns => exact ⟨ns, rfl, fun hnd => neuronsFuel_nodup P.bd (P.nd hnd hlt) hac e⟩

/-- Every neuron of the compiled network belongs to the module of exactly one operation. -/
theorem faithful_mem {h : SHeap K} {root : ℕ} {r : K} {w w' : World K} {plan : Plan K} {L : Layout}
    (F : Faithful h root r w w' plan L) {ns : List ℕ} (hns : w'.neurons plan.net = .ok ns) (n : ℕ) :
    n ∈ ns ↔ ∃ v ∈ L.nodes, Inside w' (L.place v) n := by
  rw [neuronsFuel_mem hns]
  have hsub : ∀ c, Child w' plan.net c ↔ ∃ v ∈ L.nodes, L.place v = c := by
    intro c; rw [← mem_subnetworks, F.modules, List.mem_map]
  constructor
  · rintro ⟨m', h1, h2⟩
    rcases Relation.ReflTransGen.cases_head h1 with rfl | ⟨c, hc, h3⟩
    · have : n ∈ w'.topNeurons plan.net := mem_topNeurons.mpr h2
      rw [F.top] at this; cases this
    · obtain ⟨v, hv, rfl⟩ := (hsub c).mp hc
      exact ⟨v, hv, m', h3, h2⟩
  · rintro ⟨v, hv, m', h3, h2⟩
    exact ⟨m', .head ((hsub _).mpr ⟨v, hv, rfl⟩) h3, h2⟩

theorem wire_mem {h : SHeap K} {L : Layout} {s : Synapse K} (hs : s ∈ operandWires h L) :
    ∃ v ∈ L.nodes, ∃ k p, (h.prev v)[k]? = some p ∧ s ∈ wire (L.out p) (L.inp v k) := by
  obtain ⟨v, hv, hs⟩ := List.mem_flatMap.mp hs
  obtain ⟨⟨p, k⟩, hx, hs⟩ := List.mem_flatMap.mp hs
  exact ⟨v, hv, k, p, List.mem_zipIdx_iff_getElem?.mp hx, hs⟩

/-- A program compiled in a fresh process is a well-formed network. -/
theorem compiled_wf {h : SHeap K} {root : ℕ} {r : K} {w' : World K} {plan : Plan K} {L : Layout}
    (F : Faithful h root r World.empty w' plan L) (hg : ∀ v ∈ L.nodes, GoodNode h v)
    (hpar : ∀ o ∈ w'.neus, o.par = ⟨10, 100, 20, 0⟩) (hok : ∀ x ∈ w'.own, x.2 < w'.neus.length)
    {ns : List ℕ} (hns : w'.neurons plan.net = .ok ns) :
    WellFormed (w'.net ns) ∧ ∀ n ∈ ns, w'.par n = ⟨10, 100, 20, 0⟩ := by
  have hp : ∀ n ∈ ns, w'.par n = ⟨10, 100, 20, 0⟩ := by
    intro n hn
    obtain ⟨m', -, ho⟩ := (neuronsFuel_mem hns n).mp hn
    have hlt := hok _ ho
    unfold World.par
    rw [List.getElem?_eq_getElem (by simpa using hlt)]
    exact hpar _ (by rw [← List.mem_reverse]; exact List.getElem_mem _)
  obtain ⟨inner, e, h1, h2⟩ := F.synapses
  have e' : (w'.net ns).syns = inner ++ operandWires h L := by
    show w'.syns.reverse = _; rw [e]; rfl
  refine ⟨⟨?_, ?_, ?_, ?_, ?_⟩, hp⟩
  · intro s hs
    rw [e'] at hs
    show s.post ∈ ns
    rw [faithful_mem F hns]
    rcases List.mem_append.mp hs with hs | hs
    · obtain ⟨v, hv, -, h3⟩ := h1 s hs; exact ⟨v, hv, h3⟩
    · obtain ⟨v, hv, k, p, hk, hs⟩ := wire_mem hs
      have hk' : k < (inNames (h.op v)).length := by
        rw [inNames_length (hg v hv).1, ← (hg v hv).2]; exact (List.getElem?_eq_some_iff.mp hk).1
      obtain ⟨o1, o2, -, -⟩ := F.inp v hv k _ (List.getElem?_eq_getElem hk')
      simp only [wire, List.mem_cons, List.not_mem_nil, or_false] at hs
      rcases hs with rfl | rfl
      · exact ⟨v, hv, _, .refl, o1⟩
      · exact ⟨v, hv, _, .refl, o2⟩
  · intro s hs
    rw [e'] at hs
    rcases List.mem_append.mp hs with hs | hs
    · obtain ⟨v, hv, hs⟩ := List.mem_flatMap.mp (h2.mem_iff.mp hs)
      obtain ⟨t, ht, rfl⟩ := List.mem_map.mp hs
      exact (spawnFacts r (hg v hv).1).ok.kinds t ht
    · obtain ⟨v, hv, k, p, hk, hs⟩ := wire_mem hs
      simp only [wire, List.mem_cons, List.not_mem_nil, or_false] at hs
      rcases hs with rfl | rfl <;> exact Or.inl rfl
  all_goals
    intro n hn
    show _
    have := hp n hn
    simp only [World.net, this]
    norm_num

end Axon
