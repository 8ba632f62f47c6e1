import Verif.Props.Compiler
import Verif.Proofs.LinBuild
import Verif.Proofs.Signed

/-! # The modules of a compiled program sit unchanged in the compiled network -/
set_option linter.unusedSectionVars false
namespace Axon
open Spec
variable {K : Type*} [Field K] [LinearOrder K] [IsStrictOrderedRing K]

theorem flatMap_only {α β : Type*} {f : α → List β} {v : α} : ∀ {l : List α}, l.Nodup → v ∈ l → (∀ u ∈ l, u ≠ v → f u = []) →
    l.flatMap f = f v
  | [], _, h, _ => by simp at h
  | u :: l, hn, hv, hf => by
    rw [List.nodup_cons] at hn
    rw [List.flatMap_cons]
    by_cases e : u = v
    · subst e
      have : l.flatMap f = [] := by
        rw [List.flatMap_eq_nil_iff]
        intro w hw
        exact hf w (List.mem_cons_of_mem _ hw) (fun h => hn.1 (h ▸ hw))
      rw [this, List.append_nil]
    · rw [hf u List.mem_cons_self e, List.nil_append]
      refine flatMap_only hn.2 ((List.mem_cons.mp hv).resolve_left (fun h => e h.symm)) (fun w hw => hf w (List.mem_cons_of_mem _ hw))

theorem filter_flatMap {α β : Type*} (p : β → Bool) (f : α → List β) (l : List α) :
    (l.flatMap f).filter p = l.flatMap (fun a => (f a).filter p) := by
  induction l with
  | nil => rfl
  | cons a l ih => simp [List.flatMap_cons, ih]

section
variable {h : SHeap K} {root : ℕ} {r : K} {w' : World K} {plan : Plan K} {L : Layout} {ns : List ℕ}

/-- Neurons of different modules are different. -/
theorem off_inj (F : Faithful h root r World.empty w' plan L) {u v : ℕ} (hu : u ∈ L.nodes) (hv : v ∈ L.nodes) {j k : ℕ}
    (hj : j < (spawnEmpty (h.op u) r).2.neus.length) (hk : k < (spawnEmpty (h.op v) r).2.neus.length)
    (e : L.off u + j = L.off v + k) : u = v :=
  F.disjoint u hu v hv (L.off u + j) ((F.copy u hu _).mpr ⟨j, hj, rfl⟩) ((F.copy v hv _).mpr ⟨k, hk, e⟩)

/-- The number of an input rail inside its module. -/
def portNo (S : Spawned) (k : ℕ) : Header := (S.ins[k]?).getD ⟨0, 0⟩

theorem inp_at (F : Faithful h root r World.empty w' plan L) {v : ℕ} (hv : v ∈ L.nodes) (hg : GoodNode h v) {k : ℕ}
    (hk : k < (h.prev v).length) :
    L.inp v k = (portNo (spawnEmpty (h.op v) r).1 k).shift (L.off v) ∧
      (portNo (spawnEmpty (h.op v) r).1 k).plus < (spawnEmpty (h.op v) r).2.neus.length ∧
      (portNo (spawnEmpty (h.op v) r).1 k).minus < (spawnEmpty (h.op v) r).2.neus.length := by
  have hf := spawnFacts r hg.1
  rw [hg.2] at hk
  have e := F.inpCopy v hv k hk
  have hl : k < (spawnEmpty (h.op v) r).1.ins.length := by rw [hf.ins]; exact hk
  rw [List.getElem?_eq_getElem hl] at e
  have e2 : portNo (spawnEmpty (h.op v) r).1 k = (spawnEmpty (h.op v) r).1.ins[k] := by
    unfold portNo; rw [List.getElem?_eq_getElem hl]; rfl
  rw [e2]
  refine ⟨Option.some.inj e, ?_⟩
  have hk' : k < (inNames (h.op v)).length := by rw [inNames_length hg.1]; exact hk
  obtain ⟨o1, o2, -, -⟩ := hf.inp k _ _ (List.getElem?_eq_getElem hl) (List.getElem?_eq_getElem hk')
  exact ⟨(hf.ok.own_bd _ o1).2, (hf.ok.own_bd _ o2).2⟩

/-- All synapses onto neuron `k` of the module of `v`: those of the module, and the wires from the operands. -/
theorem placed_ins (F : Faithful h root r World.empty w' plan L) (hg : ∀ v ∈ L.nodes, GoodNode h v) {v : ℕ} (hv : v ∈ L.nodes) {k : ℕ}
    (hk : k < (spawnEmpty (h.op v) r).2.neus.length) :
    InS (w'.net ns) (L.off v + k) ((insOf (spawnEmpty (h.op v) r).2.syns k).map (Synapse.shift (L.off v)) ++
      ((h.prev v).zipIdx.flatMap (fun x => (wire (K := K) (L.out x.1) (L.inp v x.2)).filter (fun s => s.post = L.off v + k)))) := by
  obtain ⟨inner, e, -, hp⟩ := F.synapses
  have e' : (w'.net ns).syns = inner ++ operandWires h L := by
    show w'.syns.reverse = _; rw [e]; rfl
  unfold InS
  rw [e', List.filter_append]
  refine List.Perm.append ?_ (List.Perm.of_eq ?_)
  · refine (hp.filter _).trans (List.Perm.of_eq ?_)
    rw [filter_flatMap, flatMap_only F.nodup hv]
    · unfold insOf
      rw [List.filter_map]
      congr 1
      apply List.filter_congr
      intro s _
      simp [Synapse.shift]
    · intro u hu hne
      rw [List.filter_eq_nil_iff]
      intro s hs hc
      obtain ⟨t, ht, rfl⟩ := List.mem_map.mp hs
      have hc' : L.off u + t.post = L.off v + k := of_decide_eq_true hc
      exact hne (off_inj F hu hv ((spawnFacts r (hg u hu).1).ok.syn_bd t ht).2 hk hc')
  · unfold operandWires
    rw [filter_flatMap, flatMap_only F.nodup hv, filter_flatMap]
    intro u hu hne
    rw [List.filter_eq_nil_iff]
    intro s hs hc
    have hc' : s.post = L.off v + k := of_decide_eq_true hc
    obtain ⟨⟨p, j⟩, hx, hs⟩ := List.mem_flatMap.mp hs
    have hj : j < (h.prev u).length := (List.getElem?_eq_some_iff.mp (List.mem_zipIdx_iff_getElem?.mp hx)).1
    obtain ⟨i1, i2, i3⟩ := inp_at F hu (hg u hu) hj
    simp only [wire, List.mem_cons, List.not_mem_nil, or_false] at hs
    rcases hs with rfl | rfl
    · simp only [i1, Header.shift] at hc'
      exact hne (off_inj F hu hv i2 hk hc')
    · simp only [i1, Header.shift] at hc'
      exact hne (off_inj F hu hv i3 hk hc')

/-- A neuron of a module that is no input rail has only the synapses of the module. -/
theorem placed_inner (F : Faithful h root r World.empty w' plan L) (hg : ∀ v ∈ L.nodes, GoodNode h v) {v : ℕ} (hv : v ∈ L.nodes) {k : ℕ}
    (hk : k < (spawnEmpty (h.op v) r).2.neus.length)
    (hp : ∀ j < (h.prev v).length, (portNo (spawnEmpty (h.op v) r).1 j).plus ≠ k ∧ (portNo (spawnEmpty (h.op v) r).1 j).minus ≠ k) :
    InS (w'.net ns) (L.off v + k) ((insOf (spawnEmpty (h.op v) r).2.syns k).map (Synapse.shift (L.off v))) := by
  have := placed_ins (ns := ns) F hg hv hk
  rw [show ((h.prev v).zipIdx.flatMap (fun x => (wire (K := K) (L.out x.1) (L.inp v x.2)).filter (fun s => s.post = L.off v + k))) = [] from ?_,
    List.append_nil] at this
  · exact this
  · rw [List.flatMap_eq_nil_iff]
    rintro ⟨p, j⟩ hx
    have hj : j < (h.prev v).length := (List.getElem?_eq_some_iff.mp (List.mem_zipIdx_iff_getElem?.mp hx)).1
    obtain ⟨i1, -, -⟩ := inp_at F hv (hg v hv) hj
    have := hp j hj
    simp [wire, i1, Header.shift, this.1, this.2]

/-- What is injected into a neuron of the module of `v`. -/
theorem placed_inj (F : Faithful h root r World.empty w' plan L) (hg : ∀ v ∈ L.nodes, GoodNode h v) (enc : Encoder K) {v : ℕ} (hv : v ∈ L.nodes) {k : ℕ}
    (hk : k < (spawnEmpty (h.op v) r).2.neus.length) :
    injTimes (loadSpikes enc h r L) (L.off v + k) =
      if h.op v = .load ∧ (if 0 ≤ h.data v then (L.out v).plus else (L.out v).minus) = L.off v + k then
        [0, enc.Tmin + |h.data v| / r * enc.Tcod] else [] := by
  generalize hrail : (if 0 ≤ h.data v then (L.out v).plus else (L.out v).minus) = rail
  have hout : ∀ u ∈ L.nodes, ∀ n, (if 0 ≤ h.data u then (L.out u).plus else (L.out u).minus) = n →
      ∃ j < (spawnEmpty (h.op u) r).2.neus.length, n = L.off u + j := by
    intro u hu n e
    have hf := spawnFacts r (hg u hu).1
    obtain ⟨o1, o2, -, -⟩ := hf.out
    rw [F.outCopy u hu] at e
    subst e
    split
    · exact ⟨_, (hf.ok.own_bd _ o1).2, rfl⟩
    · exact ⟨_, (hf.ok.own_bd _ o2).2, rfl⟩
  unfold injTimes loadSpikes
  rw [filter_flatMap]
  by_cases hl : h.op v = .load
  · rw [flatMap_only (F.nodup.filter _) (List.mem_filter.mpr ⟨hv, by simpa using hl⟩)]
    · by_cases he : rail = L.off v + k
      · simp [hl, hrail, he]
      · simp [hrail, he]
    · intro u hu hne
      rw [List.filter_eq_nil_iff]
      intro q hq hc
      have hc' : q.1 = L.off v + k := of_decide_eq_true hc
      have hu' := (List.mem_filter.mp hu).1
      obtain ⟨j, hj, e⟩ := hout u hu' q.1 (by
        simp only [List.mem_cons, List.not_mem_nil, or_false] at hq
        rcases hq with rfl | rfl <;> rfl)
      exact hne (off_inj F hu' hv hj hk (e.symm.trans hc'))
  · rw [if_neg (fun h => hl h.1), List.map_eq_nil_iff, List.flatMap_eq_nil_iff]
    intro u hu
    rw [List.filter_eq_nil_iff]
    intro q hq hc
    have hc' : q.1 = L.off v + k := of_decide_eq_true hc
    obtain ⟨hu', hul⟩ := List.mem_filter.mp hu
    obtain ⟨j, hj, e⟩ := hout u hu' q.1 (by
      simp only [List.mem_cons, List.not_mem_nil, or_false] at hq
      rcases hq with rfl | rfl <;> rfl)
    have := off_inj F hu' hv hj hk (e.symm.trans hc')
    subst this
    exact hl (by simpa using hul)

end
end Axon
