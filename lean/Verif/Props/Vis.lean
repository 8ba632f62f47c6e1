import Verif.Model.Vis
import Verif.Spec.Vis
import Verif.Proofs.Modules
import Verif.Props.Modules
import Verif.Proofs.Run
import Verif.Props.Simulator

/-! # C65, C66, C67, C69: topology view and chronogram -/
set_option linter.unusedSectionVars false
namespace Axon
open Spec
variable {K : Type*}

theorem region_unique {w : World K} (hw : w.OK) {m : ℕ} (hf : Forest w m) {n g g' : ℕ} (h : Region w m n g)
    (h' : Region w m n g') : g = g' := by
  have key : ∀ {g g' x : ℕ}, Child w m g → Child w m g' → InTree w g g' → g = g' := by
    intro g g' _ h1 h2 h3
    rcases Relation.ReflTransGen.cases_tail h3 with rfl | ⟨p, h4, h5⟩
    · rfl
    · rw [parent_unique hf.once h5 h2] at h4
      exact (hf.acyclic ⟨m, .refl, Relation.TransGen.head' h1 h4⟩).elim
  have key2 : ∀ {g : ℕ}, Owns w m n → Child w m g → Within w g n → False := by
    rintro g h1 h2 ⟨m', h3, h4⟩
    rw [hw.owner_unique h4 h1] at h3
    exact hf.acyclic ⟨m, .refl, Relation.TransGen.head' h2 h3⟩
  rcases h with ⟨rfl, h1⟩ | ⟨h1, h2⟩
  · rcases h' with ⟨rfl, -⟩ | ⟨h3, h4⟩
    · rfl
    · exact (key2 h1 h3 h4).elim
  · rcases h' with ⟨rfl, h3⟩ | ⟨h3, h4⟩
    · exact (key2 h3 h1 h2).elim
    · obtain ⟨a, ha, ha'⟩ := h2
      obtain ⟨b, hb, hb'⟩ := h4
      rw [hw.owner_unique hb' ha'] at hb
      rcases ancestors_comparable hf.once ha hb with h | h
      · exact key (x := 0) h1 h3 h
      · exact (key (x := 0) h3 h1 h).symm

theorem foldl_const_update (l : List ℕ) (s : ℕ) : ∀ (d : ℕ → Option ℕ) (n : ℕ),
    (l.foldl (fun d n => Function.update d n (some s)) d) n = if n ∈ l then some s else d n := by
  induction l with
  | nil => intro d n; simp
  | cons a l ih =>
    intro d n
    rw [List.foldl_cons, ih]
    by_cases h : n ∈ l
    · simp [h]
    · by_cases h' : n = a
      · subst h'; simp [h]
      · simp [h, h', Function.update_of_ne]

theorem neurons_child {w : World K} (hw : w.OK) {m : ℕ} (hf : Forest w m) {c : ℕ} (hc : Child w m c) :
    ∃ l, w.neurons c = .ok l := by
  cases h : w.neurons c with
  | ok l => exact ⟨l, rfl⟩
  | error e => exact (acyclic_child hf.acyclic hc (neurons_error_cyclic hw (hw.sub_snd _ hc) h).2).elim

theorem mapFold {w : World K} (hw : w.OK) {m : ℕ} (hf : Forest w m) : ∀ (l : List ℕ) (d : ℕ → Option ℕ),
    (∀ s ∈ l, Child w m s) → (∀ n g, d n = some g → Region w m n g) →
    ∃ d', l.foldlM w.mapSubnet d = .ok d' ∧ (∀ n g, d' n = some g → Region w m n g) ∧
      (∀ n, (d n).isSome → (d' n).isSome) ∧ ∀ s ∈ l, ∀ n, Within w s n → (d' n).isSome := by
  intro l
  induction l with
  | nil => intro d _ hd; exact ⟨d, rfl, hd, fun _ h => h, by simp⟩
  | cons s l ih =>
    intro d hl hd
    obtain ⟨ns, hns⟩ := neurons_child hw hf (hl s (by simp))
    have hmem : ∀ n, n ∈ ns ↔ Within w s n := fun n => C07_members hns n
    obtain ⟨d', h1, h2, h3, h4⟩ := ih (ns.foldl (fun d n => Function.update d n (some s)) d)
      (fun x hx => hl x (by simp [hx])) (by
        intro n g hg
        rw [foldl_const_update] at hg
        split_ifs at hg with hn
        · cases hg; exact Or.inr ⟨hl s (by simp), (hmem n).mp hn⟩
        · exact hd n g hg)
    refine ⟨d', ?_, h2, ?_, ?_⟩
    · rw [List.foldlM_cons]
      have : w.mapSubnet d s = .ok (ns.foldl (fun d n => Function.update d n (some s)) d) := by
        unfold World.mapSubnet; rw [hns]
      rw [this]; exact h1
    · intro n hn
      refine h3 n ?_
      rw [foldl_const_update]; split_ifs
      · rfl
      · exact hn
    · intro x hx n hwn
      rcases List.mem_cons.mp hx with rfl | hx
      · refine h3 n ?_
        rw [foldl_const_update, if_pos ((hmem n).mpr hwn)]; rfl
      · exact h4 x hx n hwn

/-- The mapping used by the view: each neuron of the tree is mapped to its region. -/
theorem neuronToNet_spec {w : World K} (hw : w.OK) {m : ℕ} (hf : Forest w m) :
    ∃ d, w.neuronToNet m = .ok d ∧ ∀ n g, d n = some g ↔ Region w m n g := by
  obtain ⟨d', h1, h2, h3, h4⟩ := mapFold hw hf (w.subnetworks m)
    ((w.topNeurons m).foldl (fun d n => Function.update d n (some m)) (fun _ => none))
    (fun s hs => mem_subnetworks.mp hs) (by
      intro n g hg
      rw [foldl_const_update] at hg
      split_ifs at hg with hn
      cases hg; exact Or.inl ⟨rfl, mem_topNeurons.mp hn⟩)
  refine ⟨d', h1, fun n g => ⟨h2 n g, fun h => ?_⟩⟩
  have hs : (d' n).isSome := by
    rcases h with ⟨-, h⟩ | ⟨h, h'⟩
    · refine h3 n ?_
      rw [foldl_const_update, if_pos (mem_topNeurons.mpr h)]; rfl
    · exact h4 g (mem_subnetworks.mpr h) n h'
  obtain ⟨g', hg'⟩ := Option.isSome_iff_exists.mp hs
  rw [hg', region_unique hw hf (h2 n g' hg') h]

theorem region_exists_iff {w : World K} {m : ℕ} {l : List ℕ} (h : w.neurons m = .ok l) (n : ℕ) :
    n ∈ l ↔ ∃ g, Region w m n g := by
  rw [C07_members h n]
  constructor
  · rintro ⟨m', h1, h2⟩
    rcases Relation.ReflTransGen.cases_head h1 with rfl | ⟨c, h3, h4⟩
    · exact ⟨m, Or.inl ⟨rfl, h2⟩⟩
    · exact ⟨c, Or.inr ⟨h3, m', h4, h2⟩⟩
  · rintro ⟨g, ⟨rfl, h1⟩ | ⟨h1, m', h2, h3⟩⟩
    · exact ⟨g, .refl, h1⟩
    · exact ⟨m', .head h1 h2, h3⟩

theorem mem_setAdd {l : List ℕ} {x y : ℕ} : y ∈ setAdd l x ↔ y ∈ l ∨ y = x := by
  unfold setAdd; split_ifs with h
  · exact ⟨Or.inl, fun h' => h'.elim id (by rintro rfl; exact h)⟩
  · simp

theorem setAdd_nodup {l : List ℕ} (h : l.Nodup) (x : ℕ) : (setAdd l x).Nodup := by
  unfold setAdd; split_ifs with h'
  · exact h
  · rw [List.nodup_append]; exact ⟨h, by simp, by simpa using fun a ha (e : a = x) => h' (by rw [← e]; exact ha)⟩

theorem addSyn_fold (L : List (Synapse K × ℕ)) : ∀ acc : List ℕ × List ℕ, acc.1.Nodup → acc.2.Nodup →
    (L.foldl addSyn acc).1.Nodup ∧ (L.foldl addSyn acc).2.Nodup ∧
    (∀ n, n ∈ (L.foldl addSyn acc).1 ↔ n ∈ acc.1 ∨ ∃ x ∈ L, n = x.1.pre ∨ n = x.1.post) ∧
    (∀ i, i ∈ (L.foldl addSyn acc).2 ↔ i ∈ acc.2 ∨ ∃ x ∈ L, x.2 = i) := by
  induction L with
  | nil => intro acc h1 h2; exact ⟨h1, h2, by simp, by simp⟩
  | cons x L ih =>
    intro acc h1 h2
    obtain ⟨a, b, c, d⟩ := ih (addSyn acc x) (setAdd_nodup (setAdd_nodup h1 _) _) (setAdd_nodup h2 _)
    refine ⟨a, b, fun n => ?_, fun i => ?_⟩
    · rw [List.foldl_cons, c n]
      simp only [addSyn, mem_setAdd, List.mem_cons, exists_eq_or_imp, or_assoc]
    · rw [List.foldl_cons, d i]
      simp only [addSyn, mem_setAdd, List.mem_cons, exists_eq_or_imp]
      constructor
      · rintro ((h | h) | h)
        exacts [Or.inl h, Or.inr (Or.inl h.symm), Or.inr (Or.inr h)]
      · rintro (h | h | h)
        exacts [Or.inl (Or.inl h), Or.inl (Or.inr h.symm), Or.inr h]

theorem cross_fold (d : ℕ → Option ℕ) : ∀ (L : List (Synapse K × ℕ)) (acc : List ℕ × List ℕ),
    ((∀ x ∈ L, (d x.1.pre).isSome ∧ (d x.1.post).isSome) →
      L.foldlM (crossStep d) acc = .ok ((L.filter (fun x => d x.1.pre ≠ d x.1.post)).foldl addSyn acc)) ∧
    ((∃ x ∈ L, (d x.1.pre).isSome ∧ d x.1.post = none) → (∀ x ∈ L, (d x.1.pre).isSome) →
      L.foldlM (crossStep d) acc = .error .keyError) := by
  intro L
  induction L with
  | nil => intro acc; exact ⟨fun _ => rfl, by simp⟩
  | cons x L ih =>
    intro acc
    constructor
    · intro h
      obtain ⟨⟨a, ha⟩, ⟨b, hb⟩⟩ := (h x (by simp)).imp Option.isSome_iff_exists.mp Option.isSome_iff_exists.mp
      rw [List.foldlM_cons]
      have : crossStep d acc x = .ok (if a ≠ b then addSyn acc x else acc) := by
        unfold crossStep; rw [ha, hb]
      rw [this]
      refine ((ih _).1 (fun y hy => h y (by simp [hy]))).trans ?_
      by_cases e : a = b
      · simp [ha, hb, e]
      · simp [ha, hb, e]
    · rintro ⟨y, hy, hy1, hy2⟩ hp
      obtain ⟨a, ha⟩ := Option.isSome_iff_exists.mp (hp x (by simp))
      rw [List.foldlM_cons]
      cases hb : d x.1.post with
      | none =>
        have : crossStep d acc x = .error .keyError := by unfold crossStep; rw [ha, hb]
        rw [this]; rfl
      | some b =>
        have : crossStep d acc x = .ok (if a ≠ b then addSyn acc x else acc) := by
          unfold crossStep; rw [ha, hb]
        rw [this]
        rcases List.mem_cons.mp hy with rfl | hy
        · rw [hb] at hy2; cases hy2
        · exact (ih _).2 ⟨y, hy, hy1, hy2⟩ (fun z hz => hp z (by simp [hz]))

theorem mem_outSyns {w : World K} {n : ℕ} {x : Synapse K × ℕ} :
    x ∈ w.outSyns n ↔ w.synAt x.2 = some x.1 ∧ x.1.pre = n := by
  unfold World.outSyns World.synAt
  rw [List.mem_filter, List.mem_zipIdx_iff_getElem?]; simp

theorem synAt_mem {w : World K} {i : ℕ} {s : Synapse K} (h : w.synAt i = some s) : s ∈ w.syns := by
  simpa using List.mem_of_getElem? h

theorem exists_synAt {w : World K} {s : Synapse K} (h : s ∈ w.syns) : ∃ i, w.synAt i = some s :=
  List.mem_iff_getElem?.mp (List.mem_reverse.mpr h)

theorem neurons_ok {w : World K} (hw : w.OK) {m : ℕ} (hm : m < w.mCount) (hf : Forest w m) : ∃ l, w.neurons m = .ok l := by
  cases h : w.neurons m with
  | ok l => exact ⟨l, rfl⟩
  | error e => exact (hf.acyclic (neurons_error_cyclic hw hm h).2).elim

/-- C65: if every synapse that starts inside the net also ends inside it, the view shows exactly the synapses
that start in a top-level neuron or connect different regions, each once, and exactly their endpoints. -/
theorem C65_display {w : World K} (hw : Built w) {m : ℕ} (hm : m < w.mCount) (hf : Forest w m)
    (hclosed : ∀ s ∈ w.syns, Within w m s.pre → Within w m s.post) :
    ∃ ns ss, w.display m = .ok (ns, ss) ∧ ns.Nodup ∧ ss.Nodup ∧
      (∀ i, i ∈ ss ↔ ∃ s, w.synAt i = some s ∧
        (Owns w m s.pre ∨ ∃ g g', Region w m s.pre g ∧ Region w m s.post g' ∧ g ≠ g')) ∧
      (∀ n, n ∈ ns ↔ ∃ i ∈ ss, ∃ s, w.synAt i = some s ∧ (n = s.pre ∨ n = s.post)) := by
  obtain ⟨d, hd, hd'⟩ := neuronToNet_spec hw.ok hf
  obtain ⟨l, hl⟩ := neurons_ok hw.ok hm hf
  have hin : ∀ n, n ∈ l ↔ Within w m n := fun n => C07_members hl n
  have hsome : ∀ n, (d n).isSome ↔ n ∈ l := by
    intro n
    rw [region_exists_iff hl, Option.isSome_iff_exists]
    exact exists_congr (hd' n)
  have hc := (cross_fold d (l.flatMap w.outSyns) (((w.topNeurons m).flatMap w.outSyns).foldl addSyn ([], []))).1 (by
    intro x hx
    obtain ⟨n, hn, hx⟩ := List.mem_flatMap.mp hx
    obtain ⟨h1, rfl⟩ := mem_outSyns.mp hx
    exact ⟨(hsome _).mpr hn, (hsome _).mpr ((hin _).mpr (hclosed _ (synAt_mem h1) ((hin _).mp hn)))⟩)
  rw [← List.foldl_append] at hc
  obtain ⟨h1, h2, h3, h4⟩ := addSyn_fold ((w.topNeurons m).flatMap w.outSyns ++
    (l.flatMap w.outSyns).filter (fun x => d x.1.pre ≠ d x.1.post)) ([], []) .nil .nil
  have hx : ∀ x : Synapse K × ℕ, x ∈ (w.topNeurons m).flatMap w.outSyns ++
      (l.flatMap w.outSyns).filter (fun x => d x.1.pre ≠ d x.1.post) ↔ w.synAt x.2 = some x.1 ∧
        (Owns w m x.1.pre ∨ ∃ g g', Region w m x.1.pre g ∧ Region w m x.1.post g' ∧ g ≠ g') := by
    intro x
    simp only [List.mem_append, List.mem_flatMap, mem_outSyns, List.mem_filter, decide_eq_true_eq]
    constructor
    · rintro (⟨n, hn, h, rfl⟩ | ⟨⟨n, hn, h, rfl⟩, hne⟩)
      · exact ⟨h, Or.inl (mem_topNeurons.mp hn)⟩
      · refine ⟨h, Or.inr ?_⟩
        obtain ⟨g, hg⟩ := Option.isSome_iff_exists.mp ((hsome _).mpr hn)
        obtain ⟨g', hg'⟩ := Option.isSome_iff_exists.mp
          ((hsome _).mpr ((hin _).mpr (hclosed _ (synAt_mem h) ((hin _).mp hn))))
        exact ⟨g, g', (hd' _ _).mp hg, (hd' _ _).mp hg', fun e => hne (by rw [hg, hg', e])⟩
    · rintro ⟨h, h' | ⟨g, g', hg, hg', hne⟩⟩
      · exact Or.inl ⟨_, mem_topNeurons.mpr h', h, rfl⟩
      · refine Or.inr ⟨⟨_, (region_exists_iff hl _).mpr ⟨g, hg⟩, h, rfl⟩, ?_⟩
        rw [(hd' _ _).mpr hg, (hd' _ _).mpr hg']
        simpa using hne
  refine ⟨_, _, ?_, h1, h2, ?_, ?_⟩
  · unfold World.display
    simp only [hd, hl]
    exact hc
  · intro i
    rw [h4 i]
    simp only [List.not_mem_nil, false_or]
    constructor
    · rintro ⟨x, hx1, rfl⟩; exact ⟨x.1, (hx x).mp hx1⟩
    · rintro ⟨s, hs⟩; exact ⟨(s, i), (hx (s, i)).mpr hs, rfl⟩
  · intro n
    rw [h3 n]
    simp only [List.not_mem_nil, false_or]
    constructor
    · rintro ⟨x, hx1, hn⟩
      exact ⟨x.2, (h4 _).mpr (Or.inr ⟨x, hx1, rfl⟩), x.1, ((hx x).mp hx1).1, hn⟩
    · rintro ⟨i, hi, s, hs, hn⟩
      obtain ⟨x, hx1, rfl⟩ := ((h4 _).mp hi).resolve_left (by simp)
      have := ((hx x).mp hx1).1
      rw [hs] at this; cases this
      exact ⟨x, hx1, hn⟩

/-- C65: a synapse that leaves the net makes the view fail with KeyError. -/
theorem C65_foreign_target {w : World K} (hw : Built w) {m : ℕ} (hm : m < w.mCount) (hf : Forest w m)
    (hs : ∃ s ∈ w.syns, Within w m s.pre ∧ ¬ Within w m s.post) : w.display m = .error .keyError := by
  obtain ⟨d, hd, hd'⟩ := neuronToNet_spec hw.ok hf
  obtain ⟨l, hl⟩ := neurons_ok hw.ok hm hf
  have hin : ∀ n, n ∈ l ↔ Within w m n := fun n => C07_members hl n
  have hsome : ∀ n, (d n).isSome ↔ n ∈ l := by
    intro n
    rw [region_exists_iff hl, Option.isSome_iff_exists]
    exact exists_congr (hd' n)
  obtain ⟨s, hs1, hs2, hs3⟩ := hs
  obtain ⟨i, hi⟩ := exists_synAt hs1
  unfold World.display
  simp only [hd, hl]
  refine (cross_fold d (l.flatMap w.outSyns) _).2 ⟨(s, i), ?_, (hsome _).mpr ((hin _).mpr hs2), ?_⟩ ?_
  · exact List.mem_flatMap.mpr ⟨s.pre, (hin _).mpr hs2, mem_outSyns.mpr ⟨hi, rfl⟩⟩
  · cases h : d s.post with
    | none => rfl
    | some g => exact (hs3 ((hin _).mp ((hsome _).mp (by rw [h]; rfl)))).elim
  · intro x hx
    obtain ⟨n, hn, hx⟩ := List.mem_flatMap.mp hx
    obtain ⟨-, rfl⟩ := mem_outSyns.mp hx
    exact (hsome _).mpr hn

/-! ## Groups -/

theorem addElement_spec (d : List (ℕ × List ℕ)) (key v : ℕ) (hd : (d.map (·.1)).Nodup) :
    ((addElement d key v).map (·.1)).Nodup ∧
    (∀ k, k ∈ (addElement d key v).map (·.1) ↔ k ∈ d.map (·.1) ∨ k = key) ∧
    (∀ k vs, (k, vs) ∈ addElement d key v → k ≠ key → (k, vs) ∈ d) ∧
    (∀ k vs, (k, vs) ∈ d → k ≠ key → (k, vs) ∈ addElement d key v) ∧
    (∀ vs, (key, vs) ∈ addElement d key v → (∃ vs', (key, vs') ∈ d ∧ vs = vs' ++ [v]) ∨
      (key ∉ d.map (·.1) ∧ vs = [v])) := by
  induction d with
  | nil => simp [addElement]
  | cons x d ih =>
    obtain ⟨k, vs⟩ := x
    simp only [List.map_cons, List.nodup_cons] at hd
    obtain ⟨i1, i2, i3, i4, i5⟩ := ih hd.2
    unfold addElement
    by_cases h : k = key
    · subst h
      rw [if_pos rfl]
      refine ⟨by simpa using hd, ?_, ?_, ?_, ?_⟩
      · intro k'; simp only [List.map_cons, List.mem_cons]; tauto
      · intro k' vs' h1 h2
        rcases List.mem_cons.mp h1 with h1 | h1
        · exact (h2 (Prod.mk.inj h1).1).elim
        · exact List.mem_cons_of_mem _ h1
      · intro k' vs' h1 h2
        rcases List.mem_cons.mp h1 with h1 | h1
        · exact (h2 (Prod.mk.inj h1).1).elim
        · exact List.mem_cons_of_mem _ h1
      · intro vs' h1
        rcases List.mem_cons.mp h1 with h1 | h1
        · exact Or.inl ⟨vs, by simp, (Prod.mk.inj h1).2⟩
        · exact (hd.1 (List.mem_map.mpr ⟨_, h1, rfl⟩)).elim
    · rw [if_neg h]
      refine ⟨?_, ?_, ?_, ?_, ?_⟩
      · simp only [List.map_cons, List.nodup_cons]
        refine ⟨fun hk => ?_, i1⟩
        rcases (i2 k).mp hk with hk | hk
        · exact hd.1 hk
        · exact h hk
      · intro k'; simp only [List.map_cons, List.mem_cons, i2]; tauto
      · intro k' vs' h1 h2
        rcases List.mem_cons.mp h1 with h1 | h1
        · rw [h1]; simp
        · exact List.mem_cons_of_mem _ (i3 _ _ h1 h2)
      · intro k' vs' h1 h2
        rcases List.mem_cons.mp h1 with h1 | h1
        · rw [h1]; simp
        · exact List.mem_cons_of_mem _ (i4 _ _ h1 h2)
      · intro vs' h1
        rcases List.mem_cons.mp h1 with h1 | h1
        · exact (h (Prod.mk.inj h1).1.symm).elim
        · rcases i5 _ h1 with ⟨a, b, c⟩ | ⟨a, b⟩
          · exact Or.inl ⟨a, List.mem_cons_of_mem _ b, c⟩
          · refine Or.inr ⟨?_, b⟩
            simp only [List.map_cons, List.mem_cons, not_or]; exact ⟨fun e => h e.symm, a⟩

/-- `format_groups` groups the pairs: every group id once, its nodes those listed with that id, in order. -/
theorem formatGroups_spec (gs : List (ℕ × ℕ)) :
    ((formatGroups gs).map (·.1)).Nodup ∧ (∀ g, g ∈ (formatGroups gs).map (·.1) ↔ g ∈ gs.map (·.2)) ∧
    ∀ g vs, (g, vs) ∈ formatGroups gs → vs = (gs.filter (fun x => x.2 = g)).map (·.1) := by
  induction gs using List.reverseRecOn with
  | nil => simp [formatGroups]
  | append_singleton gs x ih =>
    obtain ⟨h1, h2, h3⟩ := ih
    have e : formatGroups (gs ++ [x]) = addElement (formatGroups gs) x.2 x.1 := by
      unfold formatGroups; rw [List.foldl_append]; rfl
    obtain ⟨a1, a2, a3, -, a5⟩ := addElement_spec (formatGroups gs) x.2 x.1 h1
    rw [e]
    refine ⟨a1, fun g => by rw [a2, h2]; simp, fun g vs hg => ?_⟩
    by_cases hgx : g = x.2
    · subst hgx
      rw [List.filter_append, List.map_append]
      simp only [decide_true, List.filter_cons_of_pos, List.filter_nil, List.map_cons, List.map_nil]
      rcases a5 vs hg with ⟨vs', h4, rfl⟩ | ⟨h4, rfl⟩
      · rw [h3 _ _ h4]
      · rw [h2] at h4
        have : gs.filter (fun y => decide (y.2 = x.2)) = [] := by
          rw [List.filter_eq_nil_iff]
          intro y hy hyx
          simp only [decide_eq_true_eq] at hyx
          exact h4 (List.mem_map.mpr ⟨y, hy, hyx⟩)
        rw [this]; rfl
    · rw [h3 g vs (a3 g vs hg hgx), List.filter_append]
      have : ¬ (x.2 = g) := fun e => hgx e.symm
      simp [this]

/-- C66: for any duplicate-free list of neurons of the net (such as the displayed ones), the groups are labelled
with distinct direct submodules, none is empty, and a neuron is listed in group `g` - exactly once - iff it is
displayed and belongs to the submodule `g`; neurons of the net itself are in no group. -/
theorem C66_groups {w : World K} (hw : Built w) {m : ℕ} (hf : Forest w m) {ns : List ℕ}
    (hnd : ns.Nodup) (hns : ∀ n ∈ ns, Within w m n) :
    ∃ gs, w.groups m ns = .ok gs ∧ ((formatGroups gs).map (·.1)).Nodup ∧
      (∀ g vs, (g, vs) ∈ formatGroups gs → Child w m g ∧ vs ≠ [] ∧ vs.Nodup) ∧
      (∀ n g, (∃ vs, (g, vs) ∈ formatGroups gs ∧ n ∈ vs) ↔ n ∈ ns ∧ Child w m g ∧ Within w g n) ∧
      (∀ n, Owns w m n → ∀ g vs, (g, vs) ∈ formatGroups gs → n ∉ vs) := by
  obtain ⟨d, hd, hd'⟩ := neuronToNet_spec hw.ok hf
  have hreg : ∀ n ∈ ns, ∃ g, Region w m n g := by
    intro n hn
    obtain ⟨m', h1, h2⟩ := hns n hn
    rcases Relation.ReflTransGen.cases_head h1 with rfl | ⟨c, h3, h4⟩
    · exact ⟨m, Or.inl ⟨rfl, h2⟩⟩
    · exact ⟨c, Or.inr ⟨h3, m', h4, h2⟩⟩
  have hmap : ns.mapM (lookupGroup d) = .ok (ns.map (fun n => (n, (d n).getD 0))) := by
    refine mapM_eq_map (fun n hn => ?_)
    obtain ⟨g, hg⟩ := hreg n hn
    unfold lookupGroup; rw [(hd' _ _).mpr hg]; rfl
  have hgs : w.groups m ns = .ok ((ns.map (fun n => (n, (d n).getD 0))).filter (fun x => x.2 ≠ m)) := by
    unfold World.groups; simp only [hd, hmap]
  set gs := (ns.map (fun n => (n, (d n).getD 0))).filter (fun x => x.2 ≠ m) with hgsdef
  have hmem : ∀ n g, (n, g) ∈ gs ↔ n ∈ ns ∧ Child w m g ∧ Within w g n := by
    intro n g
    rw [hgsdef, List.mem_filter, List.mem_map]
    simp only [Prod.mk.injEq, decide_eq_true_eq]
    constructor
    · rintro ⟨⟨n', hn', rfl, rfl⟩, hne⟩
      obtain ⟨g, hg⟩ := hreg n' hn'
      rw [(hd' _ _).mpr hg] at hne ⊢
      rcases hg with ⟨rfl, -⟩ | h
      · exact (hne rfl).elim
      · exact ⟨hn', h⟩
    · rintro ⟨hn, h1, h2⟩
      refine ⟨⟨n, hn, rfl, by rw [(hd' _ _).mpr (Or.inr ⟨h1, h2⟩)]; rfl⟩, ?_⟩
      rintro rfl
      exact hf.acyclic ⟨g, .refl, .single h1⟩
  have hgnd : (gs.map (·.1)).Nodup := by
    have : (ns.map (fun n => (n, (d n).getD 0))).map (·.1) = ns := by
      rw [List.map_map]; exact List.map_id' ns
    exact (List.Sublist.map (·.1) (List.filter_sublist (p := fun x : ℕ × ℕ => x.2 ≠ m))).nodup (this.symm ▸ hnd)
  obtain ⟨f1, f2, f3⟩ := formatGroups_spec gs
  have hmem2 : ∀ n g, (∃ vs, (g, vs) ∈ formatGroups gs ∧ n ∈ vs) ↔ n ∈ ns ∧ Child w m g ∧ Within w g n := by
    intro n g
    rw [← hmem n g]
    constructor
    · rintro ⟨vs, h1, h2⟩
      rw [f3 _ _ h1, List.mem_map] at h2
      obtain ⟨x, hx, rfl⟩ := h2
      rw [List.mem_filter] at hx
      have := of_decide_eq_true hx.2
      rw [← this]; exact hx.1
    · intro h
      obtain ⟨y, hy, hyg⟩ := List.mem_map.mp ((f2 g).mpr (List.mem_map.mpr ⟨_, h, rfl⟩))
      obtain ⟨g', vs⟩ := y
      simp only at hyg; subst hyg
      refine ⟨vs, hy, ?_⟩
      rw [f3 _ _ hy]
      exact List.mem_map.mpr ⟨_, List.mem_filter.mpr ⟨h, by simp⟩, rfl⟩
  refine ⟨gs, hgs, f1, ?_, hmem2, ?_⟩
  · intro g vs hg
    obtain ⟨x, hx, rfl⟩ := List.mem_map.mp ((f2 g).mp (List.mem_map.mpr ⟨_, hg, rfl⟩))
    have hc := ((hmem x.1 x.2).mp hx)
    have hvs := f3 _ _ hg
    refine ⟨hc.2.1, ?_, ?_⟩
    · intro he
      rw [he] at hvs
      have : x.1 ∈ (gs.filter (fun y => decide (y.2 = x.2))).map (·.1) :=
        List.mem_map.mpr ⟨x, List.mem_filter.mpr ⟨hx, by simp⟩, rfl⟩
      rw [← hvs] at this; simp at this
    · rw [hvs]
      exact (List.Sublist.map (fun y : ℕ × ℕ => y.1) List.filter_sublist).nodup hgnd
  · intro n ho g vs hg hn
    obtain ⟨-, h1, h2⟩ := (hmem2 n g).mp ⟨vs, hg, hn⟩
    have := region_unique hw.ok hf (Or.inl ⟨rfl, ho⟩) (Or.inr ⟨h1, h2⟩)
    subst this
    exact hf.acyclic ⟨m, .refl, .single h1⟩

/-- A net with an own neuron, two submodules and wiring between them, as witness for C65 and C66. -/
def exVis : World ℚ :=
  let b : Build ℚ Unit := do
    let top ← newModule .plain none
    let m1 ← newModule .plain none
    let m2 ← newModule .plain none
    let a ← addNeuron top 10 100 20 0 none
    let x ← addNeuron m1 10 100 20 0 none
    let y ← addNeuron m1 10 100 20 0 none
    let z ← addNeuron m2 10 100 20 0 none
    addSubnetwork top m1
    addSubnetwork top m2
    connect a x .V 10 1
    connect x y .V 10 1
    connect y z .ge 10 1
  (b World.empty).2

theorem exVis_built : Built exVis := by
  have h : ∀ w : World ℚ, w = exVis → Built w := by
    intro w hw; subst hw
    exact .connect _ _ _ _ _ (.connect _ _ _ _ _ (.connect _ _ _ _ _ (.addSubnetwork _ _ (.addSubnetwork _ _
      (.addNeuron _ _ _ _ _ _ (.addNeuron _ _ _ _ _ _ (.addNeuron _ _ _ _ _ _ (.addNeuron _ _ _ _ _ _
        (.newModule _ _ (.newModule _ _ (.newModule _ _ .empty)))
        (by decide)) (by decide)) (by decide)) (by decide)) (by decide) (by decide)) (by decide) (by decide))
        (by decide) (by decide)) (by decide) (by decide)) (by decide) (by decide)
  exact h _ rfl

/-- Hypotheses and results of C65/C66 on the witness: the inner synapse number 1 is hidden. -/
example : Built exVis ∧ Forest exVis 0 ∧ (∀ s ∈ exVis.syns, Within exVis 0 s.pre → Within exVis 0 s.post) ∧
    exVis.display 0 = .ok ([0, 1, 2, 3], [0, 2]) ∧
    (exVis.groups 0 [0, 1, 2, 3]).map formatGroups = .ok [(1, [1, 2]), (2, [3])] := by
  have hl : exVis.neurons 0 = .ok [0, 1, 2, 3] := by decide +kernel
  refine ⟨exVis_built, ⟨by decide, ?_⟩, ?_, by decide +kernel, by decide +kernel⟩
  · intro hc
    rw [((C07_recursion_error_iff_cycle exVis_built (by decide : 0 < exVis.mCount)).1).mpr hc] at hl
    cases hl
  · intro s hs _
    rw [Within, ← C07_members hl]
    have : ∀ s ∈ exVis.syns, s.post ∈ [0, 1, 2, 3] := by decide +kernel
    exact this s hs

/-! ## Chronogram -/

section
variable {V I : Type*} [LinearOrder I] [NatCast I] [Zero V]

omit [Zero V] in
theorem dict_fold {I : Type*} [DecidableEq I] (k : I) : ∀ (L : List (V × I)) (d : I → Option V),
    (L.foldl (fun (d : I → Option V) t => Function.update d t.2 (some t.1)) d) k =
      (((L.filter (fun t => t.2 = k)).getLast?).map (·.1)).or (d k) := by
  intro L
  induction L using List.reverseRecOn with
  | nil => intro d; simp
  | append_singleton L x ih =>
    intro d
    rw [List.foldl_append, List.filter_append]
    simp only [List.foldl_cons, List.foldl_nil]
    by_cases h : x.2 = k
    · subst h; simp
    · rw [Function.update_of_ne (fun e => h e.symm), ih]
      simp [h]

omit [NatCast I] [Zero V] in
theorem mergeSort_filter_key (L : List (V × I)) (k : I) :
    (L.mergeSort (fun a b => decide (a.2 ≤ b.2))).filter (fun t => t.2 = k) = L.filter (fun t => t.2 = k) := by
  have hs : List.Sublist (L.filter (fun t => t.2 = k)) (L.mergeSort (fun a b => decide (a.2 ≤ b.2))) := by
    refine List.sublist_mergeSort ?_ ?_ ?_ List.filter_sublist
    · intro a b c h1 h2; simp only [decide_eq_true_eq] at *; exact h1.trans h2
    · intro a b; simpa using le_total a.2 b.2
    · refine List.Pairwise.imp_of_mem (R := fun _ _ => True) ?_ (List.pairwise_of_forall (fun _ _ => trivial))
      intro a b ha hb _
      have := of_decide_eq_true (List.mem_filter.mp ha).2
      have h2 := of_decide_eq_true (List.mem_filter.mp hb).2
      simp [this, h2]
  have hs2 := hs.filter (fun t => decide (t.2 = k))
  rw [List.filter_filter] at hs2
  simp only [Bool.and_self] at hs2
  refine (hs2.eq_of_length ?_).symm
  exact ((List.mergeSort_perm L _).filter _).length_eq.symm

omit [NatCast I] [Zero V] in
theorem entryDict_eq (L : List (V × I)) (k : I) :
    entryDict L k = ((L.filter (fun t => t.2 = k)).getLast?).map (·.1) := by
  unfold entryDict
  rw [dict_fold, mergeSort_filter_key]; simp

/-- The value held after index `i`. -/
def held (d : I → Option V) : ℕ → V
  | 0 => (d ((0 : ℕ) : I)).getD 0
  | i + 1 => (d ((i + 1 : ℕ) : I)).getD (held d i)

theorem arrayStep_fold (d : I → Option V) : ∀ n : ℕ,
    (List.range (n + 1)).foldl (arrayStep d) ([], 0) = ((List.range (n + 1)).map (held d), held d n)
  | 0 => rfl
  | n + 1 => by
    rw [List.range_succ, List.foldl_append, arrayStep_fold d n]
    simp [arrayStep, held, List.range_succ]

theorem buildArray_eq (n : ℕ) (L : List (V × I)) : buildArray n L = (List.range n).map (held (entryDict L)) := by
  unfold buildArray
  cases n with
  | zero => rfl
  | succ n => rw [arrayStep_fold]

/-- C67: the array has the requested length. -/
theorem C67_length (n : ℕ) (entries : List (V × I)) : (buildArray n entries).length = n := by
  rw [buildArray_eq]; simp

/-- C67: before the first entry the array holds 0.0. -/
theorem C67_before_first (n : ℕ) (entries : List (V × I)) {i : ℕ} (hi : i < n)
    (h : ∀ e ∈ entries, ∀ j : ℕ, j ≤ i → e.2 ≠ (j : I)) : (buildArray n entries)[i]? = some 0 := by
  rw [buildArray_eq, List.getElem?_map, List.getElem?_range hi]
  simp only [Option.map_some, Option.some.injEq]
  have hd : ∀ j : ℕ, j ≤ i → entryDict entries (j : I) = none := by
    intro j hj
    rw [entryDict_eq]
    have : entries.filter (fun t => decide (t.2 = (j : I))) = [] := by
      rw [List.filter_eq_nil_iff]; intro e he; simpa using h e he j hj
    rw [this]; rfl
  clear hi h
  induction i with
  | zero => simp [held, hd 0 (le_refl _)]
  | succ i ih => rw [held, hd (i + 1) (le_refl _)]; exact ih (fun j hj => hd j (by omega))

/-- C67: at index `i` the array holds the value logged at the greatest entry index `j ≤ i`, the last one logged if
several share `j`. -/
theorem C67_holds_last (n : ℕ) (entries : List (V × I)) {i : ℕ} (hi : i < n) {before after : List (V × I)} {v : V} {j : ℕ}
    (he : entries = before ++ (v, (j : I)) :: after) (hj : j ≤ i) (hlast : ∀ e ∈ after, e.2 ≠ (j : I))
    (hgreatest : ∀ e ∈ entries, ∀ j' : ℕ, j < j' → j' ≤ i → e.2 ≠ (j' : I)) :
    (buildArray n entries)[i]? = some v := by
  rw [buildArray_eq, List.getElem?_map, List.getElem?_range hi]
  simp only [Option.map_some, Option.some.injEq]
  have hdj : entryDict entries (j : I) = some v := by
    rw [entryDict_eq, he, List.filter_append, List.filter_cons]
    have : after.filter (fun t => decide (t.2 = (j : I))) = [] := by
      rw [List.filter_eq_nil_iff]; intro e he; simpa using hlast e he
    simp [this]
  have hd : ∀ j' : ℕ, j < j' → j' ≤ i → entryDict entries (j' : I) = none := by
    intro j' h1 h2
    rw [entryDict_eq]
    have : entries.filter (fun t => decide (t.2 = (j' : I))) = [] := by
      rw [List.filter_eq_nil_iff]; intro e he; simpa using hgreatest e he j' h1 h2
    rw [this]; rfl
  have hheld : held (entryDict entries) j = v := by
    cases j with
    | zero => rw [held, hdj]; rfl
    | succ j => rw [held, hdj]; rfl
  clear hi hgreatest
  induction i with
  | zero => obtain rfl : j = 0 := by omega
            exact hheld
  | succ i ih =>
    by_cases hji : j = i + 1
    · subst hji; exact hheld
    · rw [held, hd (i + 1) (by omega) (le_refl _)]
      exact ih (by omega) (fun j' h1 h2 => hd j' h1 (by omega))

/-- The docstring example (chronogram.py:7-9), entries in another order. -/
example : buildArray 10 [((5 : ℚ), 6), (4, 1), (9, 3), (0, 3)] = [0, 4, 4, 0, 0, 0, 5, 5, 5, (5 : ℚ)] := by
  rw [buildArray_eq, funext (entryDict_eq [((5 : ℚ), 6), (4, 1), (9, 3), (0, 3)])]
  decide +kernel

end

section
variable [Field K] [LinearOrder K] [IsStrictOrderedRing K] [FloorRing K]

/-- C69: for every neuron that starts at voltage 0, the array reconstructed from the voltage log of a run is the
neuron's voltage in every step of the naive simulation; it is what the chronogram plots unless the log happens to
have exactly one entry per step, in which case the raw (voltage, step) pairs are plotted. -/
theorem C69_chronogram_faithful (H : EventHeap K) {ord} (hord : SetOrder ord) {net : Net K} (wf : WellFormed net)
    {dt : K} (hdt : 0 < dt) {inj : List (ℕ × K)} {s0} (hrest : Resting net s0) {S F} (hr : IsRun net dt inj s0 S F) (T : K) :
    ∃ st, ((Sim.init net s0).injectAll H net inj).simulate H ord net dt T = .ok st ∧
      ∀ n ∈ net.neurons, (s0 n).V = 0 → ∃ l, st.voltLog n = some l ∧
        buildArray (numSteps T dt) l = (List.range (numSteps T dt)).map (fun i => (S (i + 1) n).V) ∧
        plotData (numSteps T dt) l = if l.length = numSteps T dt then .pairs l
          else .array ((List.range (numSteps T dt)).map (fun i => (S (i + 1) n).V)) := by
  obtain ⟨st, h, o⟩ := simulate_outcome H hord wf hdt hrest hr T
  refine ⟨st, h, fun n hn h0 => ⟨voltEntries net dt inj S F (numSteps T dt) n, by rw [o.volt]; simp only [hn, if_true], ?_⟩⟩
  have key : buildArray (numSteps T dt) (voltEntries net dt inj S F (numSteps T dt) n) =
      (List.range (numSteps T dt)).map (fun i => (S (i + 1) n).V) := by
    rw [buildArray_eq]
    refine List.map_congr_left (fun i hi => ?_)
    rw [List.mem_range] at hi
    have hd : ∀ j < numSteps T dt, entryDict (voltEntries net dt inj S F (numSteps T dt) n) (Nat.cast j : ℕ) =
        if touched net dt inj S F j n then some (S (j + 1) n).V else none := by
      intro j hj
      rw [entryDict_eq]
      unfold voltEntries
      rw [List.filter_map, List.filter_filter]
      have e : (List.range (numSteps T dt)).filter (fun a => ((fun t : K × ℕ => decide (t.2 = (Nat.cast j : ℕ))) ∘
          fun i => ((S (i + 1) n).V, i)) a && touched net dt inj S F a n) =
          if touched net dt inj S F j n then [j] else [] := by
        have e1 : (List.range (numSteps T dt)).filter (fun a => a == j) = [j] := by
          rw [List.filter_beq, List.count_eq_one_of_mem List.nodup_range (List.mem_range.mpr hj)]; rfl
        have e2 : (fun a => ((fun t : K × ℕ => decide (t.2 = (Nat.cast j : ℕ))) ∘
          fun i => ((S (i + 1) n).V, i)) a && touched net dt inj S F a n) =
          fun a => touched net dt inj S F a n && (a == j) := by
          funext a; simp [Bool.and_comm, Bool.beq_eq_decide_eq]
        rw [e2, ← List.filter_filter, e1]
        by_cases ht : touched net dt inj S F j n <;> simp [ht]
      rw [e]
      by_cases ht : touched net dt inj S F j n <;> simp [ht]
    have hq : ∀ j, touched net dt inj S F j n = false → (S (j + 1) n).V = (S j n).V := by
      intro j ht
      simp only [touched, Bool.or_eq_false_iff, decide_eq_false_iff_not, Bool.and_eq_false_iff] at ht
      have hact : (S j n).active = false := ht.2.resolve_left (fun h => h hn)
      have := hr.step j n hn
      have hV : (S j n).V < (net.par n).Vt := by
        cases j with
        | zero => rw [(hr.start n).1]; exact (hrest n hn).1
        | succ j =>
          have h1 := hr.step j n hn
          have h2 : S (j + 1) n = (nstep (net.par n) dt (S j n) (fun k => input net dt inj F k n (j + 1))).1 :=
            congrArg Prod.fst h1
          rw [h2]; exact nstep_V_lt _ _ _ _ (wf.reset n hn)
      rw [nstep_quiet _ _ _ _ hact hV (fun k _ => input_zero k (fun j m h => hr.F_mem h) ht.1)] at this
      rw [(Prod.mk.inj this).1]
    induction i with
    | zero =>
      rw [held, hd 0 hi]
      split_ifs with ht
      · rfl
      · rw [hq 0 (by simpa using ht), (hr.start n).1, h0]; rfl
    | succ i ih =>
      rw [held, hd (i + 1) hi, ih (by omega)]
      split_ifs with ht
      · rfl
      · rw [hq (i + 1) (by simpa using ht)]; rfl
  refine ⟨key, ?_⟩
  unfold plotData
  by_cases e : (voltEntries net dt inj S F (numSteps T dt) n).length = numSteps T dt
  · rw [if_neg (by simpa using e.symm), if_pos e]
  · rw [if_pos (fun h => e h.symm), if_neg e, key]

end

/-- A concrete case of C69_chronogram_faithful: the example network, its naive simulation, a spike at time 0, ten time units. -/
example : ∃ st, ((Sim.init exNet exS0).injectAll (sortedHeap _) exNet [(0, 0)]).simulate (sortedHeap _) (fun _ l => l) exNet (1 / 2) 10 = .ok st ∧
    ∀ n ∈ exNet.neurons, (exS0 n).V = 0 → ∃ l, st.voltLog n = some l ∧
      buildArray 20 l = (List.range 20).map (fun i => (denseS exNet (1 / 2) [(0, 0)] exS0 (i + 1) n).V) ∧
      plotData 20 l = if l.length = 20 then .pairs l
        else .array ((List.range 20).map (fun i => (denseS exNet (1 / 2) [(0, 0)] exS0 (i + 1) n).V)) := by
  have h : numSteps (10 : ℚ) (1 / 2) = 20 := by decide +kernel
  have := C69_chronogram_faithful (sortedHeap (fun e : Event ℚ => e.time)) id_setOrder exNet_wf (by norm_num : (0 : ℚ) < 1 / 2) exNet_rest
    (dense_isRun exNet (1 / 2) [(0, 0)] exS0) 10
  rwa [h] at this

end Axon
