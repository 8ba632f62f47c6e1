import Verif.Proofs.Modules

/-! # C06–C09, C61, C68: nested lists, module trees, uids, neuron usage report -/
set_option linter.unusedSectionVars false
namespace Axon
open Spec
variable {K : Type*}

/-- C06: flattening lists the leaves by increasing (lexicographic) path: every leaf once, depth first,
left to right. -/
theorem C06_leaves_in_path_order {α : Type*} (l : List (PyVal α)) :
    ∃ paths : List (List ℕ), paths.Pairwise (· < ·) ∧
      (∀ p, p ∈ paths ↔ (leafAt l p).isSome) ∧
      (flattenNested l).map some = paths.map (leafAt l) := by
  obtain ⟨h1, h2, h3⟩ := pathsV_spec (.list l)
  exact ⟨_, h1, h2, h3⟩

/-- C06: a list without nested lists is unchanged. -/
theorem C06_flat_unchanged {α : Type*} (l : List α) : flattenNested (l.map PyVal.item) = l :=
  flattenNested_items l

/-- C06: compatible with concatenation. -/
theorem C06_append {α : Type*} (a b : List (PyVal α)) :
    flattenNested (a ++ b) = flattenNested a ++ flattenNested b := flattenNested_append a b

/-- The docstring example of helpers.py:13-15, `[1, [2, [3, 4], 5]]`. -/
example : flattenNested [.item 1, .list [.item 2, .list [.item 3, .item 4], .item 5]] = [1, 2, 3, 4, 5] ∧
    leafAt [PyVal.item 1, .list [.item 2, .list [.item 3, .item 4], .item 5]] [1, 1, 1] = some 4 := by
  simp [flattenNested, flattenItem, leafAt, leafOf]

/-- C07: a successful `neurons` call lists the tree depth first. -/
theorem C07_depth_first {w : World K} {m : ℕ} {l : List ℕ} (h : w.neurons m = .ok l) : Listing w m l :=
  neuronsFuel_listing h

/-- C07: a neuron is listed iff it was added to the module or to a transitive submodule. -/
theorem C07_members {w : World K} {m : ℕ} {l : List ℕ} (h : w.neurons m = .ok l) (n : ℕ) :
    n ∈ l ↔ ∃ m', InTree w m m' ∧ Owns w m' n := neuronsFuel_mem h n

/-- C07: when no module is attached twice, every neuron is listed exactly once. -/
theorem C07_exactly_once {w : World K} (hw : Built w) (hf : (w.sub.map (·.2)).Nodup) {m : ℕ}
    {l : List ℕ} (h : w.neurons m = .ok l) : l.Nodup := by
  refine neuronsFuel_nodup hw.ok hf ?_ h
  intro hc
  obtain ⟨p, hp0, hp⟩ := cycle_path hc (w.mCount + 1)
  exact ok_no_path h p hp0 hp

/-- C07: `neurons` fails (RecursionError) exactly when the tree contains a cycle. -/
theorem C07_recursion_error_iff_cycle {w : World K} (hw : Built w) {m : ℕ} (hm : m < w.mCount) :
    (w.neurons m = .error .recursionError ↔ Cyclic w m) ∧
    (¬ Cyclic w m → ∃ l, w.neurons m = .ok l) := by
  constructor
  · constructor
    · intro h; exact (neurons_error_cyclic hw.ok hm h).2
    · intro hc
      cases h : w.neurons m with
      | error e => rw [(neurons_error_cyclic hw.ok hm h).1]
      | ok l =>
        obtain ⟨p, hp0, hp⟩ := cycle_path hc (w.mCount + 1)
        exact (ok_no_path h p hp0 hp).elim
  · intro hc
    cases h : w.neurons m with
    | error e => exact (hc (neurons_error_cyclic hw.ok hm h).2).elim
    | ok l => exact ⟨l, rfl⟩

/-- A three-level module tree with a neuron on every level, used as witness below. -/
def exTree : World ℚ :=
  let b : Build ℚ Unit := do
    let top ← newModule .plain (some "top")
    let mid ← newModule .plain none
    let leaf ← newModule .adder (some "leaf")
    let _ ← addNeuron top 10 100 20 0 (some "a")
    let x ← addNeuron leaf 10 100 20 0 (some "b")
    let y ← addNeuron mid 10 100 20 0 (some "c")
    addSubnetwork mid leaf
    addSubnetwork top mid
    connect x y .V 10 1
  (b World.empty).2

/-- The witness is built through the API. -/
theorem exTree_built : Built exTree := by
  have h : ∀ w : World ℚ, w = exTree → Built w := by
    intro w hw; subst hw
    exact .connect _ _ _ _ _ (.addSubnetwork _ _ (.addSubnetwork _ _ (.addNeuron _ _ _ _ _ _ (.addNeuron _ _ _ _ _ _
      (.addNeuron _ _ _ _ _ _ (.newModule _ _ (.newModule _ _ (.newModule _ _ .empty)))
        (by decide)) (by decide)) (by decide)) (by decide) (by decide)) (by decide) (by decide)) (by decide) (by decide)
  exact h _ rfl

example : Built exTree ∧ (exTree.sub.map (·.2)).Nodup ∧ exTree.neurons 0 = .ok [0, 2, 1] ∧
    exTree.neurons 1 = .ok [2, 1] := ⟨exTree_built, by decide, by decide, by decide⟩

/-- C08: two neurons created through `add_neuron` never have the same uid, whatever the names. -/
theorem C08_neuron_uids {w : World K} (hw : Built w) {n n' : ℕ} {o o' : NeuronObj K}
    (h : w.neus.reverse[n]? = some o) (h' : w.neus.reverse[n']? = some o')
    (he : neuronUid o n = neuronUid o' n') : n = n' := by
  have hm := hw.ok.neu_mod o (by simpa using List.mem_of_getElem? h)
  have hm' := hw.ok.neu_mod o' (by simpa using List.mem_of_getElem? h')
  obtain ⟨a, ha⟩ := Option.isSome_iff_exists.mp hm
  obtain ⟨b, hb⟩ := Option.isSome_iff_exists.mp hm'
  simp only [neuronUid, ha, hb] at he
  have e1 : "(m".toList = ['(', 'm'] := rfl
  have e2 : ",n".toList = [',', 'n'] := rfl
  have e3 : ")_".toList = [')', '_'] := rfl
  simp only [e1, e2, e3, List.append_assoc, List.cons_append, List.nil_append, List.cons.injEq, true_and] at he
  obtain ⟨-, -, h2⟩ := digits_split (by decide) (by decide) (decimal_digits a) (decimal_digits b) he
  simp only [List.cons.injEq, true_and] at h2
  obtain ⟨h3, -, -⟩ := digits_split (by decide) (by decide) (decimal_digits n) (decimal_digits n') h2
  exact decimal_inj h3

/-- C08: two modules never have the same uid, whatever the names. -/
theorem C08_module_uids (o o' : ModObj) (m m' : ℕ) (he : moduleUid o m = moduleUid o' m') : m = m' := by
  have key : ∀ (o : ModObj) (m : ℕ), ∃ rest, moduleUid o m = '(' :: 'm' :: (decimal m ++ ')' :: rest) := by
    intro o m
    unfold moduleUid
    split
    · exact ⟨[], rfl⟩
    · split
      · exact ⟨[], rfl⟩
      · exact ⟨'_' :: _, by
          have e1 : "(m".toList = ['(', 'm'] := rfl
          have e3 : ")_".toList = [')', '_'] := rfl
          simp only [e1, e3, List.append_assoc, List.cons_append, List.nil_append]
          rfl⟩
  obtain ⟨r, hr⟩ := key o m
  obtain ⟨r', hr'⟩ := key o' m'
  rw [hr, hr'] at he
  simp only [List.cons.injEq, true_and] at he
  exact decimal_inj (digits_split (by decide) (by decide) (decimal_digits m) (decimal_digits m') he).1

/-- Names that try to imitate the format do not collide. -/
example : neuronUid (⟨⟨(10 : ℚ), 100, 20, 0⟩, some "x", some 1⟩) 12 = "(m1,n12)_x".toList ∧
    neuronUid (⟨⟨(10 : ℚ), 100, 20, 0⟩, some "2)_x", some 1⟩) 1 = "(m1,n1)_2)_x".toList ∧
    neuronUid (⟨⟨(10 : ℚ), 100, 20, 0⟩, none, some 1⟩) 1 = "(m1,n1)_None".toList ∧
    moduleUid ⟨some "", .plain⟩ 10 = "(m10)".toList := by decide

/-- C09: `neurons_with_module_uid` maps exactly the neurons of the tree, each to the module it was
added to. -/
theorem C09_owner_map {w : World K} (hw : Built w) {m : ℕ} {l : List ℕ} (h : w.neurons m = .ok l) :
    ∃ d, w.neuronsWithModule m = .ok d ∧ (∀ n, (d n).isSome ↔ n ∈ l) ∧
      ∀ n m', d n = some m' ↔ InTree w m m' ∧ Owns w m' n := by
  obtain ⟨r, hr, hr1, hr2⟩ := (withModFuel_spec (w.mCount + 1) m).1 l h
  have hval : ∀ n m', (r.foldl (fun (d : ℕ → Option ℕ) x => Function.update d x.1 (some x.2)) fun _ => none) n
      = some m' ↔ InTree w m m' ∧ Owns w m' n := by
    intro n m'
    rw [foldl_update_mem r ?_ _ _ _ (by simp)]
    · simp [hr2 (n, m')]
    · intro x hx y hy hxy
      have a := ((hr2 x).mp hx).2
      have b := ((hr2 y).mp hy).2
      rw [hxy] at a
      exact hw.ok.owner_unique a b
  refine ⟨_, by rw [World.neuronsWithModule, hr], ?_, hval⟩
  intro n
  rw [Option.isSome_iff_exists, C07_members h n]
  exact exists_congr (hval n)

example : ∃ d, exTree.neuronsWithModule 0 = .ok d ∧ d 0 = some 0 ∧ d 1 = some 2 ∧ d 2 = some 1 ∧ d 3 = none :=
  ⟨_, rfl, by decide, by decide, by decide, by decide⟩

/-- C61: the neuron count of a module is its own count plus the counts of its submodules, and these are
the numbers in the printed report (`print_depth = 1`). -/
theorem C61_usage_totals {w : World K} (hw : Built w) {m : ℕ} {l : List ℕ} (h : w.neurons m = .ok l) :
    ∃ c : ℕ → ℕ, (∀ s ∈ w.subnetworks m, ∃ ls, w.neurons s = .ok ls ∧ c s = ls.length) ∧
      l.length = (w.topNeurons m).length + ((w.subnetworks m).map c).sum ∧
      w.printNeurons 3 m 1 0 0 = .ok (.module 0 m l.length ::
        ((if (w.subnetworks m).length ≠ 0 then [.own 4 (w.topNeurons m).length] else []) ++
          (w.subnetworks m).map (fun s => .module 4 s (c s)))) := by
  obtain ⟨g, h1, rfl⟩ := neuronsFuel_succ_ok h
  have hn : ∀ s ∈ w.subnetworks m, w.neurons s = .ok (g s) := fun s hs =>
    neurons_of_fuel hw.ok (hw.ok.sub_snd _ (mem_subnetworks.mp hs)) (h1 s hs)
  refine ⟨fun s => (g s).length, fun s hs => ⟨g s, hn s hs, rfl⟩, ?_, ?_⟩
  · rw [List.length_append, List.length_flatMap]
  · have hm := mapM_eq_map (l := w.subnetworks m) (f := fun s => w.printNeurons 2 s 1 (0 + 4) (0 + 1))
      (g := fun s => [UsageLine.module 4 s (g s).length]) (by
        intro s hs
        rw [World.printNeurons, hn s hs]
        simp)
    rw [World.printNeurons, h]
    simp only [Nat.zero_lt_one, if_true, hm, Nat.zero_add]
    congr 3
    simp only [List.flatten_eq_flatMap, List.flatMap_map]
    induction w.subnetworks m with
    | nil => rfl
    | cons a t ih => simpa using ih

/-- C68: the report shows at most two levels: any `print_depth ≥ 1` prints the same lines as 1
(the recursive call does not pass the depth on). -/
theorem C68_print_depth_ineffective {w : World K} (m d : ℕ) (hd : 1 ≤ d) (fuel indent : ℕ) :
    w.printNeurons fuel m d indent 0 = w.printNeurons fuel m 1 indent 0 := by
  cases fuel with
  | zero => rfl
  | succ f =>
    rw [World.printNeurons, World.printNeurons]
    simp [show 0 < d by omega]

example : exTree.printNeurons 3 0 5 0 0 = .ok [.module 0 0 3, .own 4 1, .module 4 1 2] := by decide

/-! ## The theorems of this file on concrete cases -/

/-- `C06_leaves_in_path_order` and `C06_append` on the nested lists of the example above. -/
example : (∃ paths : List (List ℕ), paths.Pairwise (· < ·) ∧
      (∀ p, p ∈ paths ↔ (leafAt [PyVal.item 1, .list [.item 2, .list [.item 3]]] p).isSome) ∧
      [some 1, some 2, some 3] = paths.map (leafAt [PyVal.item 1, .list [.item 2, .list [.item 3]]])) ∧
    flattenNested ([PyVal.list [.item 1, .list []]] ++ [PyVal.list [.list [.item 2]]]) = [1] ++ [2] ∧
    flattenNested ([4, 5].map PyVal.item) = [4, 5] :=
  ⟨C06_leaves_in_path_order [PyVal.item 1, .list [.item 2, .list [.item 3]]],
    C06_append _ _, C06_flat_unchanged _⟩

/-- `C07_depth_first`, `C07_members` and `C07_exactly_once` on the three-module tree `exTree`. -/
example : Listing exTree 0 [0, 2, 1] ∧ [0, 2, 1].Nodup ∧ ∃ m', InTree exTree 0 m' ∧ Owns exTree m' 1 :=
  have h : exTree.neurons 0 = .ok [0, 2, 1] := by decide
  ⟨C07_depth_first h, C07_exactly_once exTree_built (by decide) h, (C07_members h 1).mp (by decide)⟩

/-- `C08_neuron_uids` and `C08_module_uids`: two different neurons of `exTree`, and two modules with
the same name, have different identifiers. -/
example (o o' : NeuronObj ℚ) (h : exTree.neus.reverse[0]? = some o)
    (h' : exTree.neus.reverse[1]? = some o') : neuronUid o 0 ≠ neuronUid o' 1 :=
  fun he => absurd (C08_neuron_uids exTree_built h h' he) (by decide)
example : exTree.neus.reverse[0]?.isSome ∧ exTree.neus.reverse[1]?.isSome := by decide
example : moduleUid ⟨some "x", .plain⟩ 1 ≠ moduleUid ⟨some "x", .plain⟩ 11 :=
  fun he => absurd (C08_module_uids _ _ _ _ he) (by decide)

/-- `C09_owner_map`, `C61_usage_totals` and `C68_print_depth_ineffective` on `exTree`. -/
example : (∃ d, exTree.neuronsWithModule 0 = .ok d ∧ (∀ n, (d n).isSome ↔ n ∈ [0, 2, 1]) ∧
      ∀ n m', d n = some m' ↔ InTree exTree 0 m' ∧ Owns exTree m' n) ∧
    (∃ c : ℕ → ℕ, (∀ s ∈ exTree.subnetworks 0, ∃ ls, exTree.neurons s = .ok ls ∧ c s = ls.length) ∧
      3 = 1 + ((exTree.subnetworks 0).map c).sum) ∧
    exTree.printNeurons 3 0 7 0 0 = exTree.printNeurons 3 0 1 0 0 := by
  have h : exTree.neurons 0 = .ok [0, 2, 1] := by decide
  refine ⟨C09_owner_map exTree_built h, ?_, C68_print_depth_ineffective 0 7 (by decide) 3 0⟩
  obtain ⟨c, h1, h2, -⟩ := C61_usage_totals exTree_built h
  exact ⟨c, h1, h2⟩

end Axon
