import Verif.Spec.Modules
import Mathlib.Data.Nat.Digits.Lemmas
import Mathlib.Data.List.Lex
import Mathlib.Data.Finset.Card
import Mathlib.Data.Finset.Range
import Mathlib.Data.List.Infix
import Mathlib.Order.Defs.LinearOrder

set_option linter.unusedSectionVars false
namespace Axon
open Spec
variable {K : Type*}

/-! ## flatten -/

mutual
/-- All leaf paths of a nested list, depth first. -/
def pathsL {α : Type*} : List (PyVal α) → ℕ → List (List ℕ)
  | [], _ => []
  | v :: vs, i => (pathsV v).map (fun p => i :: p) ++ pathsL vs (i + 1)
def pathsV {α : Type*} : PyVal α → List (List ℕ)
  | .item _ => [[]]
  | .list l => pathsL l 0
end

theorem leafAt_cons_succ {α : Type*} (v : PyVal α) (vs : List (PyVal α)) (i : ℕ) (p : List ℕ) :
    leafAt (v :: vs) ((i + 1) :: p) = leafAt vs (i :: p) := by simp [leafAt]

/-- Shifted lookup used in the induction. -/
theorem leafAt_drop {α : Type*} (l : List (PyVal α)) : ∀ (k i : ℕ) (p : List ℕ),
    leafAt (l.drop k) (i :: p) = leafAt l ((k + i) :: p) := by
  induction l with
  | nil => intro k i p; simp [leafAt]
  | cons v vs ih =>
    intro k i p
    cases k with
    | zero => simp
    | succ k =>
      rw [List.drop_succ_cons, ih k i p, Nat.succ_add, leafAt_cons_succ]

theorem cons_lt_cons {i : ℕ} {p q : List ℕ} (h : p < q) : i :: p < i :: q := by
  rw [List.cons_lt_cons_iff]; exact Or.inr ⟨rfl, h⟩

theorem head_of_mem_pathsL {α : Type*} (vs : List (PyVal α)) : ∀ (i : ℕ), ∀ p ∈ pathsL vs i,
    ∃ j q, p = j :: q ∧ i ≤ j := by
  induction vs with
  | nil => intro i p hp; simp [pathsL] at hp
  | cons v vs ih =>
    intro i p hp
    simp only [pathsL, List.mem_append, List.mem_map] at hp
    rcases hp with ⟨q, -, rfl⟩ | hp
    · exact ⟨i, q, rfl, le_rfl⟩
    · obtain ⟨j, q, rfl, h⟩ := ih (i + 1) p hp
      exact ⟨j, q, rfl, by omega⟩

mutual
theorem pathsL_spec {α : Type*} : ∀ (l : List (PyVal α)) (k : ℕ),
    (pathsL l k).Pairwise (· < ·) ∧
    (∀ i p, (i :: p) ∈ pathsL l k ↔ k ≤ i ∧ (leafAt l ((i - k) :: p)).isSome) ∧
    (flattenNested l).map some = (pathsL l k).map (fun p => match p with
      | [] => none
      | i :: q => leafAt l ((i - k) :: q))
  | [], k => by simp [pathsL, leafAt, flattenNested]
  | v :: vs, k => by
    obtain ⟨a1, a2, a3⟩ := pathsV_spec v
    obtain ⟨b1, b2, b3⟩ := pathsL_spec vs (k + 1)
    refine ⟨?_, ?_, ?_⟩
    · rw [pathsL, List.pairwise_append]
      refine ⟨?_, b1, ?_⟩
      · rw [List.pairwise_map]; exact a1.imp (fun h => cons_lt_cons h)
      · intro p hp q hq
        obtain ⟨p', -, rfl⟩ := List.mem_map.mp hp
        obtain ⟨j, q', rfl, hj⟩ := head_of_mem_pathsL _ _ q hq
        rw [List.cons_lt_cons_iff]; left; omega
    · intro i p
      simp only [pathsL, List.mem_append, List.mem_map, List.cons.injEq]
      constructor
      · rintro (⟨q, hq, rfl, rfl⟩ | h)
        · refine ⟨le_rfl, ?_⟩
          rw [Nat.sub_self]
          simpa [leafAt] using (a2 q).mp hq
        · obtain ⟨h1, h2⟩ := (b2 i p).mp h
          refine ⟨by omega, ?_⟩
          rw [show i - k = (i - (k + 1)) + 1 by omega, leafAt_cons_succ]; exact h2
      · rintro ⟨h1, h2⟩
        by_cases hik : i = k
        · subst hik
          rw [Nat.sub_self] at h2
          exact Or.inl ⟨p, (a2 p).mpr (by simpa [leafAt] using h2), rfl, rfl⟩
        · right
          rw [b2]
          refine ⟨by omega, ?_⟩
          rw [show i - k = (i - (k + 1)) + 1 by omega, leafAt_cons_succ] at h2; exact h2
    · rw [flattenNested, pathsL, List.map_append, List.map_append, a3, b3, List.map_map]
      congr 1
      · apply List.map_congr_left
        intro p hp; simp [leafAt]
      · apply List.map_congr_left
        intro p hp
        obtain ⟨j, q, rfl, hj⟩ := head_of_mem_pathsL _ _ p hp
        simp only
        rw [show j - k = (j - (k + 1)) + 1 by omega, leafAt_cons_succ]
theorem pathsV_spec {α : Type*} : ∀ (v : PyVal α),
    (pathsV v).Pairwise (· < ·) ∧
    (∀ p, p ∈ pathsV v ↔ (leafOf v p).isSome) ∧
    (flattenItem v).map some = (pathsV v).map (leafOf v)
  | .item a => by
    refine ⟨by simp [pathsV], ?_, by simp [pathsV, flattenItem, leafOf]⟩
    intro p
    cases p <;> simp [pathsV, leafOf]
  | .list l => by
    obtain ⟨h1, h2, h3⟩ := pathsL_spec l 0
    refine ⟨by simpa [pathsV] using h1, ?_, ?_⟩
    · intro p
      cases p with
      | nil =>
        simp only [pathsV, leafOf]
        constructor
        · intro h; obtain ⟨j, q, h, -⟩ := head_of_mem_pathsL _ _ _ h; simp at h
        · intro h; cases l <;> simp [leafAt] at h
      | cons i q => simpa [pathsV, leafOf] using h2 i q
    · rw [flattenItem, pathsV, h3]
      apply List.map_congr_left
      intro p hp
      obtain ⟨j, q, rfl, hj⟩ := head_of_mem_pathsL _ _ p hp
      simp [leafOf]
end

theorem flattenNested_append {α : Type*} (a b : List (PyVal α)) :
    flattenNested (a ++ b) = flattenNested a ++ flattenNested b := by
  induction a with
  | nil => simp [flattenNested]
  | cons v vs ih => simp [flattenNested, ih, List.append_assoc]

theorem flattenNested_items {α : Type*} (l : List α) :
    flattenNested (l.map PyVal.item) = l := by
  induction l with
  | nil => simp [flattenNested]
  | cons v vs ih => simp [flattenNested, flattenItem, ih]

theorem flattenNested_lists {α : Type*} (ls : List (List α)) :
    flattenNested (ls.map (fun l => PyVal.list (l.map PyVal.item))) = ls.flatten := by
  induction ls with
  | nil => simp [flattenNested]
  | cons v vs ih => simp [flattenNested, flattenItem, flattenNested_items, ih]

/-! ## Invariants of reachable worlds -/

structure World.OK (w : World K) : Prop where
  own_mod : ∀ x ∈ w.own, x.1 < w.mCount
  own_lt : ∀ x ∈ w.own, x.2 < w.nCount
  own_nodup : (w.own.map (·.2)).Nodup
  sub_fst : ∀ x ∈ w.sub, x.1 < w.mCount
  sub_snd : ∀ x ∈ w.sub, x.2 < w.mCount
  syn_pre : ∀ s ∈ w.syns, s.pre < w.nCount
  syn_post : ∀ s ∈ w.syns, s.post < w.nCount
  neu_mod : ∀ o ∈ w.neus, o.mod.isSome

theorem World.OK.empty : (World.empty : World K).OK := by
  constructor <;> simp [World.empty]

theorem World.OK.newModule {w : World K} (h : w.OK) (k name) : (newModule k name w).2.OK := by
  constructor <;> simp only [Axon.newModule, World.mCount, World.nCount, List.length_cons]
  · intro x hx; exact Nat.lt_succ_of_lt (h.own_mod x hx)
  · exact h.own_lt
  · exact h.own_nodup
  · intro x hx; exact Nat.lt_succ_of_lt (h.sub_fst x hx)
  · intro x hx; exact Nat.lt_succ_of_lt (h.sub_snd x hx)
  · exact h.syn_pre
  · exact h.syn_post
  · exact h.neu_mod

theorem World.OK.addNeuron {w : World K} (h : w.OK) (m Vt tm tf Vr name) (hm : m < w.mCount) :
    (addNeuron m Vt tm tf Vr name w).2.OK := by
  constructor <;> simp only [Axon.addNeuron, World.mCount, World.nCount, List.length_cons]
  · intro x hx
    rcases List.mem_cons.mp hx with rfl | hx
    · exact hm
    · exact h.own_mod x hx
  · intro x hx
    rcases List.mem_cons.mp hx with rfl | hx
    · exact Nat.lt_succ_self _
    · exact Nat.lt_succ_of_lt (h.own_lt x hx)
  · rw [List.map_cons, List.nodup_cons]
    refine ⟨?_, h.own_nodup⟩
    intro hx
    obtain ⟨x, hx, e⟩ := List.mem_map.mp hx
    have := h.own_lt x hx
    simp only at e
    rw [e] at this
    exact lt_irrefl _ this
  · exact h.sub_fst
  · exact h.sub_snd
  · intro s hs; exact Nat.lt_succ_of_lt (h.syn_pre s hs)
  · intro s hs; exact Nat.lt_succ_of_lt (h.syn_post s hs)
  · intro o ho
    rcases List.mem_cons.mp ho with rfl | ho
    · rfl
    · exact h.neu_mod o ho

theorem World.OK.addSubnetwork {w : World K} (h : w.OK) (m s) (hm : m < w.mCount) (hs : s < w.mCount) :
    (addSubnetwork m s w).2.OK := by
  constructor <;> simp only [Axon.addSubnetwork, World.mCount, World.nCount]
  · exact h.own_mod
  · exact h.own_lt
  · exact h.own_nodup
  · intro x hx
    rcases List.mem_cons.mp hx with rfl | hx
    · exact hm
    · exact h.sub_fst x hx
  · intro x hx
    rcases List.mem_cons.mp hx with rfl | hx
    · exact hs
    · exact h.sub_snd x hx
  · exact h.syn_pre
  · exact h.syn_post
  · exact h.neu_mod

theorem World.OK.connect {w : World K} (h : w.OK) (a b k wt d) (ha : a < w.nCount) (hb : b < w.nCount) :
    (connect a b k wt d w).2.OK := by
  constructor <;> simp only [Axon.connect, World.mCount, World.nCount]
  · exact h.own_mod
  · exact h.own_lt
  · exact h.own_nodup
  · exact h.sub_fst
  · exact h.sub_snd
  · intro s hs
    rcases List.mem_cons.mp hs with rfl | hs
    · exact ha
    · exact h.syn_pre s hs
  · intro s hs
    rcases List.mem_cons.mp hs with rfl | hs
    · exact hb
    · exact h.syn_post s hs
  · exact h.neu_mod

theorem Spec.Built.ok {w : World K} (h : Built w) : w.OK := by
  induction h with
  | empty => exact World.OK.empty
  | newModule k name _ ih => exact ih.newModule k name
  | addNeuron m Vt tm tf Vr name _ hm ih => exact ih.addNeuron m Vt tm tf Vr name hm
  | addSubnetwork m s _ hm hs ih => exact ih.addSubnetwork m s hm hs
  | connect a b k wt d _ ha hb ih => exact ih.connect a b k wt d ha hb

theorem mem_topNeurons {w : World K} {m n : ℕ} : n ∈ w.topNeurons m ↔ Owns w m n := by
  simp [World.topNeurons, Owns]

theorem mem_subnetworks {w : World K} {m c : ℕ} : c ∈ w.subnetworks m ↔ Child w m c := by
  simp [World.subnetworks, Child]

theorem World.OK.owner_unique {w : World K} (h : w.OK) {m m' n : ℕ} (a : Owns w m n) (b : Owns w m' n) :
    m = m' := by
  have := List.inj_on_of_nodup_map h.own_nodup a b rfl
  exact (Prod.mk.inj this).1

/-! ## The recursion over the tree -/

theorem mapM_ok_iff {α β : Type*} {f : α → Except PyErr β} {l : List α} {r : List β} :
    l.mapM f = .ok r ↔ List.Forall₂ (fun a b => f a = .ok b) l r := by
  induction l generalizing r with
  | nil => cases r <;> simp [pure, Except.pure]
  | cons a l ih =>
    rw [List.mapM_cons]
    cases hfa : f a with
    | error e =>
      simp only [bind, Except.bind]
      constructor
      · intro h; cases h
      · intro h; cases h with | cons h1 _ => rw [hfa] at h1; cases h1
    | ok b =>
      simp only [bind, Except.bind]
      cases hl : l.mapM f with
      | error e =>
        constructor
        · intro h; cases h
        · intro h
          cases h with
          | cons h1 h2 => rw [ih.mpr h2] at hl; cases hl
      | ok r' =>
        simp only [pure, Except.pure]
        constructor
        · intro h; cases h; exact .cons hfa (ih.mp hl)
        · intro h
          cases h with
          | cons h1 h2 =>
            rw [hfa] at h1; cases h1
            rw [ih.mpr h2] at hl; cases hl; rfl

theorem mapM_error {α β : Type*} {f : α → Except PyErr β} {l : List α} {e : PyErr}
    (h : l.mapM f = .error e) : ∃ a ∈ l, f a = .error e := by
  induction l with
  | nil => simp [pure, Except.pure] at h
  | cons a l ih =>
    rw [List.mapM_cons] at h
    cases hfa : f a with
    | error e' =>
      rw [hfa] at h; simp only [bind, Except.bind] at h; cases h
      exact ⟨a, by simp, hfa⟩
    | ok b =>
      rw [hfa] at h; simp only [bind, Except.bind] at h
      cases hl : l.mapM f with
      | error e' =>
        rw [hl] at h; cases h
        obtain ⟨a', h1, h2⟩ := ih hl
        exact ⟨a', by simp [h1], h2⟩
      | ok r => rw [hl] at h; cases h

theorem mapM_eq_map {α β : Type*} {f : α → Except PyErr β} {l : List α} {g : α → β}
    (h : ∀ a ∈ l, f a = .ok (g a)) : l.mapM f = .ok (l.map g) := by
  induction l with
  | nil => simp [pure, Except.pure]
  | cons a l ih =>
    rw [List.mapM_cons, h a (by simp), ih (fun a' h' => h a' (by simp [h']))]
    rfl

theorem forall₂_fn {α β : Type*} {f : α → Except PyErr β} [Inhabited β] {l : List α} {r : List β}
    (h : List.Forall₂ (fun a b => f a = .ok b) l r) :
    ∃ g : α → β, r = l.map g ∧ ∀ a ∈ l, f a = .ok (g a) := by
  refine ⟨fun a => match f a with | .ok b => b | .error _ => default, ?_, ?_⟩
  · induction h with
    | nil => rfl
    | cons h1 _ ih => simp [h1, ← ih]
  · induction h with
    | nil => simp
    | cons h1 _ ih =>
      intro a ha
      rcases List.mem_cons.mp ha with rfl | ha
      · simp only [h1]
      · exact ih a ha

theorem neuronsFuel_succ_ok {w : World K} {f m : ℕ} {l : List ℕ} (h : w.neuronsFuel (f + 1) m = .ok l) :
    ∃ g : ℕ → List ℕ, (∀ c ∈ w.subnetworks m, w.neuronsFuel f c = .ok (g c)) ∧
      l = w.topNeurons m ++ (w.subnetworks m).flatMap g := by
  rw [World.neuronsFuel] at h
  cases hm : (w.subnetworks m).mapM (fun s => w.neuronsFuel f s) with
  | error e => rw [hm] at h; cases h
  | ok ls =>
    rw [hm] at h
    obtain ⟨g, hg, hg'⟩ := forall₂_fn (mapM_ok_iff.mp hm)
    refine ⟨g, hg', ?_⟩
    simp only [flattenNested_lists] at h
    cases h
    rw [hg, List.flatMap_def]

theorem neuronsFuel_listing {w : World K} : ∀ {f m : ℕ} {l : List ℕ}, w.neuronsFuel f m = .ok l →
    Listing w m l
  | 0, m, l, h => by simp [World.neuronsFuel] at h
  | f + 1, m, l, h => by
    obtain ⟨g, h1, rfl⟩ := neuronsFuel_succ_ok h
    exact .mk m g (fun c hc => neuronsFuel_listing (h1 c hc))

theorem neuronsFuel_mem {w : World K} : ∀ {f m : ℕ} {l : List ℕ}, w.neuronsFuel f m = .ok l →
    ∀ n, n ∈ l ↔ ∃ m', InTree w m m' ∧ Owns w m' n
  | 0, m, l, h => by simp [World.neuronsFuel] at h
  | f + 1, m, l, h => by
    obtain ⟨g, h1, rfl⟩ := neuronsFuel_succ_ok h
    intro n
    rw [List.mem_append, List.mem_flatMap]
    constructor
    · rintro (h2 | ⟨c, hc, h2⟩)
      · exact ⟨m, .refl, mem_topNeurons.mp h2⟩
      · obtain ⟨m', h3, h4⟩ := (neuronsFuel_mem (h1 c hc) n).mp h2
        exact ⟨m', .head (mem_subnetworks.mp hc) h3, h4⟩
    · rintro ⟨m', h2, h3⟩
      rcases Relation.ReflTransGen.cases_head h2 with rfl | ⟨c, hc, h4⟩
      · exact Or.inl (mem_topNeurons.mpr h3)
      · have hc' := mem_subnetworks.mpr hc
        exact Or.inr ⟨c, hc', (neuronsFuel_mem (h1 c hc') n).mpr ⟨m', h4, h3⟩⟩

theorem neuronsFuel_error {w : World K} : ∀ {f m : ℕ} {e : PyErr}, w.neuronsFuel f m = .error e →
    e = .recursionError ∧ ∃ p : ℕ → ℕ, p 0 = m ∧ ∀ i < f, Child w (p i) (p (i + 1))
  | 0, m, e, h => by
    simp [World.neuronsFuel] at h
    exact ⟨h.symm, fun _ => m, rfl, by simp⟩
  | f + 1, m, e, h => by
    rw [World.neuronsFuel] at h
    cases hm : (w.subnetworks m).mapM (fun s => w.neuronsFuel f s) with
    | error e' =>
      rw [hm] at h; cases h
      obtain ⟨c, hc, h2⟩ := mapM_error hm
      obtain ⟨h3, p, hp0, hp⟩ := neuronsFuel_error h2
      refine ⟨h3, fun i => if i = 0 then m else p (i - 1), by simp, ?_⟩
      intro i hi
      rcases Nat.eq_zero_or_pos i with rfl | hpos
      · simpa [hp0] using mem_subnetworks.mp hc
      · have := hp (i - 1) (by omega)
        simp only [Nat.ne_of_gt hpos, if_false, Nat.succ_ne_zero]
        rwa [show i + 1 - 1 = i - 1 + 1 by omega]
    | ok ls => rw [hm] at h; cases h

theorem path_trans {w : World K} {p : ℕ → ℕ} {N : ℕ} (hp : ∀ i < N, Child w (p i) (p (i + 1))) :
    ∀ {i j : ℕ}, i < j → j ≤ N → Relation.TransGen (Child w) (p i) (p j) := by
  intro i j hij hj
  induction j with
  | zero => omega
  | succ j ih =>
    rcases Nat.lt_or_ge i j with h | h
    · exact (ih h (by omega)).tail (hp j (by omega))
    · have : i = j := by omega
      subst this
      exact .single (hp i (by omega))

theorem path_refl {w : World K} {p : ℕ → ℕ} {N : ℕ} (hp : ∀ i < N, Child w (p i) (p (i + 1)))
    {i : ℕ} (hi : i ≤ N) : InTree w (p 0) (p i) := by
  rcases Nat.eq_zero_or_pos i with rfl | h
  · exact .refl
  · exact (path_trans hp h hi).to_reflTransGen

theorem ok_no_path {w : World K} : ∀ {f m : ℕ} {l : List ℕ}, w.neuronsFuel f m = .ok l →
    ∀ p : ℕ → ℕ, p 0 = m → (∀ i < f, Child w (p i) (p (i + 1))) → False
  | 0, m, l, h, p, _, _ => by simp [World.neuronsFuel] at h
  | f + 1, m, l, h, p, hp0, hp => by
    obtain ⟨g, h1, -⟩ := neuronsFuel_succ_ok h
    have hc : Child w m (p 1) := hp0 ▸ hp 0 (by omega)
    exact ok_no_path (h1 _ (mem_subnetworks.mpr hc)) (fun i => p (i + 1)) rfl
      (fun i hi => hp (i + 1) (by omega))

/-- From a reachable cycle, paths of every length start at `m`. -/
theorem cycle_path {w : World K} {m : ℕ} (h : Cyclic w m) (N : ℕ) :
    ∃ p : ℕ → ℕ, p 0 = m ∧ ∀ i < N, Child w (p i) (p (i + 1)) := by
  induction N generalizing m with
  | zero => exact ⟨fun _ => m, rfl, by simp⟩
  | succ N ih =>
    obtain ⟨m', h1, h2⟩ := h
    have : ∃ c, Child w m c ∧ Cyclic w c := by
      rcases Relation.ReflTransGen.cases_head h1 with rfl | ⟨c, hc, h3⟩
      · obtain ⟨c, hc, h4⟩ := Relation.TransGen.head'_iff.mp h2
        exact ⟨c, hc, m, h4, h2⟩
      · exact ⟨c, hc, m', h3, h2⟩
    obtain ⟨c, hc, hcyc⟩ := this
    obtain ⟨p, hp0, hp⟩ := ih hcyc
    refine ⟨fun i => if i = 0 then m else p (i - 1), by simp, ?_⟩
    intro i hi
    rcases Nat.eq_zero_or_pos i with rfl | hpos
    · simpa [hp0] using hc
    · have := hp (i - 1) (by omega)
      simp only [Nat.ne_of_gt hpos, if_false, Nat.succ_ne_zero]
      rwa [show i + 1 - 1 = i - 1 + 1 by omega]

theorem neurons_error_cyclic {w : World K} (hw : w.OK) {m : ℕ} (hm : m < w.mCount) {e}
    (h : w.neurons m = .error e) : e = .recursionError ∧ Cyclic w m := by
  obtain ⟨he, p, hp0, hp⟩ := neuronsFuel_error h
  refine ⟨he, ?_⟩
  have hlt : ∀ i ≤ w.mCount + 1, p i < w.mCount := by
    intro i hi
    rcases Nat.eq_zero_or_pos i with rfl | hpos
    · rw [hp0]; exact hm
    · have := hw.sub_snd _ (hp (i - 1) (by omega))
      simpa [show i - 1 + 1 = i by omega] using this
  obtain ⟨i, hi, j, hj, hne, hij⟩ := Finset.exists_ne_map_eq_of_card_lt_of_maps_to
    (s := Finset.range (w.mCount + 1)) (t := Finset.range w.mCount) (f := p) (by simp)
    (by intro i hi; simp at hi ⊢; exact hlt i (by omega))
  simp only [Finset.mem_range] at hi hj
  rcases Nat.lt_or_ge i j with h | h
  · exact ⟨p i, hp0 ▸ path_refl hp (by omega), by
      have := path_trans hp h (by omega)
      rw [← hij] at this; exact this⟩
  · have h : j < i := by omega
    exact ⟨p j, hp0 ▸ path_refl hp (by omega), by
      have := path_trans hp h (by omega)
      rw [hij] at this; exact this⟩

theorem neuronsFuel_mono {w : World K} : ∀ {f f' m : ℕ} {l : List ℕ}, w.neuronsFuel f m = .ok l → f ≤ f' →
    w.neuronsFuel f' m = .ok l
  | 0, _, _, _, h, _ => by simp [World.neuronsFuel] at h
  | f + 1, 0, _, _, _, h => by omega
  | f + 1, f' + 1, m, l, h, hle => by
    obtain ⟨g, h1, rfl⟩ := neuronsFuel_succ_ok h
    rw [World.neuronsFuel, mapM_eq_map (g := g) (fun c hc => neuronsFuel_mono (h1 c hc) (by omega))]
    simp only [flattenNested_lists, List.flatMap_def]

theorem acyclic_child {w : World K} {m c : ℕ} (h : ¬ Cyclic w m) (hc : Child w m c) : ¬ Cyclic w c :=
  fun ⟨m', h1, h2⟩ => h ⟨m', .head hc h1, h2⟩

/-- A listing of any fuel is the listing of `neurons`. -/
theorem neurons_of_fuel {w : World K} (hw : w.OK) {m : ℕ} (hm : m < w.mCount) {f l}
    (h : w.neuronsFuel f m = .ok l) : w.neurons m = .ok l := by
  cases h' : w.neurons m with
  | error e =>
    obtain ⟨-, hc⟩ := neurons_error_cyclic hw hm h'
    obtain ⟨p, hp0, hp⟩ := cycle_path hc f
    exact (ok_no_path h p hp0 hp).elim
  | ok l' =>
    have a := neuronsFuel_mono h (Nat.le_max_left f (w.mCount + 1))
    have b := neuronsFuel_mono h' (Nat.le_max_right f (w.mCount + 1))
    rw [a] at b; cases b; rfl

theorem parent_unique {w : World K} (h : (w.sub.map (·.2)).Nodup) {a b c : ℕ} (h1 : Child w a c)
    (h2 : Child w b c) : a = b := (Prod.mk.inj (List.inj_on_of_nodup_map h h1 h2 rfl)).1

/-- In a forest, two ancestors of the same module are comparable. -/
theorem ancestors_comparable {w : World K} (h : (w.sub.map (·.2)).Nodup) {a b x : ℕ} (h1 : InTree w a x)
    (h2 : InTree w b x) : InTree w a b ∨ InTree w b a := by
  induction h1 generalizing b with
  | refl => exact Or.inr h2
  | tail h3 h4 ih =>
    rcases Relation.ReflTransGen.cases_tail h2 with rfl | ⟨y, h5, h6⟩
    · exact Or.inl (h3.tail h4)
    · rw [parent_unique h h6 h4] at h5
      exact ih h5

theorem neuronsFuel_nodup {w : World K} (hw : w.OK) (hf : (w.sub.map (·.2)).Nodup) :
    ∀ {f m : ℕ} {l : List ℕ}, ¬ Cyclic w m → w.neuronsFuel f m = .ok l → l.Nodup
  | 0, _, _, _, h => by simp [World.neuronsFuel] at h
  | f + 1, m, l, hac, h => by
    obtain ⟨g, h1, rfl⟩ := neuronsFuel_succ_ok h
    have hsub : (w.subnetworks m).Nodup := by
      rw [World.subnetworks, List.nodup_reverse]
      exact hf.sublist (List.filter_sublist.map _)
    have hown : (w.topNeurons m).Nodup := by
      rw [World.topNeurons, List.nodup_reverse]
      exact hw.own_nodup.sublist (List.filter_sublist.map _)
    rw [List.nodup_append]
    refine ⟨hown, ?_, ?_⟩
    · rw [List.nodup_flatMap]
      refine ⟨fun c hc => neuronsFuel_nodup hw hf (acyclic_child hac (mem_subnetworks.mp hc)) (h1 c hc), ?_⟩
      refine hsub.imp_of_mem ?_
      intro c1 c2 hc1 hc2 hne n hn1 hn2
      obtain ⟨m1, a1, b1⟩ := (neuronsFuel_mem (h1 c1 hc1) n).mp hn1
      obtain ⟨m2, a2, b2⟩ := (neuronsFuel_mem (h1 c2 hc2) n).mp hn2
      rw [hw.owner_unique b1 b2] at a1
      have key : ∀ {c1 c2}, Child w m c1 → Child w m c2 → c1 ≠ c2 → InTree w c1 c2 → False := by
        intro c1 c2 k1 k2 hne hr
        rcases Relation.ReflTransGen.cases_tail hr with rfl | ⟨y, h5, h6⟩
        · exact hne rfl
        · rw [parent_unique hf h6 k2] at h5
          exact hac ⟨m, .refl, Relation.TransGen.head' k1 h5⟩
      rcases ancestors_comparable hf a1 a2 with h | h
      · exact key (mem_subnetworks.mp hc1) (mem_subnetworks.mp hc2) hne h
      · exact key (mem_subnetworks.mp hc2) (mem_subnetworks.mp hc1) hne.symm h
    · intro n hn1 n' hn2 heq
      subst heq
      obtain ⟨c, hc, hn2⟩ := List.mem_flatMap.mp hn2
      obtain ⟨m', a, b⟩ := (neuronsFuel_mem (h1 c hc) n).mp hn2
      rw [hw.owner_unique b (mem_topNeurons.mp hn1)] at a
      exact hac ⟨m, .refl, Relation.TransGen.head' (mem_subnetworks.mp hc) a⟩

/-! ## neurons_with_module_uid -/

theorem withModFuel_spec {w : World K} : ∀ (f m : ℕ),
    (∀ l, w.neuronsFuel f m = .ok l → ∃ r, w.withModFuel f m = .ok r ∧ r.map (·.1) = l ∧
      ∀ x, x ∈ r ↔ InTree w m x.2 ∧ Owns w x.2 x.1) ∧
    (∀ e, w.neuronsFuel f m = .error e → ∃ e', w.withModFuel f m = .error e' ∧ e' = e)
  | 0, m => by simp [World.neuronsFuel, World.withModFuel]
  | f + 1, m => by
    constructor
    · intro l h
      obtain ⟨g, h1, rfl⟩ := neuronsFuel_succ_ok h
      have h2 : ∀ c, ∃ r, c ∈ w.subnetworks m → w.withModFuel f c = .ok r ∧ r.map (·.1) = g c ∧
          ∀ x, x ∈ r ↔ InTree w c x.2 ∧ Owns w x.2 x.1 := by
        intro c
        by_cases hc : c ∈ w.subnetworks m
        · obtain ⟨r, hr⟩ := (withModFuel_spec f c).1 _ (h1 c hc)
          exact ⟨r, fun _ => hr⟩
        · exact ⟨[], fun h => (hc h).elim⟩
      choose r hr using h2
      refine ⟨(w.topNeurons m).map (fun n => (n, m)) ++ (w.subnetworks m).flatMap r, ?_, ?_, ?_⟩
      · rw [World.withModFuel, mapM_eq_map (g := r) (fun c hc => (hr c hc).1)]
        simp only [flattenNested_lists, List.flatMap_def]
      · rw [List.map_append, List.map_map, List.map_flatMap]
        congr 1
        · simp [Function.comp_def]
        · apply List.flatMap_congr
          intro c hc; exact (hr c hc).2.1
      · intro x
        rw [List.mem_append, List.mem_flatMap, List.mem_map]
        constructor
        · rintro (⟨n, hn, rfl⟩ | ⟨c, hc, h⟩)
          · exact ⟨.refl, mem_topNeurons.mp hn⟩
          · obtain ⟨h3, h4⟩ := ((hr c hc).2.2 x).mp h
            exact ⟨.head (mem_subnetworks.mp hc) h3, h4⟩
        · rintro ⟨h3, h4⟩
          rcases Relation.ReflTransGen.cases_head h3 with h5 | ⟨c, hc, h5⟩
          · left
            refine ⟨x.1, mem_topNeurons.mpr (by rw [h5]; exact h4), ?_⟩
            rw [h5]
          · have hc' := mem_subnetworks.mpr hc
            exact Or.inr ⟨c, hc', ((hr c hc').2.2 x).mpr ⟨h5, h4⟩⟩
    · intro e h
      rw [World.neuronsFuel] at h
      cases hm : (w.subnetworks m).mapM (fun s => w.neuronsFuel f s) with
      | ok ls => rw [hm] at h; cases h
      | error e' =>
        rw [hm] at h; cases h
        rw [World.withModFuel]
        cases hm' : (w.subnetworks m).mapM (fun s => w.withModFuel f s) with
        | error e'' =>
          refine ⟨e'', rfl, ?_⟩
          obtain ⟨c, hc, h2⟩ := mapM_error hm'
          cases h3 : w.neuronsFuel f c with
          | error e3 =>
            obtain ⟨e4, h4, h5⟩ := (withModFuel_spec f c).2 _ h3
            rw [h2] at h4; cases h4
            rw [h5, (neuronsFuel_error h3).1]
            obtain ⟨c', hc', h6⟩ := mapM_error hm
            rw [(neuronsFuel_error h6).1]
          | ok l3 =>
            obtain ⟨r, hr, -⟩ := (withModFuel_spec f c).1 _ h3
            rw [h2] at hr; cases hr
        | ok ls =>
          exfalso
          obtain ⟨c, hc, h2⟩ := mapM_error hm
          obtain ⟨e4, h4, -⟩ := (withModFuel_spec f c).2 _ h2
          obtain ⟨g, -, hg⟩ := forall₂_fn (mapM_ok_iff.mp hm')
          rw [hg c hc] at h4; cases h4

theorem foldl_update_mem (l : List (ℕ × ℕ)) (hu : ∀ x ∈ l, ∀ y ∈ l, x.1 = y.1 → x.2 = y.2) :
    ∀ (d : ℕ → Option ℕ) (n v : ℕ), (∀ y ∈ l, ∀ z, d y.1 = some z → z = y.2) →
    ((l.foldl (fun (d : ℕ → Option ℕ) x => Function.update d x.1 (some x.2)) d) n = some v ↔
      (n, v) ∈ l ∨ d n = some v) := by
  induction l with
  | nil => intro d n v _; simp
  | cons x l ih =>
    intro d n v hd
    rw [List.foldl_cons, ih (fun a ha b hb => hu a (by simp [ha]) b (by simp [hb]))]
    · by_cases hn : n = x.1
      · subst hn
        simp only [Function.update_self, Option.some.injEq, List.mem_cons]
        constructor
        · rintro (h | h)
          · exact Or.inl (Or.inr h)
          · exact Or.inl (Or.inl (by rw [← h]))
        · rintro ((h | h) | h)
          · right; rw [← h]
          · exact Or.inl h
          · right; exact (hd x (by simp) v h).symm
      · rw [Function.update_of_ne hn, List.mem_cons]
        constructor
        · rintro (h | h)
          · exact Or.inl (Or.inr h)
          · exact Or.inr h
        · rintro ((h | h) | h)
          · exact (hn (by rw [← h])).elim
          · exact Or.inl h
          · exact Or.inr h
    · intro y hy z hz
      by_cases hyx : y.1 = x.1
      · rw [hyx, Function.update_self] at hz
        cases hz
        exact (hu y (by simp [hy]) x (by simp) hyx).symm
      · rw [Function.update_of_ne hyx] at hz
        exact hd y (by simp [hy]) z hz

/-! ## uids -/

theorem digitChar_inj {a b : ℕ} (ha : a < 10) (hb : b < 10)
    (h : Char.ofNat (48 + a) = Char.ofNat (48 + b)) : a = b := by
  interval_cases a <;> interval_cases b <;> first | rfl | (exfalso; revert h; decide)

theorem digitChar_isDigit {a : ℕ} (ha : a < 10) : (Char.ofNat (48 + a)).isDigit = true := by
  interval_cases a <;> decide

theorem decimal_digits (n : ℕ) : ∀ c ∈ decimal n, c.isDigit = true := by
  intro c hc
  unfold decimal at hc
  split at hc
  · simp at hc; subst hc; decide
  · rw [List.mem_reverse, List.mem_map] at hc
    obtain ⟨d, hd, rfl⟩ := hc
    exact digitChar_isDigit (Nat.digits_lt_base (by norm_num) hd)

theorem map_inj_on {f : ℕ → Char} : ∀ {l l' : List ℕ}, (∀ a ∈ l, ∀ b ∈ l', f a = f b → a = b) →
    l.map f = l'.map f → l = l'
  | [], [], _, _ => rfl
  | [], _ :: _, _, h => by simp at h
  | _ :: _, [], _, h => by simp at h
  | a :: l, b :: l', hinj, h => by
    simp only [List.map_cons, List.cons.injEq] at h
    rw [hinj a (by simp) b (by simp) h.1,
      map_inj_on (fun x hx y hy => hinj x (by simp [hx]) y (by simp [hy])) h.2]

theorem decimal_inj {a b : ℕ} (h : decimal a = decimal b) : a = b := by
  have key : ∀ n, n ≠ 0 → decimal n ≠ ['0'] := by
    intro n hn h
    unfold decimal at h
    rw [if_neg hn] at h
    have h2 := congrArg List.reverse h
    rw [List.reverse_reverse] at h2
    have hlen := congrArg List.length h2
    rw [List.length_map] at hlen
    have hd : Nat.digits 10 n = [0] := by
      match hdg : Nat.digits 10 n with
      | [] => rw [hdg] at hlen; simp at hlen
      | [x] =>
        rw [hdg] at h2
        simp at h2
        have hx : x < 10 := Nat.digits_lt_base (m := n) (by norm_num) (by rw [hdg]; simp)
        have : x = 0 := digitChar_inj hx (by norm_num) (by rw [h2])
        rw [this]
      | _ :: _ :: _ => rw [hdg] at hlen; simp at hlen
    have := Nat.ofDigits_digits 10 n
    rw [hd] at this
    simp at this
    exact hn this.symm
  by_cases ha : a = 0
  · by_cases hb : b = 0
    · rw [ha, hb]
    · exact (key b hb (by rw [← h, ha]; rfl)).elim
  · by_cases hb : b = 0
    · exact (key a ha (by rw [h, hb]; rfl)).elim
    · unfold decimal at h
      rw [if_neg ha, if_neg hb, List.reverse_inj] at h
      have := map_inj_on (fun x hx y hy e => digitChar_inj (Nat.digits_lt_base (by norm_num) hx)
        (Nat.digits_lt_base (by norm_num) hy) e) h
      exact Nat.digits_inj_iff.mp this

/-- Digits followed by a non-digit can be split off in only one way. -/
theorem digits_split {c c' : Char} (hc : c.isDigit = false) (hc' : c'.isDigit = false) :
    ∀ {a a' x x' : List Char}, (∀ d ∈ a, d.isDigit = true) → (∀ d ∈ a', d.isDigit = true) →
    a ++ c :: x = a' ++ c' :: x' → a = a' ∧ c = c' ∧ x = x'
  | [], [], x, x', _, _, h => by simpa using h
  | [], d :: a', x, x', _, h2, h => by
    simp only [List.nil_append, List.cons_append, List.cons.injEq] at h
    have := h2 d (by simp)
    rw [← h.1, hc] at this; cases this
  | d :: a, [], x, x', h1, _, h => by
    simp only [List.nil_append, List.cons_append, List.cons.injEq] at h
    have := h1 d (by simp)
    rw [h.1, hc'] at this; cases this
  | d :: a, d' :: a', x, x', h1, h2, h => by
    simp only [List.cons_append, List.cons.injEq] at h
    obtain ⟨e1, e2, e3⟩ := digits_split hc hc' (fun y hy => h1 y (by simp [hy]))
      (fun y hy => h2 y (by simp [hy])) h.2
    exact ⟨by rw [h.1, e1], e2, e3⟩

end Axon
