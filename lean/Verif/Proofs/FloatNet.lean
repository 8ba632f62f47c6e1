import Verif.Props.Rounded

/-! # Trains of spikes in rounded arithmetic

If an assignment of spike steps to neurons is consistent - every neuron, driven by what the assignment sends it, fires exactly where the assignment
says - then it is what the simulator computes. -/
set_option linter.unusedSectionVars false
namespace Axon
open Spec

theorem perm_swap {α β γ : Type*} (A : List α) (B : List β) (f : α → β → List γ) :
    (A.flatMap fun a => B.flatMap fun b => f a b).Perm (B.flatMap fun b => A.flatMap fun a => f a b) := by
  rw [← Multiset.coe_eq_coe]
  have h := Multiset.bind_bind (A : Multiset α) (B : Multiset β) (f := fun a b => (f a b : Multiset γ))
  simpa [Multiset.coe_bind] using h

theorem filter_map_flatMap {α β : Type*} (p : α → Bool) (f : α → β) (l : List α) :
    (l.filter p).map f = l.flatMap fun a => if p a then [f a] else [] := by
  induction l with
  | nil => rfl
  | cons a l ih => by_cases h : p a <;> simp [List.filter_cons, h, ih]

theorem flatMap_filter' {α β : Type*} (p : α → Bool) (f : α → List β) (l : List α) :
    (l.filter p).flatMap f = l.flatMap fun a => if p a then f a else [] := by
  induction l with
  | nil => rfl
  | cons a l ih => by_cases h : p a <;> simp [List.filter_cons, h, ih]

section Generic
variable {K : Type*} [LinearOrder K] [Add K] [Sub K] [Mul K] [Div K] [Zero K] [One K] [NatCast K] [RoundedArith K]

/-- What arrives at neuron `n` in step `i` if the neurons fire in the steps `LS`. -/
def hitsR (net : Net K) (dt : K) (inj : List (ℕ × K)) (LS : ℕ → List ℕ) (n i : ℕ) : List (SynKind × K) :=
  (net.syns.filter fun s => s.post = n).flatMap fun s =>
    (inj.filter fun q => q.1 = s.pre ∧ FirstAt dt 1 (q.2 + s.delay) i).map (fun _ => (s.kind, s.weight)) ++
    ((LS s.pre).filter fun j => FirstAt dt (j + 1) ((j : K) * dt + s.delay) i).map (fun _ => (s.kind, s.weight))

theorem due_perm {net : Net K} (wf : WellFormed net) {dt : K} {inj : List (ℕ × K)} {F : ℕ → ℕ → Bool} {LS : ℕ → List ℕ} {i : ℕ}
    (hnd : ∀ m, (LS m).Nodup) (hF : ∀ j < i, ∀ m, F j m = decide (j ∈ LS m)) (hout : ∀ m, m ∉ net.neurons → LS m = []) (n : ℕ) :
    (((dueR net dt inj F i).filter fun e => e.neuron = n).map fun e => (e.kind, e.weight)).Perm (hitsR net dt inj LS n i) := by
  unfold dueR hitsR
  rw [List.filter_append, List.map_append]
  refine List.Perm.trans ?_ (List.flatMap_append_perm _ _ _)
  refine List.Perm.append ?_ ?_
  · -- injected
    have e1 : (((inj.flatMap (fun q => ((net.out q.1).filter (fun s => FirstAt dt 1 (q.2 + s.delay) i)).map
        (fun s => (⟨q.2 + s.delay, s.post, s.kind, s.weight⟩ : Event K)))).filter fun e => e.neuron = n).map fun e => (e.kind, e.weight)) =
        inj.flatMap fun q => net.syns.flatMap fun s => if s.post = n ∧ q.1 = s.pre ∧ FirstAt dt 1 (q.2 + s.delay) i then [(s.kind, s.weight)] else [] := by
      rw [List.filter_flatMap, List.map_flatMap]
      congr 1; funext q
      rw [List.filter_map, List.map_map, Net.out, List.filter_filter, List.filter_filter, filter_map_flatMap]
      congr 1; funext s
      have hc : q.1 = s.pre ↔ s.pre = q.1 := eq_comm
      by_cases h1 : s.post = n <;> by_cases h2 : s.pre = q.1 <;> by_cases h3 : FirstAt dt 1 (q.2 + s.delay) i <;>
        simp [hc, h1, h2, h3]
    rw [e1]
    refine (perm_swap _ _ _).trans ?_
    rw [flatMap_filter']
    refine List.Perm.of_eq ?_
    congr 1; funext s
    by_cases h1 : s.post = n
    · simp only [h1, true_and, if_true, decide_true]
      rw [filter_map_flatMap]
      congr 1; funext q; simp
    · simp [h1]
  · have e1 : ((((List.range i).flatMap (fun j => (net.neurons.dedup.filter (fun n => F j n)).flatMap (fun n =>
        ((net.out n).filter (fun s => FirstAt dt (j + 1) ((j : K) * dt + s.delay) i)).map
          (fun s => (⟨(j : K) * dt + s.delay, s.post, s.kind, s.weight⟩ : Event K))))).filter fun e => e.neuron = n).map fun e => (e.kind, e.weight)) =
        (List.range i).flatMap fun j => net.neurons.dedup.flatMap fun m => net.syns.flatMap fun s =>
          if s.post = n ∧ m = s.pre ∧ F j m = true ∧ FirstAt dt (j + 1) ((j : K) * dt + s.delay) i then [(s.kind, s.weight)] else [] := by
      rw [List.filter_flatMap, List.map_flatMap]
      congr 1; funext j
      rw [List.filter_flatMap, List.map_flatMap, flatMap_filter']
      congr 1; funext m
      by_cases hf : F j m = true
      · rw [if_pos hf, List.filter_map, List.map_map, Net.out, List.filter_filter, List.filter_filter, filter_map_flatMap]
        congr 1; funext s
        have hc : m = s.pre ↔ s.pre = m := eq_comm
        by_cases h1 : s.post = n <;> by_cases h2 : s.pre = m <;> by_cases h3 : FirstAt dt (j + 1) ((j : K) * dt + s.delay) i <;>
          simp [hc, h1, h2, h3, hf]
      · rw [if_neg hf]; simp [hf]
    rw [e1]
    have e2 : ((List.range i).flatMap fun j => net.neurons.dedup.flatMap fun m => net.syns.flatMap fun s =>
          if s.post = n ∧ m = s.pre ∧ F j m = true ∧ FirstAt dt (j + 1) ((j : K) * dt + s.delay) i then [(s.kind, s.weight)] else []).Perm
        ((List.range i).flatMap fun j => net.syns.flatMap fun s => net.neurons.dedup.flatMap fun m =>
          if s.post = n ∧ m = s.pre ∧ F j m = true ∧ FirstAt dt (j + 1) ((j : K) * dt + s.delay) i then [(s.kind, s.weight)] else []) :=
      List.Perm.flatMap_left _ fun j _ => perm_swap _ _ _
    refine e2.trans ?_
    refine (perm_swap _ _ _).trans ?_
    rw [flatMap_filter']
    refine List.Perm.flatMap_left _ fun s hs => ?_
    by_cases h1 : s.post = n
    swap
    · simp [h1]
    simp only [h1, true_and, decide_true, if_true]
    have e3 : ∀ j ∈ List.range i, (net.neurons.dedup.flatMap fun m =>
          if m = s.pre ∧ F j m = true ∧ FirstAt dt (j + 1) ((j : K) * dt + s.delay) i then [(s.kind, s.weight)] else []) =
        if j ∈ LS s.pre ∧ FirstAt dt (j + 1) ((j : K) * dt + s.delay) i then [(s.kind, s.weight)] else [] := by
      intro j hj
      have hj' := List.mem_range.mp hj
      by_cases hm : s.pre ∈ net.neurons
      · have key : ∀ l : List ℕ, l.Nodup → s.pre ∈ l → (l.flatMap fun m =>
            if m = s.pre ∧ F j m = true ∧ FirstAt dt (j + 1) ((j : K) * dt + s.delay) i then [(s.kind, s.weight)] else []) =
            if F j s.pre = true ∧ FirstAt dt (j + 1) ((j : K) * dt + s.delay) i then [(s.kind, s.weight)] else [] := by
          intro l hl hml
          induction l with
          | nil => cases hml
          | cons a l ih =>
            rw [List.flatMap_cons]
            obtain ⟨ha, hl'⟩ := List.nodup_cons.mp hl
            by_cases hp : a = s.pre
            · subst hp
              have : (l.flatMap fun m => if m = s.pre ∧ F j m = true ∧ FirstAt dt (j + 1) ((j : K) * dt + s.delay) i then [(s.kind, s.weight)] else []) = [] := by
                rw [List.flatMap_eq_nil_iff]
                intro m hm'
                rw [if_neg]
                rintro ⟨rfl, -⟩; exact ha hm'
              rw [this]; simp
            · rw [ih hl' (by simpa [Ne.symm hp] using hml)]
              simp [hp]
        rw [key _ (List.nodup_dedup _) (List.mem_dedup.mpr hm), hF j hj' s.pre]
        simp
      · rw [hout _ hm]
        simp only [List.not_mem_nil, false_and, if_false]
        rw [List.flatMap_eq_nil_iff]
        intro m hm'
        rw [if_neg]
        rintro ⟨rfl, -⟩; exact hm (List.mem_dedup.mp hm')
    rw [List.flatMap_congr e3]
    have e4 : ((List.range i).flatMap fun j => if j ∈ LS s.pre ∧ FirstAt dt (j + 1) ((j : K) * dt + s.delay) i then [(s.kind, s.weight)] else []) =
        ((List.range i).filter fun j => j ∈ LS s.pre ∧ FirstAt dt (j + 1) ((j : K) * dt + s.delay) i).map (fun _ => (s.kind, s.weight)) := by
      rw [filter_map_flatMap]
      congr 1; funext j; simp
    rw [e4]
    refine List.Perm.map _ ?_
    refine (List.perm_ext_iff_of_nodup (List.nodup_range.filter _) ((hnd _).filter _)).mpr fun j => ?_
    simp only [List.mem_filter, List.mem_range, decide_eq_true_eq]
    constructor
    · rintro ⟨-, h⟩; exact h
    · rintro ⟨h, h'⟩; exact ⟨by have := h'.1; omega, h, h'⟩

/-- One arriving weight. -/
def addHit (s : NState K) (h : SynKind × K) : NState K := addEv s ⟨0, 0, h.1, h.2⟩

/-- A run of a single neuron, from rest, on what arrives in every step (in any order within a step). -/
structure NRun (p : Params K) (dt : K) (hits : ℕ → List (SynKind × K)) (s : ℕ → NState K) (f : ℕ → Bool) : Prop where
  start : s 0 = ⟨0, 0, 0, 0⟩ ∧ f 0 = false
  step : ∀ i, ∃ l : List (SynKind × K), l.Perm (hits (i + 1)) ∧ (s (i + 1), f (i + 1)) = euler p dt (l.foldl addHit (s i))

/-- Driven by `hits`, the neuron fires exactly in the steps `L`. -/
def FitsR (p : Params K) (dt : K) (hits : ℕ → List (SynKind × K)) (L : List ℕ) : Prop :=
  ∀ s f, NRun p dt hits s f → ∀ i, f i = decide (i ∈ L)

theorem foldl_addEv (l : List (Event K)) (s : NState K) : l.foldl addEv s = (l.map fun e => (e.kind, e.weight)).foldl addHit s := by
  induction l generalizing s with
  | nil => rfl
  | cons e l ih => rw [List.foldl_cons, ih]; rfl

/-- A neuron's run up to step `N` can be continued. -/
theorem extend_run {p : Params K} {dt : K} {hits : ℕ → List (SynKind × K)} {s : ℕ → NState K} {f : ℕ → Bool} (h0 : s 0 = ⟨0, 0, 0, 0⟩ ∧ f 0 = false)
    {N : ℕ} (h : ∀ i < N, ∃ l : List (SynKind × K), l.Perm (hits (i + 1)) ∧ (s (i + 1), f (i + 1)) = euler p dt (l.foldl addHit (s i))) :
    ∃ s' f', NRun p dt hits s' f' ∧ ∀ i ≤ N, s' i = s i ∧ f' i = f i := by
  let nx : ℕ → ℕ → NState K × Bool := fun i k => Nat.rec (s N, f N) (fun k r => euler p dt ((hits (N + k + 1)).foldl addHit r.1)) k
  refine ⟨fun i => if i ≤ N then s i else (nx i (i - N)).1, fun i => if i ≤ N then f i else (nx i (i - N)).2, ⟨by simpa using h0, fun i => ?_⟩,
    fun i hi => by simp [hi]⟩
  rcases lt_trichotomy i N with hi | rfl | hi
  · obtain ⟨l, h1, h2⟩ := h i hi
    refine ⟨l, h1, ?_⟩
    simp only [show i + 1 ≤ N from hi, show i ≤ N from hi.le, if_true]; exact h2
  · refine ⟨_, List.Perm.refl _, ?_⟩
    simp only [show ¬ i + 1 ≤ i by omega, le_refl, if_true, if_false, show i + 1 - i = 1 by omega]
    rfl
  · refine ⟨_, List.Perm.refl _, ?_⟩
    simp only [show ¬ i + 1 ≤ N by omega, show ¬ i ≤ N by omega, if_false]
    obtain ⟨k, rfl⟩ : ∃ k, i = N + k + 1 := ⟨i - N - 1, by omega⟩
    rw [show N + k + 1 + 1 - N = k + 1 + 1 by omega, show N + k + 1 - N = k + 1 by omega]
    rfl

/-- **A consistent assignment of spike steps is what the simulator computes.** -/
theorem consistR {net : Net K} (wf : WellFormed net) {dt : K} {inj : List (ℕ × K)} {S : ℕ → ℕ → NState K} {F : ℕ → ℕ → Bool} {B : ℕ → List (Event K)}
    (hr : IsRunR net dt inj (fun _ => ⟨0, 0, 0, 0⟩) S F B) {LS : ℕ → List ℕ} (hnd : ∀ m, (LS m).Nodup) (hout : ∀ m, m ∉ net.neurons → LS m = [])
    (hfit : ∀ n ∈ net.neurons, FitsR (net.par n) dt (hitsR net dt inj LS n) (LS n)) : ∀ i n, F i n = decide (i ∈ LS n) := by
  intro i
  induction i using Nat.strong_induction_on with
  | _ i ih =>
    intro n
    by_cases hn : n ∈ net.neurons
    · have hst : ∀ k < i, ∃ l : List (SynKind × K), l.Perm (hitsR net dt inj LS n (k + 1)) ∧ (S (k + 1) n, F (k + 1) n) = euler (net.par n) dt (l.foldl addHit (S k n)) := by
        intro k hk
        refine ⟨((B (k + 1)).filter fun e => e.neuron = n).map fun e => (e.kind, e.weight), ?_, ?_⟩
        · exact (((hr.batch k).filter _).map _).trans (due_perm wf hnd (fun j hj m => ih j (by omega) m) hout n)
        · rw [← foldl_addEv]; exact hr.step k n hn
      obtain ⟨s', f', h1, h2⟩ := extend_run (s := fun i => S i n) (f := fun i => F i n) (hr.start n) hst
      rw [← (h2 i le_rfl).2]
      exact hfit n hn s' f' h1 i
    · rw [(hr.outside i n hn).2, hout n hn]; simp

end Generic
end Axon
