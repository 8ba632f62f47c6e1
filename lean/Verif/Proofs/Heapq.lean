import Verif.Model.Heapq
import Mathlib.Data.List.Basic
import Mathlib.Tactic.Linarith
import Mathlib.Tactic.SplitIfs

/-! # CPython's heapq meets the heap contract -/
set_option linter.unusedSectionVars false
namespace Axon
variable {α K : Type*} [LinearOrder K]

/-- The heap condition between position `i` and its parent. -/
def Edge (key : α → K) (h : List α) (i : ℕ) : Prop := ∀ a b, h[(i - 1) / 2]? = some a → h[i]? = some b → key a ≤ key b

def IsHeap (key : α → K) (h : List α) : Prop := ∀ i, 0 < i → Edge key h i

theorem IsHeap.min {key : α → K} {h : List α} (hh : IsHeap key h) {x : α} (hx : h[0]? = some x) : ∀ (i : ℕ) y, h[i]? = some y → key x ≤ key y := by
  intro i
  induction i using Nat.strong_induction_on with
  | _ i ih =>
    intro y hy
    rcases Nat.eq_zero_or_pos i with rfl | hi
    · rw [hx] at hy; cases hy; exact le_rfl
    · have hlt : (i - 1) / 2 < h.length := by
        have := (List.getElem?_eq_some_iff.mp hy).1; omega
      have e := List.getElem?_eq_getElem hlt
      exact (ih _ (by omega) _ e).trans (hh i hi _ _ e hy)

theorem swap_perm (h : List α) {i j : ℕ} {a : α} (hj : j < h.length) (hij : i ≠ j) (ha : h[i]? = some a) (new : α) :
    ((h.set j a).set i new).Perm (h.set j new) := by
  obtain ⟨hi, rfl⟩ := List.getElem?_eq_some_iff.mp ha
  have h1 := List.set_set_perm (as := h.set j new) (i := j) (j := i) (by simpa using hj) (by simpa using hi)
  simpa [List.getElem_set, hij.symm] using h1

theorem siftdown_spec (key : α → K) (h : List α) (pos : ℕ) (new : α) (hp : pos < h.length)
    (h1 : ∀ i, 0 < i → i ≠ pos → Edge key (h.set pos new) i)
    (h2 : 0 < pos → ∀ c, 0 < c → (c - 1) / 2 = pos → ∀ a b, (h.set pos new)[(pos - 1) / 2]? = some a → (h.set pos new)[c]? = some b → key a ≤ key b) :
    IsHeap key (heapSiftdown key h pos new) ∧ (heapSiftdown key h pos new).Perm (h.set pos new) := by
  induction pos using Nat.strong_induction_on generalizing h with
  | _ pos ih =>
    unfold heapSiftdown
    match pos with
    | 0 => exact ⟨fun i hi => h1 i hi (by omega), List.Perm.refl _⟩
    | p + 1 =>
      have hpp : p / 2 < h.length := by omega
      have e := List.getElem?_eq_getElem hpp
      simp only [e]
      set parent := h[p / 2]
      by_cases hlt : key new < key parent
      · rw [if_pos hlt]
        have key' := ih (p / 2) (by omega) (h.set (p + 1) parent) (by simpa using hpp) ?_ ?_
        · exact ⟨key'.1, key'.2.trans (swap_perm h hp (by omega) e new)⟩
        · intro i hi hne a b ha hb
          simp only [List.getElem?_set, List.length_set] at ha hb
          rw [if_neg (by omega)] at hb
          by_cases hip : p + 1 = i
          · subst hip
            rw [if_pos rfl, if_pos hp] at hb
            rw [if_pos (by omega), if_pos hpp] at ha
            cases ha; cases hb; exact hlt.le
          · rw [if_neg hip] at hb
            have hE := h1 i hi (by omega)
            unfold Edge at hE
            simp only [List.getElem?_set] at hE
            rw [if_neg hip] at hE
            by_cases hc : p / 2 = (i - 1) / 2
            · rw [if_pos hc, if_pos hpp] at ha
              cases ha
              have := hE parent b (by rw [if_neg (by omega), ← hc]; exact e) hb
              exact hlt.le.trans this
            · rw [if_neg hc] at ha
              by_cases hd : p + 1 = (i - 1) / 2
              · rw [if_pos hd, if_pos hp] at ha
                cases ha
                refine h2 (by omega) i hi hd.symm parent b ?_ ?_
                · rw [List.getElem?_set, if_neg (by omega)]; exact e
                · rw [List.getElem?_set, if_neg hip]; exact hb
              · rw [if_neg hd] at ha
                exact hE a b (by rw [if_neg hd]; exact ha) hb
        · intro h0 c hc hcp a b ha hb
          simp only [List.getElem?_set, List.length_set] at ha hb
          rw [if_neg (by omega), if_neg (by omega)] at ha
          rw [if_neg (by omega)] at hb
          have hE := h1 (p / 2) h0 (by omega) a parent (by rw [List.getElem?_set, if_neg (by omega)]; exact ha)
            (by rw [List.getElem?_set, if_neg (by omega)]; exact e)
          by_cases hip : p + 1 = c
          · rw [if_pos hip, if_pos hp] at hb; cases hb; exact hE
          · rw [if_neg hip] at hb
            refine hE.trans (h1 c hc (by omega) parent b ?_ ?_)
            · rw [List.getElem?_set, if_neg (by omega), hcp]; exact e
            · rw [List.getElem?_set, if_neg hip]; exact hb
      · rw [if_neg hlt]
        refine ⟨fun i hi => ?_, List.Perm.refl _⟩
        by_cases hip : i = p + 1
        · subst hip
          intro a b ha hb
          rw [List.getElem?_set, if_neg (by omega), show (p + 1 - 1) / 2 = p / 2 by omega, e] at ha
          rw [List.getElem?_set, if_pos rfl, if_pos hp] at hb
          cases ha; cases hb; exact not_lt.mp hlt
        · exact h1 i hi hip

theorem siftup_spec (key : α → K) (h : List α) (pos : ℕ) (new : α) (hp : pos < h.length)
    (h1 : ∀ i, 0 < i → ((i - 1) / 2 = pos → 0 < pos) → Edge key h i) :
    IsHeap key (heapSiftup key h pos new) ∧ (heapSiftup key h pos new).Perm (h.set pos new) := by
  induction hn : h.length - pos using Nat.strong_induction_on generalizing h pos with
  | _ n ih =>
    have step : ∀ c (hc : c < h.length), (c - 1) / 2 = pos → 0 < c →
        (∀ d (hd : d < h.length), (d - 1) / 2 = pos → 0 < d → key h[c] ≤ key h[d]) →
        IsHeap key (heapSiftup key (h.set pos h[c]) c new) ∧ (heapSiftup key (h.set pos h[c]) c new).Perm (h.set pos new) := by
      intro c hc hcp hc0 hmin
      have hne : pos ≠ c := by omega
      have key' := ih (h.length - c) (by rw [← hn]; omega) (h.set pos h[c]) c (by simpa using hc) ?_ (by rw [List.length_set])
      · refine ⟨key'.1, key'.2.trans ?_⟩
        exact swap_perm h hp hne.symm (List.getElem?_eq_getElem hc) new
      · intro i hi _ a b ha hb
        simp only [List.getElem?_set] at ha hb
        by_cases hip : pos = i
        · subst hip
          rw [if_pos rfl, if_pos hp] at hb
          rw [if_neg (by omega)] at ha
          cases hb
          obtain ⟨hl, rfl⟩ := List.getElem?_eq_some_iff.mp ha
          have a1 := h1 pos hi (by omega) _ _ ha (List.getElem?_eq_getElem hp)
          have a2 := h1 c hc0 (fun _ => hi) _ _ (by rw [hcp]; exact List.getElem?_eq_getElem hp) (List.getElem?_eq_getElem hc)
          exact a1.trans a2
        · rw [if_neg hip] at hb
          by_cases hq : pos = (i - 1) / 2
          · rw [if_pos hq, if_pos hp] at ha
            cases ha
            obtain ⟨hl, rfl⟩ := List.getElem?_eq_some_iff.mp hb
            exact hmin i hl hq.symm hi
          · rw [if_neg hq] at ha
            exact h1 i hi (fun e => absurd e.symm hq) a b ha hb
    unfold heapSiftup
    split_ifs with hc hr
    · have := hr.2 hr.1
      refine step _ hr.1 (by omega) (by omega) ?_
      intro d hd hdp hd0
      obtain rfl | rfl : d = 2 * pos + 1 ∨ d = 2 * pos + 2 := by omega
      · exact not_lt.mp this
      · exact le_rfl
    · refine step _ hc (by omega) (by omega) ?_
      intro d hd hdp hd0
      obtain rfl | rfl : d = 2 * pos + 1 ∨ d = 2 * pos + 2 := by omega
      · exact le_rfl
      · by_contra hcon
        exact hr ⟨hd, fun _ hlt => hcon hlt.le⟩
    · have e : (h.set pos new).set pos new = h.set pos new := by simp
      have := siftdown_spec key (h.set pos new) pos new (by simpa using hp) ?_ ?_
      · rw [e] at this; exact this
      · rw [e]
        intro i hi hne a b ha hb
        have hil : i < h.length := by simpa using (List.getElem?_eq_some_iff.mp hb).1
        rw [List.getElem?_set, if_neg (by omega)] at ha hb
        exact h1 i hi (by omega) a b ha hb
      · intro _ c hc0 hcp a b _ hb
        have hil : c < h.length := by simpa using (List.getElem?_eq_some_iff.mp hb).1
        omega

theorem heappush_spec (key : α → K) (h : List α) (x : α) (hh : IsHeap key h) :
    IsHeap key (heappush key h x) ∧ (heappush key h x).Perm (x :: h) := by
  have e : (h ++ [x]).set h.length x = h ++ [x] := by simp
  have := siftdown_spec key (h ++ [x]) h.length x (by simp) ?_ ?_
  · rw [e] at this
    exact ⟨this.1, this.2.trans (List.perm_append_singleton _ _)⟩
  · rw [e]
    intro i hi hne a b ha hb
    have hil : i < h.length := by
      have := (List.getElem?_eq_some_iff.mp hb).1
      simp at this; omega
    rw [List.getElem?_append_left (by omega)] at ha hb
    exact hh i hi a b ha hb
  · intro _ c hc0 hcp a b _ hb
    rw [e] at hb
    have := (List.getElem?_eq_some_iff.mp hb).1
    simp at this; omega

theorem heappop_spec (key : α → K) (x : α) (h : List α) (hh : IsHeap key (x :: h)) :
    IsHeap key (heappopRest key (x :: h)) ∧ (heappopRest key (x :: h)).Perm h := by
  rcases List.eq_nil_or_concat h with rfl | ⟨l, last, rfl⟩
  · refine ⟨?_, by simp [heappopRest]⟩
    intro i hi a b ha
    simp [heappopRest] at ha
  · have e1 : (x :: l.concat last).getLast? = some last := by
      rw [List.concat_eq_append, ← List.cons_append, List.getLast?_concat]
    have e2 : (x :: l.concat last).dropLast = x :: l := by
      rw [List.concat_eq_append, ← List.cons_append, List.dropLast_concat]
    unfold heappopRest
    simp only [e1, e2]
    rw [if_neg (by simp)]
    have := siftup_spec key ((x :: l).set 0 last) 0 last (by simp) ?_
    · refine ⟨this.1, this.2.trans ?_⟩
      simp only [List.set_cons_zero, List.concat_eq_append]
      exact (List.perm_append_singleton _ _).symm
    · intro i hi hne a b ha hb
      have hil : i < (x :: l).length := by simpa using (List.getElem?_eq_some_iff.mp hb).1
      rw [List.getElem?_set, if_neg (by omega)] at ha hb
      refine hh i hi a b ?_ ?_
      · rw [List.concat_eq_append, ← List.cons_append, List.getElem?_append_left (by omega)]; exact ha
      · rw [List.concat_eq_append, ← List.cons_append, List.getElem?_append_left hil]; exact hb

/-- CPython's `heapq` is a lawful heap: every theorem of this development holds for it. -/
def cpythonHeap (key : α → K) : Heap α key where
  push := heappush key
  rest := heappopRest key
  Inv := IsHeap key
  inv_nil := by intro i hi a b ha; simp at ha
  inv_push h x hh := (heappush_spec key h x hh).1
  perm_push h x hh := (heappush_spec key h x hh).2
  inv_rest x h hh := (heappop_spec key x h hh).1
  perm_rest x h hh := (heappop_spec key x h hh).2
  min_head x h hh := by
    intro y hy
    obtain ⟨i, hi, rfl⟩ := List.getElem_of_mem hy
    exact hh.min (i := i + 1) rfl _ (by simp)

end Axon
