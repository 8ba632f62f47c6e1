import Verif.Proofs.Scalar
import Mathlib.Tactic.NormNum
import Mathlib.Algebra.Order.Field.Rat

/-! # C54, C55: Scalars compute ordinary arithmetic; trace collects the computation graph -/
set_option linter.unusedSectionVars false
namespace Axon
open Spec
variable {K : Type*} [Field K] [DecidableEq K]

/-- C54: whenever evaluation succeeds, the result carries the value ordinary arithmetic gives, existing
Scalars are untouched, and the result is a Scalar iff a Scalar was involved. -/
theorem C54_value (limit : ℕ) (e : SExpr K) (h : SHeap K) (hu : UsesBelow h.length e) {v : SVal K} {h' : SHeap K}
    (he : evalPy limit e h = .ok (v, h')) :
    denote h.data e = some (valueOf h' v) ∧ h <+: h' ∧ ((∃ i < h'.length, v = .sc i) ↔ HasScalar e) := by
  rcases evalOK limit e h hu with ⟨r, h1, x, e1, d1, n1, s1, m1⟩ | ⟨-, he'⟩
  · rw [e1] at he
    obtain ⟨rfl, rfl⟩ := Prod.mk.inj (Except.ok.inj he)
    refine ⟨by rw [m1.val]; exact d1, m1.pre, ?_⟩
    rw [← s1]
    constructor
    · rintro ⟨i, -, rfl⟩; trivial
    · intro hs
      have := m1.valid
      cases r with
      | sc i => exact ⟨i, this, rfl⟩
      | num x => exact (isSc_num x hs).elim
      | obj => exact hs.elim
  · rcases he' with h | h <;> rw [h] at he <;> cases he

/-- C54: evaluation succeeds exactly when ordinary arithmetic defines a value (no division by zero) and no
plain number is divided by a Scalar. -/
theorem C54_succeeds_iff (limit : ℕ) (e : SExpr K) (h : SHeap K) (hu : UsesBelow h.length e) :
    (∃ v h', evalPy limit e h = .ok (v, h')) ↔ (denote h.data e).isSome ∧ ¬ NumOverScalar e := by
  rcases evalOK limit e h hu with ⟨r, h1, x, e1, d1, n1, s1, m1⟩ | ⟨hd, he⟩
  · exact ⟨fun _ => ⟨by rw [d1]; rfl, n1⟩, fun _ => ⟨r, h1, e1⟩⟩
  · constructor
    · rintro ⟨v, h', h1⟩
      rcases he with h | h <;> rw [h] at h1 <;> cases h1
    · rintro ⟨h1, h2⟩
      rcases hd with hd | hd
      · rw [hd] at h1; cases h1
      · exact (h2 hd).elim

/-- C54: dividing a plain number by a Scalar never returns: RecursionError whatever the recursion limit. -/
theorem C54_number_over_scalar (limit : ℕ) (h : SHeap K) (x : K) (i : ℕ) :
    evalPy limit (.div (.num x) (.var i)) h = .error .recursionError := by
  simp [evalPy, evalBin, pyDiv, rtruediv_num]

/-- C54: an operand of a foreign type is rejected, on either side. -/
theorem C54_wrong_type (limit : ℕ) (h : SHeap K) (i : ℕ) (hl : 0 < limit) :
    pyAdd h (.sc i) .obj = .error .assertionError ∧ pyAdd h .obj (.sc i) = .error .assertionError ∧
    pySub h (.sc i) .obj = .error .assertionError ∧ pySub h .obj (.sc i) = .error .assertionError ∧
    pyMul h (.sc i) .obj = .error .assertionError ∧ pyMul h .obj (.sc i) = .error .assertionError ∧
    pyDiv limit h (.sc i) .obj = .error .assertionError ∧ pyDiv limit h .obj (.sc i) = .error .assertionError := by
  obtain ⟨l, rfl⟩ := Nat.exists_eq_succ_of_ne_zero hl.ne'
  refine ⟨rfl, rfl, rfl, rfl, rfl, rfl, rfl, rfl⟩

/-- `(3 - x) * (x / 4) + -x` with `x = Scalar(2)`. -/
def exExpr : SExpr ℚ :=
  .add (.mul (.sub (.num 3) (.var 0)) (.div (.var 0) (.num 4))) (.neg (.var 0))

example : UsesBelow 1 exExpr ∧ ¬ NumOverScalar exExpr ∧ HasScalar exExpr ∧
    denote (SHeap.data [⟨(2 : ℚ), [], .load⟩]) exExpr = some (-3 / 2) ∧
    (match evalPy 1000 exExpr [⟨2, [], .load⟩] with
      | .ok (.sc i, h') => decide (h'.data i = -3 / 2 ∧ h'.length = 9)
      | _ => false) = true := by
  refine ⟨by simp [exExpr, UsesBelow], by simp [exExpr, NumOverScalar, HasScalar], by simp [exExpr, HasScalar], ?_, ?_⟩
  · decide +kernel
  · decide +kernel

/-- C54: the operators only build graphs whose operands are older than the operation and whose operations
have the right number of operands. -/
theorem C54_graph_ok (limit : ℕ) (e : SExpr K) (h : SHeap K) (hu : UsesBelow h.length e) {v : SVal K} {h' : SHeap K}
    (ho : OperandsOlder h) (ha : AritiesOK h) (he : evalPy limit e h = .ok (v, h')) :
    OperandsOlder h' ∧ AritiesOK h' := by
  rcases evalOK limit e h hu with ⟨r, h1, x, e1, d1, n1, s1, m1⟩ | ⟨-, he'⟩
  · rw [e1] at he
    obtain ⟨rfl, rfl⟩ := Prod.mk.inj (Except.ok.inj he)
    exact m1.ok ⟨ho, ha⟩
  · rcases he' with h | h <;> rw [h] at he <;> cases he

/-- C54: the operators only build graphs in which the data of every operation is the result of that operation on the data of its
operands. -/
theorem C54_data_ok (limit : ℕ) (e : SExpr K) (h : SHeap K) (hu : UsesBelow h.length e) {v : SVal K} {h' : SHeap K}
    (ho : OperandsOlder h) (ha : AritiesOK h) (hd : DataOK h) (he : evalPy limit e h = .ok (v, h')) : DataOK h' := by
  rcases evalOK limit e h hu with ⟨r, h1, x, e1, d1, n1, s1, m1⟩ | ⟨-, he'⟩
  · rw [e1] at he
    obtain ⟨rfl, rfl⟩ := Prod.mk.inj (Except.ok.inj he)
    exact m1.dat ⟨ho, ha⟩ hd
  · rcases he' with h | h <;> rw [h] at he <;> cases he

/-- A heap of freshly made Scalars meets the hypotheses. -/
theorem loads_ok (l : List K) : OperandsOlder (l.map fun x => (⟨x, [], .load⟩ : SNode K)) ∧
    AritiesOK (l.map fun x => (⟨x, [], .load⟩ : SNode K)) ∧ DataOK (l.map fun x => (⟨x, [], .load⟩ : SNode K)) := by
  have e : ∀ v, SHeap.op (l.map fun x => (⟨x, [], .load⟩ : SNode K)) v = .load ∧ SHeap.prev (l.map fun x => (⟨x, [], .load⟩ : SNode K)) v = [] := by
    intro v
    by_cases hv : v < l.length <;> simp [SHeap.op, SHeap.prev, hv]
  refine ⟨fun v _ p hp => ?_, fun v _ => ?_, fun v _ h => ?_⟩
  · rw [(e v).2] at hp; simp at hp
  · rw [(e v).1, (e v).2]; rfl
  · exact absurd (e v).1 h

/-- C55: `trace` returns every Scalar reachable through operands exactly once, the root first, and every
operand edge exactly once, provided the recursion limit exceeds the number of Scalars. -/
theorem C55_trace_exact {K : Type*} {h : SHeap K} (ho : OperandsOlder h) {limit root : ℕ} (hr : root < h.length)
    (hl : h.length ≤ limit) :
    ∃ nodes edges, trace h limit root = .ok (nodes, edges) ∧ nodes.Nodup ∧ nodes.head? = some root ∧
      (∀ v, v ∈ nodes ↔ Reach h root v) ∧ edges.Nodup ∧
      (∀ p v, (p, v) ∈ edges ↔ Reach h root v ∧ p ∈ h.prev v) :=
  trace_spec ho hr (by omega)

/-- C55: `trace` only ever fails by exceeding the recursion limit. -/
theorem C55_only_recursion_error {K : Type*} (h : SHeap K) (limit root : ℕ) {e : PyErr}
    (he : trace h limit root = .error e) : e = .recursionError := by
  suffices H : ∀ (limit : ℕ) st v, traceBuild h limit st v = .error e → e = .recursionError from H _ _ _ he
  intro limit
  induction limit with
  | zero => intro st v h; simp [traceBuild] at h; exact h.symm
  | succ n ih =>
    intro st v h1
    simp only [traceBuild] at h1
    split at h1
    · cases h1
    · revert h1
      generalize (st.1 ++ [v], st.2) = s
      generalize h.prev v = ps
      induction ps generalizing s with
      | nil => intro h; cases h
      | cons p ps ihp =>
        intro h1
        rw [List.foldlM_cons] at h1
        generalize hb : traceBuild h n (s.1, if (p, v) ∈ s.2 then s.2 else s.2 ++ [(p, v)]) p = r at h1
        cases r with
        | error e' => cases h1; exact ih _ _ hb
        | ok s' => exact ihp s' h1

/-- The heap of `x` and `n` nested negations. -/
def negChain (x : K) (n : ℕ) : SHeap K :=
  ⟨x, [], .load⟩ :: (List.range n).map (fun i => ⟨x, [i], .neg⟩)

/-- C55: a chain of operations as deep as the recursion limit makes `trace` (hence compilation) fail. -/
theorem C55_deep_chain_fails (x : K) (n limit : ℕ) (hl : limit ≤ n) :
    trace (negChain x n) limit n = .error .recursionError := by
  have hp : ∀ k, k + 1 ≤ n → SHeap.prev (negChain x n) (k + 1) = [k] := by
    intro k hk
    simp [SHeap.prev, negChain, List.getElem?_range (show k < n by omega)]
  suffices H : ∀ (limit k : ℕ) st, limit ≤ k → k ≤ n → (∀ j ≤ k, j ∉ st.1) →
      traceBuild (negChain x n) limit st k = .error .recursionError from
    H limit n ([], []) hl le_rfl (by simp)
  intro limit
  induction limit with
  | zero => intros; rfl
  | succ l ih =>
    intro k st h1 h2 h3
    obtain ⟨k, rfl⟩ := Nat.exists_eq_succ_of_ne_zero (by omega : k ≠ 0)
    simp only [traceBuild, h3 (k + 1) le_rfl, if_false, Nat.succ_eq_add_one, hp k h2, List.foldlM_cons]
    rw [ih k _ (by omega) (by omega) ?_]
    · rfl
    · intro j hj
      simp only [List.mem_append, List.mem_singleton, not_or]
      exact ⟨h3 j (by omega), by omega⟩

/-- `x + x * x` with `x = Scalar(2)`: the shared operand appears once. -/
example : OperandsOlder ([⟨2, [], .load⟩, ⟨4, [0, 0], .mul⟩, ⟨6, [0, 1], .add⟩] : SHeap ℚ) ∧
    trace ([⟨2, [], .load⟩, ⟨4, [0, 0], .mul⟩, ⟨6, [0, 1], .add⟩] : SHeap ℚ) 1000 2 =
      .ok ([2, 0, 1], [(0, 2), (1, 2), (0, 1)]) := by
  refine ⟨?_, by decide +kernel⟩
  intro v hv p hp
  have : v = 0 ∨ v = 1 ∨ v = 2 := by simp at hv; omega
  rcases this with rfl | rfl | rfl <;> simp [SHeap.prev] at hp <;> omega

end Axon
