import Verif.Model.Matmul
import Verif.Props.Scalar
import Mathlib.LinearAlgebra.Matrix.Notation
import Mathlib.Tactic.Ring

/-! # C60: the matrix example -/
set_option linter.unusedSectionVars false
namespace Axon
open Spec
variable {K : Type*} [Field K] [DecidableEq K]

/-- Value of a division-free expression (division is read as 0; it does not occur). -/
def arith (env : ℕ → K) : SExpr K → K
  | .num x => x
  | .var i => env i
  | .neg a => -arith env a
  | .add a b => arith env a + arith env b
  | .sub a b => arith env a - arith env b
  | .mul a b => arith env a * arith env b
  | .div _ _ => 0

/-- No division. -/
def NoDiv : SExpr K → Prop
  | .num _ => True
  | .var _ => True
  | .neg a => NoDiv a
  | .add a b | .sub a b | .mul a b => NoDiv a ∧ NoDiv b
  | .div _ _ => False

theorem denote_noDiv (env : ℕ → K) : ∀ e : SExpr K, NoDiv e → denote env e = some (arith env e) ∧ ¬ NumOverScalar e
  | .num _, _ => ⟨rfl, id⟩
  | .var _, _ => ⟨rfl, id⟩
  | .neg a, h => by
    obtain ⟨h1, h2⟩ := denote_noDiv env a h
    exact ⟨by simp [denote, h1, arith], h2⟩
  | .add a b, h => by
    obtain ⟨h1, h2⟩ := denote_noDiv env a h.1
    obtain ⟨h3, h4⟩ := denote_noDiv env b h.2
    exact ⟨by simp [denote, h1, h3, arith], by simp [NumOverScalar, h2, h4]⟩
  | .sub a b, h => by
    obtain ⟨h1, h2⟩ := denote_noDiv env a h.1
    obtain ⟨h3, h4⟩ := denote_noDiv env b h.2
    exact ⟨by simp [denote, h1, h3, arith], by simp [NumOverScalar, h2, h4]⟩
  | .mul a b, h => by
    obtain ⟨h1, h2⟩ := denote_noDiv env a h.1
    obtain ⟨h3, h4⟩ := denote_noDiv env b h.2
    exact ⟨by simp [denote, h1, h3, arith], by simp [NumOverScalar, h2, h4]⟩
  | .div _ _, h => h.elim

theorem eval_noDiv (limit : ℕ) (e : SExpr K) (h : SHeap K) (hu : UsesBelow h.length e) (hd : NoDiv e) (hs : HasScalar e) :
    ∃ i h', evalPy limit e h = .ok (.sc i, h') ∧ h <+: h' ∧ i < h'.length ∧ h'.data i = arith h.data e := by
  obtain ⟨d1, d2⟩ := denote_noDiv h.data e hd
  obtain ⟨v, h', he⟩ := (C54_succeeds_iff limit e h hu).mpr ⟨by rw [d1]; rfl, d2⟩
  obtain ⟨v1, v2, v3⟩ := C54_value limit e h hu he
  obtain ⟨i, hi, rfl⟩ := v3.mpr hs
  rw [d1] at v1
  exact ⟨i, h', he, v2, hi, (Option.some.inj v1).symm⟩

theorem rename_facts (env : List ℕ) (f : ℕ → K) (g : ℕ → K) (n : ℕ) (hg : ∀ i, i < env.length → f (env.getD i 0) = g i)
    (hn : ∀ i, i < env.length → env.getD i 0 < n) :
    ∀ e : SExpr K, UsesBelow env.length e → UsesBelow n (e.rename env) ∧ arith f (e.rename env) = arith g e ∧
      (NoDiv (e.rename env) ↔ NoDiv e) ∧ (HasScalar (e.rename env) ↔ HasScalar e)
  | .num _, _ => ⟨trivial, rfl, Iff.rfl, Iff.rfl⟩
  | .var i, h => ⟨hn i h, hg i h, Iff.rfl, Iff.rfl⟩
  | .neg a, h => by
    obtain ⟨a1, a2, a3, a4⟩ := rename_facts env f g n hg hn a h
    exact ⟨a1, by simp [SExpr.rename, arith, a2], a3, a4⟩
  | .add a b, h => by
    obtain ⟨a1, a2, a3, a4⟩ := rename_facts env f g n hg hn a h.1
    obtain ⟨b1, b2, b3, b4⟩ := rename_facts env f g n hg hn b h.2
    exact ⟨⟨a1, b1⟩, by simp [SExpr.rename, arith, a2, b2], and_congr a3 b3, or_congr a4 b4⟩
  | .sub a b, h => by
    obtain ⟨a1, a2, a3, a4⟩ := rename_facts env f g n hg hn a h.1
    obtain ⟨b1, b2, b3, b4⟩ := rename_facts env f g n hg hn b h.2
    exact ⟨⟨a1, b1⟩, by simp [SExpr.rename, arith, a2, b2], and_congr a3 b3, or_congr a4 b4⟩
  | .mul a b, h => by
    obtain ⟨a1, a2, a3, a4⟩ := rename_facts env f g n hg hn a h.1
    obtain ⟨b1, b2, b3, b4⟩ := rename_facts env f g n hg hn b h.2
    exact ⟨⟨a1, b1⟩, by simp [SExpr.rename, arith, a2, b2], and_congr a3 b3, or_congr a4 b4⟩
  | .div a b, h => by
    obtain ⟨a1, a2, a3, a4⟩ := rename_facts env f g n hg hn a h.1
    obtain ⟨b1, b2, b3, b4⟩ := rename_facts env f g n hg hn b h.2
    exact ⟨⟨a1, b1⟩, rfl, Iff.rfl, or_congr a4 b4⟩

/-- A list of division-free Scalar assignments, the `k`-th using only variables defined before. -/
def BodyOK : ℕ → List (SExpr K) → Prop
  | _, [] => True
  | n, e :: es => UsesBelow n e ∧ NoDiv e ∧ HasScalar e ∧ BodyOK (n + 1) es

/-- Values of the local variables after the assignments. -/
def bodyVals : List K → List (SExpr K) → List K
  | vals, [] => vals
  | vals, e :: es => bodyVals (vals ++ [arith (fun i => vals.getD i 0) e]) es

theorem runProg_ok (limit : ℕ) : ∀ (es : List (SExpr K)) (env : List ℕ) (h : SHeap K), BodyOK env.length es →
    (∀ x ∈ env, x < h.length) →
    ∃ env' h', runProg limit es env h = .ok (env', h') ∧ h <+: h' ∧ (∀ x ∈ env', x < h'.length) ∧
      env'.map h'.data = bodyVals (env.map h.data) es
  | [], env, h, _, he => ⟨env, h, rfl, List.prefix_rfl, he, rfl⟩
  | e :: es, env, h, ⟨b1, b2, b3, b4⟩, he => by
    obtain ⟨r1, r2, r3, r4⟩ := rename_facts env h.data (fun i => (env.map h.data).getD i 0) h.length
      (by
        intro i hi
        simp [List.getD_eq_getElem?_getD, hi])
      (by
        intro i hi
        rw [List.getD_eq_getElem?_getD, List.getElem?_eq_getElem hi]
        exact he _ (List.getElem_mem hi)) e b1
    obtain ⟨i, h1, e1, p1, l1, d1⟩ := eval_noDiv limit (e.rename env) h r1 (r3.mpr b2) (r4.mpr b3)
    obtain ⟨env', h', e2, p2, l2, d2⟩ := runProg_ok limit es (env ++ [i]) h1 (by simpa using b4) (by
      intro x hx
      rcases List.mem_append.mp hx with hx | hx
      · exact (he x hx).trans_le p1.length_le
      · rw [List.mem_singleton.mp hx]; exact l1)
    refine ⟨env', h', by rw [runProg, e1]; exact e2, p1.trans p2, l2, ?_⟩
    rw [d2, bodyVals, List.map_append]
    congr 2
    · exact List.map_congr_left (fun x hx => SHeap.data_prefix p1 (he x hx))
    · simp only [List.map_cons, List.map_nil, d1, r2]

/-- The matrix of numbers carried by a matrix of Scalars. -/
def Spec.matVal (h : SHeap K) (M : Mat2) : Matrix (Fin 2) (Fin 2) K :=
  !![h.data M.x11, h.data M.x12; h.data M.x21, h.data M.x22]

/-- The entries are existing Scalars. -/
def Spec.MatOK (h : SHeap K) (M : Mat2) : Prop :=
  M.x11 < h.length ∧ M.x12 < h.length ∧ M.x21 < h.length ∧ M.x22 < h.length

theorem getD_of_map {h : SHeap K} {env : List ℕ} {vals : List K} (hv : env.map h.data = vals) {i : ℕ} (hi : i < vals.length) :
    h.data (env.getD i 0) = vals.getD i 0 := by
  subst hv
  simp only [List.length_map] at hi
  simp [List.getD_eq_getElem?_getD, hi]

/-- C60: `regular_matmul` returns the matrix product, for all 2x2 matrices of Scalars. -/
theorem C60_regular (limit : ℕ) (A B : Mat2) (h : SHeap K) (hA : MatOK h A) (hB : MatOK h B) :
    ∃ C h', regularMatmul limit A B h = .ok (C, h') ∧ h <+: h' ∧ MatOK h' C ∧ matVal h' C = matVal h A * matVal h B := by
  obtain ⟨a1, a2, a3, a4⟩ := hA
  obtain ⟨b1, b2, b3, b4⟩ := hB
  have hp : h <+: h ++ [⟨0, [], .load⟩, ⟨0, [], .load⟩, ⟨0, [], .load⟩, ⟨0, [], .load⟩] := ⟨_, rfl⟩
  obtain ⟨env, h', e1, p1, l1, d1⟩ := runProg_ok limit regularBody [A.x11, A.x12, A.x21, A.x22, B.x11, B.x12, B.x21, B.x22]
    (h ++ [⟨0, [], .load⟩, ⟨0, [], .load⟩, ⟨0, [], .load⟩, ⟨0, [], .load⟩])
    (by simp [BodyOK, regularBody, UsesBelow, NoDiv, HasScalar]) (by
      intro x hx
      refine lt_of_lt_of_le ?_ hp.length_le
      simp only [List.mem_cons, List.not_mem_nil, or_false] at hx
      rcases hx with rfl | rfl | rfl | rfl | rfl | rfl | rfl | rfl <;> assumption)
  have hlen : env.length = 12 := by
    have := congrArg List.length d1
    simpa [bodyVals, regularBody] using this
  have hm : ∀ i, i < env.length → env.getD i 0 < h'.length := fun i hi => by
    rw [List.getD_eq_getElem?_getD, List.getElem?_eq_getElem hi]; exact l1 _ (List.getElem_mem _)
  refine ⟨_, h', by unfold regularMatmul; rw [e1], hp.trans p1, ⟨?_, ?_, ?_, ?_⟩, ?_⟩
  · exact hm _ (by omega)
  · exact hm _ (by omega)
  · exact hm _ (by omega)
  · exact hm _ (by omega)
  · simp only [List.map_cons, List.map_nil, SHeap.data_prefix hp a1, SHeap.data_prefix hp a2, SHeap.data_prefix hp a3,
      SHeap.data_prefix hp a4, SHeap.data_prefix hp b1, SHeap.data_prefix hp b2, SHeap.data_prefix hp b3,
      SHeap.data_prefix hp b4] at d1
    simp only [bodyVals, regularBody, List.cons_append, List.nil_append, arith, List.getD_cons_zero, List.getD_cons_succ] at d1
    simp only [matVal, Matrix.mul_fin_two]
    rw [getD_of_map d1 (by simp), getD_of_map d1 (by simp), getD_of_map d1 (by simp), getD_of_map d1 (by simp)]
    simp only [List.getD_cons_zero, List.getD_cons_succ]

/-- C60: `strassen_matmul` returns the same product. -/
theorem C60_strassen (limit : ℕ) (A B : Mat2) (h : SHeap K) (hA : MatOK h A) (hB : MatOK h B) :
    ∃ C h', strassenMatmul limit A B h = .ok (C, h') ∧ h <+: h' ∧ MatOK h' C ∧ matVal h' C = matVal h A * matVal h B := by
  obtain ⟨a1, a2, a3, a4⟩ := hA
  obtain ⟨b1, b2, b3, b4⟩ := hB
  obtain ⟨env, h', e1, p1, l1, d1⟩ := runProg_ok limit strassenBody [A.x11, A.x12, A.x21, A.x22, B.x11, B.x12, B.x21, B.x22]
    h (by simp [BodyOK, strassenBody, UsesBelow, NoDiv, HasScalar]) (by
      intro x hx
      simp only [List.mem_cons, List.not_mem_nil, or_false] at hx
      rcases hx with rfl | rfl | rfl | rfl | rfl | rfl | rfl | rfl <;> assumption)
  have hlen : env.length = 19 := by
    have := congrArg List.length d1
    simpa [bodyVals, strassenBody] using this
  have hm : ∀ i, i < env.length → env.getD i 0 < h'.length := fun i hi => by
    rw [List.getD_eq_getElem?_getD, List.getElem?_eq_getElem hi]; exact l1 _ (List.getElem_mem _)
  refine ⟨_, h', by unfold strassenMatmul; rw [e1], p1, ⟨?_, ?_, ?_, ?_⟩, ?_⟩
  · exact hm _ (by omega)
  · exact hm _ (by omega)
  · exact hm _ (by omega)
  · exact hm _ (by omega)
  · simp only [bodyVals, strassenBody, List.map_cons, List.map_nil, List.cons_append, List.nil_append, arith,
      List.getD_cons_zero, List.getD_cons_succ] at d1
    simp only [matVal, Matrix.mul_fin_two]
    rw [getD_of_map d1 (by simp), getD_of_map d1 (by simp), getD_of_map d1 (by simp), getD_of_map d1 (by simp)]
    simp only [List.getD_cons_zero, List.getD_cons_succ]
    congr 1
    funext i j
    fin_cases i <;> fin_cases j <;> simp <;> ring

theorem sumStep_ok (limit : ℕ) {acc : ℕ × SHeap K} {x : ℕ} (h1 : acc.1 < acc.2.length) (h2 : x < acc.2.length) :
    ∃ i h', sumStep limit acc x = .ok (i, h') ∧ acc.2 <+: h' ∧ i < h'.length ∧
      h'.data i = acc.2.data acc.1 + acc.2.data x := by
  obtain ⟨i, h', e, p, l, d⟩ := eval_noDiv limit (.add (.var acc.1) (.var x)) acc.2 ⟨h1, h2⟩ ⟨trivial, trivial⟩ (Or.inl trivial)
  exact ⟨i, h', by unfold sumStep; rw [e], p, l, d⟩

theorem sumRow_ok (limit : ℕ) (row : List ℕ) : ∀ (k : ℕ), k ≤ row.length → ∀ acc : ℕ × SHeap K, acc.1 < acc.2.length →
    (∀ x ∈ row, x < acc.2.length) →
    ∃ i h', (List.range k).foldlM (sumEntry limit row) acc = .ok (i, h') ∧ acc.2 <+: h' ∧ i < h'.length ∧
      h'.data i = acc.2.data acc.1 + ((row.take k).map acc.2.data).sum := by
  intro k
  induction k with
  | zero => intro _ acc h1 _; exact ⟨acc.1, acc.2, rfl, List.prefix_rfl, h1, by simp⟩
  | succ k ih =>
    intro hk acc h1 h2
    obtain ⟨i, h', e, p, l, d⟩ := ih (by omega) acc h1 h2
    have hx : row[k] < acc.2.length := h2 _ (List.getElem_mem _)
    obtain ⟨i2, h3, e2, p2, l2, d2⟩ := sumStep_ok limit (acc := (i, h')) (x := row[k]) l (hx.trans_le p.length_le)
    refine ⟨i2, h3, ?_, p.trans p2, l2, ?_⟩
    · rw [List.range_succ, List.foldlM_append, e]
      simp only [List.foldlM_cons, List.foldlM_nil, bind, Except.bind]
      have : sumEntry limit row (i, h') k = .ok (i2, h3) := by
        unfold sumEntry; rw [List.getElem?_eq_getElem (by omega)]; exact e2
      rw [this]; rfl
    · rw [d2, d, SHeap.data_prefix p hx, List.take_add_one, List.getElem?_eq_getElem (by omega)]
      rw [List.map_append, List.sum_append, add_assoc]
      simp

/-- C60: `sum_mat` returns the sum of all entries, for a matrix of any size. -/
theorem C60_sum (limit : ℕ) (M : List (List ℕ)) (h : SHeap K) (hM : ∀ row ∈ M, ∀ x ∈ row, x < h.length)
    (hrect : ∀ row ∈ M, row.length = (M.headD []).length) :
    ∃ i h', sumMat limit M h = .ok (i, h') ∧ h <+: h' ∧ i < h'.length ∧
      h'.data i = (M.map (fun row => (row.map h.data).sum)).sum := by
  have key : ∀ (L : List (List ℕ)), (∀ row ∈ L, row ∈ M) → ∀ acc : ℕ × SHeap K, h <+: acc.2 → acc.1 < acc.2.length →
      ∃ i h', L.foldlM (fun acc row => (List.range (M.headD []).length).foldlM (sumEntry limit row) acc) acc = .ok (i, h') ∧
        acc.2 <+: h' ∧ i < h'.length ∧ h'.data i = acc.2.data acc.1 + (L.map (fun row => (row.map h.data).sum)).sum := by
    intro L
    induction L with
    | nil => intro _ acc _ h1; exact ⟨acc.1, acc.2, rfl, List.prefix_rfl, h1, by simp⟩
    | cons row L ih =>
      intro hL acc hp h1
      have hrow := hL row (by simp)
      obtain ⟨i, h', e, p, l, d⟩ := sumRow_ok limit row (M.headD []).length (by rw [hrect row hrow]) acc h1
        (fun x hx => (hM row hrow x hx).trans_le hp.length_le)
      obtain ⟨i2, h2, e2, p2, l2, d2⟩ := ih (fun r hr => hL r (by simp [hr])) (i, h') (hp.trans p) l
      refine ⟨i2, h2, ?_, p.trans p2, l2, ?_⟩
      · rw [List.foldlM_cons, e]; exact e2
      · rw [d2]
        simp only [d, List.map_cons, List.sum_cons]
        rw [List.take_of_length_le (by rw [hrect row hrow])]
        rw [List.map_congr_left (fun x hx => SHeap.data_prefix hp (hM row hrow x hx)), add_assoc]
  obtain ⟨i, h', e, p, l, d⟩ := key M (fun _ h => h) (newScalar h 0 [] .load) ⟨_, rfl⟩ (by simp [newScalar])
  refine ⟨i, h', e, List.IsPrefix.trans ⟨_, rfl⟩ p, l, ?_⟩
  rw [d]
  simp [newScalar, SHeap.data]

/-- C60: the two products agree and so do the sums of their entries (the example program's computation). -/
theorem C60_agree (limit : ℕ) (A B : Mat2) (h : SHeap K) (hA : MatOK h A) (hB : MatOK h B) :
    ∃ C h1 D h2, regularMatmul limit A B h = .ok (C, h1) ∧ strassenMatmul limit A B h1 = .ok (D, h2) ∧
      matVal h1 C = matVal h2 D := by
  obtain ⟨C, h1, e1, p1, -, d1⟩ := C60_regular limit A B h hA hB
  have up : ∀ M, MatOK h M → MatOK h1 M := fun M hM =>
    ⟨hM.1.trans_le p1.length_le, hM.2.1.trans_le p1.length_le, hM.2.2.1.trans_le p1.length_le, hM.2.2.2.trans_le p1.length_le⟩
  have same : ∀ M, MatOK h M → matVal h1 M = matVal h M := fun M hM => by
    simp only [matVal, SHeap.data_prefix p1 hM.1, SHeap.data_prefix p1 hM.2.1, SHeap.data_prefix p1 hM.2.2.1,
      SHeap.data_prefix p1 hM.2.2.2]
  obtain ⟨D, h2, e2, -, -, d2⟩ := C60_strassen limit A B h1 (up A hA) (up B hB)
  exact ⟨C, h1, D, h2, e1, e2, by rw [d1, d2, same A hA, same B hB]⟩

/-- The matrices of matmul.py:62-73. -/
def exMats : SHeap ℚ := [2, 3, 2, 1, 1, 2, 3, 2].map (fun x => ⟨x, [], .load⟩)

example : MatOK exMats ⟨0, 1, 2, 3⟩ ∧ MatOK exMats ⟨4, 5, 6, 7⟩ ∧
    (match strassenMatmul 1000 ⟨0, 1, 2, 3⟩ ⟨4, 5, 6, 7⟩ exMats with
      | .ok (C, h) => decide (h.data C.x11 = 11 ∧ h.data C.x12 = 10 ∧ h.data C.x21 = 5 ∧ h.data C.x22 = 6)
      | _ => false) = true := by
  refine ⟨by simp [MatOK, exMats], by simp [MatOK, exMats], by decide +kernel⟩

end Axon
