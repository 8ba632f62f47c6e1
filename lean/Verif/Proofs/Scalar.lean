import Verif.Spec.Scalar
import Mathlib.Tactic.Ring

/-! # Lemmas on Scalars: operators and trace -/
set_option linter.unusedSectionVars false
namespace Axon
open Spec
variable {K : Type*}

theorem SHeap.get_append {h : SHeap K} (l : SHeap K) {i : ℕ} (hi : i < h.length) : (h ++ l)[i]? = h[i]? :=
  List.getElem?_append_left hi

theorem SHeap.data_prefix [Zero K] {h h' : SHeap K} (hp : h <+: h') {i : ℕ} (hi : i < h.length) :
    h'.data i = h.data i := by
  obtain ⟨l, rfl⟩ := hp; simp only [SHeap.data, SHeap.get_append l hi]

theorem SHeap.prev_prefix {h h' : SHeap K} (hp : h <+: h') {i : ℕ} (hi : i < h.length) :
    h'.prev i = h.prev i := by
  obtain ⟨l, rfl⟩ := hp; simp only [SHeap.prev, SHeap.get_append l hi]

theorem SHeap.op_prefix {h h' : SHeap K} (hp : h <+: h') {i : ℕ} (hi : i < h.length) :
    h'.op i = h.op i := by
  obtain ⟨l, rfl⟩ := hp; simp only [SHeap.op, SHeap.get_append l hi]

theorem SHeap.data_new [Zero K] (h : SHeap K) (n : SNode K) : SHeap.data (h ++ [n]) h.length = n.data := by
  simp [SHeap.data]
theorem SHeap.prev_new (h : SHeap K) (n : SNode K) : SHeap.prev (h ++ [n]) h.length = n.prev := by
  simp [SHeap.prev]
theorem SHeap.op_new (h : SHeap K) (n : SNode K) : SHeap.op (h ++ [n]) h.length = n.op := by
  simp [SHeap.op]

/-- A number or an existing Scalar. -/
def SVal.Valid (h : SHeap K) : SVal K → Prop
  | .num _ => True
  | .sc i => i < h.length
  | .obj => False

def SVal.IsSc : SVal K → Prop
  | .sc _ => True
  | _ => False

@[simp] theorem isSc_sc (i : ℕ) : (SVal.sc i : SVal K).IsSc := trivial
@[simp] theorem isSc_num (x : K) : ¬ (SVal.num x : SVal K).IsSc := id

/-- Well-formed heaps. -/
def HeapOK (h : SHeap K) : Prop := OperandsOlder h ∧ AritiesOK h

theorem HeapOK.append {h : SHeap K} (hh : HeapOK h) (n : SNode K) (h1 : ∀ p ∈ n.prev, p < h.length)
    (h2 : n.prev.length = arity n.op) : HeapOK (h ++ [n]) := by
  have hp : h <+: h ++ [n] := ⟨[n], rfl⟩
  constructor
  · intro v hv p hpv
    by_cases e : v = h.length
    · subst e; rw [SHeap.prev_new] at hpv; exact h1 p hpv
    · have : v < h.length := by simp at hv; omega
      rw [SHeap.prev_prefix hp this] at hpv; exact hh.1 v this p hpv
  · intro v hv
    by_cases e : v = h.length
    · subst e; rw [SHeap.prev_new, SHeap.op_new]; exact h2
    · have : v < h.length := by simp at hv; omega
      rw [SHeap.prev_prefix hp this, SHeap.op_prefix hp this]; exact hh.2 v this

section
variable [Field K] [DecidableEq K]

theorem valueOf_prefix {h h' : SHeap K} (hp : h <+: h') {v : SVal K} (hv : v.Valid h) :
    valueOf h' v = valueOf h v := by
  cases v with
  | num x => rfl
  | sc i => exact SHeap.data_prefix hp hv
  | obj => rfl

theorem valid_prefix {h h' : SHeap K} (hp : h <+: h') {v : SVal K} (hv : v.Valid h) : v.Valid h' := by
  cases v with
  | num x => trivial
  | sc i => exact lt_of_lt_of_le hv hp.length_le
  | obj => exact hv

/-- The operation went from `h` to `h'` and produced `r`, worth `x`. -/
structure Made (h h' : SHeap K) (r : SVal K) (x : K) : Prop where
  pre : h <+: h'
  valid : r.Valid h'
  val : valueOf h' r = x
  ok : HeapOK h → HeapOK h'
  dat : HeapOK h → DataOK h → DataOK h'

theorem DataOK.append {h : SHeap K} (hh : HeapOK h) (hd : DataOK h) (n : SNode K) (h1 : ∀ p ∈ n.prev, p < h.length)
    (h2 : n.op ≠ .load → opValue n.op (n.prev.map h.data) = some n.data) : DataOK (h ++ [n]) := by
  have hp : h <+: h ++ [n] := ⟨[n], rfl⟩
  intro v hv hop
  by_cases e : v = h.length
  · subst e
    rw [SHeap.op_new] at hop
    rw [SHeap.prev_new, SHeap.op_new, SHeap.data_new, ← h2 hop]
    congr 1
    exact List.map_congr_left fun p hpm => SHeap.data_prefix hp (h1 p hpm)
  · have hlt : v < h.length := by simp at hv; omega
    rw [SHeap.op_prefix hp hlt] at hop
    rw [SHeap.prev_prefix hp hlt, SHeap.op_prefix hp hlt, SHeap.data_prefix hp hlt, ← hd v hlt hop]
    congr 1
    exact List.map_congr_left fun p hpm => SHeap.data_prefix hp ((hh.1 v hlt p hpm).trans hlt)

theorem made_new {h : SHeap K} (d : K) (prev : List ℕ) (op : OpType) (h1 : ∀ p ∈ prev, p < h.length)
    (h2 : prev.length = arity op) (h3 : op ≠ .load → opValue op (prev.map h.data) = some d) :
    Made h (newScalar h d prev op).2 (.sc (newScalar h d prev op).1) d := by
  refine ⟨⟨_, rfl⟩, ?_, ?_, fun hh => hh.append _ h1 h2, fun hh hd => DataOK.append hh hd _ h1 h3⟩
  · simp [SVal.Valid, newScalar]
  · simp [valueOf, newScalar, SHeap.data_new]

theorem Made.trans {h h1 h2 : SHeap K} {r s : SVal K} {x y : K} (a : Made h h1 r x) (b : Made h1 h2 s y) :
    Made h h2 s y := ⟨a.pre.trans b.pre, b.valid, b.val, fun h => b.ok (a.ok h),
    fun h h' => b.dat (a.ok h) (a.dat h h')⟩

theorem wrap_spec {h : SHeap K} {v : SVal K} (hv : v.Valid h) : Made h (wrap h v).2 (.sc (wrap h v).1) (valueOf h v) := by
  cases v with
  | num x => exact made_new x [] .load (by simp) rfl (fun h => absurd rfl h)
  | sc i => exact ⟨List.prefix_rfl, hv, rfl, id, fun _ => id⟩
  | obj => exact hv.elim

theorem canProceed_of_valid {h : SHeap K} {v : SVal K} (hv : v.Valid h) : canProceed v = true := by
  cases v <;> first | rfl | exact hv.elim

theorem add_made {h : SHeap K} {i : ℕ} {v : SVal K} (hi : i < h.length) (hv : v.Valid h) :
    ∃ r h', Scalar.add h i v = .ok (r, h') ∧ r.IsSc ∧ Made h h' r (h.data i + valueOf h v) := by
  have w := wrap_spec hv
  refine ⟨_, _, by rw [Scalar.add, if_pos (canProceed_of_valid hv)], isSc_sc _, ?_⟩
  have hw := w.valid
  have hiw := lt_of_lt_of_le hi w.pre.length_le
  have := made_new (h := (wrap h v).2) ((wrap h v).2.data i + (wrap h v).2.data (wrap h v).1) [i, (wrap h v).1] .add
    (by intro p hp; simp at hp; rcases hp with rfl | rfl; exacts [hiw, hw]) rfl (fun _ => rfl)
  have e : (wrap h v).2.data i + (wrap h v).2.data (wrap h v).1 = h.data i + valueOf h v := by
    rw [SHeap.data_prefix w.pre hi]; congr 1; exact w.val
  exact e ▸ w.trans this

theorem mul_made {h : SHeap K} {i : ℕ} {v : SVal K} (hi : i < h.length) (hv : v.Valid h) :
    ∃ r h', Scalar.mul h i v = .ok (r, h') ∧ r.IsSc ∧ Made h h' r (h.data i * valueOf h v) := by
  have w := wrap_spec hv
  refine ⟨_, _, by rw [Scalar.mul, if_pos (canProceed_of_valid hv)], isSc_sc _, ?_⟩
  have hw := w.valid
  have hiw := lt_of_lt_of_le hi w.pre.length_le
  have := made_new (h := (wrap h v).2) ((wrap h v).2.data i * (wrap h v).2.data (wrap h v).1) [i, (wrap h v).1] .mul
    (by intro p hp; simp at hp; rcases hp with rfl | rfl; exacts [hiw, hw]) rfl (fun _ => rfl)
  have e : (wrap h v).2.data i * (wrap h v).2.data (wrap h v).1 = h.data i * valueOf h v := by
    rw [SHeap.data_prefix w.pre hi]; congr 1; exact w.val
  exact e ▸ w.trans this

theorem truediv_made {h : SHeap K} {i : ℕ} {v : SVal K} (hi : i < h.length) (hv : v.Valid h) :
    (valueOf h v = 0 → Scalar.truediv h i v = .error .zeroDivision) ∧
    (valueOf h v ≠ 0 → ∃ r h', Scalar.truediv h i v = .ok (r, h') ∧ r.IsSc ∧ Made h h' r (h.data i / valueOf h v)) := by
  have w := wrap_spec hv
  have hw := w.valid
  have hiw := lt_of_lt_of_le hi w.pre.length_le
  have ev : (wrap h v).2.data (wrap h v).1 = valueOf h v := w.val
  constructor
  · intro h0
    rw [Scalar.truediv, if_pos (canProceed_of_valid hv)]
    simp only [ev, h0, if_true]
  · intro h0
    refine ⟨_, _, by rw [Scalar.truediv, if_pos (canProceed_of_valid hv)]; simp only [ev, h0, if_false]; rfl, isSc_sc _, ?_⟩
    have := made_new (h := (wrap h v).2) ((wrap h v).2.data i / valueOf h v) [i, (wrap h v).1] .div
      (by intro p hp; simp at hp; rcases hp with rfl | rfl; exacts [hiw, hw]) rfl (fun _ => by simp [opValue, ev])
    have e : (wrap h v).2.data i / valueOf h v = h.data i / valueOf h v := by
      rw [SHeap.data_prefix w.pre hi]
    exact e ▸ w.trans this

theorem made_same {h : SHeap K} (x : K) : Made h h (.num x) x := ⟨List.prefix_rfl, trivial, rfl, id, fun _ => id⟩

theorem pyNeg_made {h : SHeap K} {v : SVal K} (hv : v.Valid h) :
    ∃ r h', pyNeg h v = .ok (r, h') ∧ (r.IsSc ↔ v.IsSc) ∧ Made h h' r (-valueOf h v) := by
  cases v with
  | num x => exact ⟨_, _, rfl, Iff.rfl, made_same _⟩
  | sc i =>
    refine ⟨_, _, rfl, by simp, ?_⟩
    have := made_new (h := h) (-1 * h.data i) [i] .neg (by simpa [SVal.Valid] using hv) rfl (fun _ => by simp [opValue])
    have e : -1 * h.data i = -valueOf h (.sc i) := neg_one_mul _
    exact e ▸ this
  | obj => exact hv.elim

theorem pyAdd_made {h : SHeap K} {v u : SVal K} (hv : v.Valid h) (hu : u.Valid h) :
    ∃ r h', pyAdd h v u = .ok (r, h') ∧ (r.IsSc ↔ v.IsSc ∨ u.IsSc) ∧ Made h h' r (valueOf h v + valueOf h u) := by
  cases v with
  | obj => exact hv.elim
  | sc i =>
    obtain ⟨r, h', e, hs, m⟩ := add_made hv hu
    exact ⟨r, h', by simpa [pyAdd] using e, by simp [hs], m⟩
  | num x =>
    cases u with
    | obj => exact hu.elim
    | num y => exact ⟨_, _, rfl, by simp, made_same _⟩
    | sc j =>
      obtain ⟨r, h', e, hs, m⟩ := add_made (v := .num x) hu trivial
      refine ⟨r, h', by simp [pyAdd, Scalar.radd, canProceed, e], by simp [hs], ?_⟩
      rw [add_comm]; exact m

theorem pyMul_made {h : SHeap K} {v u : SVal K} (hv : v.Valid h) (hu : u.Valid h) :
    ∃ r h', pyMul h v u = .ok (r, h') ∧ (r.IsSc ↔ v.IsSc ∨ u.IsSc) ∧ Made h h' r (valueOf h v * valueOf h u) := by
  cases v with
  | obj => exact hv.elim
  | sc i =>
    obtain ⟨r, h', e, hs, m⟩ := mul_made hv hu
    exact ⟨r, h', by simpa [pyMul] using e, by simp [hs], m⟩
  | num x =>
    cases u with
    | obj => exact hu.elim
    | num y => exact ⟨_, _, rfl, by simp, made_same _⟩
    | sc j =>
      obtain ⟨r, h', e, hs, m⟩ := mul_made (v := .num x) hu trivial
      refine ⟨r, h', by simp [pyMul, Scalar.rmul, canProceed, e], by simp [hs], ?_⟩
      rw [mul_comm]; exact m

theorem pySub_made {h : SHeap K} {v u : SVal K} (hv : v.Valid h) (hu : u.Valid h) :
    ∃ r h', pySub h v u = .ok (r, h') ∧ (r.IsSc ↔ v.IsSc ∨ u.IsSc) ∧ Made h h' r (valueOf h v - valueOf h u) := by
  cases v with
  | obj => exact hv.elim
  | sc i =>
    obtain ⟨n, h1, e1, hs1, m1⟩ := pyNeg_made hu
    obtain ⟨r, h2, e2, hs2, m2⟩ := pyAdd_made (v := .sc i) (valid_prefix m1.pre hv) m1.valid
    refine ⟨r, h2, by simp [pySub, Scalar.sub, canProceed_of_valid hu, e1, e2], by simp [hs2], ?_⟩
    rw [valueOf_prefix m1.pre hv, m1.val, ← sub_eq_add_neg] at m2
    exact m1.trans m2
  | num x =>
    cases u with
    | obj => exact hu.elim
    | num y => exact ⟨_, _, rfl, by simp, made_same _⟩
    | sc j =>
      obtain ⟨n, h1, e1, hs1, m1⟩ := pyNeg_made hu
      obtain ⟨r, h2, e2, hs2, m2⟩ := pyAdd_made (v := .num x) (h := h1) trivial m1.valid
      refine ⟨r, h2, by simp [pySub, Scalar.rsub, canProceed, e1, e2], by simp [hs2, hs1], ?_⟩
      rw [m1.val, ← sub_eq_add_neg] at m2
      exact m1.trans m2

theorem rtruediv_num (h : SHeap K) (j : ℕ) (x : K) (limit : ℕ) :
    Scalar.rtruediv h j (.num x) limit = .error .recursionError := by
  induction limit with
  | zero => rfl
  | succ n ih => simp [Scalar.rtruediv, canProceed, ih]

theorem pyDiv_made (limit : ℕ) {h : SHeap K} {v u : SVal K} (hv : v.Valid h) (hu : u.Valid h) :
    ((¬ v.IsSc ∧ u.IsSc) → pyDiv limit h v u = .error .recursionError) ∧
    (¬ (¬ v.IsSc ∧ u.IsSc) → valueOf h u = 0 → pyDiv limit h v u = .error .zeroDivision) ∧
    (¬ (¬ v.IsSc ∧ u.IsSc) → valueOf h u ≠ 0 →
      ∃ r h', pyDiv limit h v u = .ok (r, h') ∧ (r.IsSc ↔ v.IsSc ∨ u.IsSc) ∧ Made h h' r (valueOf h v / valueOf h u)) := by
  cases v with
  | obj => exact hv.elim
  | sc i =>
    obtain ⟨a, b⟩ := truediv_made hv hu
    refine ⟨by simp, fun _ h0 => by simpa [pyDiv] using a h0, fun _ h0 => ?_⟩
    obtain ⟨r, h', e, hs, m⟩ := b h0
    exact ⟨r, h', by simpa [pyDiv] using e, by simp [hs], m⟩
  | num x =>
    cases u with
    | obj => exact hu.elim
    | sc j => exact ⟨fun _ => by simp [pyDiv, rtruediv_num], by simp, by simp⟩
    | num y =>
      refine ⟨by simp, fun _ h0 => ?_, fun _ h0 => ?_⟩
      · simp [valueOf] at h0; simp [pyDiv, h0]
      · simp [valueOf] at h0
        exact ⟨_, _, by simp [pyDiv, h0]; rfl, by simp, made_same _⟩

theorem denote_congr {env env' : ℕ → K} {n : ℕ} (he : ∀ i < n, env i = env' i) :
    ∀ {e : SExpr K}, UsesBelow n e → denote env e = denote env' e
  | .num _, _ => rfl
  | .var i, h => by simp [denote, he i h]
  | .neg a, h => by simp only [denote, denote_congr he (e := a) h]
  | .add a b, h => by simp only [denote, denote_congr he (e := a) h.1, denote_congr he (e := b) h.2]
  | .sub a b, h => by simp only [denote, denote_congr he (e := a) h.1, denote_congr he (e := b) h.2]
  | .mul a b, h => by simp only [denote, denote_congr he (e := a) h.1, denote_congr he (e := b) h.2]
  | .div a b, h => by simp only [denote, denote_congr he (e := a) h.1, denote_congr he (e := b) h.2]

theorem usesBelow_mono {n m : ℕ} (hnm : n ≤ m) : ∀ {e : SExpr K}, UsesBelow n e → UsesBelow m e
  | .num _, _ => trivial
  | .var _, h => lt_of_lt_of_le h hnm
  | .neg a, h => usesBelow_mono hnm (e := a) h
  | .add a b, h => ⟨usesBelow_mono hnm (e := a) h.1, usesBelow_mono hnm (e := b) h.2⟩
  | .sub a b, h => ⟨usesBelow_mono hnm (e := a) h.1, usesBelow_mono hnm (e := b) h.2⟩
  | .mul a b, h => ⟨usesBelow_mono hnm (e := a) h.1, usesBelow_mono hnm (e := b) h.2⟩
  | .div a b, h => ⟨usesBelow_mono hnm (e := a) h.1, usesBelow_mono hnm (e := b) h.2⟩

/-- What evaluation does: a value if the expression has one and no number is divided by a Scalar, an
exception otherwise. -/
def EvalOK (limit : ℕ) (e : SExpr K) (h : SHeap K) : Prop :=
  (∃ r h' x, evalPy limit e h = .ok (r, h') ∧ denote h.data e = some x ∧ ¬ NumOverScalar e ∧
    (r.IsSc ↔ HasScalar e) ∧ Made h h' r x) ∨
  ((denote h.data e = none ∨ NumOverScalar e) ∧
    (evalPy limit e h = .error .zeroDivision ∨ evalPy limit e h = .error .recursionError))

/-- Evaluation of both operands. -/
theorem eval_two {limit : ℕ} {a b : SExpr K} {h : SHeap K}
    (iha : EvalOK limit a h) (ihb : ∀ h', h <+: h' → EvalOK limit b h')
    (hb : UsesBelow h.length b) (op : SHeap K → SVal K → SVal K → SRes K) :
    (∃ u v h2 x y, evalBin (evalPy limit a) (evalPy limit b) op h = op h2 u v ∧ u.Valid h2 ∧ v.Valid h2 ∧
      h <+: h2 ∧ ((HeapOK h → HeapOK h2) ∧ (HeapOK h → DataOK h → DataOK h2)) ∧ valueOf h2 u = x ∧ valueOf h2 v = y ∧
      denote h.data a = some x ∧ denote h.data b = some y ∧ ¬ NumOverScalar a ∧ ¬ NumOverScalar b ∧
      (u.IsSc ↔ HasScalar a) ∧ (v.IsSc ↔ HasScalar b)) ∨
    ((denote h.data a = none ∨ denote h.data b = none ∨ NumOverScalar a ∨ NumOverScalar b) ∧
      (evalBin (evalPy limit a) (evalPy limit b) op h = .error .zeroDivision ∨
        evalBin (evalPy limit a) (evalPy limit b) op h = .error .recursionError)) := by
  rcases iha with ⟨u, h1, x, e1, d1, n1, s1, m1⟩ | ⟨hd, he⟩
  · rcases ihb h1 m1.pre with ⟨v, h2, y, e2, d2, n2, s2, m2⟩ | ⟨hd, he⟩
    · left
      refine ⟨u, v, h2, x, y, by simp [evalBin, e1, e2], valid_prefix m2.pre m1.valid, m2.valid,
        m1.pre.trans m2.pre, ⟨fun hh => m2.ok (m1.ok hh), fun hh hd => m2.dat (m1.ok hh) (m1.dat hh hd)⟩, ?_, m2.val, d1, ?_, n1, n2, s1, s2⟩
      · rw [valueOf_prefix m2.pre m1.valid]; exact m1.val
      · rw [← d2]; exact denote_congr (fun i hi => (SHeap.data_prefix m1.pre hi).symm) hb
    · right
      have hd' : denote h.data b = none ∨ NumOverScalar b := by
        rcases hd with hd | hd
        · left; rw [← hd]; exact denote_congr (fun i hi => (SHeap.data_prefix m1.pre hi).symm) hb
        · exact Or.inr hd
      refine ⟨by tauto, ?_⟩
      simpa [evalBin, e1] using he.imp (fun h => by simp [h]) (fun h => by simp [h])
  · right
    refine ⟨by tauto, ?_⟩
    exact he.imp (fun h => by simp [evalBin, h]) (fun h => by simp [evalBin, h])

theorem evalOK (limit : ℕ) : ∀ (e : SExpr K) (h : SHeap K), UsesBelow h.length e → EvalOK limit e h
  | .num x, h, _ => Or.inl ⟨_, _, x, rfl, rfl, id, by simp [HasScalar], made_same x⟩
  | .var i, h, hi => Or.inl ⟨_, _, h.data i, rfl, rfl, id, by simp [HasScalar],
      ⟨List.prefix_rfl, hi, rfl, id, fun _ => id⟩⟩
  | .neg a, h, hu => by
    rcases evalOK limit a h hu with ⟨u, h1, x, e1, d1, n1, s1, m1⟩ | ⟨hd, he⟩
    · obtain ⟨r, h2, e2, s2, m2⟩ := pyNeg_made m1.valid
      left
      refine ⟨r, h2, -x, by simp [evalPy, e1, e2], by simp [denote, d1], n1, by rw [s2, s1]; rfl, ?_⟩
      rw [m1.val] at m2
      exact m1.trans m2
    · right
      refine ⟨hd.imp (fun h => by simp [denote, h]) id, he.imp (fun h => by simp [evalPy, h]) (fun h => by simp [evalPy, h])⟩
  | .add a b, h, hu => by
    rcases eval_two (op := pyAdd) (evalOK limit a h hu.1)
      (fun h' hp => evalOK limit b h' (usesBelow_mono hp.length_le hu.2)) hu.2 with
      ⟨u, v, h2, x, y, e, hu', hv', hp, hok, vx, vy, da, db, na, nb, sa, sb⟩ | ⟨hd, he⟩
    · obtain ⟨r, h3, e3, s3, m3⟩ := pyAdd_made hu' hv'
      left
      refine ⟨r, h3, x + y, by rw [evalPy, e, e3], by simp [denote, da, db], by simp [NumOverScalar, na, nb],
        by rw [s3, sa, sb]; rfl, ?_⟩
      rw [vx, vy] at m3
      exact ⟨hp.trans m3.pre, m3.valid, m3.val, fun hh => m3.ok (hok.1 hh),
        fun hh hd => m3.dat (hok.1 hh) (hok.2 hh hd)⟩
    · right
      refine ⟨?_, he⟩
      rcases hd with hd | hd | hd | hd
      · left; simp [denote, hd]
      · left; cases hda : denote h.data a <;> simp [denote, hda, hd]
      · right; exact Or.inl hd
      · right; exact Or.inr hd
  | .sub a b, h, hu => by
    rcases eval_two (op := pySub) (evalOK limit a h hu.1)
      (fun h' hp => evalOK limit b h' (usesBelow_mono hp.length_le hu.2)) hu.2 with
      ⟨u, v, h2, x, y, e, hu', hv', hp, hok, vx, vy, da, db, na, nb, sa, sb⟩ | ⟨hd, he⟩
    · obtain ⟨r, h3, e3, s3, m3⟩ := pySub_made hu' hv'
      left
      refine ⟨r, h3, x - y, by rw [evalPy, e, e3], by simp [denote, da, db], by simp [NumOverScalar, na, nb],
        by rw [s3, sa, sb]; rfl, ?_⟩
      rw [vx, vy] at m3
      exact ⟨hp.trans m3.pre, m3.valid, m3.val, fun hh => m3.ok (hok.1 hh),
        fun hh hd => m3.dat (hok.1 hh) (hok.2 hh hd)⟩
    · right
      refine ⟨?_, he⟩
      rcases hd with hd | hd | hd | hd
      · left; simp [denote, hd]
      · left; cases hda : denote h.data a <;> simp [denote, hda, hd]
      · right; exact Or.inl hd
      · right; exact Or.inr hd
  | .mul a b, h, hu => by
    rcases eval_two (op := pyMul) (evalOK limit a h hu.1)
      (fun h' hp => evalOK limit b h' (usesBelow_mono hp.length_le hu.2)) hu.2 with
      ⟨u, v, h2, x, y, e, hu', hv', hp, hok, vx, vy, da, db, na, nb, sa, sb⟩ | ⟨hd, he⟩
    · obtain ⟨r, h3, e3, s3, m3⟩ := pyMul_made hu' hv'
      left
      refine ⟨r, h3, x * y, by rw [evalPy, e, e3], by simp [denote, da, db], by simp [NumOverScalar, na, nb],
        by rw [s3, sa, sb]; rfl, ?_⟩
      rw [vx, vy] at m3
      exact ⟨hp.trans m3.pre, m3.valid, m3.val, fun hh => m3.ok (hok.1 hh),
        fun hh hd => m3.dat (hok.1 hh) (hok.2 hh hd)⟩
    · right
      refine ⟨?_, he⟩
      rcases hd with hd | hd | hd | hd
      · left; simp [denote, hd]
      · left; cases hda : denote h.data a <;> simp [denote, hda, hd]
      · right; exact Or.inl hd
      · right; exact Or.inr hd
  | .div a b, h, hu => by
    rcases eval_two (op := pyDiv limit) (evalOK limit a h hu.1)
      (fun h' hp => evalOK limit b h' (usesBelow_mono hp.length_le hu.2)) hu.2 with
      ⟨u, v, h2, x, y, e, hu', hv', hp, hok, vx, vy, da, db, na, nb, sa, sb⟩ | ⟨hd, he⟩
    · obtain ⟨d1, d2, d3⟩ := pyDiv_made limit hu' hv'
      by_cases hns : ¬ u.IsSc ∧ v.IsSc
      · right
        refine ⟨Or.inr (Or.inr (Or.inr ⟨fun h' => hns.1 (sa.mpr h'), sb.mp hns.2⟩)), Or.inr ?_⟩
        rw [evalPy, e, d1 hns]
      · by_cases h0 : valueOf h2 v = 0
        · right
          refine ⟨Or.inl ?_, Or.inl (by rw [evalPy, e, d2 hns h0])⟩
          rw [vy] at h0
          simp [denote, da, db, h0]
        · obtain ⟨r, h3, e3, s3, m3⟩ := d3 hns h0
          left
          refine ⟨r, h3, x / y, by rw [evalPy, e, e3], ?_, ?_, by rw [s3, sa, sb]; rfl, ?_⟩
          · rw [vy] at h0
            simp [denote, da, db, h0]
          · rw [sa, sb] at hns
            simp only [NumOverScalar, na, nb, false_or]; exact hns
          · rw [vx, vy] at m3
            exact ⟨hp.trans m3.pre, m3.valid, m3.val, fun hh => m3.ok (hok.1 hh),
        fun hh hd => m3.dat (hok.1 hh) (hok.2 hh hd)⟩
    · right
      refine ⟨?_, he⟩
      rcases hd with hd | hd | hd | hd
      · left; simp [denote, hd]
      · left; cases hda : denote h.data a <;> simp [denote, hda, hd]
      · right; exact Or.inl hd
      · right; exact Or.inr (Or.inl hd)

end

/-! ## trace -/

/-- What `build(v)` does to the two lists. -/
structure Traced (h : SHeap K) (v : ℕ) (st st' : List ℕ × List (ℕ × ℕ)) (new : List ℕ) : Prop where
  nodes : st'.1 = st.1 ++ new
  mem : v ∈ st'.1
  reach : ∀ u ∈ new, Reach h v u
  closed : ∀ u ∈ new, ∀ p ∈ h.prev u, p ∈ st'.1
  nodup : st.1.Nodup → st'.1.Nodup
  head : v ∉ st.1 → new.head? = some v
  edges : ∀ e, e ∈ st'.2 ↔ e ∈ st.2 ∨ (e.2 ∈ new ∧ e.1 ∈ h.prev e.2)
  enodup : st.2.Nodup → st'.2.Nodup

/-- What the loop over the operands `ps` of `v` does. -/
structure TracedL (h : SHeap K) (v : ℕ) (ps : List ℕ) (st st' : List ℕ × List (ℕ × ℕ)) (new : List ℕ) : Prop where
  nodes : st'.1 = st.1 ++ new
  mem : ∀ p ∈ ps, p ∈ st'.1
  reach : ∀ u ∈ new, ∃ p ∈ ps, Reach h p u
  closed : ∀ u ∈ new, ∀ p ∈ h.prev u, p ∈ st'.1
  nodup : st.1.Nodup → st'.1.Nodup
  edges : ∀ e, e ∈ st'.2 ↔ e ∈ st.2 ∨ (e.2 = v ∧ e.1 ∈ ps) ∨ (e.2 ∈ new ∧ e.1 ∈ h.prev e.2)
  enodup : st.2.Nodup → st'.2.Nodup

theorem traceL {h : SHeap K} {v : ℕ} {f : List ℕ × List (ℕ × ℕ) → ℕ → Except PyErr (List ℕ × List (ℕ × ℕ))} :
    ∀ (ps : List ℕ), (∀ p ∈ ps, ∀ st, ∃ st' new, f st p = .ok st' ∧ Traced h p st st' new) →
    ∀ st, ∃ st' new, ps.foldlM (fun s parent =>
        f (s.1, if (parent, v) ∈ s.2 then s.2 else s.2 ++ [(parent, v)]) parent) st = .ok st' ∧
      TracedL h v ps st st' new
  | [], _, st => ⟨st, [], rfl, ⟨by simp, by simp, by simp, by simp, id, by simp, id⟩⟩
  | p :: ps, hf, st => by
    obtain ⟨st1, new1, e1, t1⟩ := hf p (by simp) (st.1, if (p, v) ∈ st.2 then st.2 else st.2 ++ [(p, v)])
    obtain ⟨st2, new2, e2, t2⟩ := traceL (v := v) ps (fun q hq => hf q (by simp [hq])) st1
    refine ⟨st2, new1 ++ new2, ?_, ?_⟩
    · rw [List.foldlM_cons, e1]; exact e2
    · have sub : ∀ x ∈ st1.1, x ∈ st2.1 := fun x hx => by rw [t2.nodes]; simp [hx]
      refine ⟨by rw [t2.nodes, t1.nodes]; simp, ?_, ?_, ?_, fun hn => t2.nodup (t1.nodup hn), ?_, ?_⟩
      · intro q hq
        rcases List.mem_cons.mp hq with rfl | hq
        · exact sub _ t1.mem
        · exact t2.mem q hq
      · intro u hu
        rcases List.mem_append.mp hu with hu | hu
        · exact ⟨p, by simp, t1.reach u hu⟩
        · obtain ⟨q, hq, hr⟩ := t2.reach u hu
          exact ⟨q, by simp [hq], hr⟩
      · intro u hu q hq
        rcases List.mem_append.mp hu with hu | hu
        · exact sub _ (t1.closed u hu q hq)
        · exact t2.closed u hu q hq
      · intro e
        rw [t2.edges, t1.edges]
        have : e ∈ (if (p, v) ∈ st.2 then st.2 else st.2 ++ [(p, v)]) ↔ e ∈ st.2 ∨ (e.2 = v ∧ e.1 = p) := by
          have he : e = (p, v) ↔ (e.2 = v ∧ e.1 = p) := by
            constructor
            · rintro rfl; exact ⟨rfl, rfl⟩
            · rintro ⟨a, b⟩; exact Prod.ext b a
          split
          · rename_i hin
            constructor
            · exact Or.inl
            · rintro (h | h)
              · exact h
              · rw [he.mpr h]; exact hin
          · rw [List.mem_append, List.mem_singleton, he]
        simp only [this, List.mem_append, List.mem_cons]
        tauto
      · intro hn
        apply t2.enodup; apply t1.enodup
        simp only
        split
        · exact hn
        · rename_i hin
          rw [List.nodup_append]
          refine ⟨hn, by simp, ?_⟩
          intro a ha b hb
          simp at hb; subst hb
          intro h; exact hin (h ▸ ha)

theorem traceBuild_spec {h : SHeap K} (ho : OperandsOlder h) : ∀ (limit v : ℕ), v < limit → v < h.length → ∀ st,
    ∃ st' new, traceBuild h limit st v = .ok st' ∧ Traced h v st st' new
  | 0, v, hv, _, _ => by omega
  | limit + 1, v, hv, hl, st => by
    by_cases hm : v ∈ st.1
    · exact ⟨st, [], by simp [traceBuild, hm], ⟨by simp, hm, by simp, by simp, id, fun h => (h hm).elim, by simp, id⟩⟩
    · obtain ⟨st', new, e, t⟩ := traceL (h := h) (v := v) (f := traceBuild h limit) (h.prev v)
        (fun p hp => traceBuild_spec ho limit p (by have := ho v hl p hp; omega) (by have := ho v hl p hp; omega))
        (st.1 ++ [v], st.2)
      refine ⟨st', v :: new, by simp only [traceBuild, hm, if_false]; exact e, ?_⟩
      refine ⟨by rw [t.nodes]; simp, by rw [t.nodes]; simp, ?_, ?_, ?_, fun _ => rfl, ?_, t.enodup⟩
      · intro u hu
        rcases List.mem_cons.mp hu with rfl | hu
        · exact Relation.ReflTransGen.refl
        · obtain ⟨p, hp, hr⟩ := t.reach u hu
          exact Relation.ReflTransGen.head hp hr
      · intro u hu p hp
        rcases List.mem_cons.mp hu with rfl | hu
        · exact t.mem p hp
        · exact t.closed u hu p hp
      · intro hn
        apply t.nodup
        rw [List.nodup_append]
        refine ⟨hn, by simp, ?_⟩
        intro a ha b hb
        simp at hb; subst hb
        intro h; exact hm (h ▸ ha)
      · intro e
        rw [t.edges]
        simp only [List.mem_cons]
        constructor
        · rintro (h | ⟨rfl, h⟩ | h)
          · exact Or.inl h
          · exact Or.inr ⟨Or.inl rfl, h⟩
          · exact Or.inr ⟨Or.inr h.1, h.2⟩
        · rintro (h | ⟨h1 | h1, h2⟩)
          · exact Or.inl h
          · exact Or.inr (Or.inl ⟨h1, h1 ▸ h2⟩)
          · exact Or.inr (Or.inr ⟨h1, h2⟩)

/-- Summary of `trace`. -/
theorem trace_spec {h : SHeap K} (ho : OperandsOlder h) {limit root : ℕ} (hr : root < h.length) (hl : root < limit) :
    ∃ nodes edges, trace h limit root = .ok (nodes, edges) ∧ nodes.Nodup ∧ nodes.head? = some root ∧
      (∀ v, v ∈ nodes ↔ Reach h root v) ∧ edges.Nodup ∧
      (∀ p v, (p, v) ∈ edges ↔ Reach h root v ∧ p ∈ h.prev v) := by
  obtain ⟨⟨nodes, edges⟩, new, e, t⟩ := traceBuild_spec ho limit root hl hr ([], [])
  have hn : nodes = new := by simpa using t.nodes
  subst hn
  have hmem : ∀ v, v ∈ nodes ↔ Reach h root v := by
    intro v
    constructor
    · exact t.reach v
    · intro hv
      induction hv with
      | refl => exact t.mem
      | tail _ hp ih => exact t.closed _ ih _ hp
  refine ⟨nodes, edges, e, t.nodup (by simp), t.head (by simp), hmem, t.enodup (by simp), ?_⟩
  intro p v
  rw [t.edges]; simp [hmem]

end Axon
