import Verif.Model.Labels
import Verif.Spec.Labels
import Verif.Props.GraphData
import Verif.Props.ReportText
import Verif.Props.Compiler

/-! # C116: the numbers in the pictures -/
set_option linter.unusedSectionVars false
namespace Axon
open Spec

theorem digitsVal_padN (d n : ℕ) : digitsVal (padN d n) = n % 10 ^ d := by
  have : ∀ d a, (padN d n).foldl (fun n c => 10 * n + (c.toNat - 48)) a = a * 10 ^ d + n % 10 ^ d := by
    intro d
    induction d with
    | zero => intro a; simp [padN, Nat.mod_one]
    | succ d ih =>
      intro a
      rw [padN, List.foldl_cons, ih, toNat_digit (Nat.mod_lt _ (by norm_num)), pow_succ, Nat.mod_mul]
      ring
  simpa [digitsVal] using this d 0

theorem padN_length (d n : ℕ) : (padN d n).length = d := by
  induction d with
  | zero => rfl
  | succ d ih => simp [padN, ih]

theorem padN_digits (d n : ℕ) : ∀ c ∈ padN d n, c.isDigit = true := by
  induction d with
  | zero => simp [padN]
  | succ d ih =>
    intro c hc
    rw [padN, List.mem_cons] at hc
    rcases hc with rfl | hc
    · exact digitChar_isDigit (Nat.mod_lt _ (by norm_num))
    · exact ih c hc

theorem readN_abs (d a b : ℕ) (hb : b < 10 ^ d) :
    (digitsVal ((decimal a ++ '.' :: padN d b).takeWhile (· ≠ '.')) : ℚ) +
      digitsVal ((decimal a ++ '.' :: padN d b).dropWhile (· ≠ '.')).tail / 10 ^ ((decimal a ++ '.' :: padN d b).dropWhile (· ≠ '.')).tail.length =
      a + (b : ℚ) / 10 ^ d := by
  have h : ∀ c ∈ decimal a, decide (c ≠ '.') = true := fun c hc => by simpa using digit_ne_dot (decimal_digits a c hc)
  rw [List.takeWhile_append_of_pos h, List.dropWhile_append_of_pos h]
  simp only [ne_eq, decide_not, decide_true, Bool.not_true, Bool.false_eq_true, not_false_eq_true, List.takeWhile_cons_of_neg, List.append_nil,
    List.dropWhile_cons_of_neg, List.tail_cons, digitsVal_decimal, digitsVal_padN, padN_length, Nat.mod_eq_of_lt hb]

/-- What a printed number reads as: the number, rounded. -/
theorem read_fixedN (d : ℕ) (x : ℚ) : readNumber (fixedN d x) = roundEven (x * 10 ^ d) / 10 ^ d := by
  have hp : (0 : ℚ) < 10 ^ d := by positivity
  have hx0 : (0 : ℚ) ≤ |x| * 10 ^ d := by positivity
  have h0 : 0 ≤ roundEven (|x| * 10 ^ d) := by
    have := roundEven_mono hx0
    simpa [roundEven] using this
  set q := (roundEven (|x| * 10 ^ d)).toNat with hq
  have hqe : ((q : ℤ)) = roundEven (|x| * 10 ^ d) := Int.toNat_of_nonneg h0
  have hqq : (roundEven (|x| * 10 ^ d) : ℚ) = q := by rw [← hqe]; simp
  have hsplit : ((q / 10 ^ d : ℕ) : ℚ) + ((q % 10 ^ d : ℕ) : ℚ) / 10 ^ d = (q : ℚ) / 10 ^ d := by
    have : (10 ^ d * (q / 10 ^ d) + q % 10 ^ d : ℕ) = q := Nat.div_add_mod q (10 ^ d)
    have : ((10 : ℚ) ^ d * ((q / 10 ^ d : ℕ) : ℚ) + ((q % 10 ^ d : ℕ) : ℚ)) = q := by exact_mod_cast this
    rw [← this]; field_simp
  have hr := readN_abs d (q / 10 ^ d) (q % 10 ^ d) (Nat.mod_lt _ (by positivity))
  rw [hsplit] at hr
  unfold fixedN readNumber
  simp only [← hq]
  by_cases hn : x < 0
  · simp only [hn, if_true, List.cons_append, List.nil_append, List.head?_cons, List.tail_cons]
    rw [hr, ← hqq, abs_of_neg hn, neg_mul, roundEven_neg]
    push_cast; ring
  · simp only [hn, if_false, List.nil_append, if_neg (decimal_head _ _)]
    rw [hr, ← hqq, abs_of_nonneg (not_lt.mp hn)]


theorem roundEven_nearest (x : ℚ) (k : ℤ) : |(roundEven x : ℚ) - x| ≤ |(k : ℚ) - x| := by
  have b1 := roundEven_le x
  have b2 := le_roundEven x
  have h1 : |(roundEven x : ℚ) - x| ≤ 1 / 2 := abs_le.mpr ⟨by linarith, by linarith⟩
  by_cases hk : k = roundEven x
  · rw [hk]
  · refine h1.trans ?_
    have : (1 : ℚ) ≤ |(k : ℚ) - roundEven x| := by
      have := Int.one_le_abs (sub_ne_zero.mpr hk)
      exact_mod_cast this
    have t := abs_sub_le (k : ℚ) x (roundEven x)
    rw [abs_sub_comm x] at t
    linarith

theorem fixedN_prints (d : ℕ) (x : ℚ) : Prints d x (fixedN d x) where
  form := ⟨_, _, _, rfl, by split_ifs <;> simp, decimal_ne_nil _, padN_length _ _, decimal_digits _, padN_digits _ _⟩
  near k := by
    have hp : (0 : ℚ) < 10 ^ d := by positivity
    have e : ∀ a : ℚ, |a / 10 ^ d - x| = |a - x * 10 ^ d| / 10 ^ d := fun a => by
      rw [← abs_of_pos hp, ← abs_div, abs_of_pos hp]
      congr 1
      field_simp
    rw [read_fixedN, e, e]
    exact div_le_div_of_nonneg_right (roundEven_nearest _ k) hp.le

/-- What a user may conclude from a printed number. -/
theorem Spec.Prints.close {d : ℕ} {x : ℚ} {num : List Char} (h : Prints d x num) : |readNumber num - x| ≤ 1 / (2 * 10 ^ d) := by
  have hp : (0 : ℚ) < 10 ^ d := by positivity
  refine (h.near (roundEven (x * 10 ^ d))).trans ?_
  have b1 := roundEven_le (x * 10 ^ d)
  have b2 := le_roundEven (x * 10 ^ d)
  have e : ((roundEven (x * 10 ^ d) : ℚ) / 10 ^ d - x) * (2 * 10 ^ d) = 2 * (roundEven (x * 10 ^ d) - x * 10 ^ d) := by field_simp
  rw [le_div_iff₀ (by positivity), ← abs_of_pos (show (0 : ℚ) < 2 * 10 ^ d by positivity), ← abs_mul, e, abs_le]
  constructor <;> linarith

/-- **C116.** A number printed with `d` decimals is off by at most half a unit of the last decimal; a number that has only `d` decimals is printed exactly; and
a larger number is never printed as a smaller one. -/
theorem C116_numbers (d : ℕ) (x y : ℚ) :
    Prints d x (fixedN d x) ∧ |readNumber (fixedN d x) - x| ≤ 1 / (2 * 10 ^ d) ∧ ((∃ k : ℤ, x = k / 10 ^ d) → readNumber (fixedN d x) = x) ∧
      (x ≤ y → readNumber (fixedN d x) ≤ readNumber (fixedN d y)) := by
  have hp : (0 : ℚ) < 10 ^ d := by positivity
  refine ⟨fixedN_prints d x, (fixedN_prints d x).close, ?_, ?_⟩
  · rintro ⟨k, rfl⟩
    rw [read_fixedN, div_mul_cancel₀ _ hp.ne', roundEven_int]
  · intro h
    rw [read_fixedN, read_fixedN]
    have : (roundEven (x * 10 ^ d) : ℚ) ≤ roundEven (y * 10 ^ d) := by exact_mod_cast roundEven_mono (mul_le_mul_of_nonneg_right h hp.le)
    exact div_le_div_of_nonneg_right this hp.le

/-- The report (C102) prints numbers in the same way. -/
theorem fixed3_eq (x : ℚ) : fixed3 x = fixedN 3 x := by
  unfold fixed3 fixedN
  norm_num [pad3, padN]

/-- The characters of a printed number. -/
theorem Spec.Prints.chars {d : ℕ} {x : ℚ} {num : List Char} (h : Prints d x num) : ∀ c ∈ num, c.isDigit = true ∨ c = '-' ∨ c = '.' := by
  obtain ⟨s, a, b, rfl, hs, -, -, ha, hb⟩ := h.form
  intro c hc
  simp only [List.mem_append, List.mem_cons] at hc
  rcases hc with (hc | hc) | hc | hc
  · rcases hs with rfl | rfl
    · cases hc
    · exact .inr (.inl (by simpa using hc))
  · exact .inl (ha c hc)
  · exact .inr (.inr hc)
  · exact .inl (hb c hc)

/-- A text is split at the first character that cannot be part of a number. -/
theorem split_num {c : Char} (hc : ¬ (c.isDigit = true ∨ c = '-' ∨ c = '.')) : ∀ {a b r s : List Char},
    (∀ x ∈ a, x.isDigit = true ∨ x = '-' ∨ x = '.') → (∀ x ∈ b, x.isDigit = true ∨ x = '-' ∨ x = '.') → a ++ c :: r = b ++ c :: s → a = b ∧ r = s
  | [], [], _, _, _, _, h => ⟨rfl, by simpa using h⟩
  | [], x :: b, r, s, _, hb, h => by
    simp only [List.nil_append, List.cons_append, List.cons.injEq] at h
    exact absurd (h.1 ▸ hb x (by simp)) hc
  | x :: a, [], r, s, ha, _, h => by
    simp only [List.nil_append, List.cons_append, List.cons.injEq] at h
    exact absurd (h.1 ▸ ha x (by simp)) hc
  | x :: a, y :: b, r, s, ha, hb, h => by
    simp only [List.cons_append, List.cons.injEq] at h
    obtain ⟨rfl, h⟩ := h
    obtain ⟨rfl, h2⟩ := split_num hc (fun z hz => ha z (by simp [hz])) (fun z hz => hb z (by simp [hz])) h
    exact ⟨rfl, h2⟩

/-- **C116.** In the topology view every edge is labelled with the weight and the delay of its synapse, each printed with three decimals: the labels come in
the order of the edges, one for each. Whatever two numbers a reader finds in such a label, they are the weight and the delay to within 0.0005. -/
theorem C116_edges {w : World ℚ} {m : ℕ} {info : ℕ → List Char} {ordN ordS : List ℕ → List ℕ} {g : GraphData}
    (hg : w.graphData info ordN ordS m = .ok g) :
    ∃ labels, w.graphLabels ordS m = .ok labels ∧ labels.map (·.1) = g.edges.map (·.uid) ∧
      ∀ u t, (u, t) ∈ labels → ∃ i s, w.synAt i = some s ∧ u = synapseUid i ∧
        (∃ a b, t = "(".toList ++ a ++ "; ".toList ++ b ++ ")".toList ∧ Prints 3 s.weight a ∧ Prints 3 s.delay b) ∧
        ∀ x y a b, Prints 3 x a → Prints 3 y b → t = "(".toList ++ a ++ "; ".toList ++ b ++ ")".toList →
          |readNumber a - s.weight| ≤ 1 / 2000 ∧ |readNumber b - s.delay| ≤ 1 / 2000 := by
  unfold World.graphData at hg
  unfold World.graphLabels
  cases hd : w.display m with
  | error e => rw [hd] at hg; cases hg
  | ok q =>
    obtain ⟨ns, ss⟩ := q
    rw [hd] at hg
    simp only at hg ⊢
    cases hgr : w.groups m (ordN ns) with
    | error e => rw [hgr] at hg; cases hg
    | ok gs =>
      rw [hgr] at hg
      obtain rfl := Except.ok.inj hg
      refine ⟨_, rfl, ?_, ?_⟩
      · simp only [List.map_filterMap]
        congr 1
        funext i
        simp [formatEdge, Option.map_map, Function.comp_def]
      · intro u t ht
        obtain ⟨i, -, hi⟩ := List.mem_filterMap.mp ht
        obtain ⟨s, hs, e⟩ := Option.map_eq_some_iff.mp hi
        obtain ⟨rfl, rfl⟩ := Prod.mk.inj e
        refine ⟨i, s, hs, rfl, ⟨_, _, rfl, fixedN_prints _ _, fixedN_prints _ _⟩, ?_⟩
        intro x y a b ha hb h
        have P1 := fixedN_prints 3 s.weight
        have P2 := fixedN_prints 3 s.delay
        have h' : fixedN 3 s.weight ++ ';' :: ' ' :: (fixedN 3 s.delay ++ [')']) = a ++ ';' :: ' ' :: (b ++ [')']) := by
          simpa [edgeLabel] using h
        obtain ⟨e1, e2⟩ := split_num (by decide) P1.chars ha.chars h'
        have e3 := (List.cons.inj e2).2
        obtain ⟨e4, -⟩ := split_num (c := ')') (by decide) P2.chars hb.chars e3
        rw [← e1, ← e4]
        have c1 := P1.close
        have c2 := P2.close
        norm_num at c1 c2 ⊢
        exact ⟨c1, c2⟩

/-- The labels of the witness of C65 and C99, whose graph is displayed without an error. -/
example : exVis.graphLabels List.reverse 0 = .ok [(synapseUid 2, "(10.000; 1.000)".toList), (synapseUid 0, "(10.000; 1.000)".toList)] ∧
    (exVis.graphData (fun _ => []) id List.reverse 0).isOk = true := by
  decide +kernel

/-- **C116.** Consequently synapses that differ by less than the precision of the label cannot be told apart: the weight 5.0001 of the synchronizer for two values
(C45) is shown as `5.000`, and a small negative weight as `-0.000`. -/
theorem C116_hidden : edgeLabel ⟨0, 1, 10 / 2 + 1 / 10000, 1, .V⟩ = "(5.000; 1.000)".toList ∧
    edgeLabel ⟨0, 1, 5, 1, .V⟩ = "(5.000; 1.000)".toList ∧ edgeLabel ⟨0, 1, -1 / 10000, 11, .ge⟩ = "(-0.000; 11.000)".toList := by
  decide +kernel

/-- **C116.** In the drawing of a computation the box of every value is labelled with the value printed with four decimals, the box of every operation with its sign;
the boxes are those of C101. -/
theorem C116_drawing {h : SHeap ℚ} (ho : OperandsOlder h) {addr : ℕ → ℕ} {limit root : ℕ} (hr : root < h.length) (hl : h.length ≤ limit)
    {names : List (List Char)} {arrows : List (List Char × List Char)} (hd : drawCompGraph h addr limit root = .ok (names, arrows)) :
    ∃ labels, drawLabels h addr limit root = .ok labels ∧ labels.map (·.1) = names ∧
      (∀ b t, (b, t) ∈ labels → ∃ v, Reach h root v ∧
        ((b = decimal (addr v) ∧ ∃ num, t = "data: ".toList ++ num ++ "\n".toList ∧ Prints 4 (h.data v) num) ∨
         (b = decimal (addr v) ++ t ∧ t = (opSign (h.op v)).toList))) ∧
      ∀ v, Reach h root v → (∃ num, (decimal (addr v), "data: ".toList ++ num ++ "\n".toList) ∈ labels ∧ Prints 4 (h.data v) num) ∧
        (decimal (addr v) ++ (opSign (h.op v)).toList, (opSign (h.op v)).toList) ∈ labels := by
  obtain ⟨nodes, edges, ht, -, -, hmem, -, -⟩ := C55_trace_exact ho hr hl
  unfold drawCompGraph at hd
  unfold drawLabels
  rw [ht] at hd ⊢
  obtain ⟨rfl, -⟩ := Prod.mk.inj (Except.ok.inj hd)
  have hsign : ∀ o : OpType, o.label = (opSign o).toList := fun o => by cases o <;> rfl
  refine ⟨_, rfl, by rw [List.map_flatMap]; rfl, ?_, fun v hv => ⟨⟨fixedN 4 (h.data v), ?_, fixedN_prints _ _⟩, ?_⟩⟩
  · intro b t hbt
    obtain ⟨v, hv, hm⟩ := List.mem_flatMap.mp hbt
    refine ⟨v, (hmem v).mp hv, ?_⟩
    simp only [List.mem_cons, List.not_mem_nil, or_false, Prod.mk.injEq] at hm
    rcases hm with ⟨rfl, rfl⟩ | ⟨rfl, rfl⟩
    · exact .inl ⟨rfl, _, rfl, fixedN_prints _ _⟩
    · exact .inr ⟨rfl, hsign _⟩
  · exact List.mem_flatMap.mpr ⟨v, (hmem v).mpr hv, List.mem_cons_self⟩
  · exact List.mem_flatMap.mpr ⟨v, (hmem v).mpr hv, by rw [← hsign]; simp⟩

/-- `x*x + x` for `x = 1/3`. -/
example : drawLabels ([⟨1 / 3, [], .load⟩, ⟨1 / 9, [0, 0], .mul⟩, ⟨4 / 9, [0, 1], .add⟩] : SHeap ℚ) (fun i => i + 70) 1000 2 =
    .ok [("72".toList, "data: 0.4444\n".toList), ("72+".toList, "+".toList), ("70".toList, "data: 0.3333\n".toList), ("70load".toList, "load".toList),
      ("71".toList, "data: 0.1111\n".toList), ("71*".toList, "*".toList)] := by decide +kernel

/-! ## Loaded values -/

theorem foldl_update_other {p : PlugId} : ∀ (l : List (PlugId × Header)) (d : Plugs), (∀ x ∈ l, x.1 ≠ p) →
    l.foldl (fun (d : Plugs) x => Function.update d x.1 (some x.2)) d p = d p
  | [], _, _ => rfl
  | x :: l, d, h => by
    rw [List.foldl_cons, foldl_update_other l _ fun y hy => h y (by simp [hy]), Function.update_of_ne (h x (by simp)).symm]

theorem fillOp_plugs {h : SHeap ℚ} {net v : ℕ} {norm : ℚ} {st st' : World ℚ × Plugs} (hf : fillOp net norm st (flattenNode h v).1 = .ok st') :
    ∃ b, spawn (h.op v) norm = .ok b ∧ st'.2 (.out v) = some (b st.1).1.out ∧ ∀ p : PlugId, p.node ≠ v → st'.2 p = st.2 p := by
  unfold fillOp at hf
  rw [show (flattenNode h v).1.optype = h.op v from rfl] at hf
  cases hs : spawn (h.op v) norm with
  | error e => rw [hs] at hf; cases hf
  | ok b =>
    rw [hs] at hf
    dsimp only at hf
    split_ifs at hf
    obtain rfl := Except.ok.inj hf
    refine ⟨b, rfl, ?_, ?_⟩
    · show assignPlugs _ _ _ (.out v) = _
      unfold assignPlugs
      exact Function.update_self ..
    · intro p hp
      show assignPlugs _ _ _ p = _
      unfold assignPlugs
      rw [Function.update_of_ne (by rintro rfl; exact hp rfl)]
      refine foldl_update_other _ _ ?_
      rintro ⟨a, b⟩ hx rfl
      have := (List.of_mem_zip hx).1
      simp only [flattenNode, List.mem_map] at this
      obtain ⟨y, -, rfl⟩ := this
      exact hp rfl

theorem inst_else {h : SHeap ℚ} {net : ℕ} {norm : ℚ} : ∀ {nodes : List ℕ} {st st' : World ℚ × Plugs},
    instantiateModules (nodes.map fun v => (flattenNode h v).1) net norm st = .ok st' → ∀ p : PlugId, p.node ∉ nodes → st'.2 p = st.2 p
  | [], st, st', hi, p, _ => by
    obtain rfl := Except.ok.inj hi
    rfl
  | v :: nodes, st, st', hi, p, hp => by
    unfold instantiateModules at hi
    rw [List.map_cons, List.foldlM_cons] at hi
    cases hf : fillOp net norm st (flattenNode h v).1 with
    | error e => rw [hf] at hi; cases hi
    | ok s1 =>
      rw [hf] at hi
      obtain ⟨-, -, -, h3⟩ := fillOp_plugs hf
      rw [List.mem_cons, not_or] at hp
      rw [inst_else (nodes := nodes) hi p hp.2, h3 p hp.1]

theorem inst_info {h : SHeap ℚ} {net : ℕ} {norm : ℚ} : ∀ {nodes : List ℕ} {st st' : World ℚ × Plugs} (info : ℕ → List Char), nodes.Nodup →
    instantiateModules (nodes.map fun v => (flattenNode h v).1) net norm st = .ok st' →
    (nodes.map fun v => (flattenNode h v).1).foldlM (fillOpInfo net norm) (st, info) = .ok (st', nodes.foldl (fun i v =>
      if h.op v = .load then Function.update (Function.update i (hdOf st'.2 (.out v)).plus (loadText (h.data v))) (hdOf st'.2 (.out v)).minus (loadText (h.data v))
      else i) info)
  | [], st, st', info, _, hi => by
    obtain rfl := Except.ok.inj hi
    rfl
  | v :: nodes, st, st', info, hnd, hi => by
    unfold instantiateModules at hi
    rw [List.map_cons, List.foldlM_cons] at hi
    cases hf : fillOp net norm st (flattenNode h v).1 with
    | error e => rw [hf] at hi; cases hi
    | ok s1 =>
      rw [hf] at hi
      obtain ⟨b, h1, h2, h3⟩ := fillOp_plugs hf
      obtain ⟨hv, hnd'⟩ := List.nodup_cons.mp hnd
      have e : fillOpInfo net norm (st, info) (flattenNode h v).1 = .ok (s1, spawnInfo (flattenNode h v).1 (b st.1).1 info) := by
        unfold fillOpInfo
        rw [show (flattenNode h v).1.optype = h.op v from rfl, h1, hf]
      have ho : hdOf st'.2 (.out v) = (b st.1).1.out := by
        rw [hdOf, inst_else (nodes := nodes) hi (.out v) hv, h2]; rfl
      rw [List.map_cons, List.foldlM_cons, e]
      have := inst_info (spawnInfo (flattenNode h v).1 (b st.1).1 info) hnd' hi
      rw [List.foldl_cons, ho]
      exact this

theorem fold_info {P : ℕ → Prop} [DecidablePred P] {a : ℕ → ℕ} {t : ℕ → List Char} : ∀ (nodes : List ℕ) (i : ℕ → List Char),
    nodes.Pairwise (fun v u => P v → a v + 2 ≤ a u) →
    let f := nodes.foldl (fun i v => if P v then Function.update (Function.update i (a v) (t v)) (a v + 1) (t v) else i) i
    (∀ v ∈ nodes, P v → f (a v) = t v ∧ f (a v + 1) = t v) ∧ ∀ n, (∀ v ∈ nodes, P v → n ≠ a v ∧ n ≠ a v + 1) → f n = i n
  | [], _, _ => ⟨by simp, fun _ _ => rfl⟩
  | v :: nodes, i, hp => by
    obtain ⟨h1, h2⟩ := List.pairwise_cons.mp hp
    intro f
    obtain ⟨q1, q2⟩ := fold_info (P := P) (a := a) (t := t) nodes (if P v then Function.update (Function.update i (a v) (t v)) (a v + 1) (t v) else i) h2
    refine ⟨?_, ?_⟩
    · intro u hu hPu
      rcases List.mem_cons.mp hu with rfl | hu
      · have k1 : f (a u) = _ := q2 (a u) fun x hx hPx => by have := h1 x hx hPu; omega
        have k2 : f (a u + 1) = _ := q2 (a u + 1) fun x hx hPx => by have := h1 x hx hPu; omega
        rw [k1, k2, if_pos hPu, Function.update_of_ne (by omega), Function.update_self, Function.update_self]
        exact ⟨rfl, rfl⟩
      · exact q1 u hu hPu
    · intro n hn
      have k : f n = _ := q2 n fun x hx => hn x (by simp [hx])
      rw [k]
      split_ifs with hPv
      · obtain ⟨n1, n2⟩ := hn v (by simp) hPv
        rw [Function.update_of_ne n2, Function.update_of_ne n1]
      · rfl

theorem wireModules_keeps (pl : Plugs) : ∀ (conns : List (PlugId × PlugId)) (w : World ℚ),
    (wireModules conns pl w).neus = w.neus ∧ (wireModules conns pl w).own = w.own ∧ (wireModules conns pl w).sub = w.sub
  | [], _ => ⟨rfl, rfl, rfl⟩
  | c :: conns, w => by
    obtain ⟨h1, h2, h3⟩ := wireModules_keeps pl conns (wireOne pl w c)
    have e : (wireOne pl w c).neus = w.neus ∧ (wireOne pl w c).own = w.own ∧ (wireOne pl w c).sub = w.sub := by
      unfold wireOne
      split <;> exact ⟨rfl, rfl, rfl⟩
    exact ⟨h1.trans e.1, h2.trans e.2.1, h3.trans e.2.2⟩

/-- **C116.** After compiling, every Scalar that loads a value `x` has its own module directly in the compiled network, with an input neuron for each sign; one of the two is where the value is injected. The topology view
shows both of them, whatever the sign of `x`, with the text `<LOAD x>` below their name, `x` printed with two decimals; every other neuron has only its name. -/
theorem C116_loads {h : SHeap ℚ} (ho : OperandsOlder h) {limit root : ℕ} (hroot : root < h.length) (hl : h.length ≤ limit) {r : ℚ} {w : World ℚ} (hw : Built w)
    {plan : Plan ℚ} {w' : World ℚ} (hc : compileComputation h limit root r w = .ok (plan, w')) :
    ∃ info, compileInfo h limit root r w = .ok info ∧
    ∃ (loads : List ℕ) (place : ℕ → ℕ) (port : ℕ → Header), loads.Nodup ∧ (∀ v, v ∈ loads ↔ Reach h root v ∧ h.op v = .load) ∧
      plan.triggers = loads.map (fun v => ⟨|h.data v| / r, if 0 ≤ h.data v then (port v).plus else (port v).minus⟩) ∧
      (∀ v ∈ loads, Child w' plan.net (place v) ∧ PortOf w' (place v) ("inject_input_plus", "inject_input_minus") (port v) ∧
        ∃ num, Prints 2 (h.data v) num ∧ ∀ n, n = (port v).plus ∨ n = (port v).minus →
          (formatNode w' info n).label = (formatNode w' info n).id ++ "\n <LOAD ".toList ++ num ++ ">".toList) ∧
      ∀ n, (∀ v ∈ loads, n ≠ (port v).plus ∧ n ≠ (port v).minus) → (formatNode w' info n).label = (formatNode w' info n).id := by
  obtain ⟨hr, hr0, hgood, hload⟩ := compile_ok_cond ho hroot hl hw hc
  obtain ⟨nodes, edges, et, hnd, hhead, hmem, -, -⟩ := trace_spec ho hroot (show root < limit by omega)
  have hflat : flatten h limit root = .ok (nodes.map (fun v => (flattenNode h v).1),
      nodes.flatMap (fun v => (flattenNode h v).2), .out root) := by simp [flatten, et]
  have hg : ∀ v ∈ nodes, GoodNode h v := fun v hv => hgood v ((hmem v).mp hv)
  have hw1ok : (newModule .plain (some "enclosing_module") w).2.OK := hw.ok.newModule _ _
  have hnet : w.mods.length < (newModule .plain (some "enclosing_module") w).2.mods.length := by simp [newModule]
  obtain ⟨w2, pl, mB, nB, ei, P⟩ := instantiate_good r w.mods.length nodes _ (fun _ => none) hnd hg hw1ok hnet
  have hF : ∀ v ∈ nodes, SpawnFacts (h.op v) (prt h r v) (blk h r v) := fun v hv => spawnFacts r (hg v hv).1
  have ht := (triggers_fold h r hr pl nodes [] (fun v hv => by rw [P.plOut v hv]; rfl)).1 fun v hv hlo => ⟨hr0, hload v ((hmem v).mp hv) hlo⟩
  rw [List.nil_append] at ht
  have ht' : getInputTriggers (nodes.map (fun v => (flattenNode h v).1)) r pl = .ok _ := ht
  have hreader : getOutputReader pl (.out root) r = some ⟨((prt h r root).out.shift (nB root)).plus, ((prt h r root).out.shift (nB root)).minus, r⟩ := by
    rw [getOutputReader, P.plOut root ((hmem root).mpr .refl)]; rfl
  unfold compileComputation at hc
  rw [if_neg (not_not.mpr hr), hflat] at hc
  simp only [buildStickNet] at hc
  rw [show (newModule .plain (some "enclosing_module") w).1 = w.mods.length from rfl, ei] at hc
  simp only [ht', hreader] at hc
  split_ifs at hc
  obtain ⟨rfl, rfl⟩ := Prod.mk.inj (Except.ok.inj hc)
  obtain ⟨wn, wo, ws⟩ := wireModules_keeps pl (nodes.flatMap (fun v => (flattenNode h v).2)) w2
  have hout : ∀ v ∈ nodes, h.op v = .load → hdOf pl (.out v) = ⟨nB v, nB v + 1⟩ := by
    intro v hv hlo
    rw [hdOf, P.plOut v hv, prt, hlo]; rfl
  have hlen : ∀ v, h.op v = .load → (blk h r v).neus.length = 2 := fun v hlo => by rw [blk, hlo]; rfl
  have hinfo := inst_info (fun _ => []) hnd ei
  have hfold := fold_info (P := fun v => h.op v = .load) (a := nB) (t := fun v => loadText (h.data v)) nodes (fun _ => [])
    (P.disj.imp fun {v u} hvu hlo => by have := hvu.2; rw [hlen v hlo] at this; exact this)
  obtain ⟨f1, f2⟩ := hfold
  have hcong : ∀ (l : List ℕ) (i : ℕ → List Char), (∀ v ∈ l, v ∈ nodes) →
      l.foldl (fun i v => if h.op v = .load then Function.update (Function.update i (hdOf pl (.out v)).plus (loadText (h.data v))) (hdOf pl (.out v)).minus (loadText (h.data v)) else i) i =
      l.foldl (fun i v => if h.op v = .load then Function.update (Function.update i (nB v) (loadText (h.data v))) (nB v + 1) (loadText (h.data v)) else i) i := by
    intro l
    induction l with
    | nil => intros; rfl
    | cons v l ih =>
      intro i hi
      rw [List.foldl_cons, List.foldl_cons, ih _ fun u hu => hi u (by simp [hu])]
      congr 1
      split_ifs with hlo
      · rw [hout v (hi v (by simp)) hlo]
      · rfl
  rw [hcong nodes _ fun _ hv => hv] at hinfo
  have hci : compileInfo h limit root r w = .ok (nodes.foldl (fun i v =>
      if h.op v = .load then Function.update (Function.update i (nB v) (loadText (h.data v))) (nB v + 1) (loadText (h.data v)) else i) (fun _ => [])) := by
    unfold compileInfo
    rw [hflat]
    simp only
    rw [show (newModule .plain (some "enclosing_module") w).1 = w.mods.length from rfl, hinfo]
  refine ⟨_, hci, nodes.filter (fun v => h.op v = .load), mB, fun v => ⟨nB v, nB v + 1⟩, hnd.filter _, fun v => by simp [hmem v], ?_, ?_, ?_⟩
  · refine List.map_congr_left fun v hv => ?_
    obtain ⟨h1, h2⟩ := List.mem_filter.mp hv
    rw [hout v h1 (by simpa using h2)]
  · intro v hv
    obtain ⟨h1, h2⟩ := List.mem_filter.mp hv
    have hlo : h.op v = .load := by simpa using h2
    refine ⟨?_, ?_, _, fixedN_prints 2 (h.data v), ?_⟩
    · obtain ⟨l, e, -, e2⟩ := P.sub
      have : mB v ∈ ((l.filter (fun x => x.1 = w.mods.length)).map (·.2)).reverse := by rw [e2]; exact List.mem_map_of_mem h1
      rw [List.mem_reverse, List.mem_map] at this
      obtain ⟨x, hx, hxe⟩ := this
      obtain ⟨x1, x2⟩ := List.mem_filter.mp hx
      show (w.mods.length, _) ∈ _
      rw [ws, e, ← hxe, ← (show x.1 = w.mods.length by simpa using x2)]
      exact List.mem_append_left _ x1
    · have hp := (hF v h1).out
      have := port_blk P h1 (hF v h1).ok hp
      rw [show (prt h r v).out.shift (nB v) = ⟨nB v, nB v + 1⟩ by rw [prt, hlo]; rfl, hlo] at this
      unfold PortOf Owns at this ⊢
      rw [wn, wo]
      exact this
    · intro n hn
      have e : n = nB v ∨ n = nB v + 1 := hn
      simp only [formatNode]
      have : (nodes.foldl (fun i v => if h.op v = .load then Function.update (Function.update i (nB v) (loadText (h.data v))) (nB v + 1) (loadText (h.data v)) else i)
          (fun _ => [])) n = loadText (h.data v) := by
        rcases e with rfl | rfl
        · exact (f1 v h1 hlo).1
        · exact (f1 v h1 hlo).2
      rw [this, if_neg (by simp [loadText])]
      simp [loadText]
  · intro n hn
    have := f2 n fun v hv hlo => hn v (List.mem_filter.mpr ⟨hv, by simpa using hlo⟩)
    simp only [formatNode]
    rw [this, if_pos rfl, List.append_nil]

/-- The program `x*x + x` for `x = 1/3` meets the hypotheses. -/
example : (compileComputation ([⟨1 / 3, [], .load⟩, ⟨1 / 9, [0, 0], .mul⟩, ⟨4 / 9, [0, 1], .add⟩] : SHeap ℚ) 1000 2 10 World.empty).isOk = true ∧
    OperandsOlder ([⟨1 / 3, [], .load⟩, ⟨1 / 9, [0, 0], .mul⟩, ⟨4 / 9, [0, 1], .add⟩] : SHeap ℚ) := by
  refine ⟨by decide +kernel, ?_⟩
  intro v hv p hp
  have : v < 3 := hv
  interval_cases v <;> simp [SHeap.prev] at hp <;> omega

/-- `(-0.001) * 2` in a range of 10: four labelled neurons. -/
example : (compileInfo ([⟨-1 / 1000, [], .load⟩, ⟨2, [], .load⟩, ⟨-2 / 1000, [0, 1], .mul⟩] : SHeap ℚ) 1000 2 10 World.empty).map
    (fun i => (List.range 60).filterMap fun n => if i n = [] then none else some (i n)) =
    .ok ["<LOAD -0.00>".toList, "<LOAD -0.00>".toList, "<LOAD 2.00>".toList, "<LOAD 2.00>".toList] := by decide +kernel

end Axon
