import Verif.Proofs.EndToEnd
import Verif.Props.Divider

/-! # C59: from the expression to the decoded result -/
set_option linter.unusedSectionVars false
namespace Axon
open Spec
variable {K : Type*} [Field K] [LinearOrder K] [IsStrictOrderedRing K] [FloorRing K]

theorem Spec.Budget.reach {h : SHeap K} {r dt : K} {root : ℕ} {x ε D : K} (hB : Budget h r dt root x ε D) {v : ℕ} (hv : Spec.Reach h root v) :
    ∃ x ε D, Budget h r dt v x ε D := by
  induction hv with
  | refl => exact ⟨_, _, _, hB⟩
  | tail _ hp ih =>
    obtain ⟨x, ε, D, hb⟩ := ih
    cases hb with
    | load hop e => rw [e] at hp; simp at hp
    | neg hop e hu => rw [e] at hp; simp at hp; subst hp; exact ⟨_, _, _, hu⟩
    | add hop e h₁ h₂ => rw [e] at hp; simp at hp; rcases hp with rfl | rfl; exacts [⟨_, _, _, h₁⟩, ⟨_, _, _, h₂⟩]
    | mul hop e h₁ h₂ => rw [e] at hp; simp at hp; rcases hp with rfl | rfl; exacts [⟨_, _, _, h₁⟩, ⟨_, _, _, h₂⟩]
    | mulZero hop e h₁ h₂ => rw [e] at hp; simp at hp; rcases hp with rfl | rfl; exacts [⟨_, _, _, h₁⟩, ⟨_, _, _, h₂⟩]

theorem Spec.Budget.compilable {h : SHeap K} {r dt : K} {v : ℕ} {x ε D : K} (hB : Budget h r dt v x ε D) : Compilable (h.op v) := by
  cases hB with
  | load hop => exact .inl hop
  | neg hop => exact .inr (.inr (.inr hop))
  | add hop => exact .inr (.inl hop)
  | mul hop => exact .inr (.inr (.inl hop))
  | mulZero hop => exact .inr (.inr (.inl hop))

theorem Spec.Budget.loaded {h : SHeap K} {r dt : K} {v : ℕ} {x ε D : K} (hB : Budget h r dt v x ε D) (hl : h.op v = .load) : |h.data v| ≤ r := by
  cases hB with
  | load hop hp hx => exact hx
  | neg hop => rw [hl] at hop; cases hop
  | add hop => rw [hl] at hop; cases hop
  | mul hop => rw [hl] at hop; cases hop
  | mulZero hop => rw [hl] at hop; cases hop

theorem op_load_of_ge {h : SHeap K} {v : ℕ} (hv : ¬ v < h.length) : h.op v = .load := by
  simp [SHeap.op, List.getElem?_eq_none (not_lt.mp hv)]

/-- The number a node of a well-made graph stands for is its data. -/
theorem Spec.Budget.data {h : SHeap K} (hd : DataOK h) {r dt : K} {v : ℕ} {x ε D : K} (hB : Budget h r dt v x ε D) : x = h.data v := by
  have lt : ∀ {v}, h.op v ≠ .load → v < h.length := fun {v} hn => by
    by_contra hv; exact hn (op_load_of_ge hv)
  induction hB with
  | load => rfl
  | @neg v u x ε D D' hop hp _ _ ih =>
    have hne : h.op v ≠ .load := by rw [hop]; simp
    have := hd v (lt hne) hne
    rw [hop, hp] at this
    simp only [opValue, List.map_cons, List.map_nil, Option.some.injEq] at this
    rw [ih, this]
  | @add v u₁ u₂ _ _ _ _ _ _ _ _ hop hp _ _ _ _ _ _ _ _ _ _ ih₁ ih₂ =>
    have hne : h.op v ≠ .load := by rw [hop]; simp
    have := hd v (lt hne) hne
    rw [hop, hp] at this
    simp only [opValue, List.map_cons, List.map_nil, Option.some.injEq] at this
    rw [ih₁, ih₂, this]
  | @mul v u₁ u₂ _ _ _ _ _ _ _ _ hop hp _ _ _ _ _ _ _ _ _ _ _ _ _ ih₁ ih₂ =>
    have hne : h.op v ≠ .load := by rw [hop]; simp
    have := hd v (lt hne) hne
    rw [hop, hp] at this
    simp only [opValue, List.map_cons, List.map_nil, Option.some.injEq] at this
    rw [ih₁, ih₂, this]
  | @mulZero v u₁ u₂ _ _ _ _ _ _ _ _ hop hp _ _ _ _ _ _ _ _ _ _ _ _ ih₁ ih₂ =>
    have hne : h.op v ≠ .load := by rw [hop]; simp
    have := hd v (lt hne) hne
    rw [hop, hp] at this
    simp only [opValue, List.map_cons, List.map_nil, Option.some.injEq] at this
    rw [ih₁, ih₂, this]

/-- What the user does with a Scalar: compile it in a fresh process, load the plan in a new simulator with the default encoder, simulate, and
decode the output. -/
def pipeline (H : EventHeap K) (ord : ℕ → List ℕ → List ℕ) (h : SHeap K) (limit root : ℕ) (r dt T : K) : Except PyErr (Option K) := do
  let (plan, w) ← compileComputation h limit root r World.empty
  let (net, st) ← initWithPlan H defaultEncoder w (fun n => NState.fresh (w.par n)) plan
  let st ← st.simulate H ord net dt T
  decodeOutput st.spikeLog defaultEncoder plan.reader.plus plan.reader.minus plan.reader.norm

/-- **C59.** Compile, load, simulate and decode: for every graph of additions, multiplications and negations within its budget, for every
heap, every set order, and every simulation that is long enough, the decoded result is the exact result up to the budgeted error. -/
theorem C59_end_to_end (H : EventHeap K) {ord : ℕ → List ℕ → List ℕ} (hord : SetOrder ord) {h : SHeap K} (ho : OperandsOlder h)
    (ha : AritiesOK h) {limit root : ℕ} (hroot : root < h.length) (hl : h.length ≤ limit) {r : K} (hr : 0 < r) (hr' : r ≤ 100) {dt : K}
    (hdt : 0 < dt) (hdt' : dt < 1 / 50) {x ε D T : K} (hB : Budget h r dt root x ε D) (hT : D ≤ T) :
    ∃ y, pipeline H ord h limit root r dt T = .ok (some y) ∧ |y - x| ≤ r * ε / 100 := by
  have hle : ∀ v, Spec.Reach h root v → h.op v = .load → |h.data v| ≤ r := fun v hv hlo => by
    obtain ⟨_, _, _, hb⟩ := hB.reach hv
    exact hb.loaded hlo
  obtain ⟨plan, w', hc⟩ := (C57_succeeds_iff ho ha hroot hl r .empty).mpr ⟨hr', hr.ne', fun v hv => by
    obtain ⟨_, _, _, hb⟩ := hB.reach hv
    exact hb.compilable, fun v hv hlo => (div_le_one hr).mpr ((le_abs_self _).trans (hle v hv hlo))⟩
  obtain ⟨-, ns, -, hns, -, -, ⟨l, el, hpar⟩, hown⟩ := compiled_net ho hroot hl .empty hc
  obtain ⟨L, ns', F, hns', hload, -⟩ := C58_load ho hroot hl hr .empty hc H defaultEncoder (fun n => NState.fresh (w'.par n))
  obtain rfl : ns = ns' := Except.ok.inj (hns.symm.trans hns')
  have hg : ∀ v ∈ L.nodes, GoodNode h v := fun v hv => (compile_ok_cond ho hroot hl .empty hc).2.2.1 v ((F.nodes v).mp hv)
  have hpar' : ∀ o ∈ w'.neus, o.par = ⟨10, 100, 20, 0⟩ := by
    intro o ho'; rw [el] at ho'
    exact hpar o (by simpa [World.empty] using ho')
  obtain ⟨hwf, hp⟩ := compiled_wf F hg hpar' hown hns
  have hrest : Resting (w'.net ns) (fun n => NState.fresh (w'.par n)) := by
    intro n hn
    have := hp n hn
    simp only [World.net, this, NState.fresh]
    norm_num
  have hrun := dense_isRun (w'.net ns) dt (loadSpikes defaultEncoder h r L) (fun n => NState.fresh (w'.par n))
  obtain ⟨st', h1, out⟩ := simulate_outcome H hord hwf hdt hrest hrun T
  have mem : ∀ v ∈ L.nodes, ∀ k < (spawnEmpty (h.op v) r).2.neus.length, L.off v + k ∈ ns := fun v hv k hk =>
    (faithful_mem F hns _).mpr ⟨v, hv, (F.copy v hv _).mpr ⟨k, hk, rfl⟩⟩
  have hstd : ∀ v ∈ L.nodes, ∀ k < (spawnEmpty (h.op v) r).2.neus.length,
      IsStd (w'.net ns) (fun n => NState.fresh (w'.par n)) (L.off v + k) := by
    intro v hv k hk
    have := hp _ (mem v hv k hk)
    refine ⟨mem v hv k hk, this, ?_⟩
    simp only [this, NState.fresh]
  have C : CRun h root r dt w' plan L ns _ _ _ := ⟨F, hg, hrun, hstd⟩
  have hrn : root ∈ L.nodes := (F.nodes root).mpr .refl
  have hm : (L.out root).plus ∈ (w'.net ns).neurons ∧ (L.out root).minus ∈ (w'.net ns).neurons := by
    obtain ⟨a, b, -⟩ := F.out root hrn
    exact ⟨(faithful_mem F hns _).mpr ⟨root, hrn, _, .refl, a⟩, (faithful_mem F hns _).mpr ⟨root, hrn, _, .refl, b⟩⟩
  obtain ⟨neg, hneg, -, s, t, herr, hlog⟩ := C.node hr hdt hdt' hB hrn
  obtain ⟨lp, lm⟩ := hlog T hT
  have e1 := out.log_mem hm.1
  have e2 := out.log_mem hm.2
  rw [lp] at e1
  rw [lm] at e2
  obtain ⟨c1, c2, -, -⟩ := C27_decode_output st'.spikeLog (defaultEncoder : Encoder K) (by simp [defaultEncoder]) (L.out root).plus
    (L.out root).minus r _ _ (by rw [e1]) (by rw [e2])
  have hload' := hload (fun v hv hlo => (abs_le.mp (hle v hv hlo)).1)
  have hfin : ∀ y, decodeOutput st'.spikeLog (defaultEncoder : Encoder K) (L.out root).plus (L.out root).minus r = .ok (some y) →
      pipeline H ord h limit root r dt T = .ok (some y) := by
    intro y hy
    unfold pipeline
    rw [hc]
    show (initWithPlan H defaultEncoder w' (fun n => NState.fresh (w'.par n)) plan >>= _) = _
    rw [hload']
    show (Sim.simulate H ord (w'.net ns) dt T _ >>= _) = _
    unfold Sim.injectAll at h1
    rw [h1]
    show decodeOutput st'.spikeLog defaultEncoder plan.reader.plus plan.reader.minus plan.reader.norm = _
    rw [F.reader]; exact hy
  have key : |(r * ((t - s - 10) / 100) - |x|)| ≤ r * ε / 100 := by
    rw [show r * ((t - s - 10) / 100) - |x| = r / 100 * ((t - s) - (10 + |x| / r * 100)) by field_simp; ring, abs_mul,
      abs_of_pos (by positivity : 0 < r / 100)]
    calc r / 100 * _ ≤ r / 100 * ε := mul_le_mul_of_nonneg_left herr (by positivity)
      _ = r * ε / 100 := by ring
  cases neg
  · simp only [signed, Bool.false_eq_true, if_false] at hneg
    refine ⟨_, hfin _ (c1 s t rfl rfl), ?_⟩
    rw [hneg] at key; exact key
  · simp only [signed, if_true] at hneg
    refine ⟨_, hfin _ (c2 s t rfl rfl), ?_⟩
    rw [show -(r * ((t - s - (defaultEncoder : Encoder K).Tmin) / (defaultEncoder : Encoder K).Tcod)) - x =
      -(r * ((t - s - 10) / 100) - |x|) by rw [show x = -|x| from hneg.symm]; simp [defaultEncoder]; ring, abs_neg]
    exact key

/-! ## Convergence -/

theorem small_enough : ∀ l : List ℝ, (∀ b ∈ l, 0 < b) → ∃ η : ℝ, 0 < η ∧ ∀ b ∈ l, η ≤ b
  | [], _ => ⟨1, one_pos, by simp⟩
  | b :: l, h => by
    obtain ⟨η, h0, h1⟩ := small_enough l (fun b hb => h b (List.mem_cons_of_mem _ hb))
    refine ⟨min b η, lt_min (h b (by simp)) h0, fun c hc => ?_⟩
    rcases List.mem_cons.mp hc with rfl | hc
    · exact min_le_left _ _
    · exact (min_le_right _ _).trans (h1 c hc)

theorem decayLoss_le {dt : ℝ} (h0 : 0 < dt) (h1 : dt ≤ 1) : decayLoss dt ≤ 20 * dt := by
  have h2 : 0 < (1 - dt / 20) ^ 2 := by
    have : 0 < 1 - dt / 20 := by linarith
    positivity
  unfold decayLoss
  have : 1 / (1 - dt / 20) ^ 2 ≤ 1 + dt / 5 := by
    rw [div_le_iff₀ h2]; nlinarith [mul_pos h0 h0, mul_pos h0 (mul_pos h0 h0)]
  linarith

theorem left_le_exp {dt : ℝ} (h1 : dt < 20) (n : ℕ) : left dt n ≤ Real.exp (-(n * dt / 20)) := by
  unfold left
  have h : 1 - dt / 20 ≤ Real.exp (-(dt / 20)) := by
    have := Real.add_one_le_exp (-(dt / 20)); linarith
  calc (1 - dt / 20) ^ n ≤ Real.exp (-(dt / 20)) ^ n := pow_le_pow_left₀ (by linarith) h n
    _ = Real.exp (-(n * dt / 20)) := by rw [← Real.exp_nat_mul]; ring_nf

/-- The decay ends in time. -/
theorem decay_in_time {dt c : ℝ} (h0 : 0 < dt) (h1 : dt ≤ 1 / 50) (hc : Real.exp (-343 / 20) + dt ≤ c) :
    ∃ M : ℕ, left dt M ≤ c ∧ ((M : ℝ) + 6) * dt ≤ 343 := by
  have hq : (6 : ℝ) ≤ 343 / dt := by rw [le_div_iff₀ h0]; linarith
  have hf : 6 ≤ ⌊343 / dt⌋₊ := Nat.le_floor (by exact_mod_cast hq)
  have hfl : ((⌊343 / dt⌋₊ : ℕ) : ℝ) ≤ 343 / dt := Nat.floor_le (by positivity)
  have hfu : 343 / dt < (⌊343 / dt⌋₊ : ℝ) + 1 := Nat.lt_floor_add_one _
  have hM : ((⌊343 / dt⌋₊ - 6 : ℕ) : ℝ) = (⌊343 / dt⌋₊ : ℝ) - 6 := by rw [Nat.cast_sub hf]; norm_num
  refine ⟨⌊343 / dt⌋₊ - 6, ?_, ?_⟩
  · refine (left_le_exp (by linarith) _).trans (le_trans ?_ hc)
    rw [hM]
    have h2 : 343 - 7 * dt ≤ ((⌊343 / dt⌋₊ : ℝ) - 6) * dt := by
      rw [div_lt_iff₀ h0] at hfu; nlinarith
    have h3 : Real.exp (-(((⌊343 / dt⌋₊ : ℝ) - 6) * dt / 20)) ≤ Real.exp (-343 / 20) * Real.exp (7 * dt / 20) := by
      rw [← Real.exp_add]; exact Real.exp_le_exp.mpr (by linarith)
    have h4 : Real.exp (7 * dt / 20) ≤ 1 + dt := by
      have h5 := Real.add_one_le_exp (-(7 * dt / 20))
      have h6 : 0 < Real.exp (7 * dt / 20) := Real.exp_pos _
      have h7 : Real.exp (-(7 * dt / 20)) * Real.exp (7 * dt / 20) = 1 := by rw [← Real.exp_add]; simp
      have h8 : (1 - 7 * dt / 20) * Real.exp (7 * dt / 20) ≤ 1 := by
        rw [← h7]; exact mul_le_mul_of_nonneg_right (by linarith) h6.le
      have h9 : 1 ≤ (1 - 7 * dt / 20) * (1 + dt) := by nlinarith
      have h10 : 0 < 1 - 7 * dt / 20 := by linarith
      exact le_of_mul_le_mul_left (h8.trans h9) h10
    have h5 : Real.exp (-343 / 20 : ℝ) ≤ 1 := Real.exp_le_one_iff.mpr (by norm_num)
    have h6 : 0 < Real.exp (-343 / 20 : ℝ) := Real.exp_pos _
    calc _ ≤ _ := h3
      _ ≤ Real.exp (-343 / 20) * (1 + dt) := mul_le_mul_of_nonneg_left h4 h6.le
      _ ≤ _ := by nlinarith
  · rw [hM, sub_add_cancel]
    exact (le_div_iff₀ h0).mp hfl

/-- Every node in range can be budgeted arbitrarily finely, with a deadline that does not depend on the time step. -/
theorem budget_exists {zeros : Prop} {h : SHeap ℝ} (ho : OperandsOlder h) (ha : AritiesOK h) (hd : DataOK h) {r : ℝ} (hr : 0 < r) :
    ∀ v < h.length, (∀ u, Spec.Reach h v u → InRange zeros h r u) →
      ∃ D, ∀ η > 0, ∃ d0 > 0, ∀ dt, 0 < dt → dt ≤ d0 → (zeros → ∃ k : ℕ, (k : ℝ) * dt = 1) → Budget h r dt v (h.data v) η D := by
  intro v
  induction v using Nat.strong_induction_on with
  | _ v ih =>
    intro hv hR
    have hself := hR v .refl
    have har := ha v hv
    have sub : ∀ u ∈ h.prev v, ∃ D, ∀ η > 0, ∃ d0 > 0, ∀ dt, 0 < dt → dt ≤ d0 → (zeros → ∃ k : ℕ, (k : ℝ) * dt = 1) →
        Budget h r dt u (h.data u) η D := fun u hu =>
      ih u (ho v hv u hu) ((ho v hv u hu).trans hv) (fun y hy => hR y (.head hu hy))
    have hdat := hd v hv
    unfold InRange at hself
    cases hop : h.op v with
    | load =>
      simp only [hop] at hself har
      refine ⟨112, fun η hη => ⟨min η 1, lt_min hη one_pos, fun dt h0 h1 hk => ?_⟩⟩
      exact .load hop (List.length_eq_zero_iff.mp har) hself (h1.trans (min_le_left _ _)) (by linarith [h1.trans (min_le_right _ _)])
    | neg =>
      simp only [hop] at har
      obtain ⟨u, hp⟩ := List.length_eq_one_iff.mp har
      have hval := hdat (by rw [hop]; simp)
      rw [hop, hp] at hval
      simp only [opValue, List.map_cons, List.map_nil, Option.some.injEq] at hval
      obtain ⟨D, hD⟩ := sub u (by rw [hp]; simp)
      refine ⟨D + 4, fun η hη => ?_⟩
      obtain ⟨d, hd0, hdB⟩ := hD η hη
      refine ⟨min d 1, lt_min hd0 one_pos, fun dt h0 h1 hk => ?_⟩
      rw [← hval]
      exact .neg hop hp (hdB dt h0 (h1.trans (min_le_left _ _)) hk) (by linarith [h1.trans (min_le_right _ _)])
    | add =>
      simp only [hop] at har
      obtain ⟨u₁, u₂, hp⟩ := List.length_eq_two.mp har
      have hval := hdat (by rw [hop]; simp)
      rw [hop, hp] at hval
      simp only [opValue, List.map_cons, List.map_nil, Option.some.injEq] at hval
      simp only [hop, hp] at hself
      obtain ⟨hpos, hneg, hz⟩ := hself
      obtain ⟨D₁, hD₁⟩ := sub u₁ (by rw [hp]; simp)
      obtain ⟨D₂, hD₂⟩ := sub u₂ (by rw [hp]; simp)
      refine ⟨max D₁ D₂ + 372, fun η hη => ?_⟩
      set P := (max (h.data u₁) 0 + max (h.data u₂) 0) / r * 100 with hP
      set N := (max (-h.data u₁) 0 + max (-h.data u₂) 0) / r * 100 with hN
      set s := (h.data u₁ + h.data u₂) / r * 100 with hs
      have hP' : P < 100 := by
        have := (div_lt_one hr).mpr hpos; linarith
      have hN' : N < 100 := by
        have := (div_lt_one hr).mpr hneg; linarith
      obtain ⟨z, hz0, hz1⟩ : ∃ z : ℝ, 0 < z ∧ ∀ e, 0 < e → e ≤ z → (4 * e ≤ s ∨ s + 5 * e + 1 / 100 ≤ 0) := by
        rcases hz with hz | hz
        · have : 0 < s := by positivity
          exact ⟨s / 4, by positivity, fun e _ he => .inl (by linarith)⟩
        · have : s < -(1 / 100) := by
            have h3 : (h.data u₁ + h.data u₂) / r < -(1 / 10000) := by rw [div_lt_iff₀ hr]; linarith
            linarith
          exact ⟨(-(1 / 100) - s) / 5, by linarith, fun e _ he => .inr (by linarith)⟩
      obtain ⟨e, e0, he⟩ := small_enough [η / 6, (100 - P) / 4, (100 - N) / 4, z, 1 / 50] (by
        intro b hb; simp at hb
        rcases hb with rfl | rfl | rfl | rfl | rfl <;> first | positivity | linarith | norm_num)
      simp only [List.mem_cons, List.not_mem_nil, or_false, forall_eq_or_imp, forall_eq] at he
      obtain ⟨e1, e2, e3, e4, e5⟩ := he
      obtain ⟨d₁, hd₁, hB₁⟩ := hD₁ e e0
      obtain ⟨d₂, hd₂, hB₂⟩ := hD₂ e e0
      refine ⟨min e (min d₁ d₂), lt_min e0 (lt_min hd₁ hd₂), fun dt h0 h1 hk => ?_⟩
      obtain ⟨h1, h2, h3⟩ : dt ≤ e ∧ dt ≤ d₁ ∧ dt ≤ d₂ := by simpa [le_min_iff] using h1
      have m1 := le_max_left D₁ D₂
      have m2 := le_max_right D₁ D₂
      rw [← hval]
      refine .add hop hp (hB₁ dt h0 h2 hk) (hB₂ dt h0 h3 hk) (by linarith) (by linarith) ?_ ?_ ?_ (by linarith) (by linarith) (by linarith)
      · rw [← hP]; linarith
      · rw [← hN]; linarith
      · rw [← hs]; rcases hz1 e e0 e4 with hz | hz
        · left; linarith
        · right; linarith
    | mul =>
      simp only [hop] at har
      obtain ⟨u₁, u₂, hp⟩ := List.length_eq_two.mp har
      have hval := hdat (by rw [hop]; simp)
      rw [hop, hp] at hval
      simp only [opValue, List.map_cons, List.map_nil, Option.some.injEq] at hval
      simp only [hop, hp] at hself
      obtain ⟨ha1, hb1, hself⟩ := hself
      obtain ⟨D₁, hD₁⟩ := sub u₁ (by rw [hp]; simp)
      obtain ⟨D₂, hD₂⟩ := sub u₂ (by rw [hp]; simp)
      refine ⟨max D₁ D₂ + 598 + 110 / r, fun η hη => ?_⟩
      set a := |h.data u₁| / r with hA
      set b := |h.data u₂| / r with hBb
      have a1 : a < 1 := (div_lt_one hr).mpr ha1
      have b1 : b < 1 := (div_lt_one hr).mpr hb1
      rcases hself with ⟨ha0, hb0, hxx, hexp⟩ | ⟨hz, hsrc⟩
      · have a0 : 0 < a := div_pos (abs_pos.mpr ha0) hr
        have b0 : 0 < b := div_pos (abs_pos.mpr hb0) hr
        have hab : Real.exp (-343 / 20) < a * b := by
          rw [hA, hBb, div_mul_div_comm, lt_div_iff₀ (by positivity), ← abs_mul, ← pow_two]; exact hexp
        obtain ⟨e, e0, he⟩ := small_enough [η / (28 * r + 2), a * 50, (1 - a) * 50, b * 50, (1 - b) * 50, a * b, 10 / (28 * r),
            (a * b - Real.exp (-343 / 20)) / 2, 1 / 50] (by
          intro c hc; simp at hc
          rcases hc with rfl | rfl | rfl | rfl | rfl | rfl | rfl | rfl | rfl <;> first | positivity | linarith | norm_num)
        simp only [List.mem_cons, List.not_mem_nil, or_false, forall_eq_or_imp, forall_eq] at he
        obtain ⟨e1, e2, e3, e4, e5, e6, e7, e8, e9⟩ := he
        rw [le_div_iff₀ (by positivity)] at e1 e7
        obtain ⟨d₁, hd₁, hB₁⟩ := hD₁ e e0
        obtain ⟨d₂, hd₂, hB₂⟩ := hD₂ e e0
        refine ⟨min e (min d₁ d₂), lt_min e0 (lt_min hd₁ hd₂), fun dt h0 h1 hk => ?_⟩
        obtain ⟨h1, h2, h3⟩ : dt ≤ e ∧ dt ≤ d₁ ∧ dt ≤ d₂ := by simpa [le_min_iff] using h1
        have m1 := le_max_left D₁ D₂
        have m2 := le_max_right D₁ D₂
        have hloss := decayLoss_le h0 (by linarith)
        have hsum : e + e + 6 * dt + decayLoss dt ≤ 28 * e := by linarith
        have hrs : r * (e + e + 6 * dt + decayLoss dt) ≤ r * (28 * e) := mul_le_mul_of_nonneg_left hsum hr.le
        rw [← hval]
        refine .mul hop hp (hB₁ dt h0 h2 hk) (hB₂ dt h0 h3 hk) ?_ ?_ ?_ ?_ hxx ?_ ?_ (by linarith) (by linarith) (by linarith) (by linarith)
        · rw [← hA]; linarith
        · rw [← hA]; linarith
        · rw [← hBb]; linarith
        · rw [← hBb]; linarith
        · rw [← hA, ← hBb]
          refine decay_in_time h0 (by linarith) ?_
          have : (e + dt) / 100 ≤ e / 50 := by linarith
          have h4 : (a - e / 50) * (b - e / 50) ≤ (a - (e + dt) / 100) * (b - (e + dt) / 100) :=
            mul_le_mul (by linarith) (by linarith) (by linarith) (by linarith)
          nlinarith
        · rw [← hA, ← hBb]; linarith
      · obtain ⟨e, e0, he⟩ := small_enough [η / (2 * r + 2), (1 - a) * 50, (1 - b) * 50, 10 / (2 * r), 1 / 50] (by
          intro c hc; simp at hc
          rcases hc with rfl | rfl | rfl | rfl | rfl <;> first | positivity | linarith | norm_num)
        simp only [List.mem_cons, List.not_mem_nil, or_false, forall_eq_or_imp, forall_eq] at he
        obtain ⟨e1, e2, e3, e4, e5⟩ := he
        rw [le_div_iff₀ (by positivity)] at e1 e4
        obtain ⟨d₁, hd₁, hB₁⟩ := hD₁ e e0
        obtain ⟨d₂, hd₂, hB₂⟩ := hD₂ e e0
        refine ⟨min e (min d₁ d₂), lt_min e0 (lt_min hd₁ hd₂), fun dt h0 h1 hk => ?_⟩
        obtain ⟨h1, h2, h3⟩ : dt ≤ e ∧ dt ≤ d₁ ∧ dt ≤ d₂ := by simpa [le_min_iff] using h1
        have m1 := le_max_left D₁ D₂
        have m2 := le_max_right D₁ D₂
        have hrs : r * (2 * dt) ≤ r * (2 * e) := mul_le_mul_of_nonneg_left (by linarith) hr.le
        rw [← hval]
        refine .mulZero hop hp (hB₁ dt h0 h2 hk) (hB₂ dt h0 h3 hk) hsrc (hk hz) (by linarith) (by linarith) ?_ ?_ (by linarith) (by linarith)
          (by linarith) (by linarith)
        · rw [← hA]; linarith
        · rw [← hBb]; linarith
    | pow => simp only [hop] at hself
    | div => simp only [hop] at hself

/-- **C59, convergence.** If the values of all operations are in range, then, for a simulation time that does not depend on the time
step, the decoded result gets as close as one likes to the value of the Scalar when the time step gets small (among those that divide
1 ms, when there are multiplications by a loaded zero). -/
theorem C59_converges {zeros : Prop} {h : SHeap ℝ} (ho : OperandsOlder h) (ha : AritiesOK h) (hd : DataOK h) {limit root : ℕ} (hroot : root < h.length)
    (hl : h.length ≤ limit) {r : ℝ} (hr : 0 < r) (hr' : r ≤ 100) (hR : ∀ u, Spec.Reach h root u → InRange zeros h r u) :
    ∃ T0, ∀ η > 0, ∃ d0 > 0, ∀ dt, 0 < dt → dt ≤ d0 → (zeros → ∃ k : ℕ, (k : ℝ) * dt = 1) → ∀ T, T0 ≤ T →
      ∀ (H : EventHeap ℝ) (ord : ℕ → List ℕ → List ℕ), SetOrder ord →
      ∃ y, pipeline H ord h limit root r dt T = .ok (some y) ∧ |y - h.data root| ≤ η := by
  obtain ⟨D, hD⟩ := budget_exists ho ha hd hr root hroot hR
  refine ⟨D, fun η hη => ?_⟩
  obtain ⟨d, hd0, hB⟩ := hD (η * 100 / r) (by positivity)
  refine ⟨min d (1 / 100), lt_min hd0 (by norm_num), fun dt h0 h1 hk T hT H ord hord => ?_⟩
  obtain ⟨y, hy, he⟩ := C59_end_to_end H hord ho ha hroot hl hr hr' h0 (by linarith [h1.trans (min_le_right _ _)])
    (hB dt h0 (h1.trans (min_le_left _ _)) hk) hT
  refine ⟨y, hy, he.trans (le_of_eq ?_)⟩
  field_simp

/-- **C59, expressions.** Write an expression with the operators of Scalar on freshly made Scalars, and compile, load, simulate and decode the
result: one gets the value of the expression, as precisely as one likes for small enough time steps. -/
theorem C59_expression {zeros : Prop} (inputs : List ℝ) (e : SExpr ℝ) (hu : UsesBelow inputs.length e) {limit root : ℕ} {h : SHeap ℝ}
    (he : evalPy limit e (inputs.map fun x => ⟨x, [], .load⟩) = .ok (.sc root, h)) (hl : h.length ≤ limit) {r : ℝ} (hr : 0 < r) (hr' : r ≤ 100)
    (hR : ∀ u, Spec.Reach h root u → InRange zeros h r u) :
    ∃ x, denote (fun i => inputs.getD i 0) e = some x ∧ ∃ T0, ∀ η > 0, ∃ d0 > 0, ∀ dt, 0 < dt → dt ≤ d0 →
      (zeros → ∃ k : ℕ, (k : ℝ) * dt = 1) → ∀ T, T0 ≤ T → ∀ (H : EventHeap ℝ) (ord : ℕ → List ℕ → List ℕ), SetOrder ord →
        ∃ y, pipeline H ord h limit root r dt T = .ok (some y) ∧ |y - x| ≤ η := by
  obtain ⟨l1, l2, l3⟩ := loads_ok inputs
  have hu' : UsesBelow (inputs.map fun x => (⟨x, [], .load⟩ : SNode ℝ)).length e := by rwa [List.length_map]
  obtain ⟨o1, o2⟩ := C54_graph_ok limit e _ hu' l1 l2 he
  have o3 := C54_data_ok limit e _ hu' l1 l2 l3 he
  obtain ⟨v1, -, v3⟩ := C54_value limit e _ hu' he
  have hdat : SHeap.data (inputs.map fun x => (⟨x, [], .load⟩ : SNode ℝ)) = fun i => inputs.getD i 0 := by
    funext i
    by_cases hi : i < inputs.length <;> simp [SHeap.data, hi]
  rw [hdat] at v1
  have hroot : root < h.length := by
    rcases evalOK limit e _ hu' with ⟨v, h1, x, e1, d1, n1, s1, m1⟩ | ⟨-, he'⟩
    · rw [e1] at he
      obtain ⟨rfl, rfl⟩ := Prod.mk.inj (Except.ok.inj he)
      exact m1.valid
    · rcases he' with h | h <;> rw [h] at he <;> cases he
  exact ⟨_, v1, C59_converges o1 o2 o3 hroot hl hr hr' hR⟩

/-! ## The example of the documentation: `(2 + 3) * 4` -/

/-- `(2 + 3) * 4` -/
def exSum (K : Type*) [Field K] : SHeap K := [⟨2, [], .load⟩, ⟨3, [], .load⟩, ⟨4, [], .load⟩, ⟨5, [0, 1], .add⟩, ⟨20, [3, 2], .mul⟩]

/-- It is what the operators build. -/
theorem exSum_eval : evalPy 1000 (.mul (.add (.var 0) (.var 1)) (.var 2)) (([2, 3, 4] : List ℝ).map fun x => ⟨x, [], .load⟩) =
    .ok (.sc 4, exSum ℝ) := by
  simp [evalPy, evalBin, pyAdd, pyMul, Scalar.add, Scalar.mul, canProceed, wrap, newScalar, SHeap.data, exSum]
  norm_num

theorem exSum_ok : OperandsOlder (exSum ℚ) ∧ AritiesOK (exSum ℚ) := by
  constructor
  · intro v hv p hp
    have : v = 0 ∨ v = 1 ∨ v = 2 ∨ v = 3 ∨ v = 4 := by simp [exSum] at hv; omega
    rcases this with rfl | rfl | rfl | rfl | rfl <;> simp [SHeap.prev, exSum] at hp <;> omega
  · intro v hv
    have : v = 0 ∨ v = 1 ∨ v = 2 ∨ v = 3 ∨ v = 4 := by simp [exSum] at hv; omega
    rcases this with rfl | rfl | rfl | rfl | rfl <;> rfl

/-- With range 100 and time step 1/1000 the budget grants an error of 2.4 in 110 ms, that is of 2.4 in the result, by time 1100. -/
theorem exSum_budget : Budget (exSum ℚ) 100 (1 / 1000) 4 20 (24 / 10) 1100 := by
  have l0 : Budget (exSum ℚ) 100 (1 / 1000) 0 2 (1 / 1000) 112 := .load rfl rfl (by norm_num [SHeap.data, exSum]) le_rfl (by norm_num)
  have l1 : Budget (exSum ℚ) 100 (1 / 1000) 1 3 (1 / 1000) 112 := .load rfl rfl (by norm_num [SHeap.data, exSum]) le_rfl (by norm_num)
  have l2 : Budget (exSum ℚ) 100 (1 / 1000) 2 4 (1 / 1000) 112 := .load rfl rfl (by norm_num [SHeap.data, exSum]) le_rfl (by norm_num)
  have a : Budget (exSum ℚ) 100 (1 / 1000) 3 (2 + 3) (6 / 1000) 484 :=
    .add rfl rfl l0 l1 (by norm_num) (by norm_num) (by norm_num) (by norm_num) (by norm_num) (by norm_num) (by norm_num) (by norm_num)
  have hl : left (1 / 1000 : ℚ) (4 * 85500) ≤ (1 / 5) ^ 4 := by
    have h := left_le (K := ℚ) (dt := 1 / 1000) (by norm_num) (by norm_num) 85500
    unfold left at h ⊢
    rw [mul_comm, pow_mul]
    refine pow_le_pow_left₀ (pow_nonneg (by norm_num) _) (h.trans ?_) 4
    norm_num
  have := Budget.mul (h := exSum ℚ) (r := 100) (dt := 1 / 1000) (v := 4) (ε := 24 / 10) (D := 1100) rfl rfl a l2
    (by norm_num) (by norm_num) (by norm_num) (by norm_num) (by norm_num)
    ⟨4 * 85500, hl.trans (by norm_num), by norm_num⟩ (by norm_num [decayLoss]) (by norm_num [decayLoss]) (by norm_num [decayLoss])
    (by norm_num) (by norm_num)
  norm_num at this ⊢
  exact this

/-- The pipeline answers 20, up to 2.4, whatever the heap and the set order. -/
example (H : EventHeap ℚ) {ord : ℕ → List ℕ → List ℕ} (hord : SetOrder ord) :
    ∃ y, pipeline H ord (exSum ℚ) 1000 4 100 (1 / 1000) 1100 = .ok (some y) ∧ |y - 20| ≤ 2.4 := by
  obtain ⟨y, h1, h2⟩ := C59_end_to_end H hord exSum_ok.1 exSum_ok.2 (limit := 1000) (by simp [exSum]) (by simp [exSum]) (by norm_num) (by norm_num)
    (by norm_num) (by norm_num) exSum_budget le_rfl
  exact ⟨y, h1, h2.trans (by norm_num)⟩

/-- All its operations are in range. -/
theorem exSum_range : ∀ u, Spec.Reach (exSum ℝ) 4 u → InRange False (exSum ℝ) 100 u := by
  intro u hu
  have ho : OperandsOlder (exSum ℝ) := by
    intro v hv p hp
    have : v = 0 ∨ v = 1 ∨ v = 2 ∨ v = 3 ∨ v = 4 := by simp [exSum] at hv; omega
    rcases this with rfl | rfl | rfl | rfl | rfl <;> simp [SHeap.prev, exSum] at hp <;> omega
  have := reach_lt ho (show 4 < (exSum ℝ).length by simp [exSum]) hu
  have : u = 0 ∨ u = 1 ∨ u = 2 ∨ u = 3 ∨ u = 4 := by simp [exSum] at this; omega
  have he : Real.exp (-343 / 20) ≤ 1 / 1000 := by
    have h1 : Real.exp (-343 / 20) ≤ Real.exp (-1) ^ 17 := by rw [← Real.exp_nat_mul]; exact Real.exp_le_exp.mpr (by norm_num)
    have h2 : Real.exp (-1) ≤ 1 / 2 := by
      rw [Real.exp_neg, inv_le_comm₀ (Real.exp_pos _) (by norm_num)]
      have := Real.add_one_le_exp (1 : ℝ); linarith
    exact h1.trans ((pow_le_pow_left₀ (Real.exp_pos _).le h2 17).trans (by norm_num))
  rcases this with rfl | rfl | rfl | rfl | rfl <;> simp [InRange, SHeap.op, SHeap.prev, SHeap.data, exSum]
  · norm_num
  · norm_num
  · norm_num
  · norm_num
  · norm_num; linarith

/-- The decoded result of `(2 + 3) * 4` gets as close to 20 as one likes. -/
example : ∃ T0, ∀ η > 0, ∃ d0 > 0, ∀ dt, 0 < dt → dt ≤ d0 → ∀ T, T0 ≤ T → ∀ (H : EventHeap ℝ) (ord : ℕ → List ℕ → List ℕ), SetOrder ord →
    ∃ y, pipeline H ord (exSum ℝ) 1000 4 100 dt T = .ok (some y) ∧ |y - 20| ≤ η := by
  obtain ⟨x, hx, h⟩ := C59_expression [2, 3, 4] _ (by simp [UsesBelow]) exSum_eval (by simp [exSum]) (by norm_num) le_rfl exSum_range
  have : x = 20 := by
    simp [denote] at hx; rw [← hx]; norm_num
  simpa [this] using h

/-- `(2 + 3) * -0`, a multiplication by a loaded zero. -/
def exZero (K : Type*) [Field K] : SHeap K := [⟨2, [], .load⟩, ⟨3, [], .load⟩, ⟨0, [], .load⟩, ⟨5, [0, 1], .add⟩, ⟨0, [2], .neg⟩, ⟨0, [3, 4], .mul⟩]

/-- With range 100 and time step 1/1000 it answers 0, up to 0.21. -/
example (H : EventHeap ℚ) {ord : ℕ → List ℕ → List ℕ} (hord : SetOrder ord) :
    ∃ y, pipeline H ord (exZero ℚ) 1000 5 100 (1 / 1000) 1100 = .ok (some y) ∧ |y - 0| ≤ 0.21 := by
  have l0 : Budget (exZero ℚ) 100 (1 / 1000) 0 2 (1 / 1000) 112 := .load rfl rfl (by norm_num [SHeap.data, exZero]) le_rfl (by norm_num)
  have l1 : Budget (exZero ℚ) 100 (1 / 1000) 1 3 (1 / 1000) 112 := .load rfl rfl (by norm_num [SHeap.data, exZero]) le_rfl (by norm_num)
  have l2 : Budget (exZero ℚ) 100 (1 / 1000) 2 0 (1 / 1000) 112 := .load rfl rfl (by norm_num [SHeap.data, exZero]) le_rfl (by norm_num)
  have n : Budget (exZero ℚ) 100 (1 / 1000) 4 (-0) (1 / 1000) 115 := .neg rfl rfl l2 (by norm_num)
  have a : Budget (exZero ℚ) 100 (1 / 1000) 3 (2 + 3) (6 / 1000) 484 :=
    .add rfl rfl l0 l1 (by norm_num) (by norm_num) (by norm_num) (by norm_num) (by norm_num) (by norm_num) (by norm_num) (by norm_num)
  have m := Budget.mulZero (h := exZero ℚ) (r := 100) (dt := 1 / 1000) (v := 5) (ε := 202 / 1000) (D := 1100) rfl rfl a n
    (.inr (.neg rfl rfl (.load rfl rfl rfl))) ⟨1000, by norm_num⟩ (by norm_num) (by norm_num) (by norm_num) (by norm_num) (by norm_num) (by norm_num)
    (by norm_num) (by norm_num)
  have ok : OperandsOlder (exZero ℚ) ∧ AritiesOK (exZero ℚ) := by
    constructor
    · intro v hv p hp
      have : v = 0 ∨ v = 1 ∨ v = 2 ∨ v = 3 ∨ v = 4 ∨ v = 5 := by simp [exZero] at hv; omega
      rcases this with rfl | rfl | rfl | rfl | rfl | rfl <;> simp [SHeap.prev, exZero] at hp <;> omega
    · intro v hv
      have : v = 0 ∨ v = 1 ∨ v = 2 ∨ v = 3 ∨ v = 4 ∨ v = 5 := by simp [exZero] at hv; omega
      rcases this with rfl | rfl | rfl | rfl | rfl | rfl <;> rfl
  obtain ⟨y, h1, h2⟩ := C59_end_to_end H hord ok.1 ok.2 (limit := 1000) (by simp [exZero]) (by simp [exZero]) (by norm_num) (by norm_num)
    (by norm_num) (by norm_num) m le_rfl
  exact ⟨y, h1, by norm_num at h2 ⊢; linarith⟩

/-- All its operations are in range, for time steps that divide 1 ms. -/
example : ∀ u, Spec.Reach (exZero ℝ) 5 u → InRange True (exZero ℝ) 100 u := by
  intro u hu
  have ho : OperandsOlder (exZero ℝ) := by
    intro v hv p hp
    have : v = 0 ∨ v = 1 ∨ v = 2 ∨ v = 3 ∨ v = 4 ∨ v = 5 := by simp [exZero] at hv; omega
    rcases this with rfl | rfl | rfl | rfl | rfl | rfl <;> simp [SHeap.prev, exZero] at hp <;> omega
  have := reach_lt ho (show 5 < (exZero ℝ).length by simp [exZero]) hu
  have : u = 0 ∨ u = 1 ∨ u = 2 ∨ u = 3 ∨ u = 4 ∨ u = 5 := by simp [exZero] at this; omega
  rcases this with rfl | rfl | rfl | rfl | rfl | rfl <;> simp [InRange, SHeap.op, SHeap.prev, SHeap.data, exZero]
  · norm_num
  · norm_num
  · norm_num
  · exact ⟨by norm_num, .inr (.neg rfl rfl (.load rfl rfl rfl))⟩

end Axon
