import Verif.Proofs.PredProgram
import Verif.Props.EndToEnd

/-! # C103: compiled programs in the predictive simulator -/
set_option linter.unusedSectionVars false
namespace Axon
open Spec

/-- What the user does to run a Scalar in the predictive simulator: compile it in a fresh process, start a `PredSimulator` on the network of
the plan with the default encoder, inject the values of the plan's triggers with `apply_input_value`, call `simulate()` (observed for at
most `fuel` iterations of its loop), and decode the output. -/
def predPipeline {K : Type*} [Field K] [LinearOrder K] [FloorRing K] (H : TimeHeap K) (exp : K → K) (h : SHeap K) (limit root : ℕ) (r dt : K) (fuel : ℕ) :
    Option (Except PyErr (Option K)) :=
  match compileComputation h limit root r World.empty with
  | .error e => some (.error e)
  | .ok (plan, w) =>
    (predSession H exp defaultEncoder dt w plan.net (plan.triggers.map fun t => Call.value t.value t.neuron 0) fuel).map fun res =>
      match res with
      | .error e => .error e
      | .ok st => decodeOutput st.spikeLog defaultEncoder plan.reader.plus plan.reader.minus plan.reader.norm

/-- **C103.** Compile, load, simulate and decode in the predictive simulator: for every graph of additions, multiplications and negations
within its budget and every heap, the simulation ends and the decoded result is the exact result up to the budgeted error. -/
theorem C103_end_to_end (H : TimeHeap ℝ) {h : SHeap ℝ} (ho : OperandsOlder h) (ha : AritiesOK h) (hd : DataOK h) {limit root : ℕ} (hroot : root < h.length)
    (hl : h.length ≤ limit) {r : ℝ} (hr : 0 < r) (hr' : r ≤ 100) {dt : ℝ} (hs : Sane Real.exp dt) (hdt' : dt ≤ 1) {x ε : ℝ} (hB : PredBudget h r dt root x ε) :
    ∃ y N, (∀ fuel ≥ N, predPipeline H Real.exp h limit root r dt fuel = some (.ok (some y))) ∧ |y - x| ≤ r * ε / 100 := by
  have hdt := hs.pos
  have hle : ∀ v, Spec.Reach h root v → h.op v = .load → |h.data v| ≤ r := fun v hv hlo => by
    obtain ⟨_, _, hb⟩ := hB.reach hv
    exact hb.loaded hlo
  obtain ⟨plan, w', hc⟩ := (C57_succeeds_iff ho ha hroot hl r .empty).mpr ⟨hr', hr.ne', fun v hv => by
    obtain ⟨_, _, hb⟩ := hB.reach hv
    exact hb.compilable, fun v hv hlo => (div_le_one hr).mpr ((le_abs_self _).trans (hle v hv hlo))⟩
  obtain ⟨L, ns, F, hns, -, hg, ⟨l, el, hpar⟩, hown⟩ := compiled_net ho hroot hl .empty hc
  have hpar' : ∀ o ∈ w'.neus, o.par = ⟨10, 100, 20, 0⟩ := by
    intro o ho'; rw [el] at ho'
    exact hpar o (by simpa [World.empty] using ho')
  obtain ⟨hwf, hp⟩ := compiled_wf F hg hpar' hown hns
  have mem : ∀ v ∈ L.nodes, ∀ k < (spawnEmpty (h.op v) r).2.neus.length, L.off v + k ∈ ns := fun v hv k hk =>
    (faithful_mem F hns _).mpr ⟨v, hv, (F.copy v hv _).mpr ⟨k, hk, rfl⟩⟩
  have hlt : ∀ v ∈ L.nodes, v < h.length := fun v hv => reach_lt ho hroot ((F.nodes v).mp hv)
  -- the trains
  obtain ⟨O, T, hOT⟩ := nodes_run ho hd hr hs hdt' h.length
  have hOT' : ∀ v ∈ L.nodes, _ := fun v hv => hOT v (hlt v hv) (hlt v hv) (hB.reach ((F.nodes v).mp hv))
  obtain ⟨LS, hLS, hLS0⟩ : ∃ LS : ℕ → List ℝ, (∀ v ∈ L.nodes, ∀ k < (spawnEmpty (h.op v) r).2.neus.length, LS (L.off v + k) = T v k) ∧
      ∀ n, n ∉ ns → LS n = [] := by
    classical
    refine ⟨fun n => if hh : ∃ v k, v ∈ L.nodes ∧ k < (spawnEmpty (h.op v) r).2.neus.length ∧ n = L.off v + k then T hh.choose hh.choose_spec.choose else [], ?_, ?_⟩
    · intro v hv k hk
      have hh : ∃ v' k', v' ∈ L.nodes ∧ k' < (spawnEmpty (h.op v') r).2.neus.length ∧ L.off v + k = L.off v' + k' := ⟨v, k, hv, hk, rfl⟩
      simp only [dif_pos hh]
      have hsp := hh.choose_spec.choose_spec
      generalize hh.choose_spec.choose = k' at hsp ⊢
      generalize hh.choose = v' at hsp ⊢
      have e := off_inj F hv hsp.1 hk hsp.2.1 hsp.2.2
      subst e
      have : k = k' := by have := hsp.2.2; omega
      rw [this]
    · intro n hn
      refine dif_neg ?_
      rintro ⟨v, k, hv, hk, rfl⟩
      exact hn (mem v hv k hk)
  set E : PEnv ℝ := ⟨H, Real.exp, w'.net ns, defaultEncoder, dt⟩ with hE
  -- the calls
  set cs : List (Call ℝ) := plan.triggers.map fun t => Call.value t.value t.neuron 0 with hcs
  have hinj : cs.flatMap (predSpikes E.enc) = loadSpikes defaultEncoder h r L := by
    rw [hcs, F.triggers, loadSpikes, List.map_map]
    simp only [List.flatMap_def, List.map_map]
    congr 1
  have hok : ∀ c ∈ cs, CallOK c := by
    intro c hcm
    rw [hcs, F.triggers, List.map_map] at hcm
    obtain ⟨v, hvm, rfl⟩ := List.mem_map.mp hcm
    obtain ⟨h1, h2⟩ := List.mem_filter.mp hvm
    have hlo : h.op v = .load := by simpa using h2
    have hx := hle v ((F.nodes v).mp h1) hlo
    show 0 ≤ |h.data v| / r ∧ |h.data v| / r ≤ 1
    exact ⟨by positivity, (div_le_one hr).mpr hx⟩
  have hin : ∀ q ∈ cs.flatMap (predSpikes E.enc), q.1 ∈ E.net.neurons := by
    rw [hinj]
    intro q hq
    unfold loadSpikes at hq
    obtain ⟨v, hv, hq⟩ := List.mem_flatMap.mp hq
    have hv' := (List.mem_filter.mp hv).1
    obtain ⟨a, b, -⟩ := F.out v hv'
    have m1 := (faithful_mem F hns _).mpr ⟨v, hv', _, .refl, a⟩
    have m2 := (faithful_mem F hns _).mpr ⟨v, hv', _, .refl, b⟩
    have : q.1 = if 0 ≤ h.data v then (L.out v).plus else (L.out v).minus := by
      simp only [List.mem_cons, List.not_mem_nil, or_false] at hq
      rcases hq with rfl | rfl <;> rfl
    rw [this]
    show _ ∈ ns
    split
    exacts [m1, m2]
  have hsyn : (w'.net ns).syns = w'.syns.reverse := rfl
  obtain ⟨inner, es, -, hperm⟩ := F.synapses
  have es' : (w'.net ns).syns = inner ++ operandWires h L := by rw [hsyn, es]; rfl
  have hdel : ∀ s ∈ E.net.syns, 0 < s.delay := by
    intro s hs'
    have hs'' : s ∈ inner ++ operandWires h L := es' ▸ hs'
    rcases List.mem_append.mp hs'' with hs'' | hs''
    · obtain ⟨v, hv, hs3⟩ := List.mem_flatMap.mp (hperm.mem_iff.mp hs'')
      obtain ⟨t, ht, rfl⟩ := List.mem_map.mp hs3
      exact block_delays r (hg v hv).1 t ht
    · obtain ⟨v, hv, k, p, hk, hs3⟩ := wire_mem hs''
      simp only [wire, List.mem_cons, List.not_mem_nil, or_false] at hs3
      rcases hs3 with rfl | rfl <;> exact one_pos
  have hrun : Runnable E.net := ⟨hwf.kind, hwf.target, fun n hn => ⟨hwf.tm n hn, hwf.tf n hn⟩⟩
  have hcon : Consistent E fresh (fun _ => 0) (cs.flatMap (predSpikes E.enc)) LS := by
    rw [hinj]
    intro n
    by_cases hn : n ∈ ns
    · obtain ⟨v, hv, hi⟩ := (faithful_mem F hns n).mp hn
      obtain ⟨k, hk, rfl⟩ := (F.copy v hv n).mp hi
      exact placed_fits (ns := ns) F hg (E := E) rfl rfl (fun v hv k hk => hp _ (mem v hv k hk)) hLS (fun v hv => (hOT' v hv).2.2) hv (hOT' v hv).2.1 hk
    · refine ⟨[], by simp, by simp, ?_, ?_⟩
      · have : arriving E.net (loadSpikes defaultEncoder h r L) LS n = [] := by
          unfold arriving
          rw [List.filter_eq_nil_iff.mpr, List.filter_eq_nil_iff.mpr]
          · rfl
          · intro s hs' hh
            simp at hh; exact hn (hh ▸ hwf.target s hs')
          · intro q hq hh
            simp at hh; exact hn (hh ▸ hin q (hinj ▸ hq))
        rw [this]; simp
      · rw [hLS0 n hn]; exact Reacts.done
  obtain ⟨st0, hi⟩ : ∃ st0, PSim.init E fresh (fun _ => (0 : ℝ)) 0 = .ok st0 := by
    unfold PSim.init; rw [if_neg hdt.ne']; exact ⟨_, rfl⟩
  obtain ⟨st1, hcall⟩ := pred_calls_ok E hok st0
  obtain ⟨N, st, h1, h2⟩ := C78_computes_the_behaviour E hdt hdel hrun hi hcall hin hcon
  -- the decoded output
  have hrn : root ∈ L.nodes := (F.nodes root).mpr .refl
  obtain ⟨⟨-, -, told⟩, -, s1, s2⟩ := hOT' root hrn
  obtain ⟨hneg, herr⟩ := told x ε hB
  have hf := spawnFacts r (hg root hrn).1
  obtain ⟨o1, o2, -, -⟩ := hf.out
  have b1 := (hf.ok.own_bd _ o1).2
  have b2 := (hf.ok.own_bd _ o2).2
  have e1 := h2 _ (mem root hrn _ b1)
  have e2 := h2 _ (mem root hrn _ b2)
  rw [hLS root hrn _ b1, s1] at e1
  rw [hLS root hrn _ b2, s2] at e2
  have hout := F.outCopy root hrn
  have q1 : (L.out root).plus = L.off root + (spawnEmpty (h.op root) r).1.out.plus := by rw [hout]; rfl
  have q2 : (L.out root).minus = L.off root + (spawnEmpty (h.op root) r).1.out.minus := by rw [hout]; rfl
  rw [← q1] at e1
  rw [← q2] at e2
  obtain ⟨c1, c2, -, -⟩ := C27_decode_output st.spikeLog (defaultEncoder : Encoder ℝ) (by simp [defaultEncoder]) (L.out root).plus
    (L.out root).minus r _ _ (by rw [e1]) (by rw [e2])
  have hfin : ∀ y, decodeOutput st.spikeLog (defaultEncoder : Encoder ℝ) (L.out root).plus (L.out root).minus r = .ok (some y) →
      ∀ fuel ≥ N, predPipeline H Real.exp h limit root r dt fuel = some (.ok (some y)) := by
    intro y hy fuel hfuel
    have hsess : predSession H Real.exp defaultEncoder dt w' plan.net cs fuel = some (.ok st) := by
      unfold predSession
      rw [hns]
      simp only
      rw [hi]
      simp only
      rw [hcall]
      exact h1 fuel hfuel
    unfold predPipeline
    rw [hc]
    simp only
    rw [← hcs, hsess, F.reader]
    simp only [Option.map_some]
    rw [hy]
  rcases hOr : O root with ⟨neg, a, b⟩
  simp only [hOr] at hneg herr c1 c2
  have key : |(r * ((b - a - 10) / 100) - |x|)| ≤ r * ε / 100 := by
    rw [show r * ((b - a - 10) / 100) - |x| = r / 100 * ((b - a) - (10 + |x| / r * 100)) by field_simp; ring, abs_mul,
      abs_of_pos (by positivity : 0 < r / 100)]
    calc r / 100 * _ ≤ r / 100 * ε := mul_le_mul_of_nonneg_left herr (by positivity)
      _ = r * ε / 100 := by ring
  cases neg
  · simp only [signed, Bool.false_eq_true, if_false] at hneg
    refine ⟨_, N, hfin _ (c1 a b rfl rfl), ?_⟩
    rw [hneg] at key; exact key
  · simp only [signed, if_true] at hneg
    refine ⟨_, N, hfin _ (c2 a b rfl rfl), ?_⟩
    rw [show -(r * ((b - a - (defaultEncoder : Encoder ℝ).Tmin) / (defaultEncoder : Encoder ℝ).Tcod)) - x =
      -(r * ((b - a - 10) / 100) - |x|) by rw [show x = -|x| from hneg.symm]; simp [defaultEncoder]; ring, abs_neg]
    exact key

/-! ## The error shrinks with the time step -/

theorem log_budget {c T dt : ℝ} (h0 : 0 < dt) (h1 : dt ≤ 1) (hT : 0 ≤ T) (hc : Real.exp (-T / 20) + dt ≤ c) : -20 * Real.log c + 2 * dt ≤ T := by
  have hE : 0 < Real.exp (-T / 20) := Real.exp_pos _
  have hE1 : Real.exp (-T / 20) ≤ 1 := Real.exp_le_one_iff.mpr (by linarith)
  have h4 : Real.exp (dt / 10) ≤ 1 + dt := by
    have h5 := Real.add_one_le_exp (-(dt / 10))
    have h6 : 0 < Real.exp (dt / 10) := Real.exp_pos _
    have h7 : Real.exp (-(dt / 10)) * Real.exp (dt / 10) = 1 := by rw [← Real.exp_add]; simp
    have h8 : (1 - dt / 10) * Real.exp (dt / 10) ≤ 1 := by
      rw [← h7]; exact mul_le_mul_of_nonneg_right (by linarith) h6.le
    have h9 : 1 ≤ (1 - dt / 10) * (1 + dt) := by nlinarith
    have h10 : 0 < 1 - dt / 10 := by linarith
    exact le_of_mul_le_mul_left (h8.trans h9) h10
  have hc0 : 0 < c := by linarith
  have h2 : Real.exp (-T / 20 + dt / 10) ≤ c := by
    rw [Real.exp_add]
    refine (mul_le_mul_of_nonneg_left h4 hE.le).trans (le_trans ?_ hc)
    nlinarith
  have := (Real.le_log_iff_exp_le hc0).mpr h2
  linarith

theorem zero_budget {h : SHeap ℝ} {r dt : ℝ} (hr : 0 < r) {v : ℕ} (hz : ZeroSource h v) : PredBudget h r dt v 0 0 := by
  induction hz with
  | load hop hp hx => have := PredBudget.load (r := r) (dt := dt) (ε := 0) hop hp (by rw [hx, abs_zero]; exact hr.le) le_rfl; rwa [hx] at this
  | neg hop hp _ ih => have := PredBudget.neg hop hp ih; rwa [neg_zero] at this

set_option maxHeartbeats 1000000 in
/-- Every node in range can be budgeted with an error proportional to the time step. -/
theorem predBudget_exists {h : SHeap ℝ} (ho : OperandsOlder h) (ha : AritiesOK h) (hd : DataOK h) {r : ℝ} (hr : 0 < r) :
    ∀ v < h.length, (∀ u, Spec.Reach h v u → PredInRange h r u) →
      ∃ C ≥ 0, ∃ d0 > 0, ∀ dt, 0 < dt → dt ≤ d0 → PredBudget h r dt v (h.data v) (C * dt) := by
  intro v
  induction v using Nat.strong_induction_on with
  | _ v ih =>
    intro hv hR
    have hself := hR v .refl
    have har := ha v hv
    have sub : ∀ u ∈ h.prev v, ∃ C ≥ 0, ∃ d0 > 0, ∀ dt, 0 < dt → dt ≤ d0 → PredBudget h r dt u (h.data u) (C * dt) := fun u hu =>
      ih u (ho v hv u hu) ((ho v hv u hu).trans hv) (fun y hy => hR y (.head hu hy))
    have hdat := hd v hv
    unfold PredInRange at hself
    cases hop : h.op v with
    | load =>
      simp only [hop] at hself har
      refine ⟨0, le_rfl, 1, one_pos, fun dt h0 h1 => ?_⟩
      exact .load hop (List.length_eq_zero_iff.mp har) hself (by simp)
    | neg =>
      simp only [hop] at har
      obtain ⟨u, hp⟩ := List.length_eq_one_iff.mp har
      have hval := hdat (by rw [hop]; simp)
      rw [hop, hp] at hval
      simp only [opValue, List.map_cons, List.map_nil, Option.some.injEq] at hval
      obtain ⟨C, hC, d, hd0, hdB⟩ := sub u (by rw [hp]; simp)
      refine ⟨C, hC, d, hd0, fun dt h0 h1 => ?_⟩
      rw [← hval]
      exact .neg hop hp (hdB dt h0 h1)
    | add =>
      simp only [hop] at har
      obtain ⟨u₁, u₂, hp⟩ := List.length_eq_two.mp har
      have hval := hdat (by rw [hop]; simp)
      rw [hop, hp] at hval
      simp only [opValue, List.map_cons, List.map_nil, Option.some.injEq] at hval
      simp only [hop, hp] at hself
      obtain ⟨hpos, hneg, hz⟩ := hself
      obtain ⟨C₁, hC₁, d₁, hd₁, hB₁⟩ := sub u₁ (by rw [hp]; simp)
      obtain ⟨C₂, hC₂, d₂, hd₂, hB₂⟩ := sub u₂ (by rw [hp]; simp)
      set P := (max (h.data u₁) 0 + max (h.data u₂) 0) / r * 100 with hP
      set N := (max (-h.data u₁) 0 + max (-h.data u₂) 0) / r * 100 with hN
      set s := (h.data u₁ + h.data u₂) / r * 100 with hs
      have hP' : P < 100 := by
        have := (div_lt_one hr).mpr hpos; linarith
      have hN' : N < 100 := by
        have := (div_lt_one hr).mpr hneg; linarith
      obtain ⟨z, hz0, hz1⟩ : ∃ z : ℝ, 0 < z ∧ ∀ e, 0 < e → e ≤ z → (e ≤ s ∨ s + e + 1 / 100 ≤ 0) := by
        rcases hz with hz | hz
        · have : 0 < s := by positivity
          exact ⟨s, by positivity, fun e _ he => .inl (by linarith)⟩
        · have : s < -(1 / 100) := by
            have h3 : (h.data u₁ + h.data u₂) / r < -(1 / 10000) := by rw [div_lt_iff₀ hr]; linarith
            linarith
          exact ⟨-(1 / 100) - s, by linarith, fun e _ he => .inr (by linarith)⟩
      obtain ⟨e, e0, he⟩ := small_enough [100 - P, 100 - N, z] (by
        intro c hc; simp at hc
        rcases hc with rfl | rfl | rfl <;> first | linarith | positivity)
      simp only [List.mem_cons, List.not_mem_nil, or_false, forall_eq_or_imp, forall_eq] at he
      obtain ⟨e1, e2, e3⟩ := he
      have hCC : 0 < C₁ + C₂ + 1 := by linarith
      refine ⟨C₁ + C₂ + 1, hCC.le, min (e / (C₁ + C₂ + 1)) (min d₁ d₂), lt_min (by positivity) (lt_min hd₁ hd₂), fun dt h0 h1 => ?_⟩
      obtain ⟨h1, h2, h3⟩ : dt ≤ e / (C₁ + C₂ + 1) ∧ dt ≤ d₁ ∧ dt ≤ d₂ := by simpa [le_min_iff] using h1
      rw [le_div_iff₀ hCC] at h1
      have hsum : C₁ * dt + C₂ * dt + dt ≤ e := by linarith
      have t1 : 0 ≤ C₁ * dt := by positivity
      have t2 : 0 ≤ C₂ * dt := by positivity
      rw [← hval]
      refine .add hop hp (hB₁ dt h0 h2) (hB₂ dt h0 h3) ?_ ?_ ?_ (by linarith)
      · rw [← hP]; linarith
      · rw [← hN]; linarith
      · rw [← hs]; rcases hz1 e e0 e3 with hz | hz
        · left; linarith
        · right; linarith
    | mul =>
      simp only [hop] at har
      obtain ⟨u₁, u₂, hp⟩ := List.length_eq_two.mp har
      have hval := hdat (by rw [hop]; simp)
      rw [hop, hp] at hval
      simp only [opValue, List.map_cons, List.map_nil, Option.some.injEq] at hval
      simp only [hop, hp] at hself
      obtain ⟨ha1, hb1, hself⟩ := hself
      obtain ⟨C₁, hC₁, d₁, hd₁, hB₁⟩ := sub u₁ (by rw [hp]; simp)
      obtain ⟨C₂, hC₂, d₂, hd₂, hB₂⟩ := sub u₂ (by rw [hp]; simp)
      set a := |h.data u₁| / r with hA
      set b := |h.data u₂| / r with hBb
      have a1 : a < 1 := (div_lt_one hr).mpr ha1
      have b1 : b < 1 := (div_lt_one hr).mpr hb1
      have a00 : 0 ≤ a := by positivity
      have b00 : 0 ≤ b := by positivity
      have hCC : 0 < C₁ + C₂ + 11 := by linarith
      rcases hself with ⟨hxx, hexp, hhor⟩ | ⟨hr1, hsrc | ⟨hsrc, hexp⟩⟩
      · have hab : Real.exp (-343 / 20) < a * b := by
          rw [hA, hBb, div_mul_div_comm, lt_div_iff₀ (by positivity), ← abs_mul, ← pow_two]; exact hexp
        have hab0 : 0 < a * b := (Real.exp_pos _).trans hab
        have a0 : 0 < a := by
          rcases a00.lt_or_eq with h | h
          · exact h
          · rw [← h, zero_mul] at hab0; exact absurd hab0 (lt_irrefl _)
        have b0 : 0 < b := by
          rcases b00.lt_or_eq with h | h
          · exact h
          · rw [← h, mul_zero] at hab0; exact absurd hab0 (lt_irrefl _)
        obtain ⟨e, e0, he⟩ := small_enough [a * 50, (1 - a) * 50, b * 50, (1 - b) * 50, 5 / r, (a * b - Real.exp (-343 / 20)) / 2, (500 - 110 / r) / 2, 1] (by
          intro c hc; simp only [List.mem_cons, List.not_mem_nil, or_false] at hc
          rcases hc with rfl | rfl | rfl | rfl | rfl | rfl | rfl | rfl <;> first | positivity | linarith)
        simp only [List.mem_cons, List.not_mem_nil, or_false, forall_eq_or_imp, forall_eq] at he
        obtain ⟨e1, e2, e3, e4, e5, e6, e7, e8⟩ := he
        refine ⟨r * (C₁ + C₂ + 11) + 1, by positivity, min (e / (C₁ + C₂ + 11)) (min d₁ d₂), lt_min (by positivity) (lt_min hd₁ hd₂), fun dt h0 h1 => ?_⟩
        obtain ⟨h1, h2, h3⟩ : dt ≤ e / (C₁ + C₂ + 11) ∧ dt ≤ d₁ ∧ dt ≤ d₂ := by simpa [le_min_iff] using h1
        rw [le_div_iff₀ hCC] at h1
        have t1 : 0 ≤ C₁ * dt := by positivity
        have t2 : 0 ≤ C₂ * dt := by positivity
        have hsum : C₁ * dt + C₂ * dt + 11 * dt ≤ e := by linarith
        rw [← hval]
        refine .mul hop hp (hB₁ dt h0 h2) (hB₂ dt h0 h3) ?_ ?_ ?_ ?_ hxx ?_ (by linarith) ?_ (le_of_eq (by ring))
        · rw [← hA]; linarith
        · rw [← hA]; linarith
        · rw [← hBb]; linarith
        · rw [← hBb]; linarith
        · rw [← hA, ← hBb]
          have p1 : 0 < a - C₁ * dt / 100 := by linarith
          have p2 : 0 < b - C₂ * dt / 100 := by linarith
          have := log_budget (c := (a - C₁ * dt / 100) * (b - C₂ * dt / 100)) (T := 343) h0 (by linarith) (by norm_num) (by nlinarith)
          rw [Real.log_mul p1.ne' p2.ne'] at this
          linarith
        · have : r * (C₁ * dt + C₂ * dt + 10 * dt) ≤ r * (5 / r) := mul_le_mul_of_nonneg_left (by linarith) hr.le
          rw [mul_div_cancel₀ _ hr.ne'] at this
          linarith
      · obtain ⟨e, e0, he⟩ := small_enough [(1 - b) * 50] (by
          intro c hc; simp only [List.mem_cons, List.not_mem_nil, or_false] at hc
          rcases hc with rfl; linarith)
        simp only [List.mem_cons, List.not_mem_nil, or_false, forall_eq] at he
        refine ⟨0, le_rfl, min (e / (C₂ + 1)) d₂, lt_min (by positivity) hd₂, fun dt h0 h1 => ?_⟩
        obtain ⟨h1, h3⟩ : dt ≤ e / (C₂ + 1) ∧ dt ≤ d₂ := by simpa [le_min_iff] using h1
        rw [le_div_iff₀ (by positivity)] at h1
        have z := zero_budget (dt := dt) hr hsrc
        have hx : h.data u₁ = 0 := (z.data hd).symm
        rw [← hval, hx, zero_mul, zero_mul]
        refine .zeroMul hop hp z (hB₂ dt h0 h3) ?_ hr1 le_rfl
        rw [← hBb]; linarith
      · have hab : Real.exp (-500 / 20) < a := by
          rw [hA, lt_div_iff₀ hr]; exact hexp
        have a0 : 0 < a := (Real.exp_pos _).trans hab
        obtain ⟨e, e0, he⟩ := small_enough [a * 50, (1 - a) * 50, (a - Real.exp (-500 / 20)) / 2, 1] (by
          intro c hc; simp only [List.mem_cons, List.not_mem_nil, or_false] at hc
          rcases hc with rfl | rfl | rfl | rfl <;> first | positivity | linarith)
        simp only [List.mem_cons, List.not_mem_nil, or_false, forall_eq_or_imp, forall_eq] at he
        obtain ⟨e1, e2, e3, e4⟩ := he
        refine ⟨0, le_rfl, min (e / (C₁ + 1)) d₁, lt_min (by positivity) hd₁, fun dt h0 h1 => ?_⟩
        obtain ⟨h1, h3⟩ : dt ≤ e / (C₁ + 1) ∧ dt ≤ d₁ := by simpa [le_min_iff] using h1
        rw [le_div_iff₀ (by positivity)] at h1
        have t1 : 0 ≤ C₁ * dt := by positivity
        have z := zero_budget (dt := dt) hr hsrc
        have hx : h.data u₂ = 0 := (z.data hd).symm
        rw [← hval, hx, mul_zero, zero_mul]
        refine .mulZero hop hp (hB₁ dt h0 h3) z ?_ ?_ ?_ hr1 le_rfl
        · rw [← hA]; linarith
        · rw [← hA]; linarith
        · rw [← hA]
          exact log_budget (T := 500) h0 (by linarith) (by norm_num) (by linarith)
    | pow => simp only [hop] at hself
    | div => simp only [hop] at hself

/-- **C103, precision.** If the values of all operations are in range then, for small enough time steps, the error of the decoded result is
at most proportional to the time step. -/
theorem C103_converges {h : SHeap ℝ} (ho : OperandsOlder h) (ha : AritiesOK h) (hd : DataOK h) {limit root : ℕ} (hroot : root < h.length)
    (hl : h.length ≤ limit) {r : ℝ} (hr : 0 < r) (hr' : r ≤ 100) (hR : ∀ u, Spec.Reach h root u → PredInRange h r u) :
    ∃ C, ∃ d0 > 0, ∀ dt, Sane Real.exp dt → dt ≤ d0 → ∀ H : TimeHeap ℝ,
      ∃ y N, (∀ fuel ≥ N, predPipeline H Real.exp h limit root r dt fuel = some (.ok (some y))) ∧ |y - h.data root| ≤ C * dt := by
  obtain ⟨C, hC, d, hd0, hB⟩ := predBudget_exists ho ha hd hr root hroot hR
  refine ⟨r * C / 100, min d 1, lt_min hd0 one_pos, fun dt hs h1 H => ?_⟩
  obtain ⟨y, N, hy, he⟩ := C103_end_to_end H ho ha hd hroot hl hr hr' hs (h1.trans (min_le_right _ _)) (hB dt hs.pos (h1.trans (min_le_left _ _)))
  exact ⟨y, N, hy, he.trans (le_of_eq (by ring))⟩

/-- **C103.** The same for expressions: the decoded result gets, linearly in the time step, as close as one likes to what ordinary arithmetic
computes from the inputs. -/
theorem C103_expression (inputs : List ℝ) (e : SExpr ℝ) (hu : UsesBelow inputs.length e) {limit root : ℕ} {h : SHeap ℝ}
    (he : evalPy limit e (inputs.map fun x => ⟨x, [], .load⟩) = .ok (.sc root, h)) (hl : h.length ≤ limit) {r : ℝ} (hr : 0 < r) (hr' : r ≤ 100)
    (hR : ∀ u, Spec.Reach h root u → PredInRange h r u) :
    ∃ x, denote (fun i => inputs.getD i 0) e = some x ∧ ∃ C, ∃ d0 > 0, ∀ dt, Sane Real.exp dt → dt ≤ d0 → ∀ H : TimeHeap ℝ,
      ∃ y N, (∀ fuel ≥ N, predPipeline H Real.exp h limit root r dt fuel = some (.ok (some y))) ∧ |y - x| ≤ C * dt := by
  obtain ⟨l1, l2, l3⟩ := loads_ok inputs
  have hu' : UsesBelow (inputs.map fun x => (⟨x, [], .load⟩ : SNode ℝ)).length e := by rwa [List.length_map]
  obtain ⟨o1, o2⟩ := C54_graph_ok limit e _ hu' l1 l2 he
  have o3 := C54_data_ok limit e _ hu' l1 l2 l3 he
  obtain ⟨v1, -, v3⟩ := C54_value limit e _ hu' he
  have hdat : SHeap.data (inputs.map fun x => (⟨x, [], .load⟩ : SNode ℝ)) = fun i => inputs.getD i 0 := by
    funext i
    by_cases hi : i < inputs.length <;> simp [SHeap.data, hi]
  rw [hdat] at v1
  have hroot : root < h.length := by
    rcases evalOK limit e _ hu' with ⟨v, h1, x, e1, d1, n1, s1, m1⟩ | ⟨-, he'⟩
    · rw [e1] at he
      obtain ⟨rfl, rfl⟩ := Prod.mk.inj (Except.ok.inj he)
      exact m1.valid
    · rcases he' with h | h <;> rw [h] at he <;> cases he
  exact ⟨_, v1, C103_converges o1 o2 o3 hroot hl hr hr' hR⟩

/-! ### A concrete program: `(2 + 3) * 4` -/

theorem exSum_ok' : OperandsOlder (exSum ℝ) ∧ AritiesOK (exSum ℝ) ∧ DataOK (exSum ℝ) := by
  obtain ⟨l1, l2, l3⟩ := loads_ok ([2, 3, 4] : List ℝ)
  have hu : UsesBelow ((([2, 3, 4] : List ℝ).map fun x => (⟨x, [], .load⟩ : SNode ℝ)).length) (.mul (.add (.var 0) (.var 1)) (.var 2) : SExpr ℝ) := by
    simp [UsesBelow]
  obtain ⟨o1, o2⟩ := C54_graph_ok 1000 _ _ hu l1 l2 exSum_eval
  exact ⟨o1, o2, C54_data_ok 1000 _ _ hu l1 l2 l3 exSum_eval⟩

theorem exp_small : Real.exp (-343 / 20) ≤ 1 / 100000 := by
  have h1 : Real.exp (-343 / 20) ≤ Real.exp (-1) ^ 17 := by rw [← Real.exp_nat_mul]; exact Real.exp_le_exp.mpr (by norm_num)
  have h2 : Real.exp (-1) ≤ 1 / 2 := by
    rw [Real.exp_neg, inv_le_comm₀ (Real.exp_pos _) (by norm_num)]
    have := Real.add_one_le_exp (1 : ℝ); linarith
  exact h1.trans ((pow_le_pow_left₀ (Real.exp_pos _).le h2 17).trans (by norm_num))

/-- With range 100 and time step 1/1000 the budget grants an error of 1.201 ms, that is of 1.201 in the result. -/
theorem exSum_predBudget : PredBudget (exSum ℝ) 100 (1 / 1000) 4 20 (1201 / 1000) := by
  have l0 : PredBudget (exSum ℝ) 100 (1 / 1000) 0 2 0 := .load rfl rfl (by norm_num [SHeap.data, exSum]) le_rfl
  have l1 : PredBudget (exSum ℝ) 100 (1 / 1000) 1 3 0 := .load rfl rfl (by norm_num [SHeap.data, exSum]) le_rfl
  have l2 : PredBudget (exSum ℝ) 100 (1 / 1000) 2 4 0 := .load rfl rfl (by norm_num [SHeap.data, exSum]) le_rfl
  have a : PredBudget (exSum ℝ) 100 (1 / 1000) 3 (2 + 3) (1 / 1000) :=
    .add rfl rfl l0 l1 (by norm_num) (by norm_num) (by norm_num) (by norm_num)
  have hlog : -20 * Real.log (|(2 + 3 : ℝ)| / 100 - 1 / 1000 / 100) + -20 * Real.log (|(4 : ℝ)| / 100 - 0 / 100) + 2 * (1 / 1000) ≤ 343 := by
    have h := log_budget (c := (|(2 + 3 : ℝ)| / 100 - 1 / 1000 / 100) * (|(4 : ℝ)| / 100 - 0 / 100)) (T := 343) (dt := 1 / 1000) (by norm_num) (by norm_num)
      (by norm_num) (by have := exp_small; norm_num at this ⊢; linarith)
    rw [Real.log_mul (by norm_num) (by norm_num)] at h
    linarith
  have := PredBudget.mul (h := exSum ℝ) (r := 100) (dt := 1 / 1000) (v := 4) (ε := 1201 / 1000) rfl rfl a l2
    (by norm_num) (by norm_num) (by norm_num) (by norm_num) (by norm_num) hlog (by norm_num) (by norm_num) (by norm_num)
  norm_num at this ⊢
  exact this

/-- The predictive simulator answers 20, up to 1.201, whatever the heap. -/
example (H : TimeHeap ℝ) : ∃ y N, (∀ fuel ≥ N, predPipeline H Real.exp (exSum ℝ) 1000 4 100 (1 / 1000) fuel = some (.ok (some y))) ∧
    |y - 20| ≤ 1201 / 1000 := by
  obtain ⟨y, N, h1, h2⟩ := C103_end_to_end H exSum_ok'.1 exSum_ok'.2.1 exSum_ok'.2.2 (limit := 1000) (by simp [exSum]) (by simp [exSum]) (by norm_num)
    le_rfl (sane_real (by norm_num) (by norm_num)) (by norm_num) exSum_predBudget
  exact ⟨y, N, h1, h2.trans (by norm_num)⟩

/-- All its operations are in range. -/
theorem exSum_predRange : ∀ u, Spec.Reach (exSum ℝ) 4 u → PredInRange (exSum ℝ) 100 u := by
  intro u hu
  have := reach_lt exSum_ok'.1 (show 4 < (exSum ℝ).length by simp [exSum]) hu
  have : u = 0 ∨ u = 1 ∨ u = 2 ∨ u = 3 ∨ u = 4 := by simp [exSum] at this; omega
  have he := exp_small
  rcases this with rfl | rfl | rfl | rfl | rfl <;> simp [PredInRange, SHeap.op, SHeap.prev, SHeap.data, exSum]
  · norm_num
  · norm_num
  · norm_num
  · norm_num
  · norm_num
    left; norm_num at he; linarith

/-- The error of `(2 + 3) * 4` is proportional to the time step. -/
example : ∃ C, ∃ d0 > 0, ∀ dt, Sane Real.exp dt → dt ≤ d0 → ∀ H : TimeHeap ℝ,
    ∃ y N, (∀ fuel ≥ N, predPipeline H Real.exp (exSum ℝ) 1000 4 100 dt fuel = some (.ok (some y))) ∧ |y - 20| ≤ C * dt := by
  obtain ⟨x, hx, h⟩ := C103_expression [2, 3, 4] _ (by simp [UsesBelow]) exSum_eval (by simp [exSum]) (by norm_num) le_rfl exSum_predRange
  have : x = 20 := by
    simp [denote] at hx; rw [← hx]; norm_num
  simpa [this] using h

/-- `(2 + 3) * -0` answers exactly 0. -/
example (H : TimeHeap ℝ) : ∃ N, ∀ fuel ≥ N, predPipeline H Real.exp (exZero ℝ) 1000 5 100 (1 / 1000) fuel = some (.ok (some 0)) := by
  have l0 : PredBudget (exZero ℝ) 100 (1 / 1000) 0 2 0 := .load rfl rfl (by norm_num [SHeap.data, exZero]) le_rfl
  have l1 : PredBudget (exZero ℝ) 100 (1 / 1000) 1 3 0 := .load rfl rfl (by norm_num [SHeap.data, exZero]) le_rfl
  have a : PredBudget (exZero ℝ) 100 (1 / 1000) 3 (2 + 3) (1 / 1000) :=
    .add rfl rfl l0 l1 (by norm_num) (by norm_num) (by norm_num) (by norm_num)
  have n : PredBudget (exZero ℝ) 100 (1 / 1000) 4 0 0 := zero_budget (by norm_num) (.neg rfl rfl (.load rfl rfl rfl))
  have hlog : -20 * Real.log (|(2 + 3 : ℝ)| / 100 - 1 / 1000 / 100) + 2 * (1 / 1000) ≤ 500 := by
    have h := log_budget (c := (|(2 + 3 : ℝ)| / 100 - 1 / 1000 / 100)) (T := 343) (dt := 1 / 1000) (by norm_num) (by norm_num)
      (by norm_num) (by have := exp_small; norm_num at this ⊢; linarith)
    linarith
  have m : PredBudget (exZero ℝ) 100 (1 / 1000) 5 0 0 := .mulZero rfl rfl a n (by norm_num) (by norm_num) hlog (by norm_num) le_rfl
  have ok : OperandsOlder (exZero ℝ) ∧ AritiesOK (exZero ℝ) ∧ DataOK (exZero ℝ) := by
    refine ⟨?_, ?_, ?_⟩
    · intro v hv p hp
      have : v = 0 ∨ v = 1 ∨ v = 2 ∨ v = 3 ∨ v = 4 ∨ v = 5 := by simp [exZero] at hv; omega
      rcases this with rfl | rfl | rfl | rfl | rfl | rfl <;> simp [SHeap.prev, exZero] at hp <;> omega
    · intro v hv
      have : v = 0 ∨ v = 1 ∨ v = 2 ∨ v = 3 ∨ v = 4 ∨ v = 5 := by simp [exZero] at hv; omega
      rcases this with rfl | rfl | rfl | rfl | rfl | rfl <;> rfl
    · intro v hv
      have : v = 0 ∨ v = 1 ∨ v = 2 ∨ v = 3 ∨ v = 4 ∨ v = 5 := by simp [exZero] at hv; omega
      rcases this with rfl | rfl | rfl | rfl | rfl | rfl <;> norm_num [SHeap.op, SHeap.prev, SHeap.data, exZero, opValue]
  obtain ⟨y, N, h1, h2⟩ := C103_end_to_end H ok.1 ok.2.1 ok.2.2 (limit := 1000) (by simp [exZero]) (by simp [exZero]) (by norm_num)
    le_rfl (sane_real (by norm_num) (by norm_num)) (by norm_num) m
  have : y = 0 := by
    have := h2; norm_num at this; exact this
  exact ⟨N, this ▸ h1⟩

end Axon
