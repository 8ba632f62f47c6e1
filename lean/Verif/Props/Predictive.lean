import Verif.Proofs.PredRun
import Verif.Proofs.HeapInst
import Verif.Props.Neuron

/-!
# C30–C38: the predictive simulator
-/
set_option linter.unusedSectionVars false
namespace Axon
open Spec
variable {K : Type*} [Field K] [LinearOrder K] [IsStrictOrderedRing K] [FloorRing K]

/-- The voltage of a neuron that receives nothing for a time `t`, as the engine expects it. -/
def Spec.expectedV (exp : K → K) (p : Params K) (s : NState K) (t : K) : K :=
  s.V + s.ge / p.tm * t + s.gate * s.gf * p.tf / p.tm * (1 - exp (-t / p.tf))

theorem predVoltage_eq (exp : K → K) (p : Params K) (s : NState K) (dt : K) (m : ℤ) :
    predVoltage exp p s dt m = expectedV exp p s (m * dt) := by
  unfold predVoltage expectedV
  by_cases h : s.gate = 0 <;> simp [h]

/-- **C30.** A predicted step count is a genuine threshold crossing, whatever the voltage curve
(`exp` may be any function here). -/
theorem C30_prediction_is_crossing (exp : K → K) (p : Params K) (s : NState K) (dt : K)
    (hdt : 0 < dt) (hM : maxSteps dt < 2 ^ 64) (k : ℤ)
    (h : predictSteps exp p s dt = .ok (some k)) :
    0 ≤ k ∧ k < maxSteps dt ∧ p.Vt ≤ expectedV exp p s (k * dt) ∧
      (0 < k → expectedV exp p s ((k - 1) * dt) < p.Vt) := by
  obtain ⟨h1, h2, h3, h4⟩ := predictSteps_some hdt hM h
  rw [predVoltage_eq] at h3
  refine ⟨h1, h2, h3, fun hk => ?_⟩
  have := h4 (by omega)
  rw [predVoltage_eq] at this
  simpa using this

/-- The bound on the number of steps is about time steps below `10^-16`; at the default `dt = 0.01`
the engine searches 50000 steps. -/
example : maxSteps (1 / 100 : ℚ) = 50000 ∧ (50000 : ℤ) < 2 ^ 64 := by decide +kernel

/-- C30 is not vacuous, also for a curve that rises and falls again. -/
example : predictSteps (fun x : ℚ => if x < -1 then -3 else 1 + x) ⟨10, 1, 4, 0⟩ ⟨0, 0, 20, 1⟩ 1
    = .ok (some 1) := by decide +kernel

/-- **C31.** Under non-decreasing drive the prediction is the first crossing of the threshold, and
there is no prediction exactly if the threshold is not reached below the search horizon. -/
theorem C31_prediction_is_first_crossing (exp : K → K) (hexp : Monotone exp) (p : Params K)
    (s : NState K) (dt : K) (hdt : 0 < dt) (hM : maxSteps dt < 2 ^ 64) (htm : 0 < p.tm)
    (htf : 0 < p.tf) (hge : 0 ≤ s.ge) (hgf : 0 ≤ s.gate * s.gf) :
    (∀ k : ℤ, predictSteps exp p s dt = .ok (some k) ↔
      k < maxSteps dt ∧ IsLeast {m : ℤ | 0 ≤ m ∧ p.Vt ≤ expectedV exp p s (m * dt)} k) ∧
    (predictSteps exp p s dt = .ok none ↔
      ∀ m : ℤ, 0 ≤ m → m < maxSteps dt → expectedV exp p s (m * dt) < p.Vt) := by
  have hmono : ∀ a b : ℤ, a ≤ b → expectedV exp p s (a * dt) ≤ expectedV exp p s (b * dt) := by
    intro a b hab
    have h1 : (a : K) * dt ≤ b * dt := mul_le_mul_of_nonneg_right (by exact_mod_cast hab) hdt.le
    have h2 : exp (-(b * dt) / p.tf) ≤ exp (-(a * dt) / p.tf) :=
      hexp (div_le_div_of_nonneg_right (by linarith) htf.le)
    have h3 : s.ge / p.tm * (a * dt) ≤ s.ge / p.tm * (b * dt) :=
      mul_le_mul_of_nonneg_left h1 (div_nonneg hge htm.le)
    have h4 : s.gate * s.gf * p.tf / p.tm * (1 - exp (-(a * dt) / p.tf)) ≤
        s.gate * s.gf * p.tf / p.tm * (1 - exp (-(b * dt) / p.tf)) :=
      mul_le_mul_of_nonneg_left (by linarith) (div_nonneg (mul_nonneg hgf htf.le) htm.le)
    unfold expectedV; linarith
  have hshape : ∃ k : ℤ, 0 ≤ k ∧ (k < maxSteps dt → p.Vt ≤ expectedV exp p s (k * dt)) ∧
      (k ≠ 0 → expectedV exp p s ((k - 1 : ℤ) * dt) < p.Vt) ∧
      predictSteps exp p s dt = .ok (if k < maxSteps dt then some k else none) := by
    have hs := bisect_spec (fun m => decide (p.Vt ≤ predVoltage exp p s dt m)) (maxSteps dt)
      (maxSteps_nonneg hdt) 64 hM
    refine ⟨_, hs.1, ?_, ?_, ?_⟩
    · intro h; have := hs.2.1 h; rw [predVoltage_eq] at this; exact of_decide_eq_true this
    · intro h; have := of_decide_eq_false (hs.2.2 h); rw [predVoltage_eq] at this
      exact not_le.mp this
    · unfold predictSteps
      rw [if_neg (by push Not; exact ⟨htf.ne', htm.ne'⟩)]
  obtain ⟨k0, h0, h1, h2, h3⟩ := hshape
  have hleast : k0 < maxSteps dt →
      IsLeast {m : ℤ | 0 ≤ m ∧ p.Vt ≤ expectedV exp p s (m * dt)} k0 := by
    intro hk
    refine ⟨⟨h0, h1 hk⟩, ?_⟩
    rintro m ⟨hm0, hm⟩
    by_contra hlt
    have hlt : m ≤ k0 - 1 := by omega
    exact absurd hm (not_le.mpr ((hmono _ _ hlt).trans_lt (h2 (by omega))))
  have hnone : ¬ k0 < maxSteps dt → ∀ m : ℤ, 0 ≤ m → m < maxSteps dt →
      expectedV exp p s (m * dt) < p.Vt := by
    intro hk m hm0 hm
    have : m ≤ k0 - 1 := by omega
    exact (hmono _ _ this).trans_lt (h2 (by omega))
  rw [h3]
  constructor
  · intro k
    constructor
    · intro h
      split at h
      next hk =>
        simp only [Except.ok.injEq, Option.some.injEq] at h
        subst h; exact ⟨hk, hleast hk⟩
      next => simp at h
    · rintro ⟨hk, hl⟩
      by_cases hk0 : k0 < maxSteps dt
      · rw [if_pos hk0, (hleast hk0).unique hl]
      · exact absurd hl.1.2 (not_le.mpr (hnone hk0 k hl.1.1 hk))
  · constructor
    · intro h
      split at h
      · simp at h
      next hk => exact hnone hk
    · intro h
      rw [if_neg]
      intro hk
      exact absurd (h1 hk) (not_le.mpr (h k0 h0 hk))

/-- C31 with the real exponential, which is monotone. -/
example (p : Params ℝ) (s : NState ℝ) (dt : ℝ) (hdt : 0 < dt) (hM : maxSteps dt < 2 ^ 64)
    (htm : 0 < p.tm) (htf : 0 < p.tf) (hge : 0 ≤ s.ge) (hgf : 0 ≤ s.gate * s.gf) :=
  C31_prediction_is_first_crossing Real.exp Real.exp_monotone p s dt hdt hM htm htf hge hgf
/-- A concrete neuron: threshold 10, constant input 5, time constant 100, step 1: 200 steps. -/
example : predictSteps (fun _ : ℚ => 0) ⟨10, 100, 20, 0⟩ ⟨0, 5, 0, 0⟩ 1 = .ok (some 200) := by
  decide +kernel
/-- A neuron that never reaches its threshold. -/
example : predictSteps (fun _ : ℚ => 0) ⟨10, 100, 20, 0⟩ ⟨0, 0, 0, 0⟩ 1 = .ok none := by
  decide +kernel

/-- **C32.** With non-negative delays the predictive engine processes events in non-decreasing order
of time: batch after batch, each batch at one time; and every spike log is sorted. -/
theorem C32_time_order (E : PEnv K) (hdt : 0 < E.dt) (hdel : ∀ s ∈ E.net.syns, 0 ≤ s.delay)
    (st0 st : PSim K) (bs : List (List (UEvent K))) (h0 : Started E st0) (h : Steps E st0 bs st) :
    bs.flatten.Pairwise (fun a b => a.time ≤ b.time) ∧
    (∀ b ∈ bs, b ≠ [] ∧ ∃ T, ∀ e ∈ b, e.time = T) ∧
    ∀ n l, st.spikeLog n = some l → l.Pairwise (· ≤ ·) := by
  obtain ⟨p0, hp0, -, -, -, -, hlog, -⟩ := h0.spec
  have key : ∃ p, CRep E.H st.queue p ∧ bs.flatten.Pairwise (fun a b => a.time ≤ b.time) ∧
      (∀ b ∈ bs, b ≠ [] ∧ ∃ T, ∀ e ∈ b, e.time = T) ∧
      (∀ x ∈ p, ∀ d ∈ bs.flatten, d.time ≤ x.time) ∧
      (∀ n l, st.spikeLog n = some l → l.Pairwise (· ≤ ·) ∧ ∀ y ∈ l, ∀ x ∈ p, y ≤ x.time) := by
    induction h with
    | start =>
      refine ⟨p0, hp0, by simp, by simp, by simp, ?_⟩
      intro n l hl
      rw [hlog] at hl
      split at hl
      · simp only [Option.some.injEq] at hl; subst hl; simp
      · cases hl
    | @step bs st1 m b st2 _ hlen hit ih =>
      obtain ⟨p, hp, h1, h2, h3, h4⟩ := ih
      obtain ⟨T, hT, hmin, hbne⟩ := batch_time (hp.ne_nil_of_len hlen)
      have hb := iter_batch hp hit
      rw [← hb] at hT hbne
      obtain ⟨x0, hx0⟩ := List.exists_mem_of_ne_nil _ hbne
      have hx0p : x0 ∈ p := by rw [hb] at hx0; exact List.mem_of_mem_filter hx0
      have hI0 : (∀ x ∈ p, T ≤ x.time) ∧ (∀ x ∈ bs.flatten, x.time ≤ T) ∧ LogsBy T st1 := by
        refine ⟨hmin, fun x hx => (hT x0 hx0) ▸ h3 x0 hx0p x hx, fun n l hl => ?_⟩
        exact ⟨(h4 n l hl).1, fun y hy => (hT x0 hx0) ▸ (h4 n l hl).2 y hy x0 hx0p⟩
      obtain ⟨p', hp', g1, g2, g3⟩ := (time_induct E hdt hdel T).iter hp (hb ▸ hT) hI0 hit
      refine ⟨p', hp', ?_, ?_, ?_, ?_⟩
      · rw [List.flatten_append, List.pairwise_append]
        refine ⟨h1, ?_, ?_⟩
        · simp only [List.flatten_cons, List.flatten_nil, List.append_nil]
          exact List.Pairwise.imp_of_mem (fun {a b} ha hb _ => (hT a ha ▸ hT b hb ▸ le_rfl))
            (List.pairwise_of_forall (R := fun _ _ => True) (fun _ _ => trivial))
        · intro a ha c hc
          simp only [List.flatten_cons, List.flatten_nil, List.append_nil] at hc
          rw [hT c hc]; exact hI0.2.1 a ha
      · intro b' hb'
        rcases List.mem_append.mp hb' with hb' | hb'
        · exact h2 b' hb'
        · simp at hb'; subst hb'; exact ⟨hbne, T, hT⟩
      · intro x hx d hd
        rw [List.flatten_append] at hd
        have : d ∈ b ++ bs.flatten := by
          rcases List.mem_append.mp hd with hd | hd
          · exact List.mem_append_right _ hd
          · simp at hd; exact List.mem_append_left _ hd
        exact (g2 d this).trans (g1 x hx)
      · intro n l hl
        exact ⟨(g3 n l hl).1, fun y hy x hx => ((g3 n l hl).2 y hy).trans (g1 x hx)⟩
  obtain ⟨p, -, h1, h2, -, h4⟩ := key
  exact ⟨h1, h2, fun n l hl => (h4 n l hl).1⟩

/-- **C32, for the result of `simulate`.** -/
theorem C32_logs_sorted_after_simulate (E : PEnv K) (hdt : 0 < E.dt)
    (hdel : ∀ s ∈ E.net.syns, 0 ≤ s.delay) (st0 st : PSim K) (fuel : ℕ) (h0 : Started E st0)
    (h : st0.simulate E fuel = some (.ok st)) (n : ℕ) (l : List K) (hl : st.spikeLog n = some l) :
    l.Pairwise (· ≤ ·) := by
  unfold PSim.simulate at h
  split at h
  · cases h
  · split at h
    · cases h
    · cases h
    next st' hloop =>
      simp only [Option.some.injEq, Except.ok.injEq] at h
      subst h
      obtain ⟨bs, hs, -⟩ := loop_steps fuel Steps.start hloop
      exact (C32_time_order E hdt hdel st0 st' bs h0 hs).2.2 n l hl

/-- **C33.** At any point of a run at most one predicted spike per neuron is pending; the spike log
has one entry per predicted spike processed, and a neuron has spiked (and is about to spike) at most
as often as it has been hit. -/
theorem C33_one_prediction_and_spikes_le_hits (E : PEnv K) (st0 st : PSim K)
    (bs : List (List (UEvent K))) (h0 : Started E st0) (h : Steps E st0 bs st) (n : ℕ) :
    spikesOf n st.queue.events ≤ 1 ∧
    (∀ l, st.spikeLog n = some l → l.length = spikesOf n bs.flatten) ∧
    spikesOf n bs.flatten + spikesOf n st.queue.events ≤ hitsOn n bs.flatten := by
  obtain ⟨p0, hp0, hpred, hids, hnd, hposs, hlog, -⟩ := h0.spec
  have hz : spikesOf n p0 = 0 := by
    unfold spikesOf
    rw [List.countP_eq_zero]
    intro e he
    have := hpred e he
    unfold UEvent.isPred at this
    split at this <;> simp_all
  constructor
  · obtain ⟨p, hp, D, -, hinv⟩ := Steps.induct' (pinv_induct E) h hp0
      ⟨hids, hnd, fun e he m hm => by have := hpred e he; simp [UEvent.isPred, hm] at this⟩
    have hev : spikesOf n st.queue.events = spikesOf n p := hp.events_perm.countP_eq _
    rw [hev]
    unfold spikesOf
    rw [List.countP_eq_length_filter]
    have hall : ∀ e ∈ p.filter (fun e => match e.payload with
        | .predicted m => decide (m = n) | _ => false), st.poss n = some (some e) := by
      intro e he
      rw [List.mem_filter] at he
      obtain ⟨he, hm⟩ := he
      split at hm
      next m hpl =>
        simp only [decide_eq_true_eq] at hm
        subst hm; exact hinv.pred e he m hpl
      · cases hm
    have hnd' := hinv.nodup.filter (fun e => match e.payload with
        | .predicted m => decide (m = n) | _ => false)
    revert hall hnd'
    generalize p.filter _ = f
    intro hall hnd'
    match f with
    | [] => simp
    | [_] => simp
    | a :: b :: f =>
      exfalso
      have h1 := hall a (by simp)
      have h2 := hall b (by simp)
      rw [h1] at h2
      simp only [Option.some.injEq] at h2
      subst h2
      simp at hnd'
  · obtain ⟨p, hp, D, hD, h1, h2⟩ := Steps.induct' (fun T => counts_induct E T n) h hp0
      ⟨(fun l hl => by
        rw [hlog] at hl
        split at hl
        · simp only [Option.some.injEq] at hl; subst hl; rfl
        · cases hl), by rw [hz]; simp [spikesOf]⟩
    have e1 : spikesOf n D = spikesOf n bs.flatten := hD.countP_eq _
    have e2 : hitsOn n D = hitsOn n bs.flatten := hD.countP_eq _
    have e3 : spikesOf n st.queue.events = spikesOf n p := hp.events_perm.countP_eq _
    rw [e1] at h1 h2
    rw [e2] at h2
    rw [e3]
    exact ⟨h1, h2⟩

/-- **C34.** On an acyclic network `simulate` ends, whatever has been injected; if moreover the
network is well-formed and spikes were injected into neurons of the network only, it ends without
an exception. -/
theorem C34_terminates (E : PEnv K) (st0 : PSim K) (h0 : Started E st0) (hac : Acyclic E.net) :
    ∃ N r, ∀ fuel ≥ N, st0.simulate E fuel = some r := by
  obtain ⟨p0, hp0, -, -, -, -, -, -, hfin, -⟩ := h0.spec
  obtain ⟨W, hW⟩ := acyclic_pays hac
  obtain ⟨r, hr⟩ := loop_terminates E W hW (totalWeight W p0) st0 p0 hp0 le_rfl
  refine ⟨totalWeight W p0, match r with
    | .error e => .error e
    | .ok st' => .ok { st' with finished := true }, fun fuel hf => ?_⟩
  unfold PSim.simulate
  rw [hfin, PSim.loop_mono E _ fuel st0 r hf hr]
  cases r <;> rfl

theorem C34_terminates_normally (E : PEnv K) (st0 : PSim K) (h0 : Started E st0)
    (hac : Acyclic E.net) (hE : Runnable E.net)
    (hin : ∀ e ∈ st0.queue.events, ∀ n k w, e.payload = .hit n k w → n ∈ E.net.neurons) :
    ∃ N st, (∀ fuel ≥ N, st0.simulate E fuel = some (.ok st)) ∧ st.finished = true ∧
      st.queue.len = .ok 0 := by
  obtain ⟨p0, hp0, hpred, -, -, hposs, hlog, hcnt, hfin, -⟩ := h0.spec
  obtain ⟨W, hW⟩ := acyclic_pays hac
  obtain ⟨r, hr⟩ := loop_terminates E W hW (totalWeight W p0) st0 p0 hp0 le_rfl
  have hkeys : Keys E st0 := by
    refine ⟨fun n hn => ?_, fun n hn => ?_, fun k hk => ?_⟩
    · rw [hposs, if_pos hn]; rfl
    · rw [hlog, if_pos hn]; rfl
    · rw [hcnt]; rcases hk with rfl | rfl | rfl | rfl <;> rfl
  have hkinds : ∀ e ∈ p0, ∀ n k w, e.payload = .hit n k w → k = .V := by
    have hV : ∀ e ∈ st0.queue.events, ∀ n k w, e.payload = .hit n k w → k = .V := by
      obtain ⟨nst, last, i, s0, cs, hi, hc⟩ := h0
      unfold PSim.init at hi
      split at hi
      · cases hi
      · simp only [Except.ok.injEq] at hi
        have key : ∀ (cs : List (Call K)) (s0 : PSim K) p, CRep E.H s0.queue p →
            (∀ e ∈ p, ∀ n k w, e.payload = .hit n k w → k = .V) →
            cs.foldlM (fun st c => st.call E c) s0 = .ok st0 →
            ∃ p, CRep E.H st0.queue p ∧ ∀ e ∈ p, ∀ n k w, e.payload = .hit n k w → k = .V := by
          intro cs
          induction cs with
          | nil =>
            intro s0 p hp h h5
            simp only [List.foldlM_nil, pure, Except.pure, Except.ok.injEq] at h5
            subst h5; exact ⟨p, hp, h⟩
          | cons c cs ih =>
            intro s0 p hp h h5
            simp only [List.foldlM_cons, bind, Except.bind] at h5
            cases hcall : s0.call E c with
            | error e => rw [hcall] at h5; cases h5
            | ok st1 =>
              rw [hcall] at h5
              obtain ⟨new, g1, g2, -⟩ := PSim.call_rep hp hcall
              refine ih st1 _ g1 ?_ h5
              intro e he n k w hpl
              rcases List.mem_append.mp he with he | he
              · exact h e he n k w hpl
              · obtain ⟨-, -, m, hm⟩ := g2 e he
                rw [hm] at hpl; cases hpl; rfl
        obtain ⟨p, hp, hh⟩ := key cs s0 [] (by rw [← hi]; exact CRep.empty _) (by simp) hc
        intro e he; exact hh e (hp.events_perm.mem_iff.mp he)
    intro e he; exact hV e (hp0.events_perm.mem_iff.mpr he)
  have hgood : ∀ e ∈ p0, GoodEv E.net e := by
    intro e he
    have h1 := hpred e he
    unfold GoodEv
    split
    next n hpl => simp [UEvent.isPred, hpl] at h1
    next n k w hpl =>
      exact ⟨hin e (hp0.events_perm.mem_iff.mpr he) n k w hpl, Or.inl (hkinds e he n k w hpl)⟩
  obtain ⟨st', rfl⟩ := loop_no_error hE _ st0 p0 r hkeys hp0 hgood hr
  obtain ⟨bs, -, hlen⟩ := loop_steps _ Steps.start hr
  refine ⟨totalWeight W p0, { st' with finished := true }, fun fuel hf => ?_, rfl, hlen⟩
  unfold PSim.simulate
  rw [hfin, PSim.loop_mono E _ fuel st0 _ hf hr]
  rfl


/-- **C34 (divergence).** Without acyclicity there is no such guarantee: a neuron that excites
itself above threshold keeps `simulate` running for ever after a single injected spike. -/
theorem C34_self_excitation_diverges (E : PEnv K) (n : ℕ) (w d t0 : K) (hdt : 0 < E.dt)
    (hM : 0 < maxSteps E.dt) (hn : n ∈ E.net.neurons) (htm : (E.net.par n).tm ≠ 0)
    (htf : (E.net.par n).tf ≠ 0) (hout : E.net.out n = [⟨n, n, w, d, .V⟩])
    (hw : (E.net.par n).Vt ≤ (E.net.par n).Vreset + w) (hr : 0 ≤ (E.net.par n).Vreset)
    (nst : ℕ → NState K) (last : ℕ → K) (i : ℕ) (hfresh : nst n = NState.fresh (E.net.par n))
    (st0 st1 : PSim K) (hinit : PSim.init E nst last i = .ok st0)
    (hst1 : st1 = st0.applyInputSpike E n t0) (fuel : ℕ) : st1.simulate E fuel = none := by
  -- the two kinds of states the loop goes through
  have key : ∀ (fuel : ℕ) (st : PSim K) (t : K) (i : ℕ),
      (st.poss n).isSome → (st.spikeLog n).isSome → (st.cnt .V).isSome →
      (((∃ w', CRep E.H st.queue [⟨i, t, .hit n .V w'⟩] ∧
          (E.net.par n).Vt ≤ (E.net.par n).Vreset + w') ∧ st.nst n = NState.reset (E.net.par n)) ∨
        CRep E.H st.queue [⟨i, t, .predicted n⟩]) →
      st.loop E fuel = none := by
    intro fuel
    induction fuel with
    | zero =>
      intro st t i _ _ _ h
      have hl : st.queue.len = .ok 1 := by
        rcases h with ⟨⟨w', h, -⟩, -⟩ | h <;> rw [h.len] <;> simp
      unfold PSim.loop; rw [hl]
    | succ fuel ih =>
      intro st t i hposs hlog hcnt h
      have hl : st.queue.len = .ok 1 := by
        rcases h with ⟨⟨w', h, -⟩, -⟩ | h <;> rw [h.len] <;> simp
      have hbatch : ∀ e : UEvent K, Spec.batch [e] = [e] ∧ Spec.others [e] = [] := by
        intro e; simp [Spec.batch, Spec.others]
      unfold PSim.loop; rw [hl]
      simp only
      rcases h with ⟨⟨w', hrep, hw'⟩, hnst⟩ | hrep
      · have ht : st.queue.times ≠ [] := List.ne_nil_of_mem (hrep.time_mem (List.mem_singleton.mpr rfl))
        obtain ⟨q', hq', hrep'⟩ := hrep.pop ht
        rw [(hbatch _).1] at hq'
        rw [(hbatch _).2] at hrep'
        have hex : ∃ st', PSim.handleHit E { st with queue := q' } t n .V w' = .ok st' := by
          unfold PSim.handleHit
          obtain ⟨o, ho⟩ := Option.isSome_iff_exists.mp hposs
          obtain ⟨c, hc⟩ := Option.isSome_iff_exists.mp hcnt
          obtain ⟨st1, h1, h1c⟩ : ∃ st1, PSim.dequeue { st with queue := q' } n = .ok st1 ∧
              st1.cnt = st.cnt := by
            unfold PSim.dequeue; simp only [ho]; cases o <;> exact ⟨_, rfl, rfl⟩
          rw [h1]
          obtain ⟨sl, h2⟩ : ∃ sl, receivePred E.exp (E.net.par n) (st1.nst n) (st1.last n) .V w' t
              = .ok sl := by
            unfold receivePred
            rw [if_neg (by simp [htm, htf])]; exact ⟨_, rfl⟩
          simp only [h2]
          obtain ⟨r, h3⟩ : ∃ r, predictSteps E.exp (E.net.par n) sl.1 E.dt = .ok r := by
            unfold predictSteps; rw [if_neg (by simp [htm, htf])]; exact ⟨_, rfl⟩
          simp only [h3, h1c, hc]
          cases r <;> exact ⟨_, rfl⟩
        obtain ⟨st', hst'⟩ := hex
        obtain ⟨o, s, l, r, c, ho, hrp, hps, hc, hq2, heq⟩ := PSim.handleHit_spec E t n .V w' hrep' hst'
        have hit : st.iter E = .ok ([⟨i, t, .hit n .V w'⟩], st') := by
          unfold PSim.iter
          rw [hq']
          simp [List.foldlM_cons, List.foldlM_nil, PSim.spikePhase, PSim.hitPhase, hst', bind,
            Except.bind, pure, Except.pure]
        rw [hit]
        -- the state after the hit, and the prediction it gives
        have hs : s = ⟨(E.net.par n).Vreset + w', 0, 0, 0⟩ := by
          have hrp' : receivePred E.exp (E.net.par n) (NState.reset (E.net.par n)) (st.last n) .V w' t
              = .ok (s, l) := by rw [← hnst]; exact hrp
          rw [(C13_reset_inert_predictive E.exp _ htm htf _ t .V w').2] at hrp'
          simp only [receive, NState.reset, Except.map, Except.ok.injEq, Prod.mk.injEq] at hrp'
          exact hrp'.1.symm
        have hP : ∀ m : ℤ, (E.net.par n).Vt ≤ predVoltage E.exp (E.net.par n) s E.dt m := by
          intro m; rw [predVoltage_eq, hs]; simpa [expectedV] using hw'
        have hr0 : r = some 0 := by
          have hb : ∀ (j : ℕ) (hi : ℤ), (bisect (fun m => decide ((E.net.par n).Vt ≤
              predVoltage E.exp (E.net.par n) s E.dt m)) j (0, hi)).1 = 0 := by
            intro j
            induction j with
            | zero => intro hi; rfl
            | succ j ihj => intro hi; unfold bisect; simp only; rw [if_pos (decide_eq_true (hP _))]; exact ihj _
          unfold predictSteps at hps
          rw [if_neg (by simp [htm, htf])] at hps
          simp only [hb, hM, if_true, Except.ok.injEq] at hps
          exact hps.symm
        subst hr0
        refine ih st' (t + (0 : ℤ) * E.dt) st.nextId ?_ ?_ ?_ (Or.inr ?_)
        · rw [heq]; simp
        · rw [heq]; exact hlog
        · rw [heq]; simp
        · cases o <;> simpa [predEv] using hq2
      · have ht : st.queue.times ≠ [] := List.ne_nil_of_mem (hrep.time_mem (List.mem_singleton.mpr rfl))
        obtain ⟨q', hq', hrep'⟩ := hrep.pop ht
        rw [(hbatch _).1] at hq'
        rw [(hbatch _).2] at hrep'
        have hex : ∃ st', PSim.handleSpike E { st with queue := q' } t n = .ok st' := by
          unfold PSim.handleSpike
          obtain ⟨q, -, h2⟩ := PSim.propagate_spec E t n
            { st with queue := q', nst := Function.update st.nst n (NState.reset (E.net.par n)) } [] hrep'
          simp only [h2]
          obtain ⟨l, hl⟩ := Option.isSome_iff_exists.mp hlog
          simp only [hl]; exact ⟨_, rfl⟩
        obtain ⟨st', hst'⟩ := hex
        obtain ⟨l, hl', hq2, heq⟩ := PSim.handleSpike_spec E t n hrep' hst'
        have hit : st.iter E = .ok ([⟨i, t, .predicted n⟩], st') := by
          unfold PSim.iter
          rw [hq']
          simp [List.foldlM_cons, List.foldlM_nil, PSim.spikePhase, PSim.hitPhase, hst', bind,
            Except.bind, pure, Except.pure]
        rw [hit]
        refine ih st' (t + d) st.nextId ?_ ?_ ?_ (Or.inl ⟨⟨w, ?_, hw⟩, ?_⟩)
        · rw [heq]; simp
        · rw [heq]; simp
        · rw [heq]; exact hcnt
        · simpa [hitsOf, hout] using hq2
        · rw [heq]; simp
  unfold PSim.init at hinit
  rw [if_neg hdt.ne'] at hinit
  simp only [Except.ok.injEq] at hinit
  have hfin : st1.finished = false := by rw [hst1, ← hinit]; rfl
  unfold PSim.simulate
  rw [hfin, key fuel st1 t0 i ?_ ?_ ?_ (Or.inl ⟨⟨(E.net.par n).Vt, ?_, ?_⟩, ?_⟩)]
  · rfl
  · rw [hst1, ← hinit]; simp [PSim.applyInputSpike, PSim.push, hn]
  · rw [hst1, ← hinit]; simp [PSim.applyInputSpike, PSim.push, hn]
  · rw [hst1, ← hinit]; simp [PSim.applyInputSpike, PSim.push, initCnt]
  · rw [hst1, ← hinit]
    have := (CRep.empty E.H).add ⟨i, t0, .hit n .V (E.net.par n).Vt⟩
    simpa [PSim.applyInputSpike, PSim.push] using this
  · linarith
  · rw [hst1, ← hinit]; exact hfresh

/-- **C35.** After a successful run the simulator is finished and drained, and every later call of
`simulate` raises ValueError (at once, whatever the fuel); the reports refuse to run before that. -/
theorem C35_no_rerun (E : PEnv K) (st st' : PSim K) (fuel : ℕ)
    (h : st.simulate E fuel = some (.ok st')) :
    st.finished = false ∧ st'.finished = true ∧ st'.queue.len = .ok 0 ∧
    (∀ m, st'.simulate E m = some (.error .valueError)) ∧
    ∀ keys, reportedSpikes st keys = .error .valueError := by
  unfold PSim.simulate at h
  split at h
  · cases h
  next hf =>
    have hf : st.finished = false := by simpa using hf
    split at h
    · cases h
    · cases h
    next st2 hloop =>
      simp only [Option.some.injEq, Except.ok.injEq] at h
      subst h
      obtain ⟨bs, -, hlen⟩ := loop_steps fuel Steps.start hloop
      exact ⟨hf, rfl, hlen, fun m => by simp [PSim.simulate], fun keys => by simp [reportedSpikes, hf]⟩

/-- **C36 (what the code does).** `apply_input_value(v, n, t0)` ignores `t0`: for every `t0` it adds
two threshold hits on `n`, at the absolute times `0` and `Tmin + v*Tcod`.  (The stepped engine does
shift by `t0`, see C14.) -/
theorem C36_value_injection_ignores_t0 (E : PEnv K) (st0 st st' : PSim K) (bs)
    (h0 : Started E st0) (hs : Steps E st0 bs st) (v t0 : K) (n : ℕ)
    (h : st.applyInputValue E v n t0 = .ok st') :
    st'.queue.events.Perm (st.queue.events ++
      [⟨st.nextId, 0, .hit n .V (E.net.par n).Vt⟩,
       ⟨st.nextId + 1, E.enc.Tmin + v * E.enc.Tcod, .hit n .V (E.net.par n).Vt⟩]) ∧
    ∀ t0', st.applyInputValue E v n t0' = .ok st' := by
  obtain ⟨p0, hp0, -⟩ := h0.spec
  obtain ⟨p, hp, -⟩ := Steps.induct' (I := fun _ _ _ => True)
    (fun _ => ⟨by simp, by simp, by simp, by simp⟩) hs hp0 trivial
  refine ⟨?_, fun t0' => h⟩
  unfold PSim.applyInputValue at h
  split at h
  · cases h
  next hv =>
    have hv' : 0 ≤ v ∧ v ≤ 1 := by simpa using hv
    simp only [Encoder.encodeValue, if_pos hv', Except.ok.injEq] at h
    subst h
    have h2 := (hp.add ⟨st.nextId, 0, .hit n .V (E.net.par n).Vt⟩).add
          ⟨st.nextId + 1, E.enc.Tmin + v * E.enc.Tcod, .hit n .V (E.net.par n).Vt⟩
    rw [List.append_assoc] at h2
    have h3 := h2.events_perm
    refine (show (((st.applyInputSpike E n 0).applyInputSpike E n
      (E.enc.Tmin + v * E.enc.Tcod)).queue.events).Perm _ from h3).trans ?_
    exact List.Perm.append_right _ hp.events_perm.symm

/-- **C37 (what the code does).** The numbers handed to the energy and latency report are the numbers
of processed `V`, `ge` and `gf` events, and always 0 for gate events: those are counted under the key
"gate", but the report reads "gm". -/
theorem C37_report_counts (E : PEnv K) (st0 st : PSim K) (bs : List (List (UEvent K)))
    (h0 : Started E st0) (h : Steps E st0 bs st) :
    reportedUpdates st = .ok (hitsOfKind .V bs.flatten, hitsOfKind .ge bs.flatten,
      hitsOfKind .gf bs.flatten, 0) ∧
    st.cnt .gate = some (hitsOfKind .gate bs.flatten) := by
  obtain ⟨p0, hp0, -, -, -, -, -, hcnt, -⟩ := h0.spec
  have hk : ∀ k, initCnt k = some 0 → st.cnt k = some (hitsOfKind k bs.flatten) ∧
      (¬ Known k → st.cnt k = some 0) := by
    intro k hk0
    obtain ⟨p, hp, D, hD, h1, h2⟩ := Steps.induct' (fun T => kinds_induct E T k 0) h hp0
      ⟨by rw [hcnt, hk0]; rfl, by simp⟩
    rw [zero_add] at h1
    have e1 : hitsOfKind k D = hitsOfKind k bs.flatten := hD.countP_eq _
    refine ⟨by rw [h1, e1], fun hkn => ?_⟩
    rw [h1]
    congr 1
    unfold hitsOfKind
    rw [List.countP_eq_zero]
    intro e he
    split
    next n k' w hpl =>
      simp only [decide_eq_true_eq]
      rintro rfl
      exact hkn (h2 e he n k' w hpl)
    · simp
  have hgm := (hk (.other "gm") (by simp [initCnt])).2 (by simp [Known])
  unfold reportedUpdates
  rw [(hk .V rfl).1, (hk .ge rfl).1, (hk .gf rfl).1, hgm]
  exact ⟨rfl, (hk .gate rfl).1⟩

/-- **C37 (when the report is right).** The four reported numbers add up to the number of processed
synaptic events exactly if no gate event was processed. -/
theorem C37_report_complete_iff (E : PEnv K) (st0 st : PSim K) (bs : List (List (UEvent K)))
    (h0 : Started E st0) (h : Steps E st0 bs st) (a b c d : ℕ)
    (hr : reportedUpdates st = .ok (a, b, c, d)) :
    a + b + c + d = bs.flatten.countP (fun e => !e.isPred) ↔ hitsOfKind .gate bs.flatten = 0 := by
  obtain ⟨p0, hp0, -, -, -, -, -, hcnt, -⟩ := h0.spec
  rw [(C37_report_counts E st0 st bs h0 h).1] at hr
  simp only [Except.ok.injEq, Prod.mk.injEq] at hr
  obtain ⟨rfl, rfl, rfl, rfl⟩ := hr
  obtain ⟨p, hp, D, hD, -, h2⟩ := Steps.induct' (fun T => kinds_induct E T .V 0) h hp0
    ⟨by rw [hcnt]; rfl, by simp⟩
  have hall : ∀ e ∈ bs.flatten, ∀ n k w, e.payload = .hit n k w → Known k :=
    fun e he => h2 e (hD.mem_iff.mpr he)
  have hsum : ∀ es : List (UEvent K), (∀ e ∈ es, ∀ n k w, e.payload = .hit n k w → Known k) →
      hitsOfKind .V es + hitsOfKind .ge es + hitsOfKind .gf es + hitsOfKind .gate es
        = es.countP (fun e => !e.isPred) := by
    intro es
    induction es with
    | nil => intro _; rfl
    | cons e es ih =>
      intro hes
      have hi := ih (fun x hx => hes x (by simp [hx]))
      have he := hes e (by simp)
      unfold hitsOfKind at *
      simp only [List.countP_cons]
      rw [← hi]
      obtain ⟨i, t, pl⟩ := e
      cases pl with
      | predicted n => simp [UEvent.isPred]
      | hit n k w =>
        have := he n k w rfl
        rcases this with rfl | rfl | rfl | rfl <;> simp [UEvent.isPred] <;> omega
  rw [← hsum _ hall]
  omega

/-- **C38.** A neuron with closed gate and constant drive, whose voltage after `k` steps of free
running reaches the threshold for the first time at `k`: the predictive engine predicts `k` steps;
the stepped engine, which updates once in the arrival step itself, flags the spike in the update
number `max k 1` and in no earlier one. -/
theorem C38_engines_agree (exp : K → K) (p : Params K) (s : NState K) (dt : K) (hdt : 0 < dt)
    (hM : maxSteps dt < 2 ^ 64) (htm : 0 < p.tm) (htf : p.tf ≠ 0) (hg : s.gate = 0)
    (hge : 0 ≤ s.ge) (k : ℕ) (hk : (k : ℤ) < maxSteps dt)
    (hleast : IsLeast {m : ℕ | p.Vt ≤ s.V + m * dt * s.ge / p.tm} k) :
    predictSteps exp p s dt = .ok (some (k : ℤ)) ∧
    (updateAndSpike p dt (freeRun p dt (max k 1 - 1) s)).2 = true ∧
    ∀ i < max k 1 - 1, (updateAndSpike p dt (freeRun p dt i s)).2 = false := by
  have hV : ∀ m : ℕ, expectedV exp p s (m * dt) = s.V + m * dt * s.ge / p.tm := by
    intro m; simp only [expectedV, hg]; field_simp; ring
  have hmono : ∀ a b : ℕ, a ≤ b → s.V + a * dt * s.ge / p.tm ≤ s.V + b * dt * s.ge / p.tm := by
    intro a b hab
    have : (a : K) ≤ b := by exact_mod_cast hab
    have h1 : (a : K) * dt * s.ge ≤ b * dt * s.ge :=
      mul_le_mul_of_nonneg_right (mul_le_mul_of_nonneg_right this hdt.le) hge
    linarith [div_le_div_of_nonneg_right h1 htm.le]
  have hupd : ∀ i : ℕ, (updateAndSpike p dt (freeRun p dt i s)).2 = true ↔
      p.Vt ≤ s.V + ((i + 1 : ℕ) : K) * dt * s.ge / p.tm := by
    intro i
    rw [C10_closed_form_closed p dt s hg i]
    simp only [updateAndSpike, hg, decide_eq_true_eq]
    have : s.V + ↑i * dt * s.ge / p.tm + dt * (s.ge + 0 * s.gf) / p.tm
        = s.V + ((i + 1 : ℕ) : K) * dt * s.ge / p.tm := by push_cast; field_simp; ring
    rw [this]
  refine ⟨?_, ?_, ?_⟩
  · have hs := bisect_spec (fun m => decide (p.Vt ≤ predVoltage exp p s dt m)) (maxSteps dt)
      (maxSteps_nonneg hdt) 64 hM
    unfold predictSteps
    rw [if_neg (by simp [htf, htm.ne'])]
    simp only at hs ⊢
    generalize (bisect _ 64 (0, maxSteps dt)).1 = j at hs ⊢
    obtain ⟨h0, h1, h2⟩ := hs
    obtain ⟨j, rfl⟩ := Int.eq_ofNat_of_zero_le h0
    have hjk : j = k := by
      rcases lt_trichotomy j k with h | h | h
      · exfalso
        have := h1 (by omega)
        rw [predVoltage_eq, decide_eq_true_eq] at this
        rw [show (((j : ℕ) : ℤ) : K) = (j : K) by simp, hV] at this
        have := hleast.2 this
        omega
      · exact h
      · exfalso
        have := h2 (by omega)
        rw [predVoltage_eq, decide_eq_false_iff_not, show ((j : ℤ) - 1) = ((j - 1 : ℕ) : ℤ) by omega,
          show (((j - 1 : ℕ) : ℤ) : K) = ((j - 1 : ℕ) : K) by simp, hV] at this
        exact this (hleast.1.trans (hmono k (j - 1) (by omega)))
    rw [hjk, if_pos hk]
  · rw [hupd]
    exact hleast.1.trans (hmono _ _ (by omega))
  · intro i hi
    rw [Bool.eq_false_iff, ne_eq, hupd]
    intro hh
    have := hleast.2 hh
    omega

/-! ### Concrete runs meeting the hypotheses -/

/-- Two neurons, the first excites the second after 2 ms. -/
def chainNet : Net ℚ := ⟨[0, 1], fun _ => ⟨10, 100, 20, 0⟩, [⟨0, 1, 20, 2, .V⟩]⟩
def chainEnv : PEnv ℚ := ⟨sortedHeap _, fun _ => 0, chainNet, ⟨10, 100⟩, 1⟩

/-- The run of `chainNet` after one injected spike: both neurons fire once, three batches each. -/
example : ∃ st0 st1, PSim.init chainEnv (fun _ => ⟨0, 0, 0, 0⟩) (fun _ => 0) 0 = .ok st0 ∧
    st0.calls chainEnv [.spike 0 3] = .ok st1 ∧
    (match st1.simulate chainEnv 4 with
      | some (.ok st) => (st.spikeLog 0, st.spikeLog 1, (reportedUpdates st).toOption)
      | _ => (none, none, none)) = (some [3], some [5], some (2, 0, 0, 0)) :=
  ⟨_, _, rfl, rfl, by decide +kernel⟩

/-- `chainNet` meets the hypotheses of C32 and C34. -/
example : Acyclic chainNet ∧ Runnable chainNet ∧ (∀ s ∈ chainNet.syns, 0 ≤ s.delay) := by
  refine ⟨?_, ⟨?_, ?_, ?_⟩, ?_⟩
  · intro n h
    have hstep : ∀ a b, Relation.TransGen
        (fun a b => ∃ s ∈ chainNet.syns, s.pre = a ∧ s.post = b) a b → a = 0 ∧ b = 1 := by
      intro a b hab
      induction hab with
      | single h => obtain ⟨s, hs, h1, h2⟩ := h; simp [chainNet] at hs; subst hs; exact ⟨h1.symm, h2.symm⟩
      | tail _ h ih =>
        obtain ⟨s, hs, h1, h2⟩ := h; simp [chainNet] at hs; subst hs; exact ⟨ih.1, h2.symm⟩
    have := hstep n n h
    omega
  all_goals simp [chainNet, Known]

/-- A neuron meeting the hypotheses of C34's divergence statement, with the default `dt`. -/
example : (⟨[0], fun _ => ⟨10, 100, 20, 0⟩, [⟨0, 0, 10, 1, .V⟩]⟩ : Net ℚ).out 0
      = [⟨0, 0, 10, 1, .V⟩] ∧ (0 : ℤ) < maxSteps (1 / 100 : ℚ) ∧ (10 : ℚ) ≤ 0 + 10 := by
  decide +kernel

/-- A neuron meeting the hypotheses of C38: `k = 200`. -/
example : IsLeast {m : ℕ | (10 : ℚ) ≤ 0 + m * 1 * 5 / 100} 200 ∧ ((200 : ℕ) : ℤ) < maxSteps (1 : ℚ) := by
  refine ⟨⟨by norm_num, ?_⟩, by decide +kernel⟩
  intro m hm
  simp only [Set.mem_ofPred_eq] at hm
  have : (200 : ℚ) ≤ m := by linarith
  exact_mod_cast this

/-- C36: an injection that asks for time 50 ends up at time 0. -/
example : ∃ st0, PSim.init chainEnv (fun _ => ⟨0, 0, 0, 0⟩) (fun _ => 0) 0 = .ok st0 ∧
    (match st0.applyInputValue chainEnv (1 / 2) 0 50 with
      | .ok st1 => st1.queue.events.map (fun e => e.time)
      | .error _ => []) = [0, 60] :=
  ⟨_, rfl, by decide +kernel⟩

/-! ## The theorems of this file on concrete cases -/

/-- The value of a computation that does not raise. -/
def okVal {α : Type*} : (r : Except PyErr α) → r.isOk = true → α
  | .ok x, _ => x
  | .error _, h => nomatch h

theorem okVal_eq {α : Type*} : ∀ (r : Except PyErr α) (h : r.isOk = true), r = .ok (okVal r h)
  | .ok _, _ => rfl
  | .error _, h => nomatch h

/-- `chainEnv` with a spike injected into neuron 0 at time 3, ready for `simulate`. -/
def chainStart : PSim ℚ :=
  okVal ((PSim.init chainEnv (fun _ => ⟨0, 0, 0, 0⟩) (fun _ => 0) 0).bind
    (fun s => s.calls chainEnv [.spike 0 3])) (by decide +kernel)

theorem chainStart_started : Started chainEnv chainStart :=
  ⟨fun _ => ⟨0, 0, 0, 0⟩, fun _ => 0, 0, _, [.spike 0 3], rfl, rfl⟩

/-- The first two iterations of the loop: the injected hit, then the predicted spike of neuron 0. -/
def chainIter1 : List (UEvent ℚ) × PSim ℚ := okVal (chainStart.iter chainEnv) (by decide +kernel)
def chainIter2 : List (UEvent ℚ) × PSim ℚ := okVal (chainIter1.2.iter chainEnv) (by decide +kernel)

theorem chain_steps : Steps chainEnv chainStart [chainIter1.1, chainIter2.1] chainIter2.2 :=
  (Steps.start.step (m := 0) (by decide +kernel) (okVal_eq (chainStart.iter chainEnv) _)).step (m := 0)
    (by decide +kernel) (okVal_eq (chainIter1.2.iter chainEnv) _)

/-- `C32_time_order`, `C33_one_prediction_and_spikes_le_hits`, `C37_report_counts` and
`C37_report_complete_iff` on this run. -/
example : [chainIter1.1, chainIter2.1].flatten.Pairwise (fun a b => a.time ≤ b.time) ∧
    spikesOf 0 [chainIter1.1, chainIter2.1].flatten = 1 ∧
    spikesOf 0 [chainIter1.1, chainIter2.1].flatten + spikesOf 0 chainIter2.2.queue.events ≤
      hitsOn 0 [chainIter1.1, chainIter2.1].flatten ∧
    reportedUpdates chainIter2.2 = .ok (1, 0, 0, 0) := by
  refine ⟨(C32_time_order chainEnv (by decide) (by decide) _ _ _ chainStart_started chain_steps).1,
    by decide +kernel,
    (C33_one_prediction_and_spikes_le_hits chainEnv _ _ _ chainStart_started chain_steps 0).2.2, ?_⟩
  rw [(C37_report_counts chainEnv _ _ _ chainStart_started chain_steps).1]
  decide +kernel
example : (1 + 0 + 0 + 0 = [chainIter1.1, chainIter2.1].flatten.countP (fun e => !e.isPred)) ↔
    hitsOfKind .gate [chainIter1.1, chainIter2.1].flatten = 0 :=
  C37_report_complete_iff chainEnv _ _ _ chainStart_started chain_steps 1 0 0 0
    (by rw [(C37_report_counts chainEnv _ _ _ chainStart_started chain_steps).1]; decide +kernel)

/-- `C34_terminates`, `C34_terminates_normally`, `C32_logs_sorted_after_simulate` and `C35_no_rerun` on
`chainEnv` (which meets `Acyclic` and `Runnable` as shown above). -/
example (hac : Acyclic chainNet) (hrun : Runnable chainNet) :
    ∃ N st, chainStart.simulate chainEnv N = some (.ok st) ∧ st.finished = true ∧
      (∀ m, st.simulate chainEnv m = some (.error .valueError)) ∧
      ∀ l, st.spikeLog 1 = some l → l.Pairwise (· ≤ ·) := by
  obtain ⟨N, st, h, h1, -⟩ := C34_terminates_normally chainEnv _ chainStart_started hac hrun
    (by
      have : ∀ e ∈ chainStart.queue.events, (match e.payload with | .hit n _ _ => n == 0 | _ => true) = true := by
        decide +kernel
      intro e he n k w hp
      have := this e he
      rw [hp] at this
      rw [eq_of_beq this]
      decide)
  refine ⟨N, st, h N le_rfl, h1, (C35_no_rerun _ _ _ _ (h N le_rfl)).2.2.2.1, fun l hl => ?_⟩
  exact C32_logs_sorted_after_simulate chainEnv (by decide) (by decide) _ _ _ chainStart_started
    (h N le_rfl) 1 l hl

/-- `C34_self_excitation_diverges` for a neuron that excites itself with its threshold: whatever the
fuel, `simulate` does not return. -/
example (fuel : ℕ) : (((okVal (PSim.init
      (⟨sortedHeap _, fun _ => 0, ⟨[0], fun _ => ⟨10, 100, 20, 0⟩, [⟨0, 0, 10, 1, .V⟩]⟩, ⟨10, 100⟩, 1⟩ : PEnv ℚ)
      (fun _ => ⟨0, 0, 0, 0⟩) (fun _ => 0) 0) rfl).applyInputSpike
      ⟨sortedHeap _, fun _ => 0, ⟨[0], fun _ => ⟨10, 100, 20, 0⟩, [⟨0, 0, 10, 1, .V⟩]⟩, ⟨10, 100⟩, 1⟩ 0 3).simulate
      ⟨sortedHeap _, fun _ => 0, ⟨[0], fun _ => ⟨10, 100, 20, 0⟩, [⟨0, 0, 10, 1, .V⟩]⟩, ⟨10, 100⟩, 1⟩ fuel) =
    none :=
  C34_self_excitation_diverges _ 0 10 1 3 (by decide) (by decide +kernel) (by decide) (by decide) (by decide)
    (by decide +kernel) (by decide +kernel) (by decide) (fun _ => ⟨0, 0, 0, 0⟩) (fun _ => 0) 0 rfl _ _
    (okVal_eq _ _) rfl fuel

/-- `C36_value_injection_ignores_t0` on `chainStart`: asking for time 50 queues the hits at 0 and 60. -/
example (st' : PSim ℚ) (h : chainStart.applyInputValue chainEnv (1 / 2) 1 50 = .ok st') :
    chainStart.applyInputValue chainEnv (1 / 2) 1 0 = .ok st' :=
  (C36_value_injection_ignores_t0 chainEnv _ _ _ _ chainStart_started Steps.start (1 / 2) 50 1 h).2 0
example : (chainStart.applyInputValue chainEnv (1 / 2) 1 50).isOk = true := by decide +kernel

/-- `C30_prediction_is_crossing` on the rising and falling curve above, and `C38_engines_agree` on a
neuron charging with `ge = 5`. -/
example :
    (updateAndSpike ⟨10, 100, 20, 0⟩ (1 : ℚ) (freeRun ⟨10, 100, 20, 0⟩ 1 199 ⟨0, 5, 0, 0⟩)).2 = true := by
  refine (C38_engines_agree (fun _ => 0) ⟨10, 100, 20, 0⟩ ⟨0, 5, 0, 0⟩ (1 : ℚ) (by decide)
    (by decide +kernel) (by decide) (by decide) rfl (by decide) 200 (by decide +kernel) ⟨by norm_num, ?_⟩).2.1
  intro m hm
  simp only [Set.mem_ofPred_eq] at hm
  have : (200 : ℚ) ≤ m := by linarith
  exact_mod_cast this
example : (0 : ℤ) ≤ 1 ∧ (1 : ℤ) < maxSteps (1 : ℚ) :=
  ⟨(C30_prediction_is_crossing (fun x : ℚ => if x < -1 then -3 else 1 + x) ⟨10, 1, 4, 0⟩
    ⟨0, 0, 20, 1⟩ 1 (by decide) (by decide +kernel) 1 (by decide +kernel)).1,
    (C30_prediction_is_crossing (fun x : ℚ => if x < -1 then -3 else 1 + x) ⟨10, 1, 4, 0⟩
    ⟨0, 0, 20, 1⟩ 1 (by decide) (by decide +kernel) 1 (by decide +kernel)).2.1⟩

end Axon
