import Verif.Model.DoubleOps
import Verif.Proofs.Rounded
import Verif.Proofs.HeapInst
import Verif.Props.Simulator

/-!
# C72-C76: what survives in floating-point arithmetic

The other theorems about the simulator compute with exact numbers.  The ones of this file hold for the arithmetic Python really uses
(`Double`, or any arithmetic with the laws of `Spec.RoundedArith`).
-/
set_option linter.unusedSectionVars false
namespace Axon
open Spec

section Generic
variable {K : Type*} [LinearOrder K] [Add K] [Sub K] [Mul K] [Div K] [Zero K] [One K] [NatCast K] [RoundedArith K]

/-- The spikes an injection call stands for, as computed: the two times of a value are `t0` and `t0 + (Tmin + value * Tcod)`. -/
def Spec.callSpikesR (enc : Encoder K) : Call K → List (ℕ × K)
  | .spike n t => [(n, t)]
  | .value v n t0 => [(n, t0), (n, t0 + (enc.Tmin + v * enc.Tcod))]

theorem calls_eqR (H : EventHeap K) (net : Net K) (enc : Encoder K) (cs : List (Call K)) :
    ∀ st : Sim K, (∀ c ∈ cs, CallOK c) →
    st.calls H net enc cs = .ok (st.injectAll H net (cs.flatMap (callSpikesR enc))) := by
  induction cs with
  | nil => intro st _; rfl
  | cons c cs ih =>
    intro st h
    have hc : st.call H net enc c = .ok (st.injectAll H net (callSpikesR enc c)) := by
      have h0 := h c (by simp)
      match c, h0 with
      | .spike n t, _ => rfl
      | .value v n t0, h0 =>
        show st.applyInputValue H net enc v n t0 = _
        unfold Sim.applyInputValue
        have h0' : 0 ≤ v ∧ v ≤ 1 := h0
        rw [if_neg (not_not.mpr h0')]
        simp [Encoder.encodeValue, h0', callSpikesR, Sim.injectAll, Sim.applyInputSpike, RoundedArith.add_zero]
    unfold Sim.calls
    rw [List.foldlM_cons, hc]
    show Sim.calls H net enc _ cs = _
    rw [ih _ (fun c' hc' => h c' (by simp [hc'])), List.flatMap_cons, injectAll_append]

/-- What a simulation of `N` steps leaves behind, in terms of a naive run. -/
structure Spec.Observed (net : Net K) (dt : K) (inj : List (ℕ × K)) (S : ℕ → ℕ → NState K) (F : ℕ → ℕ → Bool) (B : ℕ → List (Event K))
    (N : ℕ) (st : Sim K) : Prop where
  states : ∀ n, st.nst n = S N n
  spikes : ∀ n ∈ net.neurons, st.spikeLog n = some (injTimes inj n ++ emitted dt F N n)
  voltages : ∀ n ∈ net.neurons, st.voltLog n =
    some (((List.range N).filter (fun i => busy S B i n)).map (fun i => ((S (i + 1) n).V, i)))
  counters : ∀ k, st.cnt k = (((List.range' 1 N).flatMap B).filter (fun e => e.kind = k)).length

/-- **C72.** Whatever the arithmetic (doubles included), the event-driven simulator goes through a naive run that updates every neuron in every
step: every event is delivered exactly once, in the first step whose computed time has reached the event's computed time, the events of a step are
applied in the order of their times, and the logs and counters report that run.  The run is the same for every number of steps. -/
theorem C72_rounded_run (H : EventHeap K) {ord} (hord : SetOrder ord) {net : Net K} (wf : WellFormed net) {dt : K} (hdt : 0 < dt)
    (enc : Encoder K) (cs : List (Call K)) (hcs : ∀ c ∈ cs, CallOK c) {s0} (hrest : Resting net s0) :
    ∃ st0, (Sim.init net s0).calls H net enc cs = .ok st0 ∧
    ∃ S F B, IsRunR net dt (cs.flatMap (callSpikesR enc)) s0 S F B ∧
    ∀ N, ∃ st act, simLoop H ord net dt N (st0, []) = .ok (st, act) ∧ Observed net dt (cs.flatMap (callSpikesR enc)) S F B N st := by
  refine ⟨_, calls_eqR H net enc cs _ hcs, ?_⟩
  set inj := cs.flatMap (callSpikesR enc)
  obtain ⟨hrun, hall⟩ := loop_run H hord wf hdt inj hrest
  refine ⟨_, _, _, hrun, fun N => ?_⟩
  obtain ⟨st, act, h1, h2⟩ := hall N
  obtain ⟨-, -, -, h4, h5, h6⟩ := injectAll_spec' H net inj (Sim.init net s0) H.inv_nil
  refine ⟨st, act, h1, h2.nst, ?_, ?_, ?_⟩
  · intro n hn
    rw [h2.log, h6]; simp [Sim.init, hn]
  · intro n hn
    rw [h2.volt n hn, h4]; simp [Sim.init, hn, voltR]
  · intro k
    rw [h2.cnt, h5]; simp [Sim.init]

/-- The step in which something arrives is unique. -/
theorem Spec.FirstAt.unique {dt : K} {lo : ℕ} {x : K} {i i' : ℕ} (h : FirstAt dt lo x i) (h' : FirstAt dt lo x i') : i = i' := by
  obtain ⟨a1, a2, a3⟩ := h
  obtain ⟨b1, b2, b3⟩ := h'
  by_contra hne
  rcases Nat.lt_or_gt_of_ne hne with hlt | hlt
  · exact b3 i hlt a1 a2
  · exact a3 i' hlt b1 b2

theorem Spec.FirstAt.exists {dt : K} {lo : ℕ} {x : K} {m : ℕ} (h1 : lo ≤ m) (h2 : x ≤ (m : K) * dt) : ∃ i ≤ m, FirstAt dt lo x i := by
  have hex : ∃ i : ℕ, lo ≤ i ∧ x ≤ (i : K) * dt := ⟨m, h1, h2⟩
  classical
  refine ⟨Nat.find hex, Nat.find_min' hex ⟨h1, h2⟩, (Nat.find_spec hex).1, (Nat.find_spec hex).2, ?_⟩
  intro k hk hlo hx
  exact Nat.find_min hex hk ⟨hlo, hx⟩

/-! ## C76: consequences that need no exact arithmetic -/

theorem stays_inactive {net : Net K} {dt : K} {inj s0} {S F} {B : ℕ → List (Event K)}
    (hr : IsRunR net dt inj s0 S F B) {n : ℕ} (hn : n ∈ net.neurons) {i : ℕ}
    (ha : (S i n).active = false) (hV : (S i n).V < (net.par n).Vt) :
    ∀ k, (∀ m, i < m → m ≤ i + k → ∀ e ∈ B m, e.neuron ≠ n) → S (i + k) n = S i n ∧ ∀ m, i < m → m ≤ i + k → F m n = false := by
  intro k
  induction k with
  | zero => intro _; exact ⟨rfl, by omega⟩
  | succ k ih =>
    intro h
    obtain ⟨h1, h2⟩ := ih (fun m hm hm' => h m hm (by omega))
    have hst := hr.step (i + k) n hn
    have hnil : (B (i + k + 1)).filter (fun e => decide (e.neuron = n)) = [] := by
      rw [List.filter_eq_nil_iff]; intro e he; simpa using h (i + k + 1) (by omega) (by omega) e he
    rw [hnil, List.foldl_nil, h1, euler_quiet _ _ _ ha hV, Prod.mk.injEq] at hst
    refine ⟨hst.1, fun m hm hm' => ?_⟩
    by_cases hmk : m = i + k + 1
    · subst hmk; exact hst.2
    · exact h2 m hm (by omega)

/-- **C76.** In any arithmetic: between two spikes of a neuron it receives an event (every spike is caused by an event after the previous one). -/
theorem C76_hit_between_spikes {net : Net K} (wf : WellFormed net) {dt : K} {inj s0} {S F} {B : ℕ → List (Event K)}
    (hr : IsRunR net dt inj s0 S F B) {n i j : ℕ} (hij : i < j) (hi : F i n = true) (hj : F j n = true) :
    ∃ m, i < m ∧ m ≤ j ∧ ∃ e ∈ B m, e.neuron = n := by
  have hn : n ∈ net.neurons := by
    by_contra hn; rw [(hr.outside i n hn).2] at hi; cases hi
  by_contra hcon
  push Not at hcon
  obtain ⟨k, rfl⟩ : ∃ k, i = k + 1 := by
    cases i with
    | zero => rw [(hr.start n).2] at hi; cases hi
    | succ k => exact ⟨k, rfl⟩
  have hst := hr.step k n hn
  set s := ((B (k + 1)).filter (fun e => decide (e.neuron = n))).foldl addEv (S k n)
  have h2 : (euler (net.par n) dt s).2 = true := by rw [← hst]; exact hi
  have h1 : S (k + 1) n = ⟨(net.par n).Vreset, 0, 0, 0⟩ := by
    have : S (k + 1) n = (euler (net.par n) dt s).1 := by rw [← hst]
    rw [this]; revert h2; unfold euler
    by_cases hc : (net.par n).Vt ≤ s.V + dt * (s.ge + s.gate * s.gf) / (net.par n).tm <;> simp [hc]
  have := (stays_inactive hr hn (i := k + 1) (by rw [h1]; simp [NState.active]) (by rw [h1]; exact wf.reset n hn) (j - (k + 1))
    (fun m hm hm' => hcon m hm (by omega))).2 j hij (by omega)
  rw [hj] at this; cases this

/-- Neurons reachable along synapses (at least one) from a neuron that receives injected spikes. -/
inductive Spec.ReachedR (net : Net K) (inj : List (ℕ × K)) : ℕ → Prop
  | direct {q : ℕ × K} {s : Synapse K} : q ∈ inj → s ∈ net.syns → s.pre = q.1 → ReachedR net inj s.post
  | step {s : Synapse K} : ReachedR net inj s.pre → s ∈ net.syns → ReachedR net inj s.post

/-- **C76.** In any arithmetic: a neuron that no injected spike can reach along synapses never fires and never changes. -/
theorem C76_unreached_silent {net : Net K} {dt : K} {inj s0} (hrest : Resting net s0) {S F} {B : ℕ → List (Event K)}
    (hr : IsRunR net dt inj s0 S F B) (i : ℕ) : ∀ n, ¬ ReachedR net inj n → S i n = s0 n ∧ F i n = false := by
  induction i using Nat.strong_induction_on with
  | _ i ih =>
    intro n hn
    by_cases hmem : n ∈ net.neurons
    swap
    · exact hr.outside i n hmem
    match i with
    | 0 => exact hr.start n
    | i + 1 =>
      have hnil : (B (i + 1)).filter (fun e => decide (e.neuron = n)) = [] := by
        rw [List.filter_eq_nil_iff]
        intro e he
        rw [(hr.batch i).mem_iff] at he
        simp only [decide_eq_true_eq]
        intro hen
        unfold dueR at he
        rw [List.mem_append] at he
        rcases he with he | he
        · simp only [List.mem_flatMap, List.mem_map, List.mem_filter] at he
          obtain ⟨q, hq, s, ⟨hs, -⟩, rfl⟩ := he
          unfold Net.out at hs
          simp only [List.mem_filter, decide_eq_true_eq] at hs
          exact hn (hen ▸ .direct hq hs.1 hs.2)
        · simp only [List.mem_flatMap, List.mem_map, List.mem_filter, List.mem_range] at he
          obtain ⟨j, hj, m, ⟨-, hFm⟩, s, ⟨hs, -⟩, rfl⟩ := he
          unfold Net.out at hs
          simp only [List.mem_filter, decide_eq_true_eq] at hs
          have hre : ReachedR net inj m := by
            by_contra hre
            rw [(ih j (by omega) m hre).2] at hFm; cases hFm
          exact hn (hen ▸ .step (hs.2 ▸ hre) hs.1)
      have hst := hr.step i n hmem
      have h0 := (ih i (by omega) n hn).1
      have hq := hrest n hmem
      rw [hnil, List.foldl_nil, h0, euler_quiet _ _ _ (by simp [NState.active, hq]) hq.1, Prod.mk.injEq] at hst
      exact hst

end Generic

/-! ## C73, C74, C75: doubles -/

section Doubles

/-- **C72 for doubles**: `simulate` in floating-point arithmetic. -/
theorem C72_doubles (H : EventHeap Double) {ord} (hord : SetOrder ord) {net : Net Double} (wf : WellFormed net) {dt : Double} (hdt : 0 < dt)
    (enc : Encoder Double) (cs : List (Call Double)) (hcs : ∀ c ∈ cs, CallOK c) {s0} (hrest : Resting net s0) :
    ∃ st0, (Sim.init net s0).calls H net enc cs = .ok st0 ∧
    ∃ S F B, IsRunR net dt (cs.flatMap (callSpikesR enc)) s0 S F B ∧
    ∀ T, ∃ st, st0.simulateFl H ord net dt T = .ok st ∧ Observed net dt (cs.flatMap (callSpikesR enc)) S F B (numStepsFl T dt) st := by
  obtain ⟨st0, h0, S, F, B, h1, h2⟩ := C72_rounded_run H hord wf hdt enc cs hcs hrest
  refine ⟨st0, h0, S, F, B, h1, fun T => ?_⟩
  obtain ⟨st, act, h3, h4⟩ := h2 (numStepsFl T dt)
  refine ⟨st, ?_, h4⟩
  unfold Sim.simulateFl
  rw [if_neg hdt.ne', h3]

theorem tick_val {dt : Double} {n : ℕ} (hn : n ≤ 2 ^ 53) : ((n : Double) * dt).val = fl 53 (n * dt.val) := by
  rw [Fl.val_mul, Fl.val_nat, fl_nat n hn]

/-- A time that is exactly one step or more after step `i` is not taken for due in step `i`. -/
theorem not_due {dt z : ℚ} (hdt : 0 < dt) {i : ℕ} (hi : i ≤ 2 ^ 50) (hz : (i + 7 / 8 : ℚ) * dt < z) : ¬ fl 53 z ≤ fl 53 (i * dt) := by
  intro h
  have hi' : (i : ℚ) ≤ 2 ^ 50 := by exact_mod_cast hi
  have hz0 : 0 < z := lt_trans (by positivity) hz
  have e1 := abs_le.mp (fl_err (p := 53) z)
  have e2 := abs_le.mp (fl_err (p := 53) (i * dt))
  rw [abs_of_pos hz0] at e1
  rw [abs_of_nonneg (by positivity)] at e2
  have h3 : (i : ℚ) * dt ≤ 2 ^ 50 * dt := by gcongr
  have h4 : z - z / 2 ^ 53 ≤ i * dt + (i : ℚ) * dt / 2 ^ 53 := by linarith [e1.1, e2.2]
  norm_num at h4 h3
  nlinarith

/-- **C73.** In doubles a spike fired in step `j` arrives, over a synapse with any delay, at most one step earlier or later than in exact
arithmetic (where the step is `j + max 1 ⌈delay/dt⌉`, C14), as long as that step is before step `2^50`. -/
theorem C73_arrival_within_one_step (dt D : Double) (hdt : 0 < dt) (j : ℕ) (ha : arrInt dt.val j D.val < 2 ^ 50) :
    ∃ i, FirstAt dt (j + 1) ((j : Double) * dt + D) i ∧ i ≤ arrInt dt.val j D.val + 1 ∧ arrInt dt.val j D.val ≤ i + 1 := by
  have hdt' : 0 < dt.val := hdt
  set a := arrInt dt.val j D.val with had
  have hf := fun i => firstStep_le hdt' (j + 1) ((j : ℚ) * dt.val + D.val) i
  obtain ⟨hja, hda⟩ := (hf a).mp le_rfl
  have hj : j ≤ 2 ^ 53 := by omega
  have hjq : (j : ℚ) ≤ 2 ^ 50 := by have : j ≤ 2 ^ 50 := by omega
                                    exact_mod_cast this
  have ej := abs_le.mp (fl_err (p := 53) (j * dt.val))
  rw [abs_of_nonneg (by positivity)] at ej
  have hjd : (j : ℚ) * dt.val / 2 ^ 53 ≤ dt.val / 8 := by
    rw [div_le_iff₀ (by positivity)]
    have : (j : ℚ) * dt.val ≤ 2 ^ 50 * dt.val := by gcongr
    norm_num at this ⊢; linarith
  have hx : ((j : Double) * dt + D).val = fl 53 (fl 53 (j * dt.val) + D.val) := by rw [Fl.val_add, tick_val hj]
  obtain ⟨i, hi, hfi⟩ := FirstAt.exists (K := Double) (dt := dt) (lo := j + 1) (x := (j : Double) * dt + D) (m := a + 1) (by omega) (by
    rw [Fl.le_iff, hx, tick_val (by omega)]
    apply fl_mono
    push_cast
    linarith [ej.2])
  refine ⟨i, hfi, hi, ?_⟩
  by_contra hlt
  push Not at hlt
  have h1 : ¬ firstStep dt.val (j + 1) ((j : ℚ) * dt.val + D.val) ≤ i + 1 := by
    show ¬ arrInt dt.val j D.val ≤ i + 1
    omega
  rw [hf] at h1
  have h2 : ((i + 1 : ℕ) : ℚ) * dt.val < (j : ℚ) * dt.val + D.val := by
    by_contra hc
    exact h1 ⟨by have := hfi.1; omega, not_lt.mp hc⟩
  have h3 := hfi.2.1
  rw [Fl.le_iff, hx, tick_val (by omega)] at h3
  refine not_due hdt' (by omega) ?_ h3
  push_cast at h2
  linarith [ej.1]

/-- **C73.** An injected spike never arrives later than in exact arithmetic, and at most one step earlier. -/
theorem C73_injected (dt τ D : Double) (hdt : 0 < dt) (ha : arrInj dt.val τ.val D.val < 2 ^ 50) :
    ∃ i, FirstAt dt 1 (τ + D) i ∧ i ≤ arrInj dt.val τ.val D.val ∧ arrInj dt.val τ.val D.val ≤ i + 1 := by
  have hdt' : 0 < dt.val := hdt
  set a := arrInj dt.val τ.val D.val with had
  have hf := fun i => firstStep_le hdt' 1 (τ.val + D.val) i
  obtain ⟨hja, hda⟩ := (hf a).mp le_rfl
  have hx : (τ + D).val = fl 53 (τ.val + D.val) := Fl.val_add _ _
  obtain ⟨i, hi, hfi⟩ := FirstAt.exists (K := Double) (dt := dt) (lo := 1) (x := τ + D) (m := a) hja (by
    rw [Fl.le_iff, hx, tick_val (by omega)]
    exact fl_mono hda)
  refine ⟨i, hfi, hi, ?_⟩
  by_contra hlt
  push Not at hlt
  have h1 : ¬ firstStep dt.val 1 (τ.val + D.val) ≤ i + 1 := by
    show ¬ arrInj dt.val τ.val D.val ≤ i + 1
    omega
  rw [hf] at h1
  have h2 : ((i + 1 : ℕ) : ℚ) * dt.val < τ.val + D.val := by
    by_contra hc
    exact h1 ⟨by omega, not_lt.mp hc⟩
  have h3 := hfi.2.1
  rw [Fl.le_iff, hx, tick_val (by omega)] at h3
  refine not_due hdt' (by omega) ?_ h3
  push_cast at h2
  linarith

/-- **C73.** The bound is sharp: with `dt = 0.001` a spike fired in step 281 over a synapse of delay 1.0 arrives in step 1282, one step later than one fired
in step 280 (which arrives in step 1280): in doubles the same synapse does not always take the same number of steps. -/
theorem C73_jitter :
    FirstAt (Fl.of (1 / 1000) : Double) 281 (((280 : ℕ) : Double) * Fl.of (1 / 1000) + 1) 1280 ∧
    FirstAt (Fl.of (1 / 1000) : Double) 282 (((281 : ℕ) : Double) * Fl.of (1 / 1000) + 1) 1282 := by
  have h : ∀ (lo : ℕ) (x : Double) (m : ℕ), lo ≤ m + 1 → x ≤ ((m + 1 : ℕ) : Double) * Fl.of (1 / 1000) →
      ¬ x ≤ ((m : ℕ) : Double) * Fl.of (1 / 1000) → FirstAt (Fl.of (1 / 1000) : Double) lo x (m + 1) := by
    intro lo x m h1 h2 h3
    refine ⟨h1, h2, fun k hk _ hx => h3 (hx.trans ?_)⟩
    exact RoundedArith.ticks _ (by decide +kernel) _ _ (by omega)
  exact ⟨h _ _ 1279 (by norm_num) (by decide +kernel) (by decide +kernel), h _ _ 1281 (by norm_num) (by decide +kernel) (by decide +kernel)⟩

/-- **C74.** In doubles `simulate(T)` performs `⌊T/dt⌋` steps or one more (`T` and `dt` being the exact values of the two floats). -/
theorem C74_number_of_steps (T dt : Double) (hT : 0 ≤ T) (hdt : 0 < dt) (h : T.val / dt.val < 2 ^ 52) :
    numStepsFl T dt = numSteps T.val dt.val ∨ numStepsFl T dt = numSteps T.val dt.val + 1 := by
  have hT' : 0 ≤ T.val := hT
  have hdt' : 0 < dt.val := hdt
  unfold numStepsFl numSteps
  rw [Fl.val_div]
  set x := T.val / dt.val with hx
  have hx0 : 0 ≤ x := by positivity
  have hfl0 : 0 ≤ ⌊x⌋ := Int.floor_nonneg.mpr hx0
  obtain ⟨k, hk⟩ := Int.eq_ofNat_of_zero_le hfl0
  have hk1 : (k : ℚ) ≤ x := by have := Int.floor_le x; rw [hk] at this; exact_mod_cast this
  have hk2 : x ≤ (k + 1 : ℕ) := by have := (Int.lt_floor_add_one x).le; rw [hk] at this; push_cast; exact_mod_cast this
  have hkb : k + 1 ≤ 2 ^ 53 := by
    have : (k : ℚ) < 2 ^ 52 := lt_of_le_of_lt hk1 h
    have : k < 2 ^ 52 := by exact_mod_cast this
    omega
  have l1 := fl_mono (p := 53) hk1
  have l2 := fl_mono (p := 53) hk2
  rw [fl_nat k (by omega)] at l1
  rw [fl_nat (k + 1) hkb] at l2
  have f1 : (k : ℤ) ≤ ⌊fl 53 x⌋ := Int.le_floor.mpr (by exact_mod_cast l1)
  have f2 : ⌊fl 53 x⌋ ≤ k + 1 := by
    have : (⌊fl 53 x⌋ : ℚ) ≤ ((k + 1 : ℕ) : ℚ) := (Int.floor_le _).trans l2
    exact_mod_cast this
  rw [hk]
  simp only [Int.toNat_natCast]
  omega

/-- **C74.** When the user asks for a time on the simulator's own grid, `k * dt` as computed, `simulate` performs `k` steps or `k - 1`. -/
theorem C74_grid_time (dt : Double) (hdt : 0 < dt) (k : ℕ) (hk : k ≤ 2 ^ 50) :
    numStepsFl ((k : Double) * dt) dt = k ∨ numStepsFl ((k : Double) * dt) dt = k - 1 := by
  have hdt' : 0 < dt.val := hdt
  have hkq : (k : ℚ) ≤ 2 ^ 50 := by exact_mod_cast hk
  unfold numStepsFl
  rw [Fl.val_div, tick_val (by omega)]
  set y := fl 53 (k * dt.val) / dt.val with hy
  have e := abs_le.mp (fl_err (p := 53) (k * dt.val))
  rw [abs_of_nonneg (by positivity)] at e
  have h8 : (k : ℚ) * dt.val / 2 ^ 53 ≤ dt.val / 8 := by
    rw [div_le_iff₀ (by positivity)]
    have : (k : ℚ) * dt.val ≤ 2 ^ 50 * dt.val := by gcongr
    norm_num at this ⊢; linarith
  have y1 : (k : ℚ) - 1 / 8 ≤ y := by rw [hy, le_div_iff₀ hdt']; linarith [e.1]
  have y2 : y ≤ (k : ℚ) + 1 / 2 := by rw [hy, div_le_iff₀ hdt']; linarith [e.2]
  have l2 := fl_mono (p := 53) y2
  have hex : fl 53 ((k : ℚ) + 1 / 2) = (k : ℚ) + 1 / 2 := by
    have := fl_exact (p := 53) (2 * k + 1) (-1) (by rw [abs_of_nonneg (by positivity)]; norm_num at hk ⊢; omega)
    have h2 : ((2 * k + 1 : ℤ) : ℚ) * 2 ^ (-1 : ℤ) = (k : ℚ) + 1 / 2 := by push_cast; rw [zpow_neg_one]; ring
    rwa [h2] at this
  rw [hex] at l2
  have f2 : ⌊fl 53 y⌋ ≤ k := by
    have : ⌊fl 53 y⌋ < (k : ℤ) + 1 := by
      rw [Int.floor_lt]; push_cast; linarith
    omega
  cases k with
  | zero => left; omega
  | succ m =>
    have y3 : (m : ℚ) ≤ y := by push_cast at y1; linarith
    have l1 := fl_mono (p := 53) y3
    rw [fl_nat m (by omega)] at l1
    have f1 : (m : ℤ) ≤ ⌊fl 53 y⌋ := Int.le_floor.mpr (by exact_mod_cast l1)
    push_cast at f2
    omega

/-- **C74.** Steps are really lost: `simulate(0.3)` with `dt = 0.1` performs two steps, and `simulate(2001 * dt)` with `dt = 0.001` performs 2000. -/
theorem C74_loses_last_step :
    numStepsFl (Fl.of (3 / 10) : Double) (Fl.of (1 / 10)) = 2 ∧
    numStepsFl (((2001 : ℕ) : Double) * Fl.of (1 / 1000)) (Fl.of (1 / 1000)) = 2000 := by decide +kernel

/-- Rounding changes a number by at most the relative error `2^-53`. -/
theorem fl_rel (x : ℚ) : |fl 53 x - x| ≤ |x| / 2 ^ 53 := fl_err x

theorem trip_aux (u r : ℚ) (hu0 : 0 < u) (hu1 : u ≤ 1 / 100) (r0 : 0 ≤ r) : (r + 2 + u) * (1 + u) * (1 + u) + 2 + u ≤ 2 * r + 5 := by
  have h5 : (1 + u) * (1 + u) ≤ 11 / 10 := by nlinarith
  have h6 : (r + 2 + u) * ((1 + u) * (1 + u)) ≤ (r + 2 + u) * (11 / 10) := mul_le_mul_of_nonneg_left h5 (by positivity)
  rw [mul_assoc]
  linarith

set_option maxHeartbeats 2000000 in
/-- **C75.** In doubles, encoding a value and decoding the interval between its two spikes returns the value up to
`(2 * Tmin / Tcod + 5) * 2^-53`. -/
theorem C75_round_trip (e : Encoder Double) (h0 : 0 ≤ e.Tmin) (h1 : 0 < e.Tcod) (v : Double) (hv0 : 0 ≤ v) (hv1 : v ≤ 1) :
    ∃ t : Double, e.encodeValue v = .ok (0, t) ∧
      |(e.decodeInterval (t - 0)).val - v.val| ≤ (2 * (e.Tmin.val / e.Tcod.val) + 5) / 2 ^ 53 := by
  refine ⟨e.Tmin + v * e.Tcod, by simp [Encoder.encodeValue, hv0, hv1], ?_⟩
  have h0' : 0 ≤ e.Tmin.val := h0
  have h1' : 0 < e.Tcod.val := h1
  have v0 : 0 ≤ v.val := hv0
  have v1 : v.val ≤ 1 := hv1
  set A := e.Tmin.val
  set C := e.Tcod.val
  set u : ℚ := 1 / 2 ^ 53 with hu
  have hu0 : 0 < u := by positivity
  have hu1 : u ≤ 1 / 100 := by rw [hu]; norm_num
  have err : ∀ x, |fl 53 x - x| ≤ u * |x| := fun x => by have := fl_rel x; rw [hu]; linarith
  unfold Encoder.decodeInterval
  have hsub0 : (e.Tmin + v * e.Tcod - 0 : Double).val = (e.Tmin + v * e.Tcod).val := by
    rw [Fl.val_sub, Fl.val_zero, sub_zero]; exact (e.Tmin + v * e.Tcod).exact
  rw [Fl.val_div, Fl.val_sub, hsub0, Fl.val_add, Fl.val_mul]
  set a := fl 53 (v.val * C) with ha
  set b := fl 53 (A + a) with hb
  set c := fl 53 (b - A) with hc
  have ea := abs_le.mp (err (v.val * C))
  rw [abs_of_nonneg (by positivity), ← ha] at ea
  have hvC : v.val * C ≤ C := by nlinarith
  have a0 : 0 ≤ a := by rw [ha, ← fl_zero (p := 53)]; exact fl_mono (by positivity)
  have eb := abs_le.mp (err (A + a))
  rw [abs_of_nonneg (by positivity), ← hb] at eb
  have ec := err (b - A)
  rw [← hc] at ec
  have ed := err (c / C)
  set r := A / C with hr
  have hA : A = r * C := by rw [hr, div_mul_cancel₀ _ h1'.ne']
  have r0 : 0 ≤ r := by positivity
  -- everything in units of C
  have ka : |a - v.val * C| ≤ u * C := abs_le.mpr ⟨by nlinarith [ea.1], by nlinarith [ea.2]⟩
  have ka2 : a ≤ (1 + u) * C := by have := (abs_le.mp ka).2; nlinarith
  have kb : |b - A - a| ≤ u * (r + 1 + u) * C := by
    have hle : u * (A + a) ≤ u * (r + 1 + u) * C := by
      rw [hA]; nlinarith
    exact abs_le.mpr ⟨by linarith [eb.1], by linarith [eb.2]⟩
  have kba : |b - A - v.val * C| ≤ u * (r + 2 + u) * C := by
    have e3 : b - A - v.val * C = (b - A - a) + (a - v.val * C) := by ring
    rw [e3]
    refine (abs_add_le _ _).trans ?_
    nlinarith
  have kbA : |b - A| ≤ (1 + u * (r + 2 + u)) * C := by
    have e3 : b - A = (b - A - v.val * C) + v.val * C := by ring
    have : |b - A| ≤ |b - A - v.val * C| + |v.val * C| := by
      calc |b - A| = |(b - A - v.val * C) + v.val * C| := by rw [← e3]
        _ ≤ _ := abs_add_le _ _
    rw [abs_of_nonneg (show 0 ≤ v.val * C by positivity)] at this
    nlinarith
  set q := u * (r + 2 + u) with hq
  have q0 : 0 ≤ q := by positivity
  have kc : |c - v.val * C| ≤ (q + u * (1 + q)) * C := by
    have : |c - v.val * C| ≤ |c - (b - A)| + |b - A - v.val * C| := by
      calc |c - v.val * C| = |(c - (b - A)) + (b - A - v.val * C)| := by ring_nf
        _ ≤ _ := abs_add_le _ _
    have h9 := mul_le_mul_of_nonneg_left kbA hu0.le
    linarith
  have kcC : |c / C - v.val| ≤ q + u * (1 + q) := by
    have : c / C - v.val = (c - v.val * C) / C := by rw [sub_div, mul_div_cancel_right₀ _ h1'.ne']
    rw [this, abs_div, abs_of_pos h1', div_le_iff₀ h1']; exact kc
  set w := q + u * (1 + q) with hw
  have w0 : 0 ≤ w := by positivity
  have kcC2 : |c / C| ≤ 1 + w := by
    have : |c / C| ≤ |c / C - v.val| + |v.val| := by
      calc |c / C| = |(c / C - v.val) + v.val| := by ring_nf
        _ ≤ _ := abs_add_le _ _
    rw [abs_of_nonneg v0] at this; linarith
  have kd : |fl 53 (c / C) - v.val| ≤ w + u * (1 + w) := by
    have : |fl 53 (c / C) - v.val| ≤ |fl 53 (c / C) - c / C| + |c / C - v.val| := by
      calc |fl 53 (c / C) - v.val| = |(fl 53 (c / C) - c / C) + (c / C - v.val)| := by ring_nf
        _ ≤ _ := abs_add_le _ _
    have h9 := mul_le_mul_of_nonneg_left kcC2 hu0.le
    linarith
  refine kd.trans ?_
  have hgoal : (2 * r + 5) / 2 ^ 53 = u * (2 * r + 5) := by rw [hu]; ring
  rw [hgoal]
  -- w + u(1+w) = q + 2u + u*(...)
  have e4 : w + u * (1 + w) = u * ((r + 2 + u) * (1 + u) * (1 + u) + 2 + u) := by rw [hw, hq]; ring
  rw [e4]
  apply mul_le_mul_of_nonneg_left _ hu0.le
  exact trip_aux u r hu0 hu1 r0

/-- **C75.** In doubles, decoding what was encoded preserves the order of values. -/
theorem C75_monotone (e : Encoder Double) (h1 : 0 < e.Tcod) (v w : Double) (hvw : v ≤ w) :
    e.decodeInterval (e.Tmin + v * e.Tcod - 0) ≤ e.decodeInterval (e.Tmin + w * e.Tcod - 0) := by
  have h1' : 0 < e.Tcod.val := h1
  have hvw' : v.val ≤ w.val := hvw
  rw [Fl.le_iff]
  simp only [Encoder.decodeInterval, Fl.val_div, Fl.val_sub, Fl.val_add, Fl.val_mul]
  apply fl_mono
  apply div_le_div_of_nonneg_right _ h1'.le
  apply fl_mono
  apply sub_le_sub_right
  apply fl_mono
  apply sub_le_sub_right
  apply fl_mono
  apply add_le_add_right
  apply fl_mono
  exact mul_le_mul_of_nonneg_right hvw' h1'.le

/-! ## Concrete cases -/

/-- The network `exNet` in doubles. -/
def exNetD : Net Double where
  neurons := [0, 1]
  par := fun _ => ⟨Fl.of 10, Fl.of 100, Fl.of 20, 0⟩
  syns := [⟨0, 1, Fl.of 10, Fl.of 1, .V⟩, ⟨1, 1, Fl.of (-5), Fl.of 1, .V⟩, ⟨1, 0, Fl.of 10, Fl.of 2, .ge⟩]

def exS0D : ℕ → NState Double := fun _ => ⟨0, 0, 0, 0⟩

theorem exNetD_ok : WellFormed exNetD ∧ Resting exNetD exS0D := by
  refine ⟨⟨?_, ?_, ?_, ?_, ?_⟩, ?_⟩
  · simp [exNetD]
  · simp [exNetD]
  · intro n _; show (Fl.of 100 : Double) ≠ 0; decide +kernel
  · intro n _; show (Fl.of 20 : Double) ≠ 0; decide +kernel
  · intro n _; show (0 : Double) < Fl.of 10; decide +kernel
  · intro n _; exact ⟨by show (0 : Double) < Fl.of 10; decide +kernel, rfl, rfl, rfl⟩

/-- The hypotheses of C72 hold in a concrete case: a value and a spike are injected into `exNetD`, with `dt = 0.1`. -/
example : WellFormed exNetD ∧ Resting exNetD exS0D ∧ SetOrder (fun _ l => l) ∧ (0 : Double) < Fl.of (1 / 10) ∧
    (∀ c ∈ ([.value (Fl.of (3 / 10)) 0 0, .spike 0 (Fl.of 2)] : List (Call Double)), CallOK c) := by
  refine ⟨exNetD_ok.1, exNetD_ok.2, id_setOrder, by decide +kernel, ?_⟩
  intro c hc
  simp only [List.mem_cons, List.not_mem_nil, or_false] at hc
  rcases hc with rfl | rfl
  · exact ⟨by decide +kernel, by decide +kernel⟩
  · trivial

/-- The simulation of three spikes injected into `exNetD`: neuron 1 fires in steps 2 and 6 (so the hypotheses of C76 are met by a run). -/
example :
    let st0 := (Sim.init exNetD exS0D).injectAll (sortedHeap _) exNetD [(0, 0), (0, Fl.of (3 / 2)), (0, Fl.of 2)]
    let F := firedOf (sortedHeap _) (fun _ l => l) exNetD (Fl.of (1 / 2)) st0
    F 2 1 = true ∧ F 6 1 = true ∧ F 3 1 = false ∧ F 5 1 = false := by decide +kernel

/-- In `exNetD` neuron 0 is not reached by spikes injected into neuron 7. -/
example : ¬ ReachedR exNetD [(7, 0)] 0 := by
  have h : ∀ n, ReachedR exNetD [(7, 0)] n → False := by
    intro n hn
    induction hn with
    | direct hq hs hp =>
      simp only [List.mem_cons, List.not_mem_nil, or_false] at hq
      subst hq
      simp only [exNetD, List.mem_cons, List.not_mem_nil, or_false] at hs
      rcases hs with rfl | rfl | rfl <;> simp at hp
    | step _ _ ih => exact ih
  exact h 0

/-- The hypotheses of C73: step 281, delay 1.0, `dt = 0.001`. -/
example : (0 : Double) < Fl.of (1 / 1000) ∧ arrInt (Fl.of (1 / 1000) : Double).val 281 (1 : Double).val < 2 ^ 50 := by
  constructor <;> decide +kernel

/-- The hypotheses of C75: the default encoder and the value 0.3, which does not come back exactly. -/
example : (0 : Double) ≤ Fl.of 10 ∧ (0 : Double) < Fl.of 100 ∧ 0 ≤ (Fl.of (3 / 10) : Double) ∧ (Fl.of (3 / 10) : Double) ≤ 1 := by
  decide +kernel

end Doubles
end Axon
