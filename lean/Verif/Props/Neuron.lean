import Verif.Model.Elements
import Mathlib.Tactic.Ring
import Mathlib.Tactic.FieldSimp
import Mathlib.Tactic.Linarith
import Mathlib.Algebra.Order.Field.Basic
import Mathlib.Analysis.SpecialFunctions.ExpDeriv

/-! # C10–C13: neuron dynamics -/
set_option linter.unusedSectionVars false
namespace Axon
section Field
variable {K : Type*} [Field K] [LinearOrder K] [IsStrictOrderedRing K]

/-- The state after `n` calls of `update_and_spike(dt)` without events and without reset. -/
def freeRun (p : Params K) (dt : K) (n : ℕ) (s : NState K) : NState K :=
  (fun s => (updateAndSpike p dt s).1)^[n] s

/-- **C10.** Closed form of the time-stepped membrane dynamics, gate open. -/
theorem C10_closed_form_open (p : Params K) (dt : K) (s : NState K) (hm : p.tm ≠ 0) (hf : p.tf ≠ 0)
    (hg : s.gate ≠ 0) (n : ℕ) :
    freeRun p dt n s =
      ⟨s.V + n * dt * s.ge / p.tm + s.gate * s.gf * (p.tf / p.tm) * (1 - (1 - dt / p.tf) ^ n), s.ge,
        s.gf * (1 - dt / p.tf) ^ n, s.gate⟩ := by
  unfold freeRun
  induction n with
  | zero => ext <;> simp
  | succ n ih =>
    rw [Function.iterate_succ_apply', ih]
    unfold updateAndSpike
    ext
    · simp only [Nat.cast_add, Nat.cast_one]
      rw [pow_succ]
      field_simp
      ring
    · simp
    · simp only [ne_eq, hg, not_false_eq_true, if_true]
      rw [pow_succ]; ring
    · simp

/-- **C10.** Closed form, gate closed: the voltage is a ramp and `gf` does not decay. -/
theorem C10_closed_form_closed (p : Params K) (dt : K) (s : NState K) (hg : s.gate = 0) (n : ℕ) :
    freeRun p dt n s = ⟨s.V + n * dt * s.ge / p.tm, s.ge, s.gf, s.gate⟩ := by
  unfold freeRun
  induction n with
  | zero => ext <;> simp
  | succ n ih =>
    rw [Function.iterate_succ_apply', ih]
    unfold updateAndSpike
    ext
    · simp only [hg, Nat.cast_add, Nat.cast_one]; ring
    · simp
    · simp [hg]
    · simp

/-- **C10.** A step reports a spike iff the updated voltage has reached the threshold. -/
theorem C10_spike_iff (p : Params K) (dt : K) (s : NState K) :
    (updateAndSpike p dt s).2 = true ↔ p.Vt ≤ (updateAndSpike p dt s).1.V := by
  simp [updateAndSpike]

example : (⟨10, 100, 20, 0⟩ : Params ℚ).tm ≠ 0 ∧ (⟨10, 100, 20, 0⟩ : Params ℚ).tf ≠ 0 ∧
    (⟨0, 1, 50, 1⟩ : NState ℚ).gate ≠ 0 ∧
    freeRun ⟨10, 100, 20, 0⟩ (1 : ℚ) 2 ⟨0, 1, 50, 1⟩ = ⟨1.995 - 1, 1, 45.125, 1⟩ := by
  refine ⟨by norm_num, by norm_num, by norm_num, ?_⟩
  ext <;> norm_num [freeRun, updateAndSpike, Function.iterate_succ_apply']

end Field

/-! ## C11 -/
section Recv
variable {K : Type*} [AddCommMonoid K]

/-- **C11.** A synaptic event adds its weight to exactly the variable its type names; an unknown type
raises ValueError (and, there being no result state, changes nothing). -/
theorem C11_touches_one_variable (s : NState K) (w : K) :
    receive s .V w = .ok ⟨s.V + w, s.ge, s.gf, s.gate⟩ ∧
    receive s .ge w = .ok ⟨s.V, s.ge + w, s.gf, s.gate⟩ ∧
    receive s .gf w = .ok ⟨s.V, s.ge, s.gf + w, s.gate⟩ ∧
    receive s .gate w = .ok ⟨s.V, s.ge, s.gf, s.gate + w⟩ ∧
    ∀ x, receive s (.other x) w = .error .valueError := by
  simp [receive]

/-- **C11.** A batch of events gives the same result (state or error) in every order. -/
theorem C11_batch_order_irrelevant (s : NState K) (l₁ l₂ : List (SynKind × K)) (h : l₁.Perm l₂) :
    l₁.foldlM (fun s e => receive s e.1 e.2) s = l₂.foldlM (fun s e => receive s e.1 e.2) s := by
  induction h generalizing s with
  | nil => rfl
  | cons x _ ih =>
    simp only [List.foldlM_cons]
    congr 1; funext s'; exact ih s'
  | swap x y l =>
    simp only [List.foldlM_cons]
    obtain ⟨kx, wx⟩ := x
    obtain ⟨ky, wy⟩ := y
    cases kx <;> cases ky <;>
      simp [receive, bind, Except.bind, add_right_comm]
  | trans _ _ ih1 ih2 => exact (ih1 s).trans (ih2 s)

example : [(SynKind.V, (3 : ℤ)), (.ge, 1), (.V, -1)].foldlM (fun s e => receive s e.1 e.2)
    (⟨0, 0, 0, 0⟩ : NState ℤ) = .ok ⟨2, 1, 0, 0⟩ := by decide

end Recv

/-! ## C12 -/
section Flow

/-- The state after fast-forwarding (what elements.py:134 assigns). -/
noncomputable def ffState (p : Params ℝ) (s : NState ℝ) (t : ℝ) : NState ℝ :=
  { s with V := (fastForward Real.exp p s t).1, gf := (fastForward Real.exp p s t).2 }

/-- **C12.** Fast-forwarding by `0` is the identity, and by `a` then `b` is by `a + b`. -/
theorem C12_flow (p : Params ℝ) (s : NState ℝ) (a b : ℝ) :
    ffState p s 0 = s ∧ ffState p (ffState p s a) b = ffState p s (a + b) := by
  constructor
  · ext <;> simp [ffState, fastForward]
  · have hexp : Real.exp (-(a + b) / p.tf) = Real.exp (-a / p.tf) * Real.exp (-b / p.tf) := by
      rw [← Real.exp_add]; congr 1; ring
    ext
    · by_cases hg : s.gate = 0
      · simp [ffState, fastForward, hg]; ring
      · simp only [ffState, fastForward, ne_eq, hg, not_false_eq_true, if_true, hexp]
        ring
    · simp [ffState]
    · simp only [ffState, fastForward, hexp]; ring
    · simp [ffState]

/-- **C12.** For `gate ∈ {0,1}` the fast-forwarded voltage and `gf` solve
`tm V' = ge + gate gf`, `tf gf' = -gf` at every instant. -/
theorem C12_solves_ode (p : Params ℝ) (s : NState ℝ) (hf : p.tf ≠ 0)
    (hg : s.gate = 0 ∨ s.gate = 1) (t : ℝ) :
    HasDerivAt (fun t => (ffState p s t).V)
      (((ffState p s t).ge + (ffState p s t).gate * (ffState p s t).gf) / p.tm) t ∧
    HasDerivAt (fun t => (ffState p s t).gf) (-(ffState p s t).gf / p.tf) t := by
  have hd : HasDerivAt (fun t : ℝ => Real.exp (-t / p.tf)) (Real.exp (-t / p.tf) * (-1 / p.tf)) t :=
    ((hasDerivAt_id t).neg.div_const p.tf).exp
  constructor
  · rcases hg with hg | hg
    · have h1 : HasDerivAt (fun t : ℝ => s.V + s.ge / p.tm * t) (s.ge / p.tm * 1) t :=
        ((hasDerivAt_id t).const_mul _).const_add _
      simp only [ffState, fastForward, hg, ne_eq, not_true_eq_false, if_false]
      convert h1 using 1
      ring
    · have h1 : HasDerivAt (fun t : ℝ => s.V + s.ge / p.tm * t
          + s.gf * p.tf / p.tm * (1 - Real.exp (-t / p.tf)))
          (s.ge / p.tm * 1 + s.gf * p.tf / p.tm * (-(Real.exp (-t / p.tf) * (-1 / p.tf)))) t :=
        (((hasDerivAt_id t).const_mul _).const_add _).add ((hd.const_sub 1).const_mul _)
      simp only [ffState, fastForward, hg, ne_eq, one_ne_zero, not_false_eq_true, if_true]
      convert h1 using 1
      field_simp
  · have h1 : HasDerivAt (fun t : ℝ => s.gf * Real.exp (-t / p.tf))
        (s.gf * (Real.exp (-t / p.tf) * (-1 / p.tf))) t := hd.const_mul _
    simp only [ffState, fastForward]
    convert h1 using 1
    ring

/-- The restriction `gate ∈ {0,1}` is needed: with `gate = -1` (reachable through `wi`-weighted gate
synapses) fast-forwarding still integrates `+gf`, while the prediction
(predictive_simulator.py:103) and the time-stepped engine use `-gf`. -/
theorem C12_gate_sign_ignored :
    (ffState ⟨10, 1, 1, 0⟩ ⟨0, 0, 1, -1⟩ 1).V > 0 ∧
    (updateAndSpike ⟨10, 1, 1, 0⟩ (1 : ℝ) ⟨0, 0, 1, -1⟩).1.V < 0 := by
  constructor
  · simp [ffState, fastForward]
  · norm_num [updateAndSpike]

example : (⟨10, 100, 20, 0⟩ : Params ℝ).tf ≠ 0 ∧
    ((⟨1, 2, 3, 1⟩ : NState ℝ).gate = 0 ∨ (⟨1, 2, 3, 1⟩ : NState ℝ).gate = 1) := by norm_num

end Flow

/-! ## C13 -/
section Reset
variable {K : Type*} [Field K] [LinearOrder K] [IsStrictOrderedRing K]

/-- **C13.** `reset` puts a neuron to `V = Vreset`, `ge = gf = gate = 0`; any number of time steps of
any length then changes nothing and no step spikes (if `Vreset < Vt`). -/
theorem C13_reset_inert_stepped (p : Params K) (hV : p.Vreset < p.Vt) (dts : List K) :
    (NState.reset p).V = p.Vreset ∧ (NState.reset p).ge = 0 ∧ (NState.reset p).gf = 0 ∧
    (NState.reset p).gate = 0 ∧
    dts.foldl (fun s dt => (updateAndSpike p dt s).1) (NState.reset p) = NState.reset p ∧
    ∀ dt, (updateAndSpike p dt (NState.reset p)).2 = false := by
  have h1 : ∀ dt, (updateAndSpike p dt (NState.reset p)).1 = NState.reset p := by
    intro dt; ext <;> simp [updateAndSpike, NState.reset]
  refine ⟨rfl, rfl, rfl, rfl, ?_, ?_⟩
  · induction dts with
    | nil => rfl
    | cons a l ih => rw [List.foldl_cons, h1]; exact ih
  · intro dt
    simp [updateAndSpike, NState.reset, hV]

/-- **C13.** Fast-forwarding a reset neuron over any interval, and hence receiving an event with any
(stale) last-event time, is the same as receiving it directly - for every function in place of
`math.exp`. -/
theorem C13_reset_inert_predictive (exp : K → K) (p : Params K) (hm : p.tm ≠ 0) (hf : p.tf ≠ 0)
    (last t0 : K) (k : SynKind) (w : K) :
    (∀ t, fastForward exp p (NState.reset p) t = ((NState.reset p).V, (NState.reset p).gf)) ∧
    receivePred exp p (NState.reset p) last k w t0
      = (receive (NState.reset p) k w).map (fun s => (s, t0)) := by
  have h1 : ∀ t, fastForward exp p (NState.reset p) t = ((NState.reset p).V, (NState.reset p).gf) := by
    intro t; simp [fastForward, NState.reset]
  refine ⟨h1, ?_⟩
  unfold receivePred
  simp only [hm, hf, or_self, and_false, if_false, h1]
  by_cases h : t0 = last
  · subst h
    simp only [ne_eq, not_true_eq_false, if_false]
    cases receive (NState.reset p) k w <;> rfl
  · simp only [ne_eq, h, not_false_eq_true, if_true]
    cases receive (NState.reset p) k w <;> rfl

example : (⟨10, 100, 20, 0⟩ : Params ℚ).Vreset < (⟨10, 100, 20, 0⟩ : Params ℚ).Vt := by norm_num

end Reset
end Axon
