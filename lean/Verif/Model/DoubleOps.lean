import Verif.Proofs.Double

/-! # Arithmetic on Python floats: exact operation, then rounding -/
namespace Axon

/-- A float with `p` significant bits (IEEE 754 binary64 has 53): a number that rounding leaves alone.  All numbers of /repo are floats. -/
structure Fl (p : ℕ) where
  val : ℚ
  exact : fl p val = val
  deriving DecidableEq

/-- Python's `float`, the type of every number in the repository (e.g. encoders.py:2-14, elements.py:54-75, simulator.py:88-89). -/
abbrev Double := Fl 53

variable {p : ℕ} [NeZero p]

/-- The float nearest to a rational: the value of a literal (e.g. encoders.py:2 `Tmin=10.0`), or of the result of an operation
(e.g. elements.py:66,70). -/
def Fl.of (x : ℚ) : Fl p := ⟨fl p x, fl_idem x⟩

theorem Fl.val_injective : Function.Injective (Fl.val : Fl p → ℚ) := by
  rintro ⟨x, hx⟩ ⟨y, hy⟩ h; cases h; rfl

/-- Comparisons of floats are exact (e.g. elements.py:73 `self.V >= self.Vt`, events.py:46). -/
instance : LinearOrder (Fl p) := LinearOrder.lift' Fl.val Fl.val_injective

/-- IEEE 754: every operation returns the rounded exact result (division by zero raises in Python; the model's callers test for it).
These are the `+ - * /` of e.g. encoders.py:5,9,13, elements.py:66,70, simulator.py:61,65,88,89. -/
instance : Zero (Fl p) := ⟨⟨0, fl_zero⟩⟩
instance : One (Fl p) := ⟨⟨1, by simpa using fl_nat (p := p) 1 (one_le_pow₀ (by norm_num))⟩⟩
instance : Add (Fl p) := ⟨fun x y => Fl.of (x.val + y.val)⟩
instance : Sub (Fl p) := ⟨fun x y => Fl.of (x.val - y.val)⟩
instance : Mul (Fl p) := ⟨fun x y => Fl.of (x.val * y.val)⟩
instance : Div (Fl p) := ⟨fun x y => Fl.of (x.val / y.val)⟩
instance : Neg (Fl p) := ⟨fun x => ⟨-x.val, by rw [fl_neg, x.exact]⟩⟩
/-- Python converts the `int` operand of `(i + 1) * self.dt` (simulator.py:89) to the nearest float. -/
instance : NatCast (Fl p) := ⟨fun n => Fl.of (n : ℚ)⟩

theorem Fl.val_zero : (0 : Fl p).val = 0 := rfl
theorem Fl.val_one : (1 : Fl p).val = 1 := rfl
theorem Fl.val_add (x y : Fl p) : (x + y).val = fl p (x.val + y.val) := rfl
theorem Fl.val_sub (x y : Fl p) : (x - y).val = fl p (x.val - y.val) := rfl
theorem Fl.val_mul (x y : Fl p) : (x * y).val = fl p (x.val * y.val) := rfl
theorem Fl.val_div (x y : Fl p) : (x / y).val = fl p (x.val / y.val) := rfl
theorem Fl.val_nat (n : ℕ) : ((n : ℕ) : Fl p).val = fl p n := rfl
theorem Fl.le_iff (x y : Fl p) : x ≤ y ↔ x.val ≤ y.val := Iff.rfl
theorem Fl.lt_iff (x y : Fl p) : x < y ↔ x.val < y.val := Iff.rfl

/-- Floats have the few laws the simulator (simulator.py:52-131) needs. -/
instance : Spec.RoundedArith (Fl p) where
  add_zero x := Fl.val_injective (by rw [Fl.val_add, Fl.val_zero, add_zero, x.exact])
  mul_zero x := Fl.val_injective (by rw [Fl.val_mul, Fl.val_zero, mul_zero, fl_zero])
  zero_div x := Fl.val_injective (by rw [Fl.val_div, Fl.val_zero, zero_div, fl_zero])
  ticks dt hdt i j h := by
    rw [Fl.le_iff, Fl.val_mul, Fl.val_mul, Fl.val_nat, Fl.val_nat]
    apply fl_mono
    apply mul_le_mul_of_nonneg_right
    · exact fl_mono (by exact_mod_cast h)
    · exact le_of_lt hdt

/-- simulator.py:88 `int(simulation_time / self.dt)` in floats, used as the argument of `range`. -/
def numStepsFl (T dt : Fl p) : ℕ := ⌊(T / dt).val⌋.toNat

/-- simulator.py:84-131 `simulate` in floats (see `Sim.simulate`). -/
def Sim.simulateFl (H : EventHeap (Fl p)) (ord : ℕ → List ℕ → List ℕ) (net : Net (Fl p)) (dt T : Fl p) (st : Sim (Fl p)) :
    Except PyErr (Sim (Fl p)) :=
  if dt = 0 then .error .zeroDivision
  else
    match simLoop H ord net dt (numStepsFl T dt) (st, []) with
    | .error e => .error e
    | .ok r => .ok r.1

end Axon
