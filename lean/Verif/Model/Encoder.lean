import Verif.Model.Py
import Mathlib.Algebra.Field.Defs

namespace Axon
variable {K : Type*}

/-- axon_sdk/primitives/encoders.py:1-5 `DataEncoder.__init__`; `Tmax` is derived (line 5). -/
structure Encoder (K : Type*) where
  Tmin : K
  Tcod : K

/-- encoders.py:5 `self.Tmax = Tmin + Tcod`. -/
def Encoder.Tmax [Add K] (e : Encoder K) : K := e.Tmin + e.Tcod

/-- encoders.py:7-10 `encode_value`; the `assert` of line 8 is the error branch. -/
def Encoder.encodeValue [Add K] [Mul K] [Zero K] [One K] [LE K] [DecidableLE K]
    (e : Encoder K) (value : K) : Except PyErr (K × K) :=
  if 0 ≤ value ∧ value ≤ 1 then .ok (0, e.Tmin + value * e.Tcod) else .error .assertionError

/-- encoders.py:12-14 `decode_interval`.  A zero `Tcod` raises ZeroDivisionError in Python. -/
def Encoder.decodeInterval [Sub K] [Div K] (e : Encoder K) (interval : K) : K :=
  (interval - e.Tmin) / e.Tcod

end Axon
