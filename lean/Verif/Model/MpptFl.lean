import Verif.Model.Mppt
import Verif.Py.Num

/-!
# The trackers in floating point

Models `shepherd_data/shepherd_data/mppt.py` l.15-116 once more, with a rounding after each operation.  The exponential function of numpy is a parameter `expf`.

Simplifications: no infinities and NaN (an overflow of `exp` gives a current of minus infinity, which becomes 0 like every negative current).
-/

namespace Verif.Model
open Verif.Py

/-- The coefficients of the cell as floats (mppt.py l.22-24). -/
structure FlCoeffs where
  a : ℚ
  b : ℚ
  c : ℚ

section
variable (fl expf : ℚ → ℚ)

/-- `iv_model` (mppt.py l.15-30) for one voltage. -/
def ivModelFl (k : FlCoeffs) (v : ℚ) : ℚ :=
  let i := fl (k.a - fl (k.b * fl (expf (fl (k.c * v)) - 1)))
  if i < 0 then 0 else i

/-- Member `j` of `np.linspace(0, v_max, n)` (mppt.py l.52): `j * step` with `step = v_max / (n - 1)`, the last member of two or more is `v_max`; if `step` is rounded to zero
`j / (n - 1) * v_max`. -/
def gridFl (vMax : ℚ) (n j : ℕ) : ℚ :=
  if 1 < n ∧ j + 1 = n then vMax
  else if fl (vMax / ((n : ℚ) - 1)) = 0 then fl (fl ((j : ℚ) / ((n : ℚ) - 1)) * vMax)
  else fl ((j : ℚ) * fl (vMax / ((n : ℚ) - 1)))

/-- `self.v_proto` (mppt.py l.52). -/
def vProtoFl (vMax : ℚ) (n : ℕ) : List ℚ := (List.range n).map (gridFl fl vMax n)

/-- The first position of the largest value, given the best one so far.  Used in mppt.py l.84, l.113. -/
def argmaxFlFrom : ℕ → ℕ → ℚ → List ℚ → ℕ
  | _, best, _, [] => best
  | pos, best, val, x :: t => if val < x then argmaxFlFrom (pos + 1) pos x t else argmaxFlFrom (pos + 1) best val t

/-- `np.argmax`.  Used in mppt.py l.84, l.113. -/
def argmaxFl : List ℚ → Except PyErr ℕ
  | [] => .error .valueError
  | x :: t => .ok (argmaxFlFrom 1 0 x t)

/-- `OptimalTracker.process` for one row (mppt.py l.105-116): voltage and current. -/
def optimalTrackerFl (vMax : ℚ) (n : ℕ) (k : FlCoeffs) : Except PyErr (ℚ × ℚ) :=
  let v := vProtoFl fl vMax n
  let i := v.map (ivModelFl fl expf k)
  match argmaxFl (List.zipWith (fun x y => fl (x * y)) v i) with
  | .error e => .error e
  | .ok pos => .ok (v.getD pos 0, i.getD pos 0)

/-- `OpenCircuitTracker.process` for one row with a value `voc` (mppt.py l.75-90). -/
def ocTrackerFl (vMax : ℚ) (n : ℕ) (ratio : ℚ) (k : FlCoeffs) (voc : ℚ) : Except PyErr (ℚ × ℚ) :=
  let v := vProtoFl fl vMax n
  let i := v.map (ivModelFl fl expf k)
  match argmaxFl (v.filter (fun x => decide (x < fl (ratio * voc)))) with
  | .error e => .error e
  | .ok pos => .ok (v.getD pos 0, i.getD pos 0)

end

end Verif.Model
