import Verif.Py.Err
import Mathlib.Analysis.SpecialFunctions.Log.Basic
import Mathlib.Algebra.Order.Floor.Defs

/-!
# Harvesting from a model of a solar cell

Models `shepherd_data/shepherd_data/mppt.py` l.16-115 and `shepherd_data/shepherd_data/ivonne.py` l.33-40 (`get_voc`, `get_isc`), l.54-66 and l.103-284 (the loops of the converters).

Numbers are real numbers here, because the model of the cell uses the exponential function: rounding is not modelled in this file.  A table is a list of rows, a curve is a list
of values.  The values of the cubic interpolation of pandas are in `Model/Spline`; here are only the times of its samples and when it raises.
-/

namespace Verif.Model
open Verif.Py

/-- The coefficients of the cell at one time (a row of the table).  Used in mppt.py l.15-30. -/
structure IvCoeffs where
  a : ℝ
  b : ℝ
  c : ℝ

/-- `iv_model` (mppt.py l.16-32) for one voltage. -/
noncomputable def ivModel (k : IvCoeffs) (v : ℝ) : ℝ := max 0 (k.a - k.b * (Real.exp (k.c * v) - 1))

/-- `get_voc` (ivonne.py l.33-35) -/
noncomputable def getVoc (k : IvCoeffs) : ℝ := Real.log (k.a / k.b + 1) / k.c
/-- `get_isc` (ivonne.py l.38-40) -/
def getIsc (k : IvCoeffs) : ℝ := k.a
/-- Voltages are limited to what shepherd can handle (ivonne.py l.219-220). -/
noncomputable def clippedVoc (vMax : ℝ) (k : IvCoeffs) : ℝ := if vMax ≤ getVoc k then vMax else getVoc k

/-- `np.linspace(0, v_max, n)` (mppt.py l.53) -/
noncomputable def vProto (vMax : ℝ) (n : ℕ) : List ℝ := (List.range n).map (fun i : ℕ => (i : ℝ) * (vMax / ((n : ℝ) - 1)))

/-- The first position of the largest value, given the best one so far: position and value.  Used in mppt.py l.105-116. -/
noncomputable def argmaxFrom : ℕ → ℕ → ℝ → List ℝ → ℕ
  | _, best, _, [] => best
  | pos, best, val, x :: t => open Classical in if val < x then argmaxFrom (pos + 1) pos x t else argmaxFrom (pos + 1) best val t

/-- `np.argmax`.  Used in mppt.py l.105-116. -/
noncomputable def argmax : List ℝ → Except PyErr ℕ
  | [] => .error .valueError
  | x :: t => .ok (argmaxFrom 1 0 x t)

/-- `OptimalTracker.process` for one row (mppt.py l.104-115): voltage and current. -/
noncomputable def optimalTracker (vMax : ℝ) (n : ℕ) (k : IvCoeffs) : Except PyErr (ℝ × ℝ) :=
  let v := vProto vMax n
  let i := v.map (ivModel k)
  match argmax (List.zipWith (· * ·) v i) with
  | .error e => .error e
  | .ok pos => .ok (v.getD pos 0, i.getD pos 0)

/-- `find_oc` (mppt.py l.35-41): the voltage at the first current below the limit, at the first position if there is none; `IndexError` without currents. -/
noncomputable def findOc (v i : List ℝ) (ratio : ℝ) : Except PyErr ℝ :=
  match i with
  | [] => .error .indexError
  | i0 :: _ => open Classical in .ok (v.getD (match i.findIdx? (fun x => decide (x < i0 * ratio)) with | some p => p | none => 0) 0)

/-- `OpenCircuitTracker.process` for one row (mppt.py l.75-90).  Without a column for `voc` the code asks for a column "ivcurve" that does not exist. -/
noncomputable def ocTracker (vMax : ℝ) (n : ℕ) (ratio : ℝ) (k : IvCoeffs) (voc : Option ℝ) : Except PyErr (ℝ × ℝ) :=
  let v := vProto vMax n
  let i := v.map (ivModel k)
  match voc with
  | none => .error .keyError
  | some voc =>
    open Classical in
    match argmax (v.filter (fun x => decide (x < ratio * voc))) with
    | .error e => .error e
    | .ok pos => .ok (v.getD pos 0, i.getD pos 0)

/-- A tracker on a table: the first exception ends it.  Used in `process`, mppt.py l.55-116. -/
noncomputable def trackTable (track : IvCoeffs → Except PyErr (ℝ × ℝ)) : List IvCoeffs → Except PyErr (List (ℝ × ℝ))
  | [] => .ok []
  | k :: t =>
    match track k with
    | .error e => .error e
    | .ok r => (trackTable track t).map (fun l => r :: l)

/-! ## Loops of the converters -/

/-- The rows that are converted (ivonne.py l.200-204): `runtime` and `duration` in seconds. -/
noncomputable def rowsWanted (rows : ℕ) (rate : ℤ) (runtime : ℝ) (duration : Option ℝ) : ℤ :=
  match duration with
  | some d => open Classical in if d < runtime then min (rows : ℤ) (if 0 ≤ d * rate then ⌊d * rate⌋ else ⌈d * rate⌉) else rows
  | none => rows

/-- One pass over the slice `df.iloc[idx : top + 1]` of a table with a row for each of `times` (ivonne.py l.217-230): the times of its samples, all in ns.  The up-sampled slice
has a sample every `step` from its first to its last row, rows that are not at such a time are dropped by `resample`; `interpolate(method="cubic")` does nothing if no
sample is missing and needs four rows otherwise (`scipy.interpolate.interp1d`, the `ValueError` of that library); the last sample is dropped. -/
def upsampleSlice (times : List ℕ) (step idx top : ℕ) : Except PyErr (List ℕ) :=
  match (times.drop idx).take (top + 1 - idx) with
  | [] => .ok []
  | r :: t =>
    let q := (t.getLastD r - r) / step
    let known := ((r :: t).filter (fun x => (x - r) % step = 0)).length
    if known < q + 1 ∧ known < 4 then .error .valueError
    else .ok ((List.range (q + 1)).dropLast.map (fun j => r + j * step))

/-- The loop (ivonne.py l.213-235) over `d` rows in steps of `c`; `fuel` bounds the number of passes.  The samples written so far and, if there is one, the exception. -/
def upsampleLoop (times : List ℕ) (step d c : ℕ) : ℕ → ℕ → List ℕ × Except PyErr Unit
  | 0, _ => ([], .ok ())
  | fuel + 1, idx =>
    if idx < d then
      match upsampleSlice times step idx (min (idx + c) d) with
      | .error e => ([], .error e)
      | .ok l => (l ++ (upsampleLoop times step d c fuel (idx + c)).1, (upsampleLoop times step d c fuel (idx + c)).2)
    else ([], .ok ())

/-- A converter (ivonne.py l.199-235, l.245-284): a table with rows at `times` of which `d` are wanted, sample intervals in ns of table and output, blocks of `maxElements`.  The result
is the times of all samples in the output, `none` if there is no output yet, and whether the call raised. `step` is the interval of the output (l.210), that of whole curves in
`convert_2_ivcurves` (l.132, l.103-150). -/
def upsampleTable (existing : Option (List ℕ)) (times : List ℕ) (d inNs outNs step maxElements : ℕ) : Option (List ℕ) × Except PyErr Unit :=
  match existing with
  | some l => (some l, .ok ())
  | none =>
    let u := inNs / outNs
    if u = 0 then (some [], .error .zeroDivisionError)
    else
      let c := maxElements / u
      if c = 0 then (some [], .error .valueError)
      else (some (upsampleLoop times step d c d 0).1, (upsampleLoop times step d c d 0).2)

/-- The time stamps written for the curves at `times` (ivonne.py l.146-149): every curve has `pts` samples, one every `outNs`. -/
def curveStamps (outNs pts : ℕ) (times : List ℕ) : List ℕ := times.flatMap (fun t => (List.range pts).map (fun k => t + k * outNs))

end Verif.Model
