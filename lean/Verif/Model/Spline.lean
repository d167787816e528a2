import Verif.Model.Mppt

/-!
# The values of up-sampled tables

Models the values that the converters of IVonne recordings hand to the writer (`shepherd_data/shepherd_data/ivonne.py` l.199-235 and l.245-284); their times are in `Model/Mppt`.
Numbers are real numbers.  Simplified: rows are at equal distances of `u` sample intervals.  `interpolate(method="cubic")` of pandas keeps the values that are there and fills the
others by `scipy.interpolate.interp1d(kind="cubic")`, which is a parameter here: `cubic column i s` is its value between the rows `i` and `i + 1`, at the fraction `s` of their distance.
-/

namespace Verif.Model
open Verif.Py

/-- A column of a slice after `resample(...).interpolate(method="cubic").iloc[:-1]` (ivonne.py l.226-229, l.275-278): `u` samples for each row but the last. -/
noncomputable def fillColumn (cubic : List ℝ → ℕ → ℝ → ℝ) (u : ℕ) (column : List ℝ) : List ℝ :=
  (List.range ((column.length - 1) * u)).map (fun j => if j % u = 0 then column.getD (j / u) 0 else cubic column (j / u) ((j % u : ℕ) / u))

/-- One pass over the slice `df.iloc[idx : top + 1]` (ivonne.py l.217-234): what is found for each row, up-sampled; missing values need four rows. -/
noncomputable def sampleSlice (cubic : List ℝ → ℕ → ℝ → ℝ) (track : IvCoeffs → Except PyErr (ℝ × ℝ)) (rows : List IvCoeffs) (u idx top : ℕ) : Except PyErr (List (ℝ × ℝ)) :=
  match trackTable track ((rows.drop idx).take (top + 1 - idx)) with
  | .error e => .error e
  | .ok l =>
    if 2 ≤ u ∧ 2 ≤ l.length ∧ l.length ≤ 3 then .error .valueError
    else .ok ((fillColumn cubic u (l.map (·.1))).zip (fillColumn cubic u (l.map (·.2))))

/-- The loop (ivonne.py l.213-235) over `d` rows in steps of `c`; `fuel` bounds the number of passes. -/
noncomputable def sampleLoop (cubic : List ℝ → ℕ → ℝ → ℝ) (track : IvCoeffs → Except PyErr (ℝ × ℝ)) (rows : List IvCoeffs) (u d c : ℕ) : ℕ → ℕ → List (ℝ × ℝ) × Except PyErr Unit
  | 0, _ => ([], .ok ())
  | fuel + 1, idx =>
    if idx < d then
      match sampleSlice cubic track rows u idx (min (idx + c) d) with
      | .error e => ([], .error e)
      | .ok l => (l ++ (sampleLoop cubic track rows u d c fuel (idx + c)).1, (sampleLoop cubic track rows u d c fuel (idx + c)).2)
    else ([], .ok ())

/-- `convert_2_ivsamples` (ivonne.py l.199-235) with a tracker, for a table with `u` sample intervals between rows of which `d` are wanted, and blocks of `maxElements` samples: the pairs of
voltage and current handed to the writer and whether the call raised. -/
noncomputable def convertSamples (cubic : List ℝ → ℕ → ℝ → ℝ) (track : IvCoeffs → Except PyErr (ℝ × ℝ)) (rows : List IvCoeffs) (u d maxElements : ℕ) : List (ℝ × ℝ) × Except PyErr Unit :=
  if u = 0 then ([], .error .zeroDivisionError)
  else if maxElements / u = 0 then ([], .error .valueError)
  else sampleLoop cubic track rows u d (maxElements / u) d 0

/-- `upsample_2_isc_voc` (ivonne.py l.245-284): open circuit voltage, limited to `vMax`, and short circuit current of each row. -/
noncomputable def upsampleIscVoc (cubic : List ℝ → ℕ → ℝ → ℝ) (vMax : ℝ) (rows : List IvCoeffs) (u d maxElements : ℕ) : List (ℝ × ℝ) × Except PyErr Unit :=
  convertSamples cubic (fun k => .ok (clippedVoc vMax k, getIsc k)) rows u d maxElements

/-- One pass of `convert_2_ivcurves` over the slice `df.iloc[idx : top + 1]` (ivonne.py l.136-149): the coefficients are up-sampled, `u` curves for each row but the last, and each gives a curve of currents. -/
noncomputable def curveSlice (cubic : List ℝ → ℕ → ℝ → ℝ) (vMax : ℝ) (pts : ℕ) (rows : List IvCoeffs) (u idx top : ℕ) : Except PyErr (List (List ℝ)) :=
  let l := (rows.drop idx).take (top + 1 - idx)
  if 2 ≤ u ∧ 2 ≤ l.length ∧ l.length ≤ 3 then .error .valueError
  else .ok ((List.range ((l.length - 1) * u)).map (fun j =>
    (vProto vMax pts).map (ivModel ⟨(fillColumn cubic u (l.map (·.a))).getD j 0, (fillColumn cubic u (l.map (·.b))).getD j 0, (fillColumn cubic u (l.map (·.c))).getD j 0⟩)))

/-- The loop of `convert_2_ivcurves` (ivonne.py l.133-149) over `d` rows in steps of `c`. -/
noncomputable def curveLoop (cubic : List ℝ → ℕ → ℝ → ℝ) (vMax : ℝ) (pts : ℕ) (rows : List IvCoeffs) (u d c : ℕ) : ℕ → ℕ → List (List ℝ) × Except PyErr Unit
  | 0, _ => ([], .ok ())
  | fuel + 1, idx =>
    if idx < d then
      match curveSlice cubic vMax pts rows u idx (min (idx + c) d) with
      | .error e => ([], .error e)
      | .ok l => (l ++ (curveLoop cubic vMax pts rows u d c fuel (idx + c)).1, (curveLoop cubic vMax pts rows u d c fuel (idx + c)).2)
    else ([], .ok ())

end Verif.Model
