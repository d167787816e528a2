import Verif.Py.Num
import Verif.Py.Err

/-!
# Models in files, GPIO events

Models `ShpModel.to_file` and `from_file` (`shepherd_core/shepherd_core/data_models/base/shepherd.py` l.124-164) with the representation of time spans (l.33-35), and
`GpioEvent.get_events` (`shepherd_core/shepherd_core/data_models/experiment/observer_features.py` l.98-119).

Simplified: values other than time spans and sub-models are opaque and survive YAML unchanged (strings, numbers, booleans, dates); validators accept values that were accepted before
and leave them as they are.
-/

namespace Verif.Model
open Verif.Py

/-! ## Time spans -/

/-- `timedelta(seconds=s)`: in micro-seconds; at most 999999999 days and one day less one micro-second.  Used in `time2int`, base/shepherd.py l.33-35. -/
def ofSeconds (s : ℤ) : Except PyErr ℤ :=
  if s < -86399999913600 ∨ 86399999999999 < s then .error .valueError else .ok (s * 1000000)

/-- The time spans that exist.  Used in `time2int`, base/shepherd.py l.33-35. -/
def IsSpan (us : ℤ) : Prop := -86399999913600000000 ≤ us ∧ us ≤ 86399999999999999999

/-- `time2int` (base/shepherd.py l.33-35): `int(data.total_seconds())`; the division is the one of Python, rounded once. -/
def spanToInt (fl : ℚ → ℚ) (us : ℤ) : ℤ := pyInt (fl ((us : ℚ) / 1000000))

/-! ## Models as trees -/

mutual
/-- A value of a field.  Used in the models of pydantic below `ShpModel`, base/shepherd.py l.51-79. -/
inductive MVal
  | plain (n : ℕ)
  | span (us : ℤ)
  | sub (vs : MVals)
/-- The values of the fields of a model, in the order of their declaration, each with the remark whether it was set explicitly.  Used in the models of pydantic below `ShpModel`, base/shepherd.py l.51-79. -/
inductive MVals
  | nil
  | cons (set : Bool) (v : MVal) (rest : MVals)
end

/-- The default of a field: none, a constant, or the result of a function called each time (base/content.py l.44-52: ids and dates). -/
inductive Dflt
  | required
  | value (v : MVal)
  | factory (k : ℕ)

mutual
/-- The type of a field.  Used in the models of pydantic below `ShpModel`, base/shepherd.py l.51-79. -/
inductive MTy
  | plain
  | span
  | sub (fs : MFields)
/-- The fields of a class.  Used in the models of pydantic below `ShpModel`, base/shepherd.py l.51-79. -/
inductive MFields
  | nil
  | cons (name : String) (ty : MTy) (dflt : Dflt) (rest : MFields)
end

mutual
/-- A value in a YAML file.  Used in `to_file`, `from_file`, base/shepherd.py l.124-164. -/
inductive YVal
  | plain (n : ℕ)
  | int (n : ℤ)
  | map (m : YMap)
/-- A mapping in a YAML file.  Used in `to_file`, `from_file`, base/shepherd.py l.124-164. -/
inductive YMap
  | nil
  | cons (name : String) (v : YVal) (rest : YMap)
end

/-- The names of fields.  Used in the models of pydantic below `ShpModel`, base/shepherd.py l.51-79. -/
def MFields.names : MFields → List String
  | .nil => []
  | .cons n _ _ r => n :: r.names

/-- `d.get(name)`.  Used in `to_file`, `from_file`, base/shepherd.py l.124-164. -/
def YMap.get : YMap → String → Option YVal
  | .nil, _ => none
  | .cons n v r, s => if n = s then some v else r.get s

/-- The keys of a mapping.  Used in `to_file`, `from_file`, base/shepherd.py l.124-164. -/
def YMap.keys : YMap → List String
  | .nil => []
  | .cons n _ r => n :: r.keys

section
variable (fl : ℚ → ℚ) (minimal : Bool)

mutual
/-- `yaml.safe_dump` of a value (base/shepherd.py l.143-147). -/
def dumpVal : MTy → MVal → YVal
  | .sub fs, .sub vs => .map (dumpFields fs vs)
  | _, .plain n => .plain n
  | _, .span us => .int (spanToInt fl us)
  | _, .sub _ => .map .nil
/-- `model_dump(exclude_unset=minimal)` (base/shepherd.py l.136), followed by `yaml.safe_dump`. -/
def dumpFields : MFields → MVals → YMap
  | .cons n t _ fs, .cons set v vs => if set || !minimal then .cons n (dumpVal t v) (dumpFields fs vs) else dumpFields fs vs
  | _, _ => .nil
end

end

section
variable (gen : ℕ → MVal)

/-- The value of a field that is not given.  Used in the models of pydantic below `ShpModel`, base/shepherd.py l.51-79. -/
def Dflt.make : Dflt → Except PyErr MVal
  | .required => .error .valueError
  | .value v => .ok v
  | .factory k => .ok (gen k)

mutual
/-- Validation of a value in a file; `gen` are the results of the default factories at this moment.  Used in the models of pydantic below `ShpModel`, base/shepherd.py l.51-79. -/
def loadVal : MTy → YVal → Except PyErr MVal
  | .plain, .plain n => .ok (.plain n)
  | .span, .int s =>
    match ofSeconds s with
    | .ok us => .ok (.span us)
    | .error e => .error e
  | .sub fs, .map m =>
    if m.keys.all (· ∈ fs.names) then
      match loadFields fs m with
      | .ok vs => .ok (.sub vs)
      | .error e => .error e
    else .error .valueError
  | _, _ => .error .valueError
/-- The fields of a model (base/shepherd.py l.164): names not known are refused (l.66). -/
def loadFields : MFields → YMap → Except PyErr MVals
  | .nil, _ => .ok .nil
  | .cons n t d fs, m =>
    match m.get n with
    | some y =>
      match loadVal t y with
      | .error e => .error e
      | .ok v =>
        match loadFields fs m with
        | .error e => .error e
        | .ok vs => .ok (.cons true v vs)
    | none =>
      match d.make gen with
      | .error e => .error e
      | .ok v =>
        match loadFields fs m with
        | .error e => .error e
        | .ok vs => .ok (.cons false v vs)
end

end

/-- A class.  Used in the models of pydantic below `ShpModel`, base/shepherd.py l.51-79. -/
structure MClass where
  name : String
  fields : MFields

/-- A file: `Wrapper` (base/wrapper.py l.16-27); the fields for documentation are left out. -/
structure YFile where
  datatype : String
  parameters : YMap

/-- `to_file` (base/shepherd.py l.124-154). -/
def toFile (fl : ℚ → ℚ) (minimal : Bool) (c : MClass) (vs : MVals) : YFile := ⟨c.name, dumpFields fl minimal c.fields vs⟩

/-- `from_file` (base/shepherd.py l.156-164). -/
def fromFile (gen : ℕ → MVal) (c : MClass) (f : YFile) : Except PyErr MVals :=
  if f.datatype ≠ c.name then .error .valueError
  else
    match loadVal gen (.sub c.fields) (.map f.parameters) with
    | .ok (.sub vs) => .ok vs
    | .ok _ => .error .valueError
    | .error e => .error e

/-! ## GPIO events -/

/-- `GpioEvent` (experiment/observer_features.py l.98-108). -/
structure GpioEvent where
  delay : ℚ
  period : ℚ
  count : ℕ

/-- The limits of the fields (experiment/observer_features.py l.101-108). -/
def GpioEvent.valid (e : GpioEvent) : Bool := 0 < e.delay && 1 / 100000 ≤ e.period && 1 ≤ e.count && e.count ≤ 4096

/-- Length of `np.arange(start, stop, step)` for floats: `ceil((stop - start)/step)`, not negative.  Used in `GpioEvent.get_events`, observer_features.py l.117-119. -/
def arangeLen (fl : ℚ → ℚ) (start stop step : ℚ) : ℕ := ⌈fl (fl (stop - start) / step)⌉.toNat

/-- Member `i` of `np.arange(start, stop, step)` for floats: the first two are `start` and `start + step`, the rest is extrapolated from these.  Used in `GpioEvent.get_events`, observer_features.py l.117-119. -/
def arangeAt (fl : ℚ → ℚ) (start step : ℚ) (i : ℕ) : ℚ :=
  if i = 0 then start
  else if i = 1 then fl (start + step)
  else fl (start + fl (i * fl (fl (start + step) - start)))

/-- `np.arange(start, stop, step)` for floats.  Used in `GpioEvent.get_events`, observer_features.py l.117-119. -/
def arange (fl : ℚ → ℚ) (start stop step : ℚ) : List ℚ := (List.range (arangeLen fl start stop step)).map (arangeAt fl start step)

/-- `get_events` (experiment/observer_features.py l.117-119). -/
def GpioEvent.events (fl : ℚ → ℚ) (e : GpioEvent) : List ℚ := arange fl e.delay (fl (e.delay + fl (e.count * e.period))) e.period

end Verif.Model
