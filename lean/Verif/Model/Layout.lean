import Verif.Model.Experiment
import Verif.Model.FloatText

/-!
# The table of the layout of the testbeds

`extra/gen_testbed_layout.py`: which target is where.  Observers come from `Model/Experiment`; fields it does not have (room, description, place) are given by `LayoutInfo`.
The refresh of the data base (l.16) and the making of directories (l.18-19) are left out.
-/

namespace Verif.Model
open Verif.Py

/-- The fields of an observer that are only printed (testbed/observer.py l.28-55). -/
structure ObserverInfo where
  room : String
  description : Option String
  latitude : ℚ
  longitude : ℚ

/-- What is known of the devices besides their relations: the names of capes (by id) and the fields of observers.  Used in extra/gen_testbed_layout.py. -/
structure LayoutInfo where
  cape : CapeDev → String
  observer : ObserverDev → ObserverInfo

/-- A testbed with its id and name (gen_testbed_layout.py l.40-41). -/
structure LayoutTestbed where
  id : ℕ
  name : String
  dev : TestbedDev

/-- A target with its id and name (gen_testbed_layout.py l.43-44). -/
structure LayoutTarget where
  id : ℕ
  name : String

/-- `str(n)` of a number.  Used in extra/gen_testbed_layout.py. -/
def strNat (n : ℕ) : List Char := Nat.toDigits 10 n

/-- `str(x)` of an optional text.  Used in extra/gen_testbed_layout.py. -/
def strOption : Option String → List Char
  | none => "None".toList
  | some s => s.toList

/-- The names of the columns (gen_testbed_layout.py l.22-36). -/
def layoutColumns : List (List Char) :=
  ["tb_id", "tb_name", "target_id", "target_name", "cape_id", "cape_name", "observer_id", "observer_name", "room", "observer_description", "eth_port", "lat", "long"].map String.toList

/-- The cells of a row (gen_testbed_layout.py l.51-67): an observer without cape is an `AttributeError`. -/
def layoutCells (info : LayoutInfo) (tb : LayoutTestbed) (t : LayoutTarget) (o : ObserverDev) : Except PyErr (List (List Char)) :=
  match o.cape with
  | none => .error .attributeError
  | some c => .ok [strNat tb.id, tb.name.toList, strNat t.id, t.name.toList, strNat c.id, (info.cape c).toList, strNat o.id, o.name.toList,
      (info.observer o).room.toList, strOption (info.observer o).description, o.ethPort.toList, floatText (info.observer o).latitude, floatText (info.observer o).longitude]

/-- Inner loop (gen_testbed_layout.py l.43-69) over the targets: the rows written, and whether it raised; a `ValueError` skips the target. -/
def layoutTargets (info : LayoutInfo) (tb : LayoutTestbed) : List LayoutTarget → List (List (List Char)) × Except PyErr Unit
  | [] => ([], .ok ())
  | t :: ts =>
    match tb.dev.getObserver t.id with
    | .error .valueError => layoutTargets info tb ts
    | .error e => ([], .error e)
    | .ok o =>
      match layoutCells info tb t o with
      | .error e => ([], .error e)
      | .ok row => (row :: (layoutTargets info tb ts).1, (layoutTargets info tb ts).2)

/-- Outer loop (gen_testbed_layout.py l.40-69) over the testbeds. -/
def layoutTestbeds (info : LayoutInfo) (ts : List LayoutTarget) : List LayoutTestbed → List (List (List Char)) × Except PyErr Unit
  | [] => ([], .ok ())
  | tb :: tbs =>
    match layoutTargets info tb ts with
    | (rows, .error e) => (rows, .error e)
    | (rows, .ok ()) => (rows ++ (layoutTestbeds info ts tbs).1, (layoutTestbeds info ts tbs).2)

/-- `"; ".join(elements)` (gen_testbed_layout.py l.37, l.68) -/
def joinSemi (cells : List (List Char)) : List Char := (List.intersperse [';', ' '] cells).flatten

/-- The script (gen_testbed_layout.py l.11-70): the lines of the file, without their ends, and whether it raised. -/
def layoutScript (info : LayoutInfo) (ts : List LayoutTarget) (tbs : List LayoutTestbed) : List (List Char) × Except PyErr Unit :=
  (joinSemi layoutColumns :: (layoutTestbeds info ts tbs).1.map joinSemi, (layoutTestbeds info ts tbs).2)

/-- What is written to the file: every line with its end (gen_testbed_layout.py l.37, l.69). -/
def layoutText (lines : List (List Char)) : List Char := lines.flatMap fun l => l ++ ['\n']

end Verif.Model
