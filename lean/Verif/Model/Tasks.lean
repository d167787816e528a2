import Verif.Model.Experiment
import Verif.Model.Reports

/-!
# Tasks for observers

Models `prepare_task` and `extract_tasks` (`shepherd_core/shepherd_core/data_models/task/__init__.py` l.36-101), the validation of tasks when they are loaded
(`task/firmware_mod.py` l.29-51, `task/programming.py` l.26-46, `task/emulation.py` l.111-137, `task/harvest.py` l.70-84, `task/observer_tasks.py` l.22-41,
`task/testbed_tasks.py` l.17-27) and the verbosity of the logger (`shepherd_core/shepherd_core/logger.py` l.16-56).

Simplified as in `Model/Experiment`.  In addition: dumping a model and loading it again changes nothing but runs all validators again, with the clock of that moment; the
fields of the six kinds of models are so different that none can be loaded as another one (each needs a field that the others forbid); texts are already stripped of white
space at their ends; the id of a firmware modification is always given.
-/

namespace Verif.Model
open Verif.Py

/-- `NameStr` (base/content.py l.22): 1 to 32 characters, none of the forbidden ones. -/
def isNameStr (s : String) : Bool :=
  1 ≤ s.toList.length && s.toList.length ≤ 32 && s.toList.all (fun c => c ∉ ['<', '>', ':', ';', ',', '?', '"', '*', '|', '/', '\\'])

/-- `firmware_file.suffix.lower()` (task/programming.py l.43). -/
def fileSuffix (p : List String) : Name :=
  match p.getLast? with
  | none => []
  | some n => (splitName n.toList).2.map Char.toLower

/-- Files in the intel-hex-format by suffix (content/firmware.py l.25-35, task/programming.py l.43-45). -/
def isHexFile (p : List String) : Bool :=
  fileSuffix p = ['.', 'h', 'e', 'x'] || fileSuffix p = ['.', 'i', 'h', 'e', 'x'] || fileSuffix p = ['.', 'i', 'h', 'x']

/-- Loading a `FirmwareModTask`: the limit of the id (task/firmware_mod.py l.34, testbed/target.py l.19).  A firmware in the wrong format is only warned of (l.40-51). -/
def FwMod.load (t : FwMod) : Except PyErr Unit := if 2 ^ 16 ≤ t.customId then .error .valueError else .ok ()

/-- Loading a `ProgrammingTask` (task/programming.py l.26-46): limits of the fields and the suffix of the file. -/
def Prog.load (t : Prog) : Except PyErr Unit :=
  if t.mcuPort < 1 ∨ 2 < t.mcuPort then .error .valueError
  else
    match t.validate with
    | .error e => .error e
    | .ok () => if isHexFile t.file then .ok () else .error .valueError

/-- `HarvestTask` (task/harvest.py l.21-55): the fields its validation is about. -/
structure Hrv where
  outputPath : List String
  timeStart : Option ℤ
  duration : Option ℤ
deriving DecidableEq

/-- `HarvestTask.post_validation` (task/harvest.py l.70-84). -/
def Hrv.validate (now : ℤ) (t : Hrv) : Except PyErr Unit :=
  if (t.timeStart.map (fun s => decide (s < now))).getD false then .error .valueError
  else if (t.duration.map (fun d => decide (d < 0))).getD false then .error .valueError
  else .ok ()

/-- Validation of a field that may be `None`.  Used in `prepare_task`, task/__init__.py l.37-74. -/
def optLoad {α : Type} (f : α → Except PyErr Unit) : Option α → Except PyErr Unit
  | none => .ok ()
  | some a => f a

/-- Loading an `ObserverTasks` (task/observer_tasks.py l.22-41) at the time `now`. -/
def ObsTasks.load (now : ℤ) (t : ObsTasks) : Except PyErr Unit :=
  if ¬isNameStr t.observer then .error .valueError
  else if (t.ownerId.map (fun i => decide (2 ^ 128 ≤ i))).getD false then .error .valueError
  else
    match optLoad FwMod.load t.fw1Mod with
    | .error e => .error e
    | .ok () =>
      match optLoad FwMod.load t.fw2Mod with
      | .error e => .error e
      | .ok () =>
        match optLoad Prog.load t.fw1Prog with
        | .error e => .error e
        | .ok () =>
          match optLoad Prog.load t.fw2Prog with
          | .error e => .error e
          | .ok () => optLoad (Emu.validate now) t.emulation

/-- Loading a list of sets; `clock i` is the time of the i-th look at the clock.  Used in `prepare_task`, task/__init__.py l.37-74. -/
def loadSets (clock : ℕ → ℤ) : ℕ → List ObsTasks → Except PyErr Unit
  | _, [] => .ok ()
  | i, t :: l =>
    match t.load (clock i) with
    | .error e => .error e
    | .ok () => loadSets clock (i + 1) l

/-- Loading a `TestbedTasks` (task/testbed_tasks.py l.17-27). -/
def TbTasks.load (clock : ℕ → ℤ) (t : TbTasks) : Except PyErr Unit :=
  if ¬isNameStr t.name then .error .valueError
  else if t.tasks.length < 1 ∨ 128 < t.tasks.length then .error .valueError
  else if (t.ownerId.map (fun i => decide (2 ^ 128 ≤ i))).getD false then .error .valueError
  else loadSets clock 0 t.tasks

/-- The parameters of a wrapper: those of a model, or something else.  Used in `prepare_task`, task/__init__.py l.37-74. -/
inductive Payload
  | emu (t : Emu)
  | hrv (t : Hrv)
  | mod (t : FwMod)
  | prog (t : Prog)
  | obs (t : ObsTasks)
  | tb (t : TbTasks)
  | other

/-- `Wrapper` (base/wrapper.py l.16-28). -/
structure TaskWrap where
  datatype : String
  parameters : Payload

/-- What `prepare_task` is given: a model, or a file with the wrapper in it (task/__init__.py l.43-57); `kind` is the name of the class of other models. -/
inductive TaskConfig
  | model (p : Payload) (kind : String)
  | file (w : TaskWrap)

/-- `type(config).__name__` (task/__init__.py l.53). -/
def Payload.typeName (p : Payload) (kind : String) : String :=
  match p with
  | .emu _ => "EmulationTask"
  | .hrv _ => "HarvestTask"
  | .mod _ => "FirmwareModTask"
  | .prog _ => "ProgrammingTask"
  | .obs _ => "ObserverTasks"
  | .tb _ => "TestbedTasks"
  | .other => kind

/-- The wrapper of the input (task/__init__.py l.43-57). -/
def TaskConfig.wrap : TaskConfig → TaskWrap
  | .model p kind => { datatype := p.typeName kind, parameters := p }
  | .file w => w

/-- `prepare_task` (task/__init__.py l.36-78). -/
def prepareTask (clock : ℕ → ℤ) (config : TaskConfig) (observer : Option String) : Except PyErr TaskWrap :=
  let w := config.wrap
  if w.datatype = "TestbedTasks" then
    match observer with
    | none => .ok w
    | some name =>
      match w.parameters with
      | .tb t =>
        match t.load clock with
        | .error e => .error e
        | .ok () =>
          match t.find name with
          | none => .error .valueError
          | some o => .ok { datatype := "ObserverTasks", parameters := .obs o }
      | _ => .error .valueError
  else .ok w

/-- What `extract_tasks` returns members of.  Used in `extract_tasks`, task/__init__.py l.77-97. -/
inductive Extracted
  | task (t : Task)
  | harvest (t : Hrv)
  | sets (t : TbTasks)

/-- `extract_tasks` (task/__init__.py l.81-101). -/
def extractTasks (clock : ℕ → ℤ) (w : TaskWrap) (noTaskSets : Bool) : Except PyErr (List Extracted) :=
  if w.datatype = "ObserverTasks" then
    match w.parameters with
    | .obs t =>
      match t.load (clock 0) with
      | .error e => .error e
      | .ok () => .ok (t.getTasks.map .task)
    | _ => .error .valueError
  else if w.datatype = "EmulationTask" then
    match w.parameters with
    | .emu t =>
      match t.validate (clock 0) with
      | .error e => .error e
      | .ok () => .ok [.task (.emu t)]
    | _ => .error .valueError
  else if w.datatype = "HarvestTask" then
    match w.parameters with
    | .hrv t =>
      match t.validate (clock 0) with
      | .error e => .error e
      | .ok () => .ok [.harvest t]
    | _ => .error .valueError
  else if w.datatype = "FirmwareModTask" then
    match w.parameters with
    | .mod t =>
      match t.load with
      | .error e => .error e
      | .ok () => .ok [.task (.mod t)]
    | _ => .error .valueError
  else if w.datatype = "ProgrammingTask" then
    match w.parameters with
    | .prog t =>
      match t.load with
      | .error e => .error e
      | .ok () => .ok [.task (.prog t)]
    | _ => .error .valueError
  else if w.datatype = "TestbedTasks" then
    if noTaskSets then .error .valueError
    else
      match w.parameters with
      | .tb t =>
        match t.load clock with
        | .error e => .error e
        | .ok () => .ok [.sets t]
      | _ => .error .valueError
  else .error .valueError

/-- What an observer does with its input: prepare, then extract (each with its own looks at the clock).  Used in `extract_tasks`, task/__init__.py l.77-97. -/
def tasksFor (clock clock' : ℕ → ℤ) (config : TaskConfig) (observer : Option String) : Except PyErr (List Extracted) :=
  match prepareTask clock config observer with
  | .error e => .error e
  | .ok w => extractTasks clock' w true

/-! ## Verbosity -/

/-- `increase_verbose_level` (logger.py l.49-54): the new level. -/
def increaseVerbose (level verbose : ℤ) : ℤ := if level ≤ verbose then min (max verbose 0) 3 else level

/-- The level of the logger for a verbosity (logger.py l.24-35) as number of `logging`; `none`: left as it is. -/
def logLevel (verbose : ℤ) : Option ℕ :=
  if verbose = 0 then some 40 else if verbose = 1 then some 30 else if verbose = 2 then some 20 else if 2 < verbose then some 10 else none

end Verif.Model
