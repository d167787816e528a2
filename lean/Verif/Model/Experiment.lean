import Verif.Model.Fixtures
import Mathlib.Data.List.Dedup
import Mathlib.Data.Rat.Defs
import Mathlib.Algebra.Order.Ring.Rat

/-!
# Testbed, experiment and the tasks made from it

Models `Testbed`, `Observer`, `Target` (`shepherd_core/shepherd_core/data_models/testbed/`), `TargetConfig` and `Experiment`
(`shepherd_core/shepherd_core/data_models/experiment/`), and the tasks in `shepherd_core/shepherd_core/data_models/task/`.

Simplified: points in time are counted in micro-seconds (aware date-times), settings that are only handed on (sources, tracing, logging) are numbers, paths are lists of names,
every validation error is a ValueError.  The clock is an argument.  The content data base is an argument, too: it answers a query or raises.
-/

namespace Verif.Model
open Verif.Py

/-! ## Testbed -/

/-- `MCU` (testbed/mcu.py l.26-47). -/
structure Mcu where
  id : ℕ
  name : String
  progVoltage : ℚ
  progDatarate : ℕ
  protocol : ℕ
  fwDefault : String
deriving DecidableEq

/-- `Target` (testbed/target.py l.23-46).  `rest` stands for the fields not used here (name, version, comments, date of creation). -/
structure TargetDev where
  id : ℕ
  testbedId : ℕ
  active : Bool
  mcu1 : Mcu
  mcu2 : Option Mcu
  rest : ℕ
deriving DecidableEq

/-- The testbed id of a target without one (testbed/target.py l.64-65). -/
def defaultTestbedId (id : ℕ) : ℕ := id % 2 ^ 16

/-- `Cape` (testbed/cape.py l.27-40). -/
structure CapeDev where
  id : ℕ
  active : Bool
  rest : ℕ
deriving DecidableEq

/-- `Observer` (testbed/observer.py l.28-55). -/
structure ObserverDev where
  id : ℕ
  name : String
  ip : ℕ
  mac : String
  ethPort : String
  active : Bool
  cape : Option CapeDev
  targetA : Option TargetDev
  targetB : Option TargetDev
deriving DecidableEq

/-- `TargetPort` (testbed/cape.py l.20-24). -/
inductive Port
  | A
  | B
deriving DecidableEq

/-- `Observer.post_validation` (testbed/observer.py l.66-73). -/
def ObserverDev.validate (o : ObserverDev) : Except PyErr Unit :=
  if o.cape = none ∧ (o.targetA ≠ none ∨ o.targetB ≠ none) then .error .valueError else .ok ()

/-- One half of `has_target` (testbed/observer.py l.76-81). -/
def portHas (t : Option TargetDev) (id : ℕ) : Bool :=
  match t with
  | none => false
  | some t => id = t.id && t.active

/-- `has_target` (testbed/observer.py l.75-82). -/
def ObserverDev.hasTarget (o : ObserverDev) (id : ℕ) : Bool := portHas o.targetA id || portHas o.targetB id

/-- `self.target_a is not None and target_id == self.target_a.id` (testbed/observer.py l.86). -/
def portIs (t : Option TargetDev) (id : ℕ) : Bool :=
  match t with
  | none => false
  | some t => id = t.id

/-- `get_target_port` (testbed/observer.py l.84-91). -/
def ObserverDev.getTargetPort (o : ObserverDev) (id : ℕ) : Except PyErr Port :=
  if o.hasTarget id then
    if portIs o.targetA id then .ok .A
    else if portIs o.targetB id then .ok .B
    else .error .keyError
  else .error .keyError

/-- `get_target` (testbed/observer.py l.93-100). -/
def ObserverDev.getTarget (o : ObserverDev) (id : ℕ) : Except PyErr TargetDev :=
  if o.hasTarget id then
    match o.targetA, o.targetB with
    | some a, b =>
      if id = a.id then .ok a
      else
        match b with
        | some b => if id = b.id then .ok b else .error .keyError
        | none => .error .keyError
    | none, some b => if id = b.id then .ok b else .error .keyError
    | none, none => .error .keyError
  else .error .keyError

/-- `Testbed` (testbed/testbed.py l.24-43).  `root` is the path `data_on_observer`. -/
structure TestbedDev where
  observers : List ObserverDev
  sharedStorage : Bool
  root : List String
  prepDuration : ℤ

/-- `len(l) > len(set(l))`.  Used in experiment.py l.72-96. -/
def repeats {α : Type} [DecidableEq α] (l : List α) : Bool := l.length > l.dedup.length

/-- `Testbed.post_validation` (testbed/testbed.py l.60-96) with the limits of the field (l.34) and the validation of its observers. -/
def TestbedDev.validate (tb : TestbedDev) : Except PyErr Unit :=
  if tb.observers.length < 1 ∨ 128 < tb.observers.length then .error .valueError
  else if tb.observers.any (fun o => o.validate = .error .valueError) then .error .valueError
  else if repeats (tb.observers.map (·.id)) then .error .valueError
  else if repeats (tb.observers.map (·.ip)) then .error .valueError
  else if repeats (tb.observers.map (·.mac)) then .error .valueError
  else if repeats (tb.observers.filterMap (·.cape)) then .error .valueError
  else if repeats (tb.observers.flatMap (fun o => o.targetA.toList ++ o.targetB.toList)) then .error .valueError
  else if repeats (tb.observers.map (·.ethPort)) then .error .valueError
  else if tb.prepDuration < 0 then .error .valueError
  else if ¬tb.sharedStorage then .error .valueError
  else .ok ()

/-- The loop of `get_observer` (testbed/testbed.py l.98-106): an active observer without cape has no attribute `active` of its cape. -/
def findObserver (id : ℕ) : List ObserverDev → Except PyErr ObserverDev
  | [] => .error .valueError
  | o :: l =>
    if ¬o.active then findObserver id l
    else
      match o.cape with
      | none => .error .attributeError
      | some c => if ¬c.active then findObserver id l else if o.hasTarget id then .ok o else findObserver id l

/-- `get_observer` (testbed/testbed.py l.98-106). -/
def TestbedDev.getObserver (tb : TestbedDev) (id : ℕ) : Except PyErr ObserverDev := findObserver id tb.observers

/-! ## Experiment -/

/-- `Firmware` (content/firmware.py l.58-72); `data` and `dataType` are only handed on. -/
structure Fw where
  mcu : Mcu
  data : String
  dataType : ℕ
deriving DecidableEq

/-- `EnergyEnvironment`: the fields used here.  Used in energy_environment.py l.22-45. -/
structure EnergyEnv where
  valid : Bool
  dataPath : List String
deriving DecidableEq

/-- `TargetConfig` (experiment/target_config.py l.23-48). -/
structure TargetCfg where
  targetIds : List ℕ
  customIds : Option (List ℕ)
  energyEnv : EnergyEnv
  virtualSource : ℕ
  firmware1 : Fw
  firmware2 : Option Fw
  powerTracing : Option ℕ
  gpioTracing : Option ℕ
  gpioActuation : Option ℕ
deriving DecidableEq

/-- What the content data base answers to `Target(id=..)` and `Firmware(name=..)`.  Used in target.py l.48-61, firmware.py l.67-89. -/
structure ContentDb where
  target : ℕ → Except PyErr TargetDev
  firmware : String → Except PyErr Fw

/-- The checks of one port of one target (experiment/target_config.py l.57-78). -/
def checkMcu (env : ContentDb) (fw : Option Fw) (mcu : Option Mcu) : Except PyErr Unit :=
  match mcu with
  | none => .ok ()
  | some m =>
    match fw with
    | none =>
      match env.firmware m.fwDefault with
      | .error e => .error e
      | .ok d => if m.id ≠ d.mcu.id then .error .valueError else .ok ()
    | some f => if f.mcu.id ≠ m.id then .error .valueError else .ok ()

/-- The loop over the targets (experiment/target_config.py l.55-78). -/
def checkTargets (env : ContentDb) (fw1 fw2 : Option Fw) : List ℕ → Except PyErr Unit
  | [] => .ok ()
  | id :: l =>
    match env.target id with
    | .error e => .error e
    | .ok t =>
      match checkMcu env fw1 (some t.mcu1) with
      | .error e => .error e
      | .ok () =>
        match checkMcu env fw2 t.mcu2 with
        | .error e => .error e
        | .ok () => checkTargets env fw1 fw2 l

/-- Limits of a list of ids: 1 to 128 members below `bound` (experiment/target_config.py l.26-27). -/
def idsInRange (bound : ℕ) (l : List ℕ) : Bool := 1 ≤ l.length && l.length ≤ 128 && l.all (· < bound)

/-- `TargetConfig.post_validation` (experiment/target_config.py l.50-86) with the limits of its fields (l.26-27). -/
def TargetCfg.validate (env : ContentDb) (c : TargetCfg) : Except PyErr Unit :=
  if ¬idsInRange (2 ^ 128) c.targetIds then .error .valueError
  else if ¬((c.customIds.map (idsInRange (2 ^ 16))).getD true) then .error .valueError
  else if ¬c.energyEnv.valid then .error .valueError
  else
    match checkTargets env (some c.firmware1) c.firmware2 c.targetIds with
    | .error e => .error e
    | .ok () =>
      match c.customIds with
      | none => .ok ()
      | some l => if l.dedup.length < c.targetIds.dedup.length then .error .valueError else .ok ()

/-- `get_custom_id` (experiment/target_config.py l.88-91). -/
def TargetCfg.getCustomId (c : TargetCfg) (id : ℕ) : Except PyErr (Option ℕ) :=
  match c.customIds with
  | none => .ok none
  | some l =>
    if id ∈ c.targetIds then
      match l[c.targetIds.idxOf id]? with
      | some x => .ok (some x)
      | none => .error .indexError
    else .ok none

/-- `Experiment` (experiment/experiment.py l.28-61). -/
structure Xp where
  name : String
  ownerId : Option ℕ
  emailResults : Bool
  sysLogging : ℕ
  timeStart : Option ℤ
  duration : Option ℤ
  abortOnError : Bool
  configs : List TargetCfg

/-- `get_target_ids` (experiment/experiment.py l.105-106). -/
def Xp.targetIds (xp : Xp) : List ℕ := xp.configs.flatMap (·.targetIds)

/-- `get_target_config` (experiment/experiment.py l.108-114). -/
def findConfig (id : ℕ) : List TargetCfg → Except PyErr TargetCfg
  | [] => .error .valueError
  | c :: l => if id ∈ c.targetIds then .ok c else findConfig id l

/-- The ids the targets shall get, as collected by `_validate_targets` (experiment/experiment.py l.80-83). -/
def givenIds (c : TargetCfg) : List ℕ :=
  match c.customIds with
  | some l => l.take c.targetIds.length
  | none => c.targetIds

/-- All of a list of queries succeed (experiment/experiment.py l.77-79, 93). -/
def allOk {α β : Type} (f : α → Except PyErr β) : List α → Except PyErr (List β)
  | [] => .ok []
  | a :: l =>
    match f a with
    | .error e => .error e
    | .ok b =>
      match allOk f l with
      | .error e => .error e
      | .ok bs => .ok (b :: bs)

/-- `_validate_targets` (experiment/experiment.py l.72-88). -/
def validateTargets (env : ContentDb) (cs : List TargetCfg) : Except PyErr Unit :=
  match allOk env.target (cs.flatMap (·.targetIds)) with
  | .error e => .error e
  | .ok _ =>
    if repeats (cs.flatMap (·.targetIds)) then .error .valueError
    else if (cs.flatMap (·.targetIds)).length > (cs.flatMap givenIds).dedup.length then .error .valueError
    else .ok ()

/-- `_validate_observers` (experiment/experiment.py l.90-98). -/
def validateObservers (tb : TestbedDev) (cs : List TargetCfg) : Except PyErr Unit :=
  match allOk tb.getObserver (cs.flatMap (·.targetIds)) with
  | .error e => .error e
  | .ok os => if (cs.flatMap (·.targetIds)).length > (os.map (·.id)).dedup.length then .error .valueError else .ok ()

/-- `Experiment.post_validation` (experiment/experiment.py l.63-70) with the limits of the list (l.58) and the validation of its members. -/
def Xp.validate (env : ContentDb) (tb : TestbedDev) (xp : Xp) : Except PyErr Unit :=
  if xp.configs.length < 1 ∨ 128 < xp.configs.length then .error .valueError
  else
    match allOk (TargetCfg.validate env) xp.configs with
    | .error e => .error e
    | .ok _ =>
      match validateTargets env xp.configs with
      | .error e => .error e
      | .ok () =>
        match validateObservers tb xp.configs with
        | .error e => .error e
        | .ok () =>
          match xp.duration with
          | some d => if d < 0 then .error .valueError else .ok ()
          | none => .ok ()

/-! ## Tasks -/

/-- `FirmwareModTask` (task/firmware_mod.py l.29-38). -/
structure FwMod where
  data : String
  dataType : ℕ
  customId : ℕ
  file : List String
deriving DecidableEq

/-- `ProgrammingTask` (task/programming.py l.26-38). -/
structure Prog where
  file : List String
  targetPort : Port
  mcuPort : ℕ
  mcuType : String
  voltage : ℚ
  datarate : ℕ
  protocol : ℕ
deriving DecidableEq

/-- `EmulationTask` (task/emulation.py l.46-101): the fields `from_xp` sets. -/
structure Emu where
  inputPath : List String
  outputPath : List String
  timeStart : Option ℤ
  duration : Option ℤ
  abortOnError : Bool
  enableIo : Bool
  ioPort : Port
  pwrPort : Port
  virtualSource : ℕ
  powerTracing : Option ℕ
  gpioTracing : Option ℕ
  gpioActuation : Option ℕ
  sysLogging : ℕ
deriving DecidableEq

/-- `SafeStr` (base/content.py l.25): printable ASCII, not empty, up to 512 characters (base/shepherd.py l.72-74). -/
def isSafeStr (s : String) : Bool := s.toList ≠ [] && s.toList.length ≤ 512 && s.toList.all (fun c => 32 ≤ c.toNat && c.toNat ≤ 126)

/-- The firmware of a port (task/firmware_mod.py l.58, task/programming.py l.62). -/
def TargetCfg.firmware (c : TargetCfg) (port : ℕ) : Option Fw := if port = 1 then some c.firmware1 else c.firmware2

/-- The node id (task/firmware_mod.py l.63-66). -/
def nodeId (tb : TestbedDev) (c : TargetCfg) (id : ℕ) : Except PyErr ℕ :=
  match c.getCustomId id with
  | .error e => .error e
  | .ok (some x) => .ok x
  | .ok none =>
    match tb.getObserver id with
    | .error e => .error e
    | .ok o =>
      match o.getTarget id with
      | .error e => .error e
      | .ok t => .ok t.testbedId

/-- `FirmwareModTask.from_xp` (task/firmware_mod.py l.46-73). -/
def FwMod.fromXp (xp : Xp) (tb : TestbedDev) (id port : ℕ) (file : List String) : Except PyErr (Option FwMod) :=
  match findConfig id xp.configs with
  | .error e => .error e
  | .ok c =>
    match c.firmware port with
    | none => .ok none
    | some fw =>
      match nodeId tb c id with
      | .error e => .error e
      | .ok n => .ok (some { data := fw.data, dataType := fw.dataType, customId := n, file := file })

/-- Validation of a `ProgrammingTask`: the limits of its fields (task/programming.py l.33-35).  The suffix of the file (l.43-46) is always ".hex" here. -/
def Prog.validate (p : Prog) : Except PyErr Unit :=
  if ¬isSafeStr p.mcuType then .error .valueError
  else if p.voltage < 1 ∨ 5 ≤ p.voltage then .error .valueError
  else if p.datarate < 1 ∨ 1000000 < p.datarate then .error .valueError
  else .ok ()

/-- `ProgrammingTask.from_xp` (task/programming.py l.49-74). -/
def Prog.fromXp (xp : Xp) (tb : TestbedDev) (id port : ℕ) (file : List String) : Except PyErr (Option Prog) :=
  match tb.getObserver id with
  | .error e => .error e
  | .ok o =>
    match findConfig id xp.configs with
    | .error e => .error e
    | .ok c =>
      match c.firmware port with
      | none => .ok none
      | some fw =>
        match o.getTargetPort id with
        | .error e => .error e
        | .ok tp =>
          let p : Prog :=
            { file := file
              targetPort := tp
              mcuPort := port
              mcuType := fw.mcu.name
              voltage := fw.mcu.progVoltage
              datarate := fw.mcu.progDatarate
              protocol := fw.mcu.protocol }
          match p.validate with
          | .error e => .error e
          | .ok () => .ok (some p)

/-- `EmulationTask.post_validation` (task/emulation.py l.117-137); `now` is the clock. -/
def Emu.validate (now : ℤ) (t : Emu) : Except PyErr Unit :=
  if (t.timeStart.map (fun s => decide (s < now))).getD false then .error .valueError
  else if (t.duration.map (fun d => decide (d < 0))).getD false then .error .valueError
  else if t.gpioActuation ≠ none then .error .valueError
  else .ok ()

/-- `EmulationTask.from_xp` (task/emulation.py l.139-160). -/
def Emu.fromXp (now : ℤ) (xp : Xp) (tb : TestbedDev) (id : ℕ) (root : List String) : Except PyErr Emu :=
  match tb.getObserver id with
  | .error e => .error e
  | .ok o =>
    match findConfig id xp.configs with
    | .error e => .error e
    | .ok c =>
      match o.getTargetPort id with
      | .error e => .error e
      | .ok tp =>
        let t : Emu :=
          { inputPath := c.energyEnv.dataPath
            outputPath := root ++ ["emu_" ++ o.name ++ ".h5"]
            timeStart := xp.timeStart
            duration := xp.duration
            abortOnError := xp.abortOnError
            enableIo := c.gpioTracing ≠ none || c.gpioActuation ≠ none
            ioPort := tp
            pwrPort := tp
            virtualSource := c.virtualSource
            powerTracing := c.powerTracing
            gpioTracing := c.gpioTracing
            gpioActuation := c.gpioActuation
            sysLogging := xp.sysLogging }
        match t.validate now with
        | .error e => .error e
        | .ok () => .ok t

/-- `ObserverTasks` (task/observer_tasks.py l.23-41). -/
structure ObsTasks where
  observer : String
  ownerId : Option ℕ
  timePrep : ℤ
  root : List String
  abortOnError : Bool
  fw1Mod : Option FwMod
  fw2Mod : Option FwMod
  fw1Prog : Option Prog
  fw2Prog : Option Prog
  emulation : Option Emu
deriving DecidableEq

/-- The tasks of a set (task/observer_tasks.py l.30-37). -/
inductive Task
  | mod (t : FwMod)
  | prog (t : Prog)
  | emu (t : Emu)
deriving DecidableEq

/-- Start of the experiment: as given or three minutes from now (task/observer_tasks.py l.54-58). -/
def startTime (now : ℤ) (xp : Xp) : ℤ := xp.timeStart.getD (now + 180000000)

/-- The directory of the results (task/observer_tasks.py l.61-62); `fmt` writes a date as text. -/
def xpRoot (fmt : ℤ → String) (now : ℤ) (xp : Xp) (tb : TestbedDev) : List String := tb.root ++ ["experiments", xp.name ++ "_" ++ fmt (startTime now xp)]

/-- `ObserverTasks.from_xp` (task/observer_tasks.py l.49-83).  `now` is the clock when the function is entered, `now'` when the emulation task is validated. -/
def ObsTasks.fromXp (fmt : ℤ → String) (now now' : ℤ) (xp : Xp) (tb : TestbedDev) (id : ℕ) : Except PyErr ObsTasks :=
  if ¬tb.sharedStorage then .error .valueError
  else
    match tb.getObserver id with
    | .error e => .error e
    | .ok o =>
      let root := xpRoot fmt now xp tb
      match FwMod.fromXp xp tb id 1 (root ++ ["fw1_" ++ o.name ++ ".hex"]) with
      | .error e => .error e
      | .ok m1 =>
        match FwMod.fromXp xp tb id 2 (root ++ ["fw2_" ++ o.name ++ ".hex"]) with
        | .error e => .error e
        | .ok m2 =>
          match Prog.fromXp xp tb id 1 (root ++ ["fw1_" ++ o.name ++ ".hex"]) with
          | .error e => .error e
          | .ok p1 =>
            match Prog.fromXp xp tb id 2 (root ++ ["fw2_" ++ o.name ++ ".hex"]) with
            | .error e => .error e
            | .ok p2 =>
              match Emu.fromXp now' xp tb id root with
              | .error e => .error e
              | .ok em => .ok
                  { observer := o.name
                    ownerId := xp.ownerId
                    timePrep := startTime now xp - tb.prepDuration
                    root := root
                    abortOnError := xp.abortOnError
                    fw1Mod := m1
                    fw2Mod := m2
                    fw1Prog := p1
                    fw2Prog := p2
                    emulation := some em }

/-- `get_tasks` (task/observer_tasks.py l.85-96). -/
def ObsTasks.getTasks (o : ObsTasks) : List Task :=
  (o.fw1Mod.map .mod).toList ++ (o.fw2Mod.map .mod).toList ++ (o.fw1Prog.map .prog).toList ++ (o.fw2Prog.map .prog).toList ++ (o.emulation.map .emu).toList

/-- `get_output_paths` (task/observer_tasks.py l.98-104). -/
def ObsTasks.outputPaths (o : ObsTasks) : List (String × List String) :=
  match o.emulation with
  | some e => [(o.observer, e.outputPath)]
  | none => []

/-- `TestbedTasks` (task/testbed_tasks.py l.20-27). -/
structure TbTasks where
  name : String
  tasks : List ObsTasks
  emailResults : Bool
  ownerId : Option ℕ

/-- The task sets of a list of targets (task/testbed_tasks.py l.39-40); `clock n` is the time of the n-th look at the clock. -/
def obsTasks (fmt : ℤ → String) (clock : ℕ → ℤ) (xp : Xp) (tb : TestbedDev) : ℕ → List ℕ → Except PyErr (List ObsTasks)
  | _, [] => .ok []
  | n, id :: l =>
    match ObsTasks.fromXp fmt (clock n) (clock (n + 1)) xp tb id with
    | .error e => .error e
    | .ok t =>
      match obsTasks fmt clock xp tb (n + 2) l with
      | .error e => .error e
      | .ok ts => .ok (t :: ts)

/-- `TestbedTasks.from_xp` (task/testbed_tasks.py l.32-46) with the limits of the list (l.21). -/
def TbTasks.fromXp (fmt : ℤ → String) (clock : ℕ → ℤ) (xp : Xp) (tb : TestbedDev) : Except PyErr TbTasks :=
  match obsTasks fmt clock xp tb 0 xp.targetIds with
  | .error e => .error e
  | .ok ts =>
    if ts.length < 1 ∨ 128 < ts.length then .error .valueError
    else .ok { name := xp.name, tasks := ts, emailResults := xp.emailResults, ownerId := xp.ownerId }

/-- `get_observer_tasks` (task/testbed_tasks.py l.48-52). -/
def TbTasks.find (t : TbTasks) (observer : String) : Option ObsTasks := t.tasks.find? (fun o => observer = o.observer)

/-- `get_output_paths` (task/testbed_tasks.py l.54-61): later entries replace earlier ones. -/
def TbTasks.outputPaths (t : TbTasks) : List (String × List String) :=
  t.tasks.foldl (fun d o => o.outputPaths.foldl (fun d e => dictSet d e.1 e.2) d) []

/-- `prepare_task` (task/__init__.py l.36-78) for a `TestbedTasks` and the name of an observer, followed by `extract_tasks` (l.81-101). -/
def TbTasks.prepare (t : TbTasks) (observer : String) : Except PyErr (List Task) :=
  match t.find observer with
  | none => .error .valueError
  | some o => .ok o.getTasks

end Verif.Model
