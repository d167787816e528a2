import Verif.Model.Experiment

/-!
# The testbed that comes with the library

The fixture files `shepherd_core/shepherd_core/data_models/testbed/*.yaml` and the firmwares in `data_models/content/_external_fixtures.yaml` as data, and the construction of
`MCU`, `Cape`, `Target`, `Observer`, `Testbed` and `Firmware` from them: `query_database` in `testbed/mcu.py` l.46-50, `cape.py` l.42-46, `target.py` l.51-67, `observer.py` l.60-64,
`testbed.py` l.44-58 and `content/firmware.py` l.74-88.

Simplified: a nested dictionary that consists of a name is that name; `false` and `null` are `.other 0`; texts that are only shown (descriptions, comments, rooms, dates) are left out; the nested MCU of a
firmware, which repeats all fields of the MCU, is its name.
-/

namespace Verif.Model
open Verif.Py

/-! ## Loading -/

/-- `str(x)`, `s.lower()` and `int(s)` for the texts in the files, which are ASCII (fixtures.py l.52, 61, 64). -/
def asciiOps : StrOps where
  ofVal v := match v with | .str s => s | .int n => toString n | .other _ => ""
  lower s := String.ofList (s.toList.map Char.toLower)
  digit s := if s.toList ≠ [] ∧ s.toList.all Char.isDigit then some (s.toList.foldl (fun n c => 10 * n + ((c.toNat : ℤ) - 48)) 0) else none

/-- An entry of a fixture file: datatype and parameters (base/wrapper.py l.15-27). -/
def yaml (datatype name : String) (id : ℤ) (fields : List (String × Val)) : String × Rec :=
  (datatype, fun k => if k = "name" then some (.str name) else if k = "id" then some (.int id) else dictGet fields k)

/-- All entries of one type (fixtures.py l.225-239). -/
def loadAll (model : String) : FixtureDb → List (String × Rec) → Except PyErr FixtureDb
  | db, [] => .ok db
  | db, e :: l =>
    match db.insert asciiOps model e.1 e.2 with
    | .error x => .error x
    | .ok db' => loadAll model db' l

/-- `Model(name=..)` up to the completed values (client_abc_fix.py l.61-73); the interpreter allows a depth of 1000 calls. -/
def byNameIn (model : String) (files : List (String × Rec)) (name : String) : Except PyErr Rec :=
  match loadAll model .empty files with
  | .error e => .error e
  | .ok db =>
    match db.completeName asciiOps 900 name with
    | .error e => .error e
    | .ok r => .ok r.1

/-- `Model(id=..)` up to the completed values (client_abc_fix.py l.61-73). -/
def byIdIn (model : String) (files : List (String × Rec)) (uid : ℤ) : Except PyErr Rec :=
  match loadAll model .empty files with
  | .error e => .error e
  | .ok db =>
    match db.completeId asciiOps 900 uid with
    | .error e => .error e
    | .ok r => .ok r.1

/-- A text field that is needed.  Used in target.py l.48-61. -/
def textOf (r : Rec) (k : String) : Except PyErr String :=
  match r k with
  | some (.str s) => .ok s
  | _ => .error .valueError

/-- A field of type `IdInt` (base/content.py l.21). -/
def idOf (r : Rec) : Except PyErr ℕ :=
  match r "id" with
  | some (.int n) => if 0 ≤ n ∧ n < 2 ^ 128 then .ok n.toNat else .error .valueError
  | _ => .error .valueError

/-- The field `active`, true by default (cape.py l.37, target.py l.34, observer.py l.48). -/
def activeOf (r : Rec) : Bool := r "active" ≠ some (.other 0)

/-- `MCU(name=..)` (mcu.py l.26-50); voltage and data rate are never given. -/
def loadMcu (files : List (String × Rec)) (name : String) : Except PyErr Mcu := do
  let r ← byNameIn "mcu" files name
  let p ← textOf r "prog_protocol"
  return { id := ← idOf r, name := ← textOf r "name", progVoltage := 3, progDatarate := 500000,
           protocol := if p = "SWD" then 0 else if p = "SBW" then 1 else if p = "JTAG" then 2 else 3, fwDefault := ← textOf r "fw_name_default" }

/-- The second MCU: none if it is `null` or not given (target.py l.41, 57-63). -/
def loadMcu2 (files : List (String × Rec)) (r : Rec) : Except PyErr (Option Mcu) :=
  match r "mcu2" with
  | some (.str n) => (loadMcu files n).map some
  | _ => .ok none

/-- `Target(..)` from completed values (target.py l.51-67). -/
def makeTarget (files : List (String × Rec)) (r : Rec) : Except PyErr TargetDev := do
  let id ← idOf r
  let m1 ← textOf r "mcu1"
  return { id, testbedId := defaultTestbedId id, active := activeOf r, mcu1 := ← loadMcu files m1, mcu2 := ← loadMcu2 files r, rest := 0 }

/-- `Target(name=..)`.  Used in target.py l.48-61. -/
def loadTarget (files : List (String × Rec)) (name : String) : Except PyErr TargetDev := do makeTarget files (← byNameIn "target" files name)

/-- `Target(id=..)`.  Used in target.py l.48-61. -/
def loadTargetId (files : List (String × Rec)) (id : ℕ) : Except PyErr TargetDev := do makeTarget files (← byIdIn "target" files id)

/-- `Cape(name=..)` (cape.py l.27-46). -/
def loadCape (files : List (String × Rec)) (name : String) : Except PyErr CapeDev := do
  let r ← byNameIn "cape" files name
  return { id := ← idOf r, active := activeOf r, rest := 0 }

/-- An IPv4 address as number (observer.py l.36); malformed addresses do not occur. -/
def ipNum (s : String) : ℕ :=
  let p := s.toList.foldl (fun (p : ℕ × ℕ) c => if c = '.' then (p.1 * 256 + p.2, 0) else (p.1, p.2 * 10 + (c.toNat - 48))) (0, 0)
  p.1 * 256 + p.2

/-- An optional part of an observer, by name (observer.py l.49-51). -/
def partOf {α : Type} (load : String → Except PyErr α) (r : Rec) (k : String) : Except PyErr (Option α) :=
  match r k with
  | some (.str n) => (load n).map some
  | _ => .ok none

/-- `Observer(name=..)` (observer.py l.28-73). -/
def loadObserver (files : List (String × Rec)) (name : String) : Except PyErr ObserverDev := do
  let r ← byNameIn "observer" files name
  let o : ObserverDev :=
    { id := ← idOf r, name := ← textOf r "name", ip := ipNum (← textOf r "ip"), mac := ← textOf r "mac", ethPort := ← textOf r "eth_port", active := activeOf r,
      cape := ← partOf (loadCape files) r "cape", targetA := ← partOf (loadTarget files) r "target_a", targetB := ← partOf (loadTarget files) r "target_b" }
  match o.validate with
  | .error e => throw e
  | .ok () => return o

/-- `Testbed()` (testbed.py l.44-96) for a fixture with the given observers, shared storage and the default of five minutes for preparations. -/
def loadTestbed (files : List (String × Rec)) (observers : List String) : Except PyErr TestbedDev := do
  let os ← allOk (loadObserver files) observers
  let tb : TestbedDev := { observers := os, sharedStorage := true, root := ["/", "var", "shepherd"], prepDuration := 300000000 }
  match tb.validate with
  | .error e => throw e
  | .ok () => return tb

/-- `Firmware(name=..)` (firmware.py l.58-88); the type of the data is a path to an ELF file. -/
def loadFirmware (files : List (String × Rec)) (name : String) : Except PyErr Fw := do
  let r ← byNameIn "firmware" files name
  let m ← textOf r "mcu"
  return { mcu := ← loadMcu files m, data := ← textOf r "data", dataType := 3 }

/-! ## Data -/

/-- `testbed/mcu_fixture.yaml` l.2-19. -/
def mcuFile : List (String × Rec) :=
  [yaml "mcu" "nRF52" 1001 [("prog_protocol", .str "SWD"), ("fw_name_default", .str "nrf52_demo_rf")],
   yaml "mcu" "MSP430FR" 1002 [("prog_protocol", .str "SBW"), ("fw_name_default", .str "msp430_deep_sleep")]]

/-- A cape like the first one.  From data_models/testbed/cape_fixture.yaml. -/
def capeLike (name : String) (id : ℤ) (more : List (String × Val)) : String × Rec := yaml "cape" name id (("inherit_from", .str "cape51") :: more)

/-- `testbed/cape_fixture.yaml` l.5-94. -/
def capeFile : List (String × Rec) :=
  [yaml "cape" "cape51" 1270051 [("version", .str "v2.4b")],
   capeLike "cape52" 1270052 [], capeLike "cape53" 1270053 [("active", .other 0)], capeLike "cape54" 1270054 [], capeLike "cape55" 1270055 [], capeLike "cape56" 1270056 [],
   capeLike "cape57" 1270057 [], capeLike "cape58" 1270058 [], capeLike "cape59" 1270059 [], capeLike "cape60" 1270060 [], capeLike "cape61" 1270061 [], capeLike "cape62" 1270062 [],
   capeLike "cape63" 1270063 [], capeLike "cape64" 1270064 [], capeLike "cape65" 1270065 []]

/-- A target like the first one.  From data_models/testbed/target_fixture.yaml. -/
def targetLike (name : String) (id : ℤ) (more : List (String × Val)) : String × Rec := yaml "target" name id (("inherit_from", .str "nRF52_FRAM_1392_377") :: more)

/-- `testbed/target_fixture.yaml` l.4-163. -/
def targetFile : List (String × Rec) :=
  [yaml "target" "nRF52_FRAM_1392_377" 2 [("version", .str "v1.3"), ("mcu1", .str "nRF52"), ("mcu2", .str "MSP430FR")],
   targetLike "nRF52_FRAM_1392_378" 8 [], targetLike "nRF52_FRAM_1392_379" 9 [], targetLike "nRF52_FRAM_1392_380" 1392380 [("active", .other 0)],
   targetLike "nRF52_FRAM_1392_381" 1392381 [], targetLike "nRF52_FRAM_1392_382" 1392382 [("active", .other 0)], targetLike "nRF52_FRAM_1392_383" 1392383 [],
   targetLike "nRF52_FRAM_1392_384" 4 [], targetLike "nRF52_FRAM_1392_385" 5 [], targetLike "nRF52_FRAM_1392_386" 6 [], targetLike "nRF52_FRAM_1392_387" 7 [],
   targetLike "nRF52_FRAM_1392_388" 1392388 [("mcu2", .other 0), ("active", .other 0)], targetLike "nRF52_FRAM_1392_389" 1392389 [("mcu2", .other 0), ("active", .other 0)],
   targetLike "nRF52_FRAM_1392_390" 10 [], targetLike "nRF52_FRAM_1392_391" 1392391 [], targetLike "nRF52_FRAM_1392_392" 1392392 [("active", .other 0)],
   targetLike "nRF52_FRAM_1392_393" 1 [], targetLike "nRF52_FRAM_1392_394" 1392394 [("active", .other 0)], targetLike "nRF52_FRAM_1392_395" 3 [], targetLike "nRF52_FRAM_1392_396" 11 [],
   targetLike "nRF52_FRAM_1392_397" 1392397 [], targetLike "nRF52_FRAM_1392_398" 1392398 [], targetLike "nRF52_FRAM_1392_399" 1392399 [], targetLike "nRF52_FRAM_1392_400" 1392400 [],
   yaml "target" "target_nRF52_01" 1001 [("version", .str "v2.1r0"), ("mcu1", .str "nRF52"), ("mcu2", .other 0)]]

/-- An observer of the file.  From data_models/testbed/observer_fixture.yaml. -/
def sheep (name : String) (id : ℤ) (ip mac port cape : String) (more : List (String × Val)) : String × Rec :=
  yaml "observer" name id ([("ip", .str ip), ("mac", .str mac), ("eth_port", .str port), ("cape", .str cape)] ++ more)

/-- `testbed/observer_fixture.yaml` l.4-223. -/
def observerFile : List (String × Rec) :=
  [sheep "sheep0" 0 "10.0.0.20" "18:00:C0:FF:EE:77" "unimatrix_zero_one" "cape53" [("active", .other 0)],
   sheep "sheep01" 1 "192.168.165.201" "18:62:E4:E4:41:8D" "B14" "cape51" [("target_a", .str "nRF52_FRAM_1392_386")],
   sheep "sheep02" 2 "192.168.165.202" "18:62:E4:D0:DE:3F" "A18" "cape52" [("target_a", .str "nRF52_FRAM_1392_378")],
   sheep "sheep03" 3 "192.168.165.203" "18:62:E4:D0:9E:6A" "B10" "cape63" [("active", .other 0)],
   sheep "sheep04" 4 "192.168.165.204" "18:62:E4:D0:61:4D" "C6" "cape54" [("target_a", .str "nRF52_FRAM_1392_395")],
   sheep "sheep05" 5 "192.168.165.205" "18:62:E4:E3:6E:13" "D10" "cape55" [("target_a", .str "nRF52_FRAM_1392_393"), ("target_b", .str "target_nRF52_01")],
   sheep "sheep06" 6 "192.168.165.206" "18:62:E4:D0:AF:0B" "L14" "cape56" [("target_a", .str "nRF52_FRAM_1392_396")],
   sheep "sheep07" 7 "192.168.165.207" "18:62:E4:E4:39:D7" "A20" "cape57" [("target_a", .str "nRF52_FRAM_1392_387")],
   sheep "sheep08" 8 "192.168.165.208" "18:62:E4:D0:E5:FB" "TBD" "cape58" [("active", .other 0)],
   sheep "sheep09" 9 "192.168.165.209" "18:62:E4:D0:D4:A9" "C4" "cape65" [("target_a", .str "nRF52_FRAM_1392_385")],
   sheep "sheep10" 10 "192.168.165.210" "18:62:E4:E4:24:C5" "C20" "cape59" [("target_a", .str "nRF52_FRAM_1392_377")],
   sheep "sheep11" 11 "192.168.165.211" "18:62:E4:E4:0E:5D" "tbd" "cape61" [("active", .other 0)],
   sheep "sheep12" 12 "192.168.165.212" "18:62:E4:D0:AA:F7" "B24" "cape62" [("target_a", .str "nRF52_FRAM_1392_384")],
   sheep "sheep13" 13 "192.168.165.213" "18:62:E4:D0:D7:70" "A4" "cape60" [("target_a", .str "nRF52_FRAM_1392_379")],
   sheep "sheep14" 14 "192.168.165.214" "18:62:E4:E3:89:43" "L24" "cape64" [("target_a", .str "nRF52_FRAM_1392_390")]]

/-- `testbed/testbed_fixture.yaml` l.12-25. -/
def testbedFile : List String :=
  ["sheep01", "sheep02", "sheep04", "sheep05", "sheep06", "sheep07", "sheep09", "sheep10", "sheep12", "sheep13", "sheep14"]

/-- A firmware of the file.  From data_models/content/_external_fixtures.yaml. -/
def fwEntry (name : String) (id : ℤ) (mcu : String) : String × Rec :=
  yaml "Firmware" name id [("mcu", .str mcu), ("data", .str ("/var/shepherd/content/fw/nes_lab/" ++ name ++ "/build.elf"))]

/-- `content/_external_fixtures.yaml` l.185-410. -/
def firmwareFile : List (String × Rec) :=
  [fwEntry "msp430_deep_sleep" 3000 "MSP430FR", fwEntry "msp430_spi_fram" 3001 "MSP430FR", fwEntry "msp430_testable" 3002 "MSP430FR", fwEntry "nrf52_deep_sleep" 7163917825449888392 "nRF52",
   fwEntry "nrf52_demo_rf" 2000 "nRF52", fwEntry "nrf52_rf_survey" 3174430733058172825 "nRF52", fwEntry "nrf52_rf_test" 16381936580724580968 "nRF52", fwEntry "nrf52_testable" 2002 "nRF52"]

/-- All files.  Used in the fixture files in data_models/testbed and data_models/content. -/
def shippedFiles : List (String × Rec) := mcuFile ++ capeFile ++ targetFile ++ observerFile ++ firmwareFile

/-- The content data base of the library (client_abc_fix.py l.75-126): answers to `Target(id=..)` and `Firmware(name=..)`. -/
def shippedDb : ContentDb where
  target := loadTargetId shippedFiles
  firmware := loadFirmware shippedFiles

end Verif.Model
