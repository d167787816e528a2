import Verif.Model.FwTools
import Verif.Model.Tasks

/-!
# Firmware made from files

Models `Firmware.from_firmware` with all its checks and `Firmware.extract_firmware` (`shepherd_core/shepherd_core/data_models/content/firmware.py` l.42-170),
`FirmwareModTask.from_firmware` (`data_models/task/firmware_mod.py` l.84-100), `read_arch` (`fw_tools/patcher.py` l.73-83), the detection of types and architectures
(`fw_tools/validation.py` l.86-156), `firmware_to_hex` (`fw_tools/converter.py` l.18-30) and `elf_to_hex` (`fw_tools/converter_elf.py` l.12-32).

Of the libraries is used: what `ELF(path)` tells about a file, what `objcopy` makes of it, what `IntelHex` reads.  Not modelled: names that are in the data base of firmware, that
would fill in missing parameters; an MCU that is not in the data base; the fields of contents other than the name (see `Model/Features`).
-/

namespace Verif.Model
open Verif.Py

/-- What `ELF(path)` tells about the kind of a file: is `"exec" in elf.elftype.lower()`, and `elf.arch.lower()`.  Used in fw_tools/validation.py l.87-128, patcher.py l.26-83. -/
structure ElfHead where
  exec : Bool
  arch : String

/-- The libraries.  Used in fw_tools/validation.py l.87-128, patcher.py l.26-83. -/
structure FwEnv where
  z : Zstd
  hash : List ℕ → ℕ
  hex : HexParser
  memSize : List (ℕ × ℕ) → ℕ
  /-- `ELF(path)`; `none`: ELFError -/
  head : List ℕ → Option ElfHead
  /-- the hex file that objcopy makes; `none`: it fails -/
  objcopy : List ℕ → Option (List ℕ)
  /-- `str.lower()` -/
  lower : String → String

/-- `sub in s`.  Used in `from_firmware`, firmware.py l.92-141. -/
def holds (sub s : String) : Bool := s.toList.tails.any (fun t => sub.toList.isPrefixOf t)

/-- `arch_to_mcu` (content/firmware.py l.42-47): the name of the MCU. -/
def archToMcu (a : String) : Option String :=
  if a = "em_msp430" ∨ a = "msp430" then some "msp430fr"
  else if a = "arm" ∨ a = "nrf52" then some "nrf52"
  else none

/-- Arguments of `from_firmware` that are used by it.  Used in `from_firmware`, firmware.py l.92-141. -/
structure FwKw where
  dataType : Option FwType := none
  mcu : Option String := none
  name : Option String := none

/-- `Firmware` (content/firmware.py l.52-63): the data, the name of the MCU and the own name. -/
structure FwFile where
  fw : FwModel
  mcu : String
  name : String
deriving DecidableEq

/-- `PurePath(directory) / name`.  Used in `extract_firmware`, fw_tools/converter.py l.82-106. -/
def inDir (d name : String) : FPath :=
  ⟨d, String.ofList (splitName name.toList).1, String.ofList (splitName name.toList).2⟩

/-- A path given as argument: one that is a directory, or another one.  Used in `extract_firmware`, fw_tools/converter.py l.82-106. -/
inductive Dest
  | file (p : FPath)
  | dir (d : String)

section
variable (E : FwEnv)

/-- `is_elf_msp430` (validation.py l.101-113) for a file with content `b`. -/
def FwEnv.isElfMsp430 (b : List ℕ) : Except PyErr Bool :=
  match E.head b with
  | none => .ok false
  | some _ =>
    match E.objcopy b with
    | none => .error .runtimeError
    | some h => isHexMsp430 E.hex E.memSize h

/-- `is_elf_nrf52` (validation.py l.116-128). -/
def FwEnv.isElfNrf52 (b : List ℕ) : Except PyErr Bool :=
  match E.head b with
  | none => .ok false
  | some _ =>
    match E.objcopy b with
    | none => .error .runtimeError
    | some h => .ok (isHexNrf52 E.hex E.memSize h)

/-- `read_arch` (patcher.py l.73-83). -/
def FwEnv.readArch (b : List ℕ) : Option String :=
  match E.head b with
  | none => none
  | some h => if h.exec then some h.arch else none

/-- An error if a check says no.  Used in the field constraints of firmware.py l.52-64. -/
def require (x : Except PyErr Bool) : Except PyErr Unit :=
  match x with
  | .error e => .error e
  | .ok true => .ok ()
  | .ok false => .error .valueError

/-- The check of a hex file (content/firmware.py l.117-125): the MCU. -/
def FwEnv.checkHex (b : List ℕ) (mcu : Option String) : Except PyErr String :=
  match isHexMsp430 E.hex E.memSize b with
  | .error e => .error e
  | .ok true => .ok (mcu.getD "msp430fr")
  | .ok false => if isHexNrf52 E.hex E.memSize b then .ok (mcu.getD "nrf52") else .error .valueError

/-- The check of an ELF file (content/firmware.py l.127-135): `"msp430" in None` raises a TypeError. -/
def FwEnv.checkElf (b : List ℕ) (mcu : Option String) : Except PyErr String :=
  match E.readArch b with
  | none => .error .typeError
  | some a =>
    match if holds "msp430" a then require (E.isElfMsp430 b) else .ok () with
    | .error e => .error e
    | .ok () =>
      match if holds "nrf52" a || holds "arm" a then require (E.isElfNrf52 b) else .ok () with
      | .error e => .error e
      | .ok () =>
        match mcu with
        | some m => .ok m
        | none =>
          match archToMcu a with
          | none => .error .keyError
          | some m => .ok m

/-- The checks of the content by type (content/firmware.py l.117-135): the MCU, if there is one. -/
def FwEnv.check (ty : FwType) (b : List ℕ) (mcu : Option String) : Except PyErr (Option String) :=
  match ty with
  | .base64Hex => (E.checkHex b mcu).map some
  | .base64Elf => (E.checkElf b mcu).map some
  | _ => .ok mcu

/-- The end of `from_firmware` (content/firmware.py l.137-141): the model is made. -/
def FwEnv.finish (b : List ℕ) (p : FPath) (embed : Bool) (ty : FwType) (mcu : Option String) (name : Option String) : Except PyErr FwFile :=
  match if embed then some ty else ty.toPath with
  | none => .error .keyError
  | some ty' =>
    match mcu with
    | none => .error .valueError
    | some m =>
      let f : FwModel := ⟨if embed then .text (b64Encode (E.z.compress b)) else .path p, ty', some (E.hash b), !embed⟩
      match f.validate E.z E.hash with
      | .error e => .error e
      | .ok () =>
        if isNameStr (name.getD (p.stem ++ p.suffix)) then .ok ⟨{ f with data := f.data.narrow }, m, name.getD (p.stem ++ p.suffix)⟩ else .error .valueError

/-- `Firmware.from_firmware` (content/firmware.py l.91-141). -/
def FwEnv.make (fs : FileSys) (p : FPath) (embed : Bool) (kw : FwKw) : Except PyErr FwFile :=
  match fs p with
  | none => .error .valueError
  | some b =>
    match kw.dataType.or (typeOfSuffix (E.lower p.suffix)) with
    | none => .error .keyError
    | some ty =>
      match E.check ty b kw.mcu with
      | .error e => .error e
      | .ok mcu => E.finish b p embed ty mcu kw.name

/-- `Firmware.extract_firmware` (content/firmware.py l.159-170). -/
def FwEnv.extract (fs : FileSys) (f : FwFile) (dest : Dest) : Except PyErr (FPath × FileSys) :=
  match dest with
  | .file p => f.fw.extract E.z E.hash fs p
  | .dir d => f.fw.extract E.z E.hash fs (inDir d f.name)

/-- `FirmwareModTask` (task/firmware_mod.py l.28-38). -/
structure ModTask where
  data : FwData
  dataType : FwType
  customId : Option ℕ
  file : FPath
deriving DecidableEq

/-- `FirmwareModTask.from_firmware` (task/firmware_mod.py l.84-100); the result of the comparison is not used. -/
def FwEnv.modTask (fs : FileSys) (f : FwFile) (dest : Dest) (id : Option ℕ) : Except PyErr ModTask :=
  match f.fw.compareHash E.z E.hash fs none with
  | .error e => .error e
  | .ok _ =>
    if (id.map (fun i => decide (i < 2 ^ 16))).getD true then
      .ok ⟨f.fw.data, f.fw.dataType, id, match dest with | .file p => p | .dir d => (inDir d f.name).withSuffix ".hex"⟩
    else .error .valueError

/-- `determine_type` (validation.py l.131-139). -/
def FwEnv.determineType (fs : FileSys) (p : FPath) : Except PyErr FwType :=
  match fs p with
  | none => .error .valueError
  | some b =>
    if (E.hex b).isSome then .ok .pathHex
    else if (E.head b).isSome then .ok .pathElf
    else .error .valueError

/-- `determine_arch` (validation.py l.142-156). -/
def FwEnv.determineArch (fs : FileSys) (p : FPath) : Except PyErr Arch :=
  match fs p with
  | none => .error .valueError
  | some b =>
    match E.determineType fs p with
    | .error e => .error e
    | .ok .pathElf =>
      match E.isElfMsp430 b with
      | .error e => .error e
      | .ok true => .ok .msp430
      | .ok false =>
        match E.isElfNrf52 b with
        | .error e => .error e
        | .ok true => .ok .nrf52
        | .ok false => .error .valueError
    | .ok .pathHex => hexArch E.hex E.memSize b
    | .ok _ => .error .valueError

/-- `firmware_to_hex` (converter.py l.18-30) with `elf_to_hex` (converter_elf.py l.12-32): the path of the hex file and the files afterwards. -/
def FwEnv.toHex (fs : FileSys) (p : FPath) : Except PyErr (FPath × FileSys) :=
  match fs p with
  | none => .error .fileNotFoundError
  | some b =>
    if (E.head b).isSome then
      match E.objcopy b with
      | none => .error .runtimeError
      | some h => .ok (p.withSuffix ".hex", fs.write (p.withSuffix ".hex") h)
    else if (E.hex b).isSome then .ok (p, fs)
    else .error .fileNotFoundError

end
end Verif.Model
