import Verif.Py.Err
import Mathlib.Data.Nat.Notation
import Mathlib.Data.List.Basic

/-!
# Firmware

Models `shepherd_core/shepherd_core/fw_tools/patcher.py` (l.25-136), `converter.py` (l.33-106), `validation.py` (l.31-98, 142-156) and `Firmware`
(`shepherd_core/shepherd_core/data_models/content/firmware.py` l.25-170).

The libraries for ELF, hex and zstd files are not part of the code; what is used of them is modelled here: where in the file the bytes of an address are, what bytes a hex file
assigns to addresses, and compression as a pair of functions.  The base64 codec is modelled in full.  Bytes are numbers below 256, files are lists of bytes, a file system maps
paths to files.  Sizes in memory are given by a function.
-/

namespace Verif.Model
open Verif.Py

/-! ## Files -/

/-- Paths: directory, stem and suffix (with its dot).  Used in fw_tools/converter.py l.19-106, patcher.py l.87-131. -/
structure FPath where
  dir : String
  stem : String
  suffix : String
deriving DecidableEq

/-- `path.with_suffix(s)`.  Used in fw_tools/converter.py l.19-106, patcher.py l.87-131. -/
def FPath.withSuffix (p : FPath) (s : String) : FPath := { p with suffix := s }

/-- Files and what is in them.  Used in fw_tools/converter.py l.19-106, patcher.py l.87-131. -/
abbrev FileSys := FPath → Option (List ℕ)

/-- Write a file.  Used in fw_tools/converter.py l.19-106, patcher.py l.87-131. -/
def FileSys.write (fs : FileSys) (p : FPath) (content : List ℕ) : FileSys := fun q => if q = p then some content else fs q

/-! ## ELF files -/

/-- Where a byte of the memory image is: in the file, in a part of memory that is zero at the start (bss), or nowhere.  Used in fw_tools/patcher.py l.26-131. -/
inductive Loc
  | file (offset : ℕ)
  | bss
  | out
deriving DecidableEq

/-- What the ELF library tells about a file, apart from its bytes.  Used in fw_tools/patcher.py l.26-131. -/
structure ElfInfo where
  symbols : String → Option ℕ
  loc : ℕ → Loc
  little : Bool

/-- `ELF(path)`: `none` if the file is no ELF.  The headers are outside of what is modified here, so the information depends on them only.  Used in fw_tools/patcher.py l.26-131. -/
abbrev ElfParser := List ℕ → Option ElfInfo

/-- `int.from_bytes(b, "big")`.  Used in fw_tools/patcher.py l.26-131. -/
def fromBig (l : List ℕ) : ℕ := l.foldl (fun v b => v * 256 + b) 0

/-- `int.from_bytes(b, endian)`.  Used in fw_tools/patcher.py l.26-131. -/
def fromBytes (little : Bool) (l : List ℕ) : ℕ := if little then fromBig l.reverse else fromBig l

/-- `value.to_bytes(length=2, endian)`; raises OverflowError if the value is too big.  Used in fw_tools/patcher.py l.26-131. -/
def toBytes2 (little : Bool) (v : ℕ) : Except PyErr (List ℕ) :=
  if 2 ^ 16 ≤ v then .error .overflowError else .ok (if little then [v % 256, v / 256] else [v / 256, v % 256])

/-- One byte of the memory image.  Used in fw_tools/patcher.py l.26-131. -/
def elfByte (info : ElfInfo) (bytes : List ℕ) (a : ℕ) : Option ℕ :=
  match info.loc a with
  | .file off => bytes[off]?
  | .bss => some 0
  | .out => none

/-- `elf.read(address, count)` of pwntools: raises if the first byte is not in memory, stops at gaps.  Used in fw_tools/patcher.py l.26-131. -/
def elfRead (info : ElfInfo) (bytes : List ℕ) (a n : ℕ) : Except PyErr (List ℕ) :=
  match info.loc a with
  | .out => .error .pwnError
  | _ => .ok ((List.range n).filterMap (fun i => elfByte info bytes (a + i)))

/-- Replace bytes from an offset on.  Used in fw_tools/patcher.py l.26-131. -/
def patch (bytes : List ℕ) (off : ℕ) (data : List ℕ) : List ℕ := bytes.take off ++ data ++ bytes.drop (off + data.length)

/-- `elf.write(address, data)` of pwntools: an address in bss has no segment, which raises an AttributeError.  Used in fw_tools/patcher.py l.26-131. -/
def elfWrite (info : ElfInfo) (bytes : List ℕ) (a : ℕ) (data : List ℕ) : Except PyErr (List ℕ) :=
  match info.loc a with
  | .file off => .ok (patch bytes off data)
  | .bss => .error .attributeError
  | .out => .ok bytes

section
variable (elf : ElfParser)

/-- The address of a symbol in a file: `none` if there is no such file, it is no ELF or has no such symbol (patcher.py l.25-48, validation.py l.86-98). -/
def findSymbol (fs : FileSys) (p : FPath) (symbol : String) : Option (List ℕ × ElfInfo × ℕ) :=
  match fs p with
  | none => none
  | some bytes =>
    match elf bytes with
    | none => none
    | some info =>
      match info.symbols symbol with
      | none => none
      | some a => some (bytes, info, a)

/-- The last `n` members: `l[-n:]`.  Used in fw_tools/patcher.py l.87-131. -/
def lastN (n : ℕ) (l : List ℕ) : List ℕ := l.drop (l.length - n)

/-- `read_symbol` (patcher.py l.51-65). -/
def readSymbol (fs : FileSys) (p : FPath) (symbol : String) (length : ℕ) : Except PyErr (Option ℕ) :=
  match findSymbol elf fs p symbol with
  | none => .ok none
  | some (bytes, info, a) =>
    match elfRead info bytes a length with
    | .error e => .error e
    | .ok raw => .ok (some (fromBytes info.little (lastN length raw)))

/-- Name of the modified file (patcher.py l.117-121). -/
def modifiedPath (p : FPath) (value : ℕ) (overwrite : Bool) : FPath := if overwrite then p else { p with stem := p.stem ++ "_" ++ toString value }

/-- `modify_symbol_value` (patcher.py l.86-131): the path of the new file and the value reported as old one, and the files afterwards. -/
def modifySymbol (fs : FileSys) (p : FPath) (symbol : String) (value : ℕ) (overwrite : Bool) : Except PyErr (Option (FPath × ℕ) × FileSys) :=
  if 2 ^ 16 ≤ value then .error .valueError
  else
    match findSymbol elf fs p symbol with
    | none => .ok (none, fs)
    | some (bytes, info, a) =>
      match elfRead info bytes a 2 with
      | .error e => .error e
      | .ok raw =>
        match toBytes2 info.little value with
        | .error e => .error e
        | .ok data =>
          match elfWrite info bytes a data with
          | .error .attributeError => .ok (none, fs)
          | .error e => .error e
          | .ok bytes' =>
            .ok (some (modifiedPath p value overwrite, fromBytes info.little (lastN 2 raw)), fs.write (modifiedPath p value overwrite) bytes')

end

/-! ## Base64 -/

/-- The base64 alphabet.  Used in fw_tools/converter.py l.34-60. -/
def b64Char (i : ℕ) : ℕ :=
  if i < 26 then 65 + i else if i < 52 then 97 + (i - 26) else if i < 62 then 48 + (i - 52) else if i = 62 then 43 else 47

/-- Value of a character of the alphabet.  Used in fw_tools/converter.py l.34-60. -/
def b64Val (c : ℕ) : Option ℕ :=
  if 65 ≤ c ∧ c ≤ 90 then some (c - 65)
  else if 97 ≤ c ∧ c ≤ 122 then some (c - 97 + 26)
  else if 48 ≤ c ∧ c ≤ 57 then some (c - 48 + 52)
  else if c = 43 then some 62
  else if c = 47 then some 63
  else none

/-- `base64.b64encode(data).decode("ascii")` (converter.py l.45); characters are given by their codes. -/
def b64Encode : List ℕ → List ℕ
  | [] => []
  | [a] => [b64Char (a / 4), b64Char (a % 4 * 16), 61, 61]
  | [a, b] => [b64Char (a / 4), b64Char (a % 4 * 16 + b / 16), b64Char (b % 16 * 4), 61]
  | a :: b :: c :: t => b64Char (a / 4) :: b64Char (a % 4 * 16 + b / 16) :: b64Char (b % 16 * 4 + c / 64) :: b64Char (c % 64) :: b64Encode t

/-- The decoder of Python (not strict) in the middle of a text: `quad` characters of the current four are read, `left` are the bits not used yet, `pads` the padding seen.  Used in fw_tools/converter.py l.34-60. -/
def b64Loop (quad left pads : ℕ) : List ℕ → Except PyErr (List ℕ)
  | [] => if quad = 0 then .ok [] else .error .valueError
  | c :: t =>
    if c = 61 then
      if 2 ≤ quad then
        if 4 ≤ quad + (pads + 1) then .ok [] else b64Loop quad left (pads + 1) t
      else b64Loop quad left pads t
    else
      match b64Val c with
      | none => b64Loop quad left pads t
      | some v =>
        match quad with
        | 0 => b64Loop 1 v 0 t
        | 1 => (b64Loop 2 (v % 16) 0 t).map ((left * 4 + v / 16) :: ·)
        | 2 => (b64Loop 3 (v % 4) 0 t).map ((left * 16 + v / 4) :: ·)
        | _ => (b64Loop 0 0 0 t).map ((left * 64 + v) :: ·)

/-- `base64.b64decode(content)` (converter.py l.55): the text has to be ASCII. -/
def b64Decode (l : List ℕ) : Except PyErr (List ℕ) := if l.all (· < 128) then b64Loop 0 0 0 l else .error .valueError

/-! ## Embedding -/

/-- The compressor: what it makes of data, and how it is undone.  Used in fw_tools/converter.py l.34-60. -/
structure Zstd where
  compress : List ℕ → List ℕ
  decompress : List ℕ → Option (List ℕ)

section
variable (z : Zstd)

/-- `file_to_base64` (converter.py l.33-45). -/
def fileToBase64 (fs : FileSys) (p : FPath) : Except PyErr (List ℕ) :=
  match fs p with
  | none => .error .valueError
  | some b => .ok (b64Encode (z.compress b))

/-- The content of a base64 string (converter.py l.55-56, 76-77). -/
def base64Content (content : List ℕ) : Except PyErr (List ℕ) :=
  match b64Decode content with
  | .error e => .error e
  | .ok c =>
    match z.decompress c with
    | none => .error .zstdError
    | some b => .ok b

/-- `base64_to_file` (converter.py l.48-60). -/
def base64ToFile (fs : FileSys) (content : List ℕ) (p : FPath) : Except PyErr FileSys :=
  match base64Content z content with
  | .error e => .error e
  | .ok b => .ok (fs.write p b)

/-- `FirmwareDType` (content/firmware_datatype.py l.9-15). -/
inductive FwType
  | base64Hex
  | base64Elf
  | pathHex
  | pathElf
deriving DecidableEq

/-- Embedded or referenced firmware.  `lost` is text that was too long (or short) for the field and was made a path object instead.  Used in firmware.py l.52-64, fw_tools/converter.py l.82-106. -/
inductive FwData
  | text (s : List ℕ)
  | path (p : FPath)
  | lost
deriving DecidableEq

/-- The field `data: Union[FirmwareStr, Path]` (content/firmware.py l.49, 59): strings have 3 to 8 million characters, others are taken for paths. -/
def FwData.narrow : FwData → FwData
  | .text s => if 3 ≤ s.length ∧ s.length ≤ 8000000 then .text s else .lost
  | d => d

/-- The characters of a path, `path.as_posix()`.  Used in fw_tools/converter.py l.19-106, patcher.py l.87-131. -/
def FPath.text (p : FPath) : List ℕ := (p.dir ++ "/" ++ p.stem ++ p.suffix).toList.map Char.toNat

/-- Suffix of extracted files (converter.py l.88-99). -/
def FwType.suffix : FwType → String
  | .base64Hex => ".hex"
  | .base64Elf => ".elf"
  | .pathHex => ".hex"
  | .pathElf => ".elf"

/-- `extract_firmware` (converter.py l.81-106).  A string that is given as path is a path here; embedded text used as the name of a file names none. -/
def extractFirmware (fs : FileSys) (data : FwData) (ty : FwType) (p : FPath) : Except PyErr (FPath × FileSys) :=
  match ty, data with
  | .base64Elf, .text s | .base64Hex, .text s =>
    match base64ToFile z fs s (p.withSuffix ty.suffix) with
    | .error e => .error e
    | .ok fs' => .ok (p.withSuffix ty.suffix, fs')
  | .pathElf, .path q | .pathHex, .path q =>
    match fs q with
    | none => .error .fileNotFoundError
    | some b => .ok (p.withSuffix ty.suffix, fs.write (p.withSuffix ty.suffix) b)
  | .pathElf, .text _ | .pathHex, .text _ | .pathElf, .lost | .pathHex, .lost => .error .osError
  | .base64Elf, .path _ | .base64Hex, .path _ | .base64Elf, .lost | .base64Hex, .lost => .error .valueError

/-- `Firmware` (content/firmware.py l.52-63): the fields about data. -/
structure FwModel where
  data : FwData
  dataType : FwType
  dataHash : Option ℕ
  dataLocal : Bool
deriving DecidableEq

variable (hash : List ℕ → ℕ)

/-- `query_database` (content/firmware.py l.65-89): data are checked against their hash.  An exception of the decompressor is not a ValueError and passes. -/
def FwModel.validate (f : FwModel) : Except PyErr Unit :=
  match f.dataType, f.data with
  | .base64Hex, .text s | .base64Elf, .text s =>
    match base64Content z s with
    | .error .valueError => .error .valueError
    | .error e => .error e
    | .ok b =>
      match f.dataHash with
      | none => .ok ()
      | some h => if hash b ≠ h then .error .valueError else .ok ()
  | .base64Hex, .path _ | .base64Elf, .path _ | .base64Hex, .lost | .base64Elf, .lost => .error .valueError
  | _, _ => .ok ()

/-- The type by suffix (content/firmware.py l.25-35). -/
def typeOfSuffix (s : String) : Option FwType :=
  if s = ".hex" ∨ s = ".ihex" ∨ s = ".ihx" then some .base64Hex
  else if s = ".elf" ∨ s = ".bin" ∨ s = ".o" ∨ s = ".out" ∨ s = ".so" then some .base64Elf
  else none

/-- The type of referenced data (content/firmware.py l.37-40). -/
def FwType.toPath : FwType → Option FwType
  | .base64Hex => some .pathHex
  | .base64Elf => some .pathElf
  | _ => none

/-- `from_firmware` (content/firmware.py l.91-141) without the checks of the architecture; the suffix is given in small letters. -/
def FwModel.fromFirmware (fs : FileSys) (p : FPath) (embed : Bool) : Except PyErr FwModel :=
  match fs p with
  | none => .error .valueError
  | some b =>
    match typeOfSuffix p.suffix with
    | none => .error .keyError
    | some ty =>
      if embed then
        match fileToBase64 z fs p with
        | .error e => .error e
        | .ok s =>
          let f : FwModel := ⟨.text s, ty, some (hash b), false⟩
          match f.validate z hash with
          | .error e => .error e
          | .ok () => .ok { f with data := f.data.narrow }
      else
        match ty.toPath with
        | none => .error .keyError
        | some ty' => .ok ⟨.path p, ty', some (hash b), true⟩

/-- `compare_hash` (content/firmware.py l.143-157).  A referenced path is kept as string, which is decoded like embedded text. -/
def FwModel.compareHash (fs : FileSys) (f : FwModel) (p : Option FPath) : Except PyErr Bool :=
  match f.dataHash with
  | none => .ok true
  | some h =>
    match p.bind fs with
    | some b => .ok (decide (h = hash b))
    | none =>
      match f.data with
      | .lost => .error .valueError
      | .path q =>
        match base64Content z q.text with
        | .error e => .error e
        | .ok b => .ok (decide (h = hash b))
      | .text s =>
        match base64Content z s with
        | .error e => .error e
        | .ok b => .ok (decide (h = hash b))

/-- `Firmware.extract_firmware` (content/firmware.py l.159-170): the result of the comparison is not used. -/
def FwModel.extract (fs : FileSys) (f : FwModel) (p : FPath) : Except PyErr (FPath × FileSys) :=
  match extractFirmware z fs f.data f.dataType p with
  | .error e => .error e
  | .ok (q, fs') =>
    match f.compareHash z hash fs' (some q) with
    | .error e => .error e
    | .ok _ => .ok (q, fs')

end

/-! ## Hex files -/

/-- What a hex file says: bytes and their addresses.  `none` for text that is no hex file.  Used in fw_tools/validation.py l.32-77. -/
abbrev HexParser := List ℕ → Option (List (ℕ × ℕ))

/-- The byte at an address.  Used in fw_tools/validation.py l.32-77. -/
def hexByte (h : List (ℕ × ℕ)) (a : ℕ) : Option ℕ := (h.find? (fun e => e.1 = a)).map (·.2)

/-- `ih.minaddr()`.  Used in fw_tools/validation.py l.32-77. -/
def hexMin (h : List (ℕ × ℕ)) : Option ℕ := (h.map (·.1)).min?

section
variable (hex : HexParser) (memSize : List (ℕ × ℕ) → ℕ)

/-- `is_hex_msp430` (validation.py l.43-62) for a file that exists.  `ih.gets` raises if one of the two bytes is missing. -/
def isHexMsp430 (content : List ℕ) : Except PyErr Bool :=
  match hex content with
  | none => .ok false
  | some ih =>
    if hexMin ih ≠ some 0x4000 then .ok false
    else if ¬(ih.any (fun e => e.1 = 0xFFFE)) then .ok false
    else
      match hexByte ih 0xFFFE, hexByte ih 0xFFFF with
      | some lo, some hi =>
        let value := fromBytes true [lo, hi]
        if 0x4000 > value ∧ value ≥ 0xFF80 then .ok false
        else .ok (decide (memSize ih ≤ 270000))
      | _, _ => .error .hexError

/-- `is_hex_nrf52` (validation.py l.65-77). -/
def isHexNrf52 (content : List ℕ) : Bool :=
  match hex content with
  | none => false
  | some ih => decide (memSize ih > 0)

/-- Families of micro-controllers.  Used in fw_tools/validation.py l.131-157. -/
inductive Arch
  | msp430
  | nrf52
deriving DecidableEq

/-- `determine_arch` (validation.py l.142-156) for hex files. -/
def hexArch (content : List ℕ) : Except PyErr Arch :=
  match isHexMsp430 hex memSize content with
  | .error e => .error e
  | .ok true => .ok .msp430
  | .ok false => if isHexNrf52 hex memSize content then .ok .nrf52 else .error .valueError

end

end Verif.Model
