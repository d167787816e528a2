import Verif.Py.Err
import Mathlib.Data.Nat.Notation
import Mathlib.Data.List.Basic

/-!
# Calibration in the EEPROM of the cape

Models `dict_generator`, `CalibrationCape.to_bytestr` and `from_bytestr` (`shepherd_core/shepherd_core/data_models/base/calibration.py` l.30-48, 205-256).
Floats are given by the 64 bits that represent them, bytes by numbers below 256.
-/

namespace Verif.Model
open Verif.Py

/-- `CalibrationPair` (calibration.py l.51-56); gain and offset by their 64 bits. -/
structure BinPair where
  gain : ℕ
  offset : ℕ
  unit : Option String
deriving DecidableEq, Repr

/-- `CalibrationHarvester` (calibration.py l.98-104). -/
structure BinHarvester where
  dacVHrv : BinPair
  dacVSim : BinPair
  adcVSense : BinPair
  adcCHrv : BinPair
deriving DecidableEq, Repr

/-- `CalibrationEmulator` (calibration.py l.139-148). -/
structure BinEmulator where
  dacVA : BinPair
  dacVB : BinPair
  adcCA : BinPair
  adcCB : BinPair
deriving DecidableEq, Repr

/-- `CalibrationCape` (calibration.py l.205-218); the information about the cape is opaque. -/
structure BinCape where
  cape : Option ℕ
  host : Option String
  harvester : BinHarvester
  emulator : BinEmulator
deriving DecidableEq, Repr

/-- The exponent of a double is not the one of infinities and NaN.  Used in the field constraints, calibration.py l.51-56, l.205-214. -/
def dblFinite (b : ℕ) : Bool := b / 2 ^ 52 % 2 ^ 11 ≠ 2047
/-- A double is greater than zero (and no NaN): the sign is not set, not all bits are zero.  Used in the field constraints, calibration.py l.51-56, l.205-214. -/
def dblPositive (b : ℕ) : Bool := 0 < b && b ≤ 0x7FF0000000000000

/-- The constraints on a pair (calibration.py l.54-55; base/shepherd.py l.76: no infinities and NaN). -/
def BinPair.check (p : BinPair) : Bool := dblPositive p.gain && dblFinite p.gain && dblFinite p.offset
/-- The constraints on a calibration.  Used in the field constraints, calibration.py l.51-56, l.205-214. -/
def BinCape.check (c : BinCape) : Bool :=
  c.harvester.dacVHrv.check && c.harvester.dacVSim.check && c.harvester.adcVSense.check && c.harvester.adcCHrv.check
    && c.emulator.dacVA.check && c.emulator.dacVB.check && c.emulator.adcCA.check && c.emulator.adcCB.check

/-! ## Dictionaries -/

mutual
/-- Values in the dictionary of a calibration.  Used in `dict_generator`, calibration.py l.30-48. -/
inductive DVal
  | float (bits : ℕ)
  | str (s : String)
  | null
  | dict (d : DDict)
/-- A dictionary, in the order of insertion.  Used in `dict_generator`, calibration.py l.30-48. -/
inductive DDict
  | nil
  | cons (key : String) (v : DVal) (rest : DDict)
end

/-- What is at the end of a walk: strings are sequences, so their characters are visited one by one.  Used in `dict_generator`, calibration.py l.30-48. -/
inductive DLeaf
  | float (bits : ℕ)
  | char (c : Char)
  | null
deriving DecidableEq, Repr

mutual
/-- `dict_generator` (calibration.py l.30-48) for a value below `pre`. -/
def walksVal (pre : List String) : DVal → List (List String × DLeaf)
  | .float b => [(pre, .float b)]
  | .str s => s.toList.map (fun c => (pre, .char c))
  | .null => [(pre, .null)]
  | .dict d => walks pre d
/-- `dict_generator` (calibration.py l.30-48) for a dictionary. -/
def walks (pre : List String) : DDict → List (List String × DLeaf)
  | .nil => []
  | .cons k v r => walksVal (pre ++ [k]) v ++ walks pre r
end

/-- `walk[-1]` if it is a float (calibration.py l.236, 255). -/
def floatOf : List String × DLeaf → Option (List String × ℕ)
  | (w, .float b) => some (w, b)
  | _ => none

/-- `model_dump` of a pair.  Used in calibration.py l.51-56, used in l.252. -/
def BinPair.dump (p : BinPair) : DVal :=
  .dict (.cons "gain" (.float p.gain) (.cons "offset" (.float p.offset)
    (.cons "unit" (match p.unit with | some s => .str s | none => .null) .nil)))

/-- `model_dump(include={"harvester", "emulator"})` (calibration.py l.234, 254): in the order of the fields. -/
def BinCape.dump (c : BinCape) : DDict :=
  .cons "harvester"
    (.dict (.cons "dac_V_Hrv" c.harvester.dacVHrv.dump (.cons "dac_V_Sim" c.harvester.dacVSim.dump
      (.cons "adc_V_Sense" c.harvester.adcVSense.dump (.cons "adc_C_Hrv" c.harvester.adcCHrv.dump .nil)))))
    (.cons "emulator"
      (.dict (.cons "dac_V_A" c.emulator.dacVA.dump (.cons "dac_V_B" c.emulator.dacVB.dump
        (.cons "adc_C_A" c.emulator.adcCA.dump (.cons "adc_C_B" c.emulator.adcCB.dump .nil)))))
      .nil)

/-- `d[key]`, an empty dictionary if there is none.  Used in calibration.py l.233-242. -/
def DDict.get : DDict → String → DVal
  | .nil, _ => .null
  | .cons k v r, s => if k = s then v else r.get s

/-- `d[key] = v` for a key that exists.  Used in calibration.py l.233-242. -/
def DDict.set : DDict → String → DVal → DDict
  | .nil, _, _ => .nil
  | .cons k v r, s, x => if k = s then .cons k x r else .cons k v (r.set s x)

/-- Read as dictionary.  Used in calibration.py l.233-242. -/
def DVal.asDict : DVal → DDict
  | .dict d => d
  | _ => .nil

/-- `dv[walk[0]][walk[1]][walk[2]] = value` (calibration.py l.241). -/
def DDict.set3 (d : DDict) (walk : List String) (bits : ℕ) : DDict :=
  match walk with
  | a :: b :: c :: _ =>
    let d1 := (d.get a).asDict
    let d2 := (d1.get b).asDict
    d.set a (.dict (d1.set b (.dict (d2.set c (.float bits)))))
  | _ => d

/-! ## struct -/

/-- Eight bytes of a double, the highest first.  Used in `struct.pack(">d")`, calibration.py l.245-256. -/
def packD (b : ℕ) : List ℕ :=
  [b / 2 ^ 56 % 256, b / 2 ^ 48 % 256, b / 2 ^ 40 % 256, b / 2 ^ 32 % 256, b / 2 ^ 24 % 256, b / 2 ^ 16 % 256, b / 2 ^ 8 % 256, b % 256]

/-- `struct.pack(">" + n * "d", *values)` (calibration.py l.256). -/
def structPack (values : List ℕ) : List ℕ := values.flatMap packD

/-- `struct.unpack(">" + n * "d", data)` (calibration.py l.237): the number of bytes has to fit. -/
def structUnpack : ℕ → List ℕ → Except PyErr (List ℕ)
  | 0, [] => .ok []
  | n + 1, a :: b :: c :: d :: e :: f :: g :: h :: t =>
    match structUnpack n t with
    | .error err => .error err
    | .ok l => .ok ((((((((a * 256 + b) * 256 + c) * 256 + d) * 256 + e) * 256 + f) * 256 + g) * 256 + h) :: l)
  | _, _ => .error .structError

/-! ## To and from bytes -/

/-- `to_bytestr` (calibration.py l.245-256). -/
def BinCape.toBytestr (c : BinCape) : List ℕ := structPack (((walks [] c.dump).filterMap floatOf).map (·.2))

/-- The default calibration `CalibrationCape()` (calibration.py l.98-104, 139-148, 214-218): see `C04_default`. -/
def BinCape.default : BinCape :=
  let dac : BinPair := ⟨0x3F14001400140014, 0x8000000000000000, some "V"⟩
  let adcV : BinPair := ⟨0x3EF47AE147AE147B, 0x8000000000000000, some "V"⟩
  let adcC : BinPair := ⟨0x3E8B4E81B4E81B4F, 0x8000000000000000, some "A"⟩
  ⟨none, none, ⟨dac, dac, adcV, adcC⟩, ⟨dac, dac, adcC, adcC⟩⟩

/-- A pair from its dictionary.  Used in calibration.py l.51-56, used in l.243. -/
def BinPair.load (v : DVal) : Option BinPair :=
  match v.asDict.get "gain", v.asDict.get "offset", v.asDict.get "unit" with
  | .float g, .float o, .str u => some ⟨g, o, some u⟩
  | .float g, .float o, .null => some ⟨g, o, none⟩
  | _, _, _ => none

/-- `cls(**dv)` (calibration.py l.243) with the checks of pydantic. -/
def BinCape.load (d : DDict) (cape : Option ℕ) : Except PyErr BinCape :=
  let h := (d.get "harvester").asDict
  let e := (d.get "emulator").asDict
  match BinPair.load (h.get "dac_V_Hrv"), BinPair.load (h.get "dac_V_Sim"), BinPair.load (h.get "adc_V_Sense"), BinPair.load (h.get "adc_C_Hrv"),
      BinPair.load (e.get "dac_V_A"), BinPair.load (e.get "dac_V_B"), BinPair.load (e.get "adc_C_A"), BinPair.load (e.get "adc_C_B") with
  | some a, some b, some c, some d, some e, some f, some g, some h =>
    let r : BinCape := ⟨cape, none, ⟨a, b, c, d⟩, ⟨e, f, g, h⟩⟩
    if r.check then .ok r else .error .valueError
  | _, _, _, _, _, _, _, _ => .error .valueError

/-- `from_bytestr` (calibration.py l.220-243). -/
def BinCape.fromBytestr (data : List ℕ) (cape : Option ℕ) : Except PyErr BinCape :=
  let dv := BinCape.default.dump
  let lw2 := (walks [] dv).filterMap floatOf
  match structUnpack lw2.length data with
  | .error e => .error e
  | .ok values => BinCape.load ((lw2.zip values).foldl (fun d wv => d.set3 wv.1.1 wv.2) dv) cape

end Verif.Model
