import Verif.Model.Recorder
import Mathlib.Data.Nat.Digits.Defs

/-!
# Paths, energy, statistics and checks of recordings

Models `unique_path` and the choice of the path (`shepherd_core/shepherd_core/writer.py` l.54-66, 126-139), and from
`shepherd_core/shepherd_core/reader.py`: `get_voltage_step` (l.278-299), `energy` (l.452-477), `_dset_statistics` (l.479-522), `_data_timediffs`
(l.524-554), `check_timediffs` (l.556-568), `count_errors_in_log` (l.570-579), `get_filter_for_redundant_states` (l.666-675) and
`gpio_to_waveforms` (l.677-700).
-/

namespace Verif.Model
open Verif.Py

/-! ## Paths -/

/-- A file name.  Used in `unique_path`, writer.py l.54-66. -/
abbrev Name := List Char

/-- Position of the last dot, `name.rfind(".")`; `none` for -1.  Used in `unique_path`, writer.py l.54-66. -/
def rfindDot (n : Name) : Option ℕ :=
  if '.' ∈ n then some (n.length - 1 - (n.reverse.takeWhile (· ≠ '.')).length) else none

/-- `PurePath.stem` / `PurePath.suffix`: split at the last dot if it is neither first nor last.  Used in `unique_path`, writer.py l.54-66. -/
def splitName (n : Name) : Name × Name :=
  match rfindDot n with
  | none => (n, [])
  | some i => if 0 < i ∧ i < n.length - 1 then (n.take i, n.drop i) else (n, [])

/-- `PurePath.with_suffix` on the name (for suffixes starting with a dot).  Used in `unique_path`, writer.py l.54-66. -/
def withSuffix (n suffix : Name) : Name := (splitName n).1 ++ suffix

/-- `str(k)`.  Used in `unique_path`, writer.py l.54-66. -/
def dec (k : ℕ) : Name := if k = 0 then ['0'] else ((Nat.digits 10 k).map Nat.digitChar).reverse

/-- The candidate number `k` (writer.py l.63). -/
def candidate (base suffix : Name) (k : ℕ) : Name := withSuffix base ('.' :: dec k ++ suffix)

/-- The loop of `unique_path` (writer.py l.61-66) on the names of a directory; `fuel` bounds the iterations, `none` if they
do not suffice. -/
def uniqueLoop (existing : List Name) (base suffix : Name) : ℕ → ℕ → Option Name
  | 0, _ => none
  | fuel + 1, k =>
    let n := candidate base suffix k
    if n ∈ existing then uniqueLoop existing base suffix fuel (k + 1) else some n

/-- The path a writer works on (writer.py l.126-139), as name in the directory of the given path.  `isFile`: what an existing path is.
Simplification: the directory does not change while the writer is opened. -/
def choosePath (existing : List Name) (isFile : Name → Bool) (modify overwrite : Bool) (name : Name) (fuel : ℕ) :
    Except PyErr (Option Name) :=
  if modify ∨ overwrite ∨ name ∉ existing then .ok (some name)
  else if !isFile name then .error .typeError
  else .ok (uniqueLoop existing (splitName name).1 (splitName name).2 fuel 0)

/-! ## Chunks -/

/-- Slices of `k` elements: `[l[i : i + k] for i in range(0, len(l), k)]`.  Used in `_dset_statistics`, reader.py l.479-522. -/
def chunks {α : Type} (k : ℕ) (l : List α) : List (List α) :=
  (List.range ((l.length + k - 1) / k)).map (fun i => (l.drop (i * k)).take k)

section
variable (fl : ℚ → ℚ)

/-- `_calc_energy` (reader.py l.470-474); `npSum` is numpy's summation. -/
def energyChunk (npSum : List ℚ → ℚ) (cal : CalSeries) (dt : ℚ) (vs cs : List ℤ) : ℚ :=
  let v := cal.voltage.rawToSiArr fl (vs.map (fun x : ℤ => (x : ℚ)))
  let c := cal.current.rawToSiArr fl (cs.map (fun x : ℤ => (x : ℚ)))
  fl (npSum (List.zipWith (fun a b => fl (a * b)) v c) * dt)

/-- `energy` (reader.py l.452-477); `k` is `max_elements`. -/
def Session.energy (npSum : List ℚ → ℚ) (k : ℕ) (s : Session) : ℚ :=
  (List.zipWith (fun vs cs => energyChunk fl npSum s.cal s.stats.intervalS vs cs)
    (chunks k (s.get .voltage)) (chunks k (s.get .current))).foldl (fun a x => fl (a + x)) 0

/-- What numpy computes of a chunk (reader.py l.505-506): mean, minimum, maximum, standard deviation. -/
structure NpStats where
  mean : List ℚ → ℚ
  std : List ℚ → ℚ

/-- `np.min` of a non-empty array.  Used in `_dset_statistics`, reader.py l.479-522. -/
def npMin : List ℚ → ℚ
  | [] => 0
  | x :: l => l.foldl min x
/-- `np.max` of a non-empty array.  Used in `_dset_statistics`, reader.py l.479-522. -/
def npMax : List ℚ → ℚ
  | [] => 0
  | x :: l => l.foldl max x

/-- The statistics of a dataset.  Used in `_dset_statistics`, reader.py l.479-522. -/
structure DsetStats where
  mean : ℚ
  min : ℚ
  max : ℚ
  std : ℚ
  siConverted : Bool
deriving DecidableEq, Repr

/-- `_dset_statistics` (reader.py l.479-522) without explicit calibration; `none` is the empty dict. -/
def dsetStatistics (np : NpStats) (k : ℕ) (d : Dset) : Option DsetStats :=
  let has := (d.attrs "gain").isSome && (d.attrs "offset").isSome
  let cal : CalPair := if has then pairOf d.attrs ⟨1, 0⟩ else ⟨1, 0⟩
  let l := (chunks k d.data).map (fun c => cal.rawToSiArr fl (c.map (fun x : ℤ => (x : ℚ))))
  if l.length < 1 then none
  else some {
    mean := np.mean (l.map np.mean)
    min := npMin (l.map npMin)
    max := npMax (l.map npMax)
    std := np.mean (l.map np.std)
    siConverted := has }

/-- `round(x, 6)` of a float.  Used in `_data_timediffs`, reader.py l.524-554; `get_filter_for_redundant_states`, l.667-675. -/
def round6 (x : ℚ) : ℚ := fl (pyRound (10^6 * x) / 10^6)

/-- `a[1:] - a[0:-1]` of an unsigned array with `w` bits.  Used in `_data_timediffs`, reader.py l.524-554; `get_filter_for_redundant_states`, l.667-675. -/
def diffs (w : ℕ) (l : List ℤ) : List ℤ := List.zipWith (fun a b => (b - a) % 2^w) l l.tail

/-- `l[0::k]`.  Used in `_data_timediffs`, reader.py l.524-554; `get_filter_for_redundant_states`, l.667-675. -/
def strided (k : ℕ) (l : List ℤ) : List ℤ := (chunks k l).filterMap List.head?

/-- `_data_timediffs` (reader.py l.524-554): the deltas between starts of buffers, looked at chunk by chunk. -/
def Session.timediffs (k : ℕ) (s : Session) : List ℚ :=
  (((chunks k (s.get .time)).flatMap (fun c => diffs 64 (strided 10000 c))).map
    (fun (j : ℤ) => round6 fl (fl (s.cal.time.rawToSi fl j / 10000)))).dedup

/-- `check_timediffs` (reader.py l.556-568); `diffs[0]` of an empty list raises IndexError. -/
def Session.checkTimediffs (k : ℕ) (s : Session) : Except PyErr Bool :=
  match s.timediffs fl k with
  | [] => .error .indexError
  | [d] => .ok (decide (d = round6 fl (fl (fl (1/10) / 10000))))
  | _ => .ok false

/-- `count_errors_in_log` (reader.py l.570-579); `none` if the group or its levels do not exist. -/
def countErrors (levels : Option (List ℤ)) (minLevel : ℤ) : ℕ :=
  match levels with
  | none => 0
  | some l => (l.filter (fun x => x ≥ minLevel)).length

/-- `get_voltage_step` (reader.py l.278-299). -/
def Session.voltageStep (s : Session) : Option ℚ :=
  match (getConfig s.dattrs).bind (·.hrvVoltageStep) with
  | some v => some (fl (fl (1/1000) * v))
  | none =>
    match (diffs 32 ((s.get .voltage).take 2000)).filter (fun x => x > 0) with
    | [] => none
    | d :: ds => some (fl (fl (1/1000) * (ds.foldl min d : ℤ)))

end

/-! ## GPIO -/

/-- `get_filter_for_redundant_states` (reader.py l.666-675): compares with the array shifted by one, led by a value
that differs from the first. -/
def redundantFilter (data : List ℤ) : Except PyErr (List Bool) :=
  match data with
  | [] => .error .indexError
  | d :: _ => .ok (List.zipWith (fun a b => decide (a ≠ b)) data ((if d = 0 then 1 else 0) :: data.dropLast))

/-- `a[mask]`.  Used in `_data_timediffs`, reader.py l.524-554; `get_filter_for_redundant_states`, l.667-675. -/
def maskBy {α : Type} (l : List α) (mask : List Bool) : List α :=
  (l.zip mask).filterMap (fun p => if p.2 then some p.1 else none)

/-- The waveform of one pin (reader.py l.692-694). -/
def pinWaveform (ts vs : List ℤ) (pin : ℕ) : Except PyErr (List (ℤ × ℤ)) :=
  let ps : List ℤ := vs.map (fun v => if v.toNat.testBit pin then 1 else 0)
  match redundantFilter ps with
  | .error e => .error e
  | .ok f => .ok ((maskBy ts f).zip (maskBy ps f))

end Verif.Model
