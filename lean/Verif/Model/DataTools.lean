import Verif.Py.Num
import Verif.Py.Err

/-!
# Down-sampling recordings

Models `shepherd_data/shepherd_data/reader.py` l.168-246 (`downsample`).

The low-pass filter (SciPy) is any machine with a state.  Not modelled: the conversion of filtered values to the number format of a dataset, plots.
-/

namespace Verif.Model
open Verif.Py

/-! ## Down-sampling -/

section
variable {α σ : Type}

/-- `signal.sosfilt` as a machine with a state: the state at the start and one step.  Used in `downsample`, shepherd_data/reader.py l.168-246. -/
structure SampleFilter (α σ : Type) where
  init : σ
  step : σ → α → σ × α

/-- `signal.sosfilt(filter, data, zi=state)` (reader.py l.238): the filtered data and the state afterwards. -/
def SampleFilter.run (f : SampleFilter α σ) : σ → List α → List α × σ
  | s, [] => ([], s)
  | s, x :: t =>
    let (s', y) := f.step s x
    let (r, s'') := f.run s' t
    (y :: r, s'')

/-- `l[::n]` for `n ≥ 1`; `k` members are skipped first.  Used in shepherd_data/reader.py l.168-352. -/
def strideFrom (n : ℕ) : ℕ → List α → List α
  | _, [] => []
  | 0, x :: t => x :: strideFrom n (n - 1) t
  | k + 1, _ :: t => strideFrom n k t
/-- `l[::n]` for `n ≥ 1` (reader.py l.239). -/
def stride (n : ℕ) (l : List α) : List α := strideFrom n 0 l

/-- `l[:n]` for a number that may be negative.  Used in shepherd_data/reader.py l.168-352. -/
def takeInt (n : ℤ) (l : List α) : List α := if 0 ≤ n then l.take n.toNat else l.take (l.length - (-n).toNat)

/-- `l[a:b]`.  Used in shepherd_data/reader.py l.168-352. -/
def dsSlice (l : List α) (a b : ℕ) : List α := (l.take b).drop a

/-- `dst[a:b] = v` (reader.py l.241): the sizes have to be the same, or `v` has one member, which is repeated.  An HDF5 dataset ignores an empty selection and raises a TypeError
instead of a ValueError. -/
def assignSlice (h5 : Bool) (dst : List α) (a b : ℕ) (v : List α) : Except PyErr (List α) :=
  let n := (dsSlice dst a b).length
  if h5 ∧ n = 0 then .ok dst
  else if v.length = n then .ok (dst.take a ++ v ++ dst.drop (a + n))
  else
    match v with
    | [x] => .ok (dst.take a ++ List.replicate n x ++ dst.drop (a + n))
    | _ => .error (if h5 then .typeError else .valueError)

/-- `dst.resize((n,))`: new members are `zero`.  Used in shepherd_data/reader.py l.168-352. -/
def resizeTo (zero : α) (n : ℕ) (l : List α) : List α := l.take n ++ List.replicate (n - l.length) zero

/-- One pass of the loop in `downsample` (reader.py l.236-241): data, filter state and result. -/
def dsPass (f : SampleFilter α σ) (h5 filtered : Bool) (src : List α) (start iblock oblock ds : ℕ) (destLen : ℕ) (iter : ℕ) (s : σ) (dst : List α) :
    Except PyErr (σ × List α) :=
  let raw := dsSlice src (start + iter * iblock) (start + (iter + 1) * iblock)
  let r := if filtered then f.run s raw else (raw, s)
  let sliceLen : ℤ := min ((destLen : ℤ) - iter * oblock) oblock
  match assignSlice h5 dst (iter * oblock) ((iter + 1) * oblock) (takeInt sliceLen (stride ds r.1)) with
  | .error e => .error e
  | .ok dst' => .ok (r.2, dst')

/-- The loop in `downsample` (reader.py l.229-241), from pass `iter` on, `n` passes. -/
def dsLoop (f : SampleFilter α σ) (h5 filtered : Bool) (src : List α) (start iblock oblock ds destLen : ℕ) : ℕ → ℕ → σ → List α → Except PyErr (List α)
  | 0, _, _, dst => .ok dst
  | n + 1, iter, s, dst =>
    match dsPass f h5 filtered src start iblock oblock ds destLen iter s dst with
    | .error e => .error e
    | .ok (s', dst') => dsLoop f h5 filtered src start iblock oblock ds destLen n (iter + 1) s' dst'

/-- The end of the range (reader.py l.196-199). -/
def dsEnd (len : ℕ) : Option ℕ → ℕ
  | some e => min len e
  | none => len

/-- `downsample` (reader.py l.168-246) for a factor that is `floor`ed already (l.194), a start that is not negative and blocks of `maxElements`.  `dst` is the
destination, an empty array by default, `zero` what it is filled with. -/
def downsample (fl : ℚ → ℚ) (zero : α) (f : SampleFilter α σ) (h5 isTime : Bool) (maxElements : ℕ) (src dst : List α) (startN : ℕ) (endN : Option ℕ) (factor : ℕ) :
    Except PyErr (List α) :=
  let ds := max 1 factor
  let endN := dsEnd src.length endN
  let startN := min endN startN
  let dataLen := endN - startN
  if dataLen = 0 then .ok dst
  else
    let iblock := min maxElements dataLen
    let oblock := (pyRound (fl ((iblock : ℚ) / ds))).toNat
    let iterations := ⌈fl ((dataLen : ℚ) / iblock)⌉.toNat
    let destLen := ⌊fl ((dataLen : ℚ) / ds)⌋.toNat
    match dsLoop f h5 (!isTime && 1 < ds) src startN iblock oblock ds destLen iterations 0 f.init (resizeTo zero destLen dst) with
    | .error e => .error e
    | .ok dst' =>
      let sliceLen : ℤ := min ((destLen : ℤ) - ((iterations - 1 : ℕ) : ℤ) * oblock) oblock
      .ok (resizeTo zero ((oblock * (iterations - 1) : ℕ) + sliceLen).toNat dst')

end
end Verif.Model
