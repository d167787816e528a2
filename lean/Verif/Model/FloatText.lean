import Mathlib.Data.Int.Log
import Verif.Model.Reports
import Verif.Model.YamlDump
import Verif.Py.Binary64

/-!
# Floats as text

Models `str` of a float, as `save_csv` writes the values of tables (`shepherd_data/shepherd_data/reader.py` l.88-91), and `represent_float` of PyYAML, by which `to_file` writes them
(`shepherd_core/shepherd_core/data_models/base/shepherd.py` l.143-147).

Both are part of Python, NumPy and PyYAML, not of this code base; they are modelled by what they do: the shortest decimal that is read back as the same float, the closest one of these.
Simplifications: no negative zero, no infinity and no NaN.
-/

namespace Verif.Model
open Verif.Py

/-- Powers of ten.  Used in `str` of a float, reader.py l.88-91. -/
def pow10 : ℤ → ℚ
  | .ofNat n => ((10^n : ℕ) : ℚ)
  | .negSucc n => mkRat 1 (10^(n+1))

/-- The closest of the (at most two) neighbouring decimals with `n` digits that are read back as `x > 0`: an integer and its power of ten.  Used in `str` of a float, reader.py l.88-91. -/
def decimalAt (x : ℚ) (n : ℕ) : Option (ℕ × ℤ) :=
  let q := Int.log 10 x - n + 1
  let lo := ⌊x / pow10 q⌋
  let hi := ⌈x / pow10 q⌉
  let lok := b64 (lo * pow10 q) = x
  let hik := b64 (hi * pow10 q) = x
  if lok ∧ hik then some ((pyRound (x / pow10 q)).toNat, q)
  else if lok then some (lo.toNat, q)
  else if hik then some (hi.toNat, q)
  else none

/-- The shortest decimal that is read back as `x > 0`.  Used in `str` of a float, reader.py l.88-91. -/
def shortDecimal (x : ℚ) : ℕ × ℤ := ((List.range 17).findSome? fun i => decimalAt x (i + 1)).getD (0, 0)

/-- The digits of a number without zeros at the end.  Used in `str` of a float, reader.py l.88-91. -/
def significant (d : ℕ) : Name := ((dec d).reverse.dropWhile (· = '0')).reverse

/-- At least two digits, for exponents.  Used in `str` of a float, reader.py l.88-91. -/
def twoDigits (n : ℕ) : Name := if n < 10 then '0' :: dec n else dec n

/-- Digits and the place of the point as text: with an exponent below 0.0001 and from 10^16 on.  Used in `str` of a float, reader.py l.88-91. -/
def placePoint (ds : Name) (point : ℤ) : Name :=
  if -4 < point ∧ point ≤ 16 then
    if point ≤ 0 then '0' :: '.' :: (List.replicate (-point).toNat '0' ++ ds)
    else if point < ds.length then ds.take point.toNat ++ '.' :: ds.drop point.toNat
    else ds ++ List.replicate (point.toNat - ds.length) '0' ++ ['.', '0']
  else
    (match ds with
      | [] => []
      | [c] => [c]
      | c :: r => c :: '.' :: r) ++ 'e' :: (if point - 1 < 0 then '-' else '+') :: twoDigits (point - 1).natAbs

/-- `str` of a float above 0.  Used in reader.py l.88-91. -/
def positiveText (x : ℚ) : Name :=
  let d := shortDecimal x
  placePoint (significant d.1) ((dec d.1).length + d.2)

/-- `str` of a float (reader.py l.88-91). -/
def floatText (x : ℚ) : Name :=
  if x = 0 then ['0', '.', '0'] else if x < 0 then '-' :: positiveText (-x) else positiveText x

/-- `represent_float` of PyYAML: a float with exponent but without point gets one (base/shepherd.py l.143-147). -/
def yamlFloat (x : ℚ) : Name :=
  let s := floatText x
  if '.' ∉ s ∧ 'e' ∈ s then s.takeWhile (· ≠ 'e') ++ ['.', '0'] ++ s.dropWhile (· ≠ 'e') else s

end Verif.Model
