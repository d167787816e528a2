import Mathlib.Data.Rat.Floor
import Mathlib.Tactic.Linarith
import Mathlib.Tactic.NormNum
import Mathlib.Tactic.Ring
import Mathlib.Tactic.Positivity
import Mathlib.Tactic.FieldSimp
import Mathlib.Algebra.Order.Field.Power

/-!
# Python numerics

Python `int` is `Int`, Python `float` is a rational number; every floating-point operation
of the code is followed by an explicit rounding function `fl : ℚ → ℚ`.
-/

namespace Verif.Py

/-- Python's built-in `round(x)` on a float (and `numpy.around`): nearest integer, ties to even. -/
def pyRound (x : ℚ) : ℤ :=
  let f := ⌊x⌋
  let r := x - f
  if r < 1/2 then f
  else if 1/2 < r then f + 1
  else if f % 2 = 0 then f else f + 1

/-- Python's `int(x)` on a float: truncation toward zero. -/
def pyInt (x : ℚ) : ℤ := if 0 ≤ x then ⌊x⌋ else ⌈x⌉

/-- What every theorem may assume about the floating-point unit: rounding is monotone, odd,
idempotent and exact on numbers `n * 2^e` with a significand of at most 53 bits.  IEEE-754 binary64 (`Verif.Py.Binary64`) and exact
arithmetic (`Rounding.id`) both satisfy it.  Overflow to infinity, NaN and signed zeros are not
part of the model. -/
structure Rounding (fl : ℚ → ℚ) : Prop where
  mono : ∀ {x y}, x ≤ y → fl x ≤ fl y
  odd : ∀ x, fl (-x) = -fl x
  idem : ∀ x, fl (fl x) = fl x
  exact : ∀ n e : ℤ, |n| ≤ 2^53 → -1074 ≤ e → fl (n * (2:ℚ)^e) = n * (2:ℚ)^e

theorem Rounding.id : Rounding (fun x => x) :=
  ⟨fun h => h, fun _ => rfl, fun _ => rfl, fun _ _ _ _ => rfl⟩

/-- Accuracy of the float unit: relative error at most 2^-53 plus half the least subnormal. -/
structure AccRounding (fl : ℚ → ℚ) : Prop extends Rounding fl where
  err : ∀ x, |fl x - x| ≤ |x| / 2^53 + (2:ℚ)^(-1075 : ℤ)

theorem AccRounding.id : AccRounding (fun x => x) :=
  { Rounding.id with err := fun x => by simp; positivity }

end Verif.Py
