import Verif.Py.Num

/-! Lemmas about Python's `round` and `int`. -/

namespace Verif.Py

theorem pyRound_cases (x : ℚ) :
    (pyRound x = ⌊x⌋ ∧ x - ⌊x⌋ ≤ 1/2) ∨ (pyRound x = ⌊x⌋ + 1 ∧ 1/2 ≤ x - ⌊x⌋) := by
  unfold pyRound
  simp only
  split_ifs with h1 h2 h3
  · left; exact ⟨rfl, le_of_lt h1⟩
  · right; exact ⟨rfl, le_of_lt h2⟩
  · left; exact ⟨rfl, not_lt.mp h2⟩
  · right; exact ⟨rfl, not_lt.mp h1⟩

theorem pyRound_sub_le (x : ℚ) : (pyRound x : ℚ) - x ≤ 1/2 := by
  have hf := Int.floor_le x
  rcases pyRound_cases x with ⟨h, h2⟩ | ⟨h, h2⟩ <;> rw [h]
  · linarith
  · push_cast; linarith

theorem sub_pyRound_le (x : ℚ) : x - (pyRound x : ℚ) ≤ 1/2 := by
  have hf := Int.lt_floor_add_one x
  rcases pyRound_cases x with ⟨h, h2⟩ | ⟨h, h2⟩ <;> rw [h]
  · linarith
  · push_cast; linarith

theorem abs_pyRound_sub_le (x : ℚ) : |(pyRound x : ℚ) - x| ≤ 1/2 := by
  rw [abs_le]; constructor
  · have := sub_pyRound_le x; linarith
  · exact pyRound_sub_le x

/-- A number closer than one half to an integer is rounded to it. -/
theorem pyRound_eq_of_lt {x : ℚ} {n : ℤ} (h : |x - n| < 1/2) : pyRound x = n := by
  have h1 := pyRound_sub_le x
  have h2 := sub_pyRound_le x
  rw [abs_lt] at h
  have a : (pyRound x : ℚ) < n + 1 := by linarith [h.2]
  have b : (n : ℚ) - 1 < pyRound x := by linarith [h.1]
  have a' : pyRound x < n + 1 := by exact_mod_cast a
  have b' : n - 1 < pyRound x := by exact_mod_cast b
  omega

@[simp] theorem pyRound_intCast (n : ℤ) : pyRound (n : ℚ) = n :=
  pyRound_eq_of_lt (by simp)

@[simp] theorem pyRound_natCast (n : ℕ) : pyRound (n : ℚ) = n := by
  have := pyRound_intCast (n : ℤ)
  simpa using this

@[simp] theorem pyRound_zero : pyRound 0 = 0 := by simpa using pyRound_intCast 0

theorem pyRound_mono {x y : ℚ} (h : x ≤ y) : pyRound x ≤ pyRound y := by
  by_contra hc
  push Not at hc
  have hc1 : pyRound y + 1 ≤ pyRound x := hc
  have hcq : (pyRound y : ℚ) + 1 ≤ pyRound x := by exact_mod_cast hc1
  have h1 := pyRound_sub_le x
  have h2 := sub_pyRound_le y
  have hxy : x = y := by linarith
  rw [hxy] at hc; exact lt_irrefl _ hc

theorem pyRound_nonneg {x : ℚ} (h : 0 ≤ x) : 0 ≤ pyRound x := by
  have := pyRound_mono h
  simpa using this

theorem pyRound_le_intCast {x : ℚ} {n : ℤ} (h : x ≤ n) : pyRound x ≤ n := by
  have := pyRound_mono h; simpa using this

theorem intCast_le_pyRound {x : ℚ} {n : ℤ} (h : (n : ℚ) ≤ x) : n ≤ pyRound x := by
  have := pyRound_mono h; simpa using this

theorem pyRound_neg (x : ℚ) : pyRound (-x) = -pyRound x := by
  have hx0 := Int.floor_le x
  have hx1 := Int.lt_floor_add_one x
  by_cases hi : x = ⌊x⌋
  · rw [hi]
    have : (-((⌊x⌋ : ℤ) : ℚ)) = ((-⌊x⌋ : ℤ) : ℚ) := by push_cast; ring
    rw [this, pyRound_intCast, pyRound_intCast]
  · have hlt : (⌊x⌋ : ℚ) < x := lt_of_le_of_ne hx0 (fun h => hi h.symm)
    have hf : ⌊-x⌋ = -⌊x⌋ - 1 := by
      rw [Int.floor_eq_iff]; push_cast; constructor <;> linarith
    unfold pyRound
    simp only [hf]
    push_cast
    have e : -x - (-(⌊x⌋:ℚ) - 1) = 1 - (x - ⌊x⌋) := by ring
    rw [e]
    split_ifs with h1 h2 h3 h4 h5 h6 h7 h8 h9 <;> first | omega | (exfalso; linarith)

@[simp] theorem pyInt_intCast (n : ℤ) : pyInt (n : ℚ) = n := by
  unfold pyInt; split <;> simp

@[simp] theorem pyInt_zero : pyInt 0 = 0 := by simp [pyInt]

theorem pyInt_of_nonneg {x : ℚ} (h : 0 ≤ x) : pyInt x = ⌊x⌋ := by simp [pyInt, h]

theorem pyInt_mono {x y : ℚ} (h : x ≤ y) : pyInt x ≤ pyInt y := by
  unfold pyInt
  split_ifs with h1 h2 h2
  · exact Int.floor_mono h
  · exact absurd (le_trans h1 h) h2
  · have a : ⌈x⌉ ≤ 0 := by rw [Int.ceil_le]; simpa using (not_le.mp h1).le
    have b : 0 ≤ ⌊y⌋ := by rw [Int.le_floor]; simpa using h2
    omega
  · exact Int.ceil_mono h

theorem pyInt_nonneg {x : ℚ} (h : 0 ≤ x) : 0 ≤ pyInt x := by
  have := pyInt_mono h; simpa using this

theorem pyInt_le {x : ℚ} (h : 0 ≤ x) : (pyInt x : ℚ) ≤ x := by
  rw [pyInt_of_nonneg h]; exact Int.floor_le x

theorem lt_pyInt_add_one {x : ℚ} (h : 0 ≤ x) : x < (pyInt x : ℚ) + 1 := by
  rw [pyInt_of_nonneg h]; exact Int.lt_floor_add_one x

namespace Rounding
variable {fl : ℚ → ℚ}

theorem exactInt (h : Rounding fl) (n : ℤ) (hn : |n| ≤ 2^53) : fl n = n := by
  simpa using h.exact n 0 hn (by norm_num)

theorem zero (h : Rounding fl) : fl 0 = 0 := by simpa using h.exactInt 0 (by norm_num)

theorem nonneg (h : Rounding fl) {x : ℚ} (hx : 0 ≤ x) : 0 ≤ fl x := by
  have := h.mono hx; rwa [h.zero] at this

theorem nonpos (h : Rounding fl) {x : ℚ} (hx : x ≤ 0) : fl x ≤ 0 := by
  have := h.mono hx; rwa [h.zero] at this

theorem exactNat (h : Rounding fl) (n : ℕ) (hn : n ≤ 2^53) : fl n = n := by
  have := h.exactInt (n : ℤ) (by
    rw [abs_of_nonneg (Int.natCast_nonneg n)]; exact_mod_cast hn)
  simpa using this

theorem le_int (h : Rounding fl) {x : ℚ} {n : ℤ} (hn : |n| ≤ 2^53) (hx : x ≤ n) : fl x ≤ n := by
  have := h.mono hx; rwa [h.exactInt n hn] at this

theorem int_le (h : Rounding fl) {x : ℚ} {n : ℤ} (hn : |n| ≤ 2^53) (hx : (n:ℚ) ≤ x) :
    (n:ℚ) ≤ fl x := by
  have := h.mono hx; rwa [h.exactInt n hn] at this

end Rounding
end Verif.Py
