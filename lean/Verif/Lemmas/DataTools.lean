import Verif.Model.DataTools
import Verif.Lemmas.Num
import Mathlib.Tactic.Linarith
import Mathlib.Tactic.NormNum
import Mathlib.Tactic.FieldSimp
import Mathlib.Tactic.Ring
import Mathlib.Tactic.Positivity

/-! Lemmas about slices, strides, the filter machine and divisions of whole numbers in floats. -/

namespace Verif.Model
open Verif.Py

section
variable {α σ : Type}

theorem run_append (f : SampleFilter α σ) (s : σ) (a b : List α) :
    f.run s (a ++ b) = ((f.run s a).1 ++ (f.run (f.run s a).2 b).1, (f.run (f.run s a).2 b).2) := by
  induction a generalizing s with
  | nil => simp [SampleFilter.run]
  | cons x t ih => simp only [List.cons_append, SampleFilter.run, ih]

theorem run_length (f : SampleFilter α σ) (s : σ) (a : List α) : (f.run s a).1.length = a.length := by
  induction a generalizing s with
  | nil => rfl
  | cons x t ih => simp [SampleFilter.run, ih]

/-- Filtered data only depends on what was before. -/
theorem run_take (f : SampleFilter α σ) (s : σ) (a : List α) (n : ℕ) : (f.run s (a.take n)).1 = (f.run s a).1.take n := by
  induction a generalizing s n with
  | nil => simp [SampleFilter.run]
  | cons x t ih =>
    cases n with
    | zero => simp [SampleFilter.run]
    | succ n => simp [SampleFilter.run, ih]

theorem run_drop (f : SampleFilter α σ) (s : σ) (a : List α) (n : ℕ) : (f.run (f.run s (a.take n)).2 (a.drop n)).1 = (f.run s a).1.drop n := by
  have h := run_append f s (a.take n) (a.drop n)
  rw [List.take_append_drop] at h
  rw [h]
  by_cases hn : n ≤ a.length
  · have hl : (f.run s (a.take n)).1.length = n := by rw [run_length, List.length_take]; omega
    exact (List.drop_left' hl).symm
  · rw [List.drop_of_length_le (l := a) (by omega), List.drop_of_length_le]
    · rfl
    · simp [run_length, SampleFilter.run]

theorem strideFrom_get (n k : ℕ) (hn : 0 < n) (l : List α) (j : ℕ) : (strideFrom n k l)[j]? = l[k + j * n]? := by
  induction l generalizing k j with
  | nil => simp [strideFrom]
  | cons x t ih =>
    cases k with
    | zero =>
      cases j with
      | zero => simp [strideFrom]
      | succ j =>
        rw [strideFrom, List.getElem?_cons_succ, ih]
        have : 0 + (j + 1) * n = (n - 1 + j * n) + 1 := by rw [Nat.add_mul]; omega
        rw [this, List.getElem?_cons_succ]
    | succ k =>
      rw [strideFrom, ih]
      have : k + 1 + j * n = (k + j * n) + 1 := by omega
      rw [this, List.getElem?_cons_succ]

theorem stride_get (n : ℕ) (hn : 0 < n) (l : List α) (j : ℕ) : (stride n l)[j]? = l[j * n]? := by
  rw [stride, strideFrom_get n 0 hn, Nat.zero_add]

/-- A stride has as many members as there are multiples. -/
theorem stride_length_ge (n : ℕ) (hn : 0 < n) (l : List α) (m : ℕ) (h : ∀ j < m, j * n < l.length) : m ≤ (stride n l).length := by
  by_contra hc
  have h1 := stride_get n hn l (stride n l).length
  rw [List.getElem?_eq_none (le_refl _)] at h1
  have := h (stride n l).length (by omega)
  rw [List.getElem?_eq_getElem this] at h1
  cases h1

theorem dsSlice_length (l : List α) (a b : ℕ) : (dsSlice l a b).length = min b l.length - a := by
  simp [dsSlice]

theorem dsSlice_get (l : List α) (a b j : ℕ) (h : a + j < b) : (dsSlice l a b)[j]? = l[a + j]? := by
  simp [dsSlice, List.getElem?_drop, h]

theorem resizeTo_length (z : α) (n : ℕ) (l : List α) : (resizeTo z n l).length = n := by
  simp [resizeTo]; omega

theorem resizeTo_self (z : α) (l : List α) : resizeTo z l.length l = l := by simp [resizeTo]

end

/-! ## Divisions -/

theorem div_err {fl : ℚ → ℚ} (h : AccRounding fl) {a b : ℕ} (hb : 0 < b) (ha : a ≤ 2 ^ 50) (hb' : b ≤ 2 ^ 50) : |fl ((a : ℚ) / b) - a / b| < 1 / b := by
  have hb0 : (0 : ℚ) < b := by exact_mod_cast hb
  have e := h.err ((a : ℚ) / b)
  have hab : |(a : ℚ) / b| = a / b := abs_of_nonneg (by positivity)
  rw [hab] at e
  have h1 : (a : ℚ) / b / 2 ^ 53 ≤ 1 / (8 * b) := by
    rw [div_div, div_le_div_iff₀ (by positivity) (by positivity)]
    have : (a : ℚ) ≤ 2 ^ 50 := by exact_mod_cast ha
    nlinarith
  have h2 : (2 : ℚ) ^ (-1075 : ℤ) ≤ 1 / (8 * b) := by
    have hb2 : (b : ℚ) ≤ 2 ^ 50 := by exact_mod_cast hb'
    calc (2 : ℚ) ^ (-1075 : ℤ) ≤ 2 ^ (-53 : ℤ) := by apply zpow_le_zpow_right₀ (by norm_num) (by norm_num)
      _ = 1 / (8 * 2 ^ 50) := by norm_num
      _ ≤ 1 / (8 * b) := by
        apply one_div_le_one_div_of_le (by positivity)
        linarith
  have h3 : (1 : ℚ) / (8 * b) + 1 / (8 * b) < 1 / b := by
    have : (1 : ℚ) / (8 * b) = 1 / b / 8 := by rw [div_div]; ring_nf
    rw [this]
    have : (0 : ℚ) < 1 / b := by positivity
    linarith
  linarith

/-- `math.floor(a / b)` of whole numbers. -/
theorem floor_div {fl : ℚ → ℚ} (h : AccRounding fl) {a b : ℕ} (hb : 0 < b) (ha : a ≤ 2 ^ 50) (hb' : b ≤ 2 ^ 50) : ⌊fl ((a : ℚ) / b)⌋.toNat = a / b := by
  have hb0 : (0 : ℚ) < b := by exact_mod_cast hb
  have e := abs_lt.mp (div_err h hb ha hb')
  have hq := Nat.div_add_mod a b
  have hm := Nat.mod_lt a hb
  have hqa : a / b ≤ a := Nat.div_le_self a b
  generalize a / b = q at hq hqa ⊢
  have hle : ((q : ℤ) : ℚ) ≤ (a : ℚ) / b := by
    rw [le_div_iff₀ hb0]
    have : q * b ≤ a := by rw [Nat.mul_comm]; omega
    exact_mod_cast this
  have hlt : (a : ℚ) / b + 1 / b ≤ (q : ℚ) + 1 := by
    rw [← add_div, div_le_iff₀ hb0]
    have : a + 1 ≤ (q + 1) * b := by rw [Nat.add_mul, Nat.mul_comm q]; omega
    exact_mod_cast this
  have h1 : (q : ℤ) ≤ ⌊fl ((a : ℚ) / b)⌋ := by
    rw [Int.le_floor]
    have : |(q : ℤ)| ≤ 2 ^ 53 := by
      rw [abs_of_nonneg (by positivity)]
      exact_mod_cast (by omega : q ≤ 2 ^ 53)
    exact h.int_le this hle
  have h2 : ⌊fl ((a : ℚ) / b)⌋ < (q : ℤ) + 1 := by
    rw [Int.floor_lt]
    push_cast
    linarith [e.2]
  omega

/-- `math.ceil(a / b)` of whole numbers. -/
theorem ceil_div {fl : ℚ → ℚ} (h : AccRounding fl) {a b : ℕ} (hb : 0 < b) (ha : a ≤ 2 ^ 50) (hb' : b ≤ 2 ^ 50) :
    ⌈fl ((a : ℚ) / b)⌉.toNat = (a + b - 1) / b := by
  have hb0 : (0 : ℚ) < b := by exact_mod_cast hb
  have e := abs_lt.mp (div_err h hb ha hb')
  set q := (a + b - 1) / b with hqd
  have hq := Nat.div_add_mod (a + b - 1) b
  have hm := Nat.mod_lt (a + b - 1) hb
  rw [← hqd] at hq
  have hqa : q ≤ a := by
    rcases Nat.eq_zero_or_pos a with h0 | h0
    · rw [hqd, h0, Nat.zero_add, Nat.div_eq_of_lt (by omega)]
    · rw [hqd, Nat.div_le_iff_le_mul_add_pred hb]
      have := Nat.le_mul_of_pos_left a hb
      omega
  have hge : (a : ℚ) / b ≤ (q : ℚ) := by
    rw [div_le_iff₀ hb0]
    have : a ≤ q * b := by rw [Nat.mul_comm]; omega
    exact_mod_cast this
  have h2 : ⌈fl ((a : ℚ) / b)⌉ ≤ (q : ℤ) := by
    rw [Int.ceil_le]
    have : |(q : ℤ)| ≤ 2 ^ 53 := by
      rw [abs_of_nonneg (by positivity)]
      exact_mod_cast (by omega : q ≤ 2 ^ 53)
    exact_mod_cast h.le_int this (by exact_mod_cast hge)
  rcases Nat.eq_zero_or_pos q with h0 | h0
  · omega
  · have hgt : (q : ℚ) - 1 + 1 / b ≤ (a : ℚ) / b := by
      rw [le_div_iff₀ hb0, add_mul, one_div_mul_cancel hb0.ne']
      have : q * b + 1 ≤ a + b := by rw [Nat.mul_comm]; omega
      have : (q : ℚ) * b + 1 ≤ a + b := by exact_mod_cast this
      linarith
    have h1 : (q : ℤ) - 1 < ⌈fl ((a : ℚ) / b)⌉ := by
      rw [Int.lt_ceil]
      push_cast
      linarith [e.1]
    omega

/-- Rounding a quotient of whole numbers in floats gives at least its whole part. -/
theorem round_div_ge {fl : ℚ → ℚ} (h : AccRounding fl) {a b : ℕ} (hb : 0 < b) (ha : a ≤ 2 ^ 50) : a / b ≤ (pyRound (fl ((a : ℚ) / b))).toNat := by
  have hb0 : (0 : ℚ) < b := by exact_mod_cast hb
  have hle : (((a / b : ℕ) : ℤ) : ℚ) ≤ (a : ℚ) / b := by
    rw [le_div_iff₀ hb0]
    exact_mod_cast (by have := Nat.div_mul_le_self a b; exact this : a / b * b ≤ a)
  have : |((a / b : ℕ) : ℤ)| ≤ 2 ^ 53 := by
    rw [abs_of_nonneg (by positivity)]
    exact_mod_cast (le_trans (Nat.div_le_self a b) (by omega) : a / b ≤ 2 ^ 53)
  have := intCast_le_pyRound (h.int_le this hle)
  omega

/-- Rounding a quotient without remainder gives it. -/
theorem round_div_eq {fl : ℚ → ℚ} (h : Rounding fl) {a b : ℕ} (hb : 0 < b) (ha : a ≤ 2 ^ 50) (hd : b ∣ a) : (pyRound (fl ((a : ℚ) / b))).toNat = a / b := by
  have hb0 : (b : ℚ) ≠ 0 := by exact_mod_cast hb.ne'
  obtain ⟨k, rfl⟩ := hd
  have hk : ((b * k : ℕ) : ℚ) / b = (k : ℕ) := by push_cast; field_simp
  have hk' : k ≤ 2 ^ 53 := le_trans (Nat.le_mul_of_pos_left k hb) (by omega)
  rw [hk, h.exactNat k hk', pyRound_natCast, Nat.mul_div_cancel_left k hb]
  rfl

/-! ## The loop -/

section
variable {α σ : Type}

/-- Where a pass of the loop finds its data and what it puts where: the slot behind the ones before, from the block it reads. -/
theorem dsPass_core (f : SampleFilter α σ) (h5 filtered : Bool) (src : List α) (start ib ob ds L iter : ℕ) (s : σ) (dst : List α) (hds : 0 < ds)
    (hL : start + L ≤ src.length) (hle : iter * ob ≤ L / ds)
    (hfit : ∀ j, j < min (L / ds - iter * ob) ob → j * ds < min ib (L - iter * ib))
    (hs : filtered → s = (f.run f.init ((src.drop start).take (iter * ib))).2)
    (hlen : dst.length = L / ds) :
    ∃ s' dst', dsPass f h5 filtered src start ib ob ds (L / ds) iter s dst = .ok (s', dst') ∧
      (filtered → s' = (f.run f.init ((src.drop start).take ((iter + 1) * ib))).2) ∧ dst'.length = L / ds ∧
      (∀ j, j < iter * ob → dst'[j]? = dst[j]?) ∧
      ∀ j, j < min (L / ds - iter * ob) ob → dst'[iter * ob + j]? = (if filtered then (f.run f.init (src.drop start)).1 else src.drop start)[iter * ib + j * ds]? := by
  set out := (if filtered then (f.run f.init (src.drop start)).1 else src.drop start) with hout
  have hsl : dsSlice src (start + iter * ib) (start + (iter + 1) * ib) = ((src.drop start).drop (iter * ib)).take ib := by
    rw [dsSlice, List.drop_take, List.drop_drop]
    congr 1
    rw [Nat.add_mul]; omega
  have hsplit : (src.drop start).take ((iter + 1) * ib) = (src.drop start).take (iter * ib) ++ ((src.drop start).drop (iter * ib)).take ib := by
    rw [Nat.add_mul, Nat.one_mul, List.take_add]
  obtain ⟨r, hr⟩ : ∃ r, r = (if filtered then f.run s (((src.drop start).drop (iter * ib)).take ib) else (((src.drop start).drop (iter * ib)).take ib, s)) := ⟨_, rfl⟩
  have hr1 : r.1 = (out.drop (iter * ib)).take ib := by
    cases filtered with
    | false => rw [hr, hout]; rfl
    | true => rw [hr, hout, if_pos rfl, if_pos rfl, run_take, hs rfl, run_drop]
  have hr2 : filtered → r.2 = (f.run f.init ((src.drop start).take ((iter + 1) * ib))).2 := by
    intro hf
    rw [hr, if_pos hf, hsplit, run_append, hs hf]
  have holen : out.length = src.length - start := by
    rw [hout]; split_ifs <;> simp [run_length]
  have hr1len : r.1.length = min ib (src.length - start - iter * ib) := by
    rw [hr1, List.length_take, List.length_drop, holen]
  set n := min (L / ds - iter * ob) ob with hn
  have hint : min (((L / ds : ℕ) : ℤ) - ((iter : ℕ) : ℤ) * ((ob : ℕ) : ℤ)) ((ob : ℕ) : ℤ) = ((n : ℕ) : ℤ) := by
    rw [hn]; push_cast [Nat.cast_sub hle]; rfl
  have hstr : n ≤ (stride ds r.1).length := by
    apply stride_length_ge ds hds
    intro j hj
    have := hfit j hj
    rw [hr1len]
    omega
  have hsel : (dsSlice dst (iter * ob) ((iter + 1) * ob)).length = n := by
    rw [dsSlice_length, hlen, hn, Nat.add_mul, Nat.one_mul]
    omega
  have hvget : ∀ j, j < n → ((stride ds r.1).take n)[j]? = out[iter * ib + j * ds]? := by
    intro j hj
    have := hfit j hj
    rw [List.getElem?_take_of_lt hj, stride_get ds hds, hr1, List.getElem?_take_of_lt (by omega), List.getElem?_drop]
  have hvlen : ((stride ds r.1).take n).length = n := by rw [List.length_take]; omega
  have hpass : dsPass f h5 filtered src start ib ob ds (L / ds) iter s dst =
      (match assignSlice h5 dst (iter * ob) ((iter + 1) * ob) ((stride ds r.1).take n) with
        | .error e => .error e
        | .ok dst' => .ok (r.2, dst')) := by
    rw [dsPass, hsl, ← hr, hint, takeInt, if_pos (by positivity), Int.toNat_natCast]
    rfl
  by_cases h0 : h5 = true ∧ n = 0
  · refine ⟨r.2, dst, ?_, hr2, hlen, fun _ _ => rfl, ?_⟩
    · have : assignSlice h5 dst (iter * ob) ((iter + 1) * ob) ((stride ds r.1).take n) = .ok dst := by
        unfold assignSlice
        simp only [hsel]
        rw [if_pos h0]
      rw [hpass, this]
    · intro j hj
      omega
  · have htl : (dst.take (iter * ob)).length = iter * ob := by rw [List.length_take]; omega
    refine ⟨r.2, dst.take (iter * ob) ++ (stride ds r.1).take n ++ dst.drop (iter * ob + n), ?_, hr2, ?_, ?_, ?_⟩
    · have : assignSlice h5 dst (iter * ob) ((iter + 1) * ob) ((stride ds r.1).take n) =
          .ok (dst.take (iter * ob) ++ (stride ds r.1).take n ++ dst.drop (iter * ob + n)) := by
        unfold assignSlice
        simp only [hsel]
        rw [if_neg h0, if_pos hvlen]
      rw [hpass, this]
    · simp only [List.length_append, hvlen, List.length_take, List.length_drop, hlen]
      omega
    · intro j hj
      rw [List.append_assoc, List.getElem?_append_left (by omega), List.getElem?_take_of_lt hj]
    · intro j hj
      rw [List.append_assoc, List.getElem?_append_right (by omega), htl, List.getElem?_append_left (by omega), Nat.add_sub_cancel_left, hvget _ hj]

/-- One pass of the loop continues a result that is right so far. -/
theorem dsPass_spec (f : SampleFilter α σ) (h5 filtered : Bool) (src : List α) (start ib ob ds L iter : ℕ) (s : σ) (dst : List α) (hds : 0 < ds)
    (hL : start + L ≤ src.length) (hblk : iter * ob * ds = iter * ib) (hle : iter * ob ≤ L / ds)
    (hfit : ∀ j, j < min (L / ds - iter * ob) ob → j * ds < min ib (L - iter * ib))
    (hs : filtered → s = (f.run f.init ((src.drop start).take (iter * ib))).2)
    (hlen : dst.length = L / ds)
    (hdst : ∀ j, j < iter * ob → dst[j]? = (if filtered then (f.run f.init (src.drop start)).1 else src.drop start)[j * ds]?) :
    ∃ s' dst', dsPass f h5 filtered src start ib ob ds (L / ds) iter s dst = .ok (s', dst') ∧
      (filtered → s' = (f.run f.init ((src.drop start).take ((iter + 1) * ib))).2) ∧ dst'.length = L / ds ∧
      ∀ j, j < (iter + 1) * ob → j < L / ds → dst'[j]? = (if filtered then (f.run f.init (src.drop start)).1 else src.drop start)[j * ds]? := by
  obtain ⟨s', dst', e, h1, h2, h3, h4⟩ := dsPass_core f h5 filtered src start ib ob ds L iter s dst hds hL hle hfit hs hlen
  refine ⟨s', dst', e, h1, h2, ?_⟩
  intro j hj hj2
  rw [Nat.add_mul, Nat.one_mul] at hj
  by_cases hj3 : j < iter * ob
  · rw [h3 j hj3, hdst j hj3]
  · have := h4 (j - iter * ob) (by omega)
    rw [← hblk, ← Nat.add_mul, Nat.add_sub_cancel' (by omega)] at this
    exact this

/-- All passes together. -/
theorem dsLoop_spec (f : SampleFilter α σ) (h5 filtered : Bool) (src : List α) (start ib ob ds L : ℕ) (hds : 0 < ds) (hL : start + L ≤ src.length)
    (hcase : ds * ob = ib ∨ (ib = L ∧ L / ds ≤ ob)) (n iter : ℕ) (s : σ) (dst : List α) (hn : ∀ k, k < n → (iter + k) * ib < L)
    (hs : filtered → s = (f.run f.init ((src.drop start).take (iter * ib))).2)
    (hlen : dst.length = L / ds)
    (hdst : ∀ j, j < iter * ob → j < L / ds → dst[j]? = (if filtered then (f.run f.init (src.drop start)).1 else src.drop start)[j * ds]?) :
    ∃ dst', dsLoop f h5 filtered src start ib ob ds (L / ds) n iter s dst = .ok dst' ∧ dst'.length = L / ds ∧
      ∀ j, j < (iter + n) * ob → j < L / ds → dst'[j]? = (if filtered then (f.run f.init (src.drop start)).1 else src.drop start)[j * ds]? := by
  induction n generalizing iter s dst with
  | zero => exact ⟨dst, rfl, hlen, hdst⟩
  | succ n ih =>
    have hiter : iter * ib < L := hn 0 (by omega)
    have hblk : iter * ob * ds = iter * ib := by
      rcases hcase with h | ⟨h, -⟩
      · rw [← h]; ring
      · have : iter = 0 := by
          rcases Nat.eq_zero_or_pos iter with h0 | h0
          · exact h0
          · have := Nat.le_mul_of_pos_left ib h0
            omega
        rw [this]; simp
    have hle : iter * ob ≤ L / ds := by
      rw [Nat.le_div_iff_mul_le hds]
      omega
    have hq : L / ds * ds ≤ L := Nat.div_mul_le_self L ds
    have hfit : ∀ j, j < min (L / ds - iter * ob) ob → j * ds < min ib (L - iter * ib) := by
      intro j hj
      have h1 : (j + 1 + iter * ob) * ds ≤ L := le_trans (Nat.mul_le_mul_right ds (by omega)) hq
      rw [Nat.add_mul, Nat.add_mul, hblk] at h1
      rcases hcase with h | ⟨h, -⟩
      · have h2 : (j + 1) * ds ≤ ib := by rw [← h, Nat.mul_comm ds]; exact Nat.mul_le_mul_right ds (by omega)
        rw [Nat.add_mul] at h2
        omega
      · omega
    obtain ⟨s', dst', e, hs', hlen', hdst'⟩ := dsPass_spec f h5 filtered src start ib ob ds L iter s dst hds hL hblk hle hfit hs hlen (fun j hj => hdst j hj (by omega))
    obtain ⟨dst'', e2, h2, h3⟩ := ih (iter + 1) s' dst' (fun k hk => by have := hn (k + 1) (by omega); rwa [show iter + 1 + k = iter + (k + 1) by omega]) hs' hlen' hdst'
    refine ⟨dst'', ?_, h2, ?_⟩
    · rw [dsLoop, e]; exact e2
    · rw [show iter + (n + 1) = iter + 1 + n by omega]; exact h3

end

end Verif.Model
