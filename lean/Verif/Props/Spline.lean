import Verif.Model.Spline
import Verif.Props.Mppt
import Mathlib.Tactic.IntervalCases
import Mathlib.LinearAlgebra.FiniteDimensional.Basic

/-!
# C121: the values of converted IVonne recordings
-/

namespace Verif.Props
open Verif.Py Verif.Model

/-! ## Specification: the cubic spline of scipy

`interp1d(kind="cubic")` is the spline with conditions "not-a-knot" at both ends.  Here for rows at equal distances: between the rows `i` and `i + 1` it is a polynomial of degree three in the
fraction `s` of the distance. -/

/-- A polynomial of degree three. -/
structure Cubic where
  a : ℝ
  b : ℝ
  c : ℝ
  d : ℝ

def Cubic.at (p : Cubic) (s : ℝ) : ℝ := p.a + p.b * s + p.c * s^2 + p.d * s^3

/-- The pieces `p` are the cubic spline through `y`: they meet the values, slope and curvature are continuous, and the first two and the last two pieces are the same polynomial. -/
structure IsSpline (y : List ℝ) (p : ℕ → Cubic) : Prop where
  left : ∀ i, i + 1 < y.length → (p i).at 0 = y.getD i 0
  right : ∀ i, i + 1 < y.length → (p i).at 1 = y.getD (i + 1) 0
  slope : ∀ i, i + 2 < y.length → (p i).b + 2 * (p i).c + 3 * (p i).d = (p (i + 1)).b
  curvature : ∀ i, i + 2 < y.length → 2 * (p i).c + 6 * (p i).d = 2 * (p (i + 1)).c
  first : (p 0).d = (p 1).d
  last : (p (y.length - 3)).d = (p (y.length - 2)).d

/-- What is asked of the interpolation for one column: it is the spline up to an error of `e`. -/
def Interpolates (cubic : List ℝ → ℕ → ℝ → ℝ) (e : ℝ) (y : List ℝ) : Prop :=
  ∃ p, IsSpline y p ∧ ∀ i s, i + 1 < y.length → 0 ≤ s → s ≤ 1 → |cubic y i s - (p i).at s| ≤ e

/-! ## Rows keep their values -/

theorem fillColumn_length (cubic : List ℝ → ℕ → ℝ → ℝ) (u : ℕ) (y : List ℝ) : (fillColumn cubic u y).length = (y.length - 1) * u := by
  simp [fillColumn]

theorem fillColumn_row (cubic : List ℝ → ℕ → ℝ → ℝ) (u : ℕ) (hu : 1 ≤ u) (y : List ℝ) (j : ℕ) (hj : j + 1 < y.length) : (fillColumn cubic u y)[j * u]? = y[j]? := by
  have h1 : j * u < (y.length - 1) * u := Nat.mul_lt_mul_of_pos_right (by omega) (by omega)
  have h2 : j < y.length := by omega
  simp [fillColumn, h1, h2, Nat.mul_div_cancel j (show 0 < u by omega)]

theorem trackTable_map (track : IvCoeffs → Except PyErr (ℝ × ℝ)) (row : IvCoeffs → ℝ × ℝ) (ks : List IvCoeffs) (h : ∀ k ∈ ks, track k = .ok (row k)) :
    trackTable track ks = .ok (ks.map row) := by
  induction ks with
  | nil => rfl
  | cons k t ih =>
    unfold trackTable
    rw [h k (by simp), ih (fun x hx => h x (by simp [hx]))]
    rfl

theorem sampleSlice_rows (cubic : List ℝ → ℕ → ℝ → ℝ) (track : IvCoeffs → Except PyErr (ℝ × ℝ)) (row : IvCoeffs → ℝ × ℝ) (rows : List IvCoeffs) (h : ∀ k ∈ rows, track k = .ok (row k))
    (u idx top : ℕ) (hu : 1 ≤ u) (hi : idx < rows.length) (ht : idx ≤ top)
    (hn : u ≤ 1 ∨ min (top + 1) rows.length - idx = 1 ∨ 4 ≤ min (top + 1) rows.length - idx) :
    ∃ l, sampleSlice cubic track rows u idx top = .ok l ∧ l.length = (min (top + 1) rows.length - 1 - idx) * u ∧
      ∀ j, j < min (top + 1) rows.length - 1 - idx → l[j * u]? = (rows[idx + j]?).map row := by
  have hlen : ((rows.drop idx).take (top + 1 - idx)).length = min (top + 1) rows.length - idx := by
    rw [List.length_take, List.length_drop]; omega
  have hg : ∀ j, j < min (top + 1) rows.length - idx → ((rows.drop idx).take (top + 1 - idx))[j]? = rows[idx + j]? := by
    intro j hj
    rw [List.getElem?_take_of_lt (by omega), List.getElem?_drop]
  set sl := (rows.drop idx).take (top + 1 - idx) with hsl
  have hm := trackTable_map track row sl (fun k hk => h k (List.mem_of_mem_drop (List.mem_of_mem_take hk)))
  unfold sampleSlice
  rw [← hsl, hm]
  dsimp only
  rw [List.length_map, hlen, if_neg (by rintro ⟨a, b, c⟩; omega)]
  refine ⟨_, rfl, ?_, ?_⟩
  · rw [List.length_zip, fillColumn_length, fillColumn_length]
    simp only [List.length_map, hlen]
    rw [Nat.min_self]; congr 1; omega
  · intro j hj
    have hj2 : j < sl.length := by omega
    have hz : ((fillColumn cubic u ((sl.map row).map (·.1))).zip (fillColumn cubic u ((sl.map row).map (·.2))))[j * u]? = some (row sl[j]) := by
      rw [List.getElem?_zip_eq_some, fillColumn_row _ _ hu _ _ (by simp only [List.length_map, hlen]; omega), fillColumn_row _ _ hu _ _ (by simp only [List.length_map, hlen]; omega)]
      simp [hj2]
    rw [hz, ← hg j (by omega)]
    simp [hj2]

theorem sampleLoop_rows (cubic : List ℝ → ℕ → ℝ → ℝ) (track : IvCoeffs → Except PyErr (ℝ × ℝ)) (row : IvCoeffs → ℝ × ℝ) (rows : List IvCoeffs) (h : ∀ k ∈ rows, track k = .ok (row k))
    (u d c : ℕ) (hu : 1 ≤ u) (hc : 1 ≤ c) (hd : d ≤ rows.length) (fuel k : ℕ) (hf : d ≤ k * c + fuel)
    (hrest : u ≤ 1 ∨ ∀ j, k ≤ j → j * c < d → rowsInBlock rows.length d c j = 1 ∨ 4 ≤ rowsInBlock rows.length d c j) :
    ∃ l, sampleLoop cubic track rows u d c fuel (k * c) = (l, .ok ()) ∧ l.length = (min d (rows.length - 1) - k * c) * u ∧
      ∀ j, j < min d (rows.length - 1) - k * c → l[j * u]? = (rows[k * c + j]?).map row := by
  induction fuel generalizing k with
  | zero =>
    have : min d (rows.length - 1) - k * c = 0 := by omega
    exact ⟨[], rfl, by simp [this], by omega⟩
  | succ fuel ih =>
    unfold sampleLoop
    by_cases h1 : k * c < d
    · rw [if_pos h1]
      obtain ⟨l2, e2, n2, v2⟩ := ih (k + 1) (by rw [Nat.add_mul]; omega) (by
        rcases hrest with h1 | h1
        · exact .inl h1
        · exact .inr (fun j hj => h1 j (by omega)))
      rw [Nat.add_mul, Nat.one_mul] at e2 n2 v2
      have hr : min (min (k * c + c) d + 1) rows.length - k * c = rowsInBlock rows.length d c k := by
        unfold rowsInBlock
        omega
      obtain ⟨l1, e1, n1, v1⟩ := sampleSlice_rows cubic track row rows h u (k * c) (min (k * c + c) d) hu (by omega) (by omega) (by
        rcases hrest with h2 | h2
        · exact .inl h2
        · exact .inr (by rw [hr]; exact h2 k le_rfl h1))
      rw [e1, e2]
      refine ⟨l1 ++ l2, rfl, ?_, ?_⟩
      · rw [List.length_append, n1, n2, ← Nat.add_mul]
        congr 1
        omega
      · intro j hj
        by_cases hj1 : j < min (min (k * c + c) d + 1) rows.length - 1 - k * c
        · rw [List.getElem?_append_left (by rw [n1]; exact Nat.mul_lt_mul_of_pos_right hj1 (by omega)), v1 j hj1]
        · have hb : min (min (k * c + c) d + 1) rows.length - 1 - k * c = c := by omega
          rw [hb] at n1 hj1
          rw [List.getElem?_append_right (by rw [n1]; exact Nat.mul_le_mul_right u (by omega)), n1, ← Nat.sub_mul, v2 (j - c) (by omega)]
          congr 2
          omega
    · rw [if_neg h1]
      have : min d (rows.length - 1) - k * c = 0 := by omega
      exact ⟨[], rfl, by simp [this], by omega⟩

/-- **C121, rows.**  Whatever is put between them, and wherever the borders of the blocks are: the sample at the time of a row has exactly the voltage and current found for that row. -/
theorem C121_rows (cubic : List ℝ → ℕ → ℝ → ℝ) (track : IvCoeffs → Except PyErr (ℝ × ℝ)) (row : IvCoeffs → ℝ × ℝ) (rows : List IvCoeffs) (h : ∀ k ∈ rows, track k = .ok (row k))
    (u d maxElements : ℕ) (hu : 1 ≤ u) (hm : u ≤ maxElements) (hd : d ≤ rows.length)
    (hrest : u ≤ 1 ∨ ∀ k, k * (maxElements / u) < d → rowsInBlock rows.length d (maxElements / u) k = 1 ∨ 4 ≤ rowsInBlock rows.length d (maxElements / u) k) :
    ∃ samples, convertSamples cubic track rows u d maxElements = (samples, .ok ()) ∧ samples.length = min d (rows.length - 1) * u ∧
      ∀ k, k < min d (rows.length - 1) → samples[k * u]? = (rows[k]?).map row := by
  have hc : 1 ≤ maxElements / u := (Nat.le_div_iff_mul_le hu).mpr (by omega)
  obtain ⟨l, e, n, v⟩ := sampleLoop_rows cubic track row rows h u d (maxElements / u) hu hc hd d 0 (by omega) (by
    rcases hrest with h | h
    · exact .inl h
    · exact .inr (fun j _ => h j))
  simp only [Nat.zero_mul, Nat.sub_zero, Nat.zero_add] at e n v
  refine ⟨l, ?_, n, v⟩
  unfold convertSamples
  rw [if_neg (by omega), if_neg (by omega), e]

/-- **C121, maximum power.**  With the tracker for the maximum power: at the time of each row the sample is the point of that row's curve that the tracker finds (which has the most power, C66). -/
theorem C121_optimal (cubic : List ℝ → ℕ → ℝ → ℝ) (vMax : ℝ) (n : ℕ) (hn : 1 ≤ n) (rows : List IvCoeffs) (u d maxElements : ℕ) (hu : 1 ≤ u) (hm : u ≤ maxElements) (hd : d ≤ rows.length)
    (hrest : u ≤ 1 ∨ ∀ k, k * (maxElements / u) < d → rowsInBlock rows.length d (maxElements / u) k = 1 ∨ 4 ≤ rowsInBlock rows.length d (maxElements / u) k) :
    ∃ samples, convertSamples cubic (optimalTracker vMax n) rows u d maxElements = (samples, .ok ()) ∧ samples.length = min d (rows.length - 1) * u ∧
      ∀ k, k < min d (rows.length - 1) → ∃ row r, rows[k]? = some row ∧ samples[k * u]? = some r ∧ optimalTracker vMax n row = .ok r := by
  classical
  have ht : ∀ k, ∃ r, optimalTracker vMax n k = .ok r := by
    intro k
    obtain ⟨l, -, -, h⟩ := C66_table vMax n hn [k]
    obtain ⟨r, -, h⟩ := h 0 k rfl
    exact ⟨r, h⟩
  obtain ⟨samples, h1, h2, h3⟩ := C121_rows cubic (optimalTracker vMax n) (fun k => (ht k).choose) rows (fun k _ => (ht k).choose_spec) u d maxElements hu hm hd hrest
  refine ⟨samples, h1, h2, fun k hk => ?_⟩
  have hk2 : k < rows.length := by omega
  refine ⟨rows[k], (ht rows[k]).choose, by simp [hk2], ?_, (ht rows[k]).choose_spec⟩
  rw [h3 k hk]; simp [hk2]

/-- 5000 rows at 50 Hz, output at 100 kHz in blocks of 100000 samples (50 rows): all blocks have 51 rows but the last, which has 50. -/
example : (2000:ℕ) ≤ 100000 ∧ ∀ k, k * (100000 / 2000) < 5000 → rowsInBlock 5000 5000 (100000 / 2000) k = 1 ∨ 4 ≤ rowsInBlock 5000 5000 (100000 / 2000) k := by
  refine ⟨by norm_num, fun k hk => ?_⟩
  unfold rowsInBlock
  norm_num at hk ⊢
  omega

theorem sampleSlice_outcome (cubic : List ℝ → ℕ → ℝ → ℝ) (track : IvCoeffs → Except PyErr (ℝ × ℝ)) (row : IvCoeffs → ℝ × ℝ) (rows : List IvCoeffs) (h : ∀ k ∈ rows, track k = .ok (row k))
    (u idx top : ℕ) (hi : idx < rows.length) (ht : idx ≤ top) :
    (2 ≤ u ∧ 2 ≤ min (top + 1) rows.length - idx ∧ min (top + 1) rows.length - idx ≤ 3 → sampleSlice cubic track rows u idx top = .error .valueError) ∧
    (¬(2 ≤ u ∧ 2 ≤ min (top + 1) rows.length - idx ∧ min (top + 1) rows.length - idx ≤ 3) →
      ∃ l, sampleSlice cubic track rows u idx top = .ok l ∧ l.length = (min (top + 1) rows.length - 1 - idx) * u) := by
  have hlen : ((rows.drop idx).take (top + 1 - idx)).length = min (top + 1) rows.length - idx := by
    rw [List.length_take, List.length_drop]; omega
  have hm := trackTable_map track row ((rows.drop idx).take (top + 1 - idx)) (fun k hk => h k (List.mem_of_mem_drop (List.mem_of_mem_take hk)))
  unfold sampleSlice
  rw [hm]
  dsimp only
  rw [List.length_map, hlen]
  constructor
  · intro hc
    rw [if_pos hc]
  · intro hc
    rw [if_neg hc]
    refine ⟨_, rfl, ?_⟩
    rw [List.length_zip, fillColumn_length, fillColumn_length]
    simp only [List.length_map, hlen]
    rw [Nat.min_self]; congr 1; omega

theorem loops_agree (cubic : List ℝ → ℕ → ℝ → ℝ) (track : IvCoeffs → Except PyErr (ℝ × ℝ)) (row : IvCoeffs → ℝ × ℝ) (rows : List IvCoeffs) (h : ∀ k ∈ rows, track k = .ok (row k))
    (t0 step u d c : ℕ) (hs : 0 < step) (hd : d ≤ rows.length) (fuel idx : ℕ) :
    (upsampleLoop (regularTable t0 step u rows.length) step d c fuel idx).1.length = (sampleLoop cubic track rows u d c fuel idx).1.length ∧
    (upsampleLoop (regularTable t0 step u rows.length) step d c fuel idx).2 = (sampleLoop cubic track rows u d c fuel idx).2 := by
  induction fuel generalizing idx with
  | zero => exact ⟨rfl, rfl⟩
  | succ fuel ih =>
    unfold upsampleLoop sampleLoop
    by_cases h1 : idx < d
    · rw [if_pos h1, if_pos h1, slice_times t0 step u rows.length idx _ hs (by omega) (by omega)]
      obtain ⟨a, b⟩ := sampleSlice_outcome cubic track row rows h u idx (min (idx + c) d) (by omega) (by omega)
      by_cases hc : 2 ≤ u ∧ 2 ≤ min (min (idx + c) d + 1) rows.length - idx ∧ min (min (idx + c) d + 1) rows.length - idx ≤ 3
      · rw [if_pos hc, a hc]
        exact ⟨rfl, rfl⟩
      · obtain ⟨l, e, n⟩ := b hc
        rw [if_neg hc, e]
        dsimp only
        rw [List.length_append, List.length_append, (ih _).1, (ih _).2, n]
        simp [evenly]
    · rw [if_neg h1, if_neg h1]
      exact ⟨rfl, rfl⟩

/-- **C121, every sample has its time.**  The values here and the times of C76 belong together: for every part of every such table there are as many, and the same exception ends both. -/
theorem C121_stamped (cubic : List ℝ → ℕ → ℝ → ℝ) (track : IvCoeffs → Except PyErr (ℝ × ℝ)) (row : IvCoeffs → ℝ × ℝ) (rows : List IvCoeffs) (h : ∀ k ∈ rows, track k = .ok (row k))
    (t0 step inNs outNs d maxElements : ℕ) (hs : 0 < step) (hd : d ≤ rows.length) :
    ∃ times samples result, upsampleTable none (regularTable t0 step (inNs / outNs) rows.length) d inNs outNs step maxElements = (some times, result) ∧
      convertSamples cubic track rows (inNs / outNs) d maxElements = (samples, result) ∧ times.length = samples.length := by
  unfold upsampleTable convertSamples
  dsimp only
  by_cases h0 : inNs / outNs = 0
  · rw [if_pos h0, if_pos h0]
    exact ⟨[], [], _, rfl, rfl, rfl⟩
  · rw [if_neg h0, if_neg h0]
    by_cases h1 : maxElements / (inNs / outNs) = 0
    · rw [if_pos h1, if_pos h1]
      exact ⟨[], [], _, rfl, rfl, rfl⟩
    · rw [if_neg h1, if_neg h1]
      obtain ⟨a, b⟩ := loops_agree cubic track row rows h t0 step (inNs / outNs) d (maxElements / (inNs / outNs)) hs hd d 0
      exact ⟨_, _, _, rfl, by rw [b], a⟩

/-! ## The spline is unique -/

/-- The difference of two splines through the same values has no curvature. -/
theorem spline_zero (n : ℕ) (p : ℕ → Cubic) (hn : 4 ≤ n) (h : IsSpline (List.replicate n 0) p) : ∀ i, i + 1 < n → (p i).a = 0 ∧ (p i).b = 0 ∧ (p i).c = 0 ∧ (p i).d = 0 := by
  obtain ⟨hl, hr, hs, hc, hf, hla⟩ := h
  simp only [List.length_replicate] at hl hr hs hc hla
  have g : ∀ i, (List.replicate n (0:ℝ)).getD i 0 = 0 := by
    intro i
    by_cases hi : i < n <;> simp [List.getD, hi]
  simp only [g, Cubic.at] at hl hr
  -- curvatures at the rows: three neighbours
  have three : ∀ i, i + 2 < n → 4 * (p (i + 1)).c + (p i).c + ((p (i+1)).c + 3 * (p (i+1)).d) = 0 := by
    intro i hi
    have := hl i (by omega); have := hr i (by omega); have := hl (i+1) (by omega); have := hr (i+1) (by omega)
    have := hs i hi; have := hc i hi
    nlinarith
  -- the rest of the curvatures
  let M : ℕ → ℝ := fun i => if i + 1 < n then (p i).c else (p (n-2)).c + 3 * (p (n-2)).d
  have hM : ∀ i, i + 1 < n → (p i).c = M i ∧ (p i).c + 3 * (p i).d = M (i+1) := by
    intro i hi
    refine ⟨by simp [M, hi], ?_⟩
    by_cases h2 : i + 1 + 1 < n
    · have := hc i (by omega)
      simp only [M, h2, if_true]; linarith
    · have : i = n - 2 := by omega
      subst this
      simp only [M, if_neg h2]
  have rec_ : ∀ i, i + 2 < n → M i + 4 * M (i+1) + M (i+2) = 0 := by
    intro i hi
    have := three i hi
    have a := (hM i (by omega)).1
    have b := hM (i+1) (by omega)
    rw [b.2, b.1, a] at this
    linarith
  have e1 : M 1 = 0 := by
    have a := hM 0 (by omega); have b := hM 1 (by omega); have := rec_ 0 (by omega)
    simp only [Nat.zero_add] at *
    linarith
  have e2 : M (n-2) = 0 := by
    have a := hM (n-3) (by omega); have b := hM (n-2) (by omega); have := rec_ (n-3) (by omega)
    rw [show n - 3 + 1 = n - 2 by omega, show n - 3 + 2 = n - 1 by omega] at *
    rw [show n - 2 + 1 = n - 1 by omega] at b
    linarith
  -- the largest inner curvature is zero
  have inner : ∀ i, 1 ≤ i → i ≤ n - 2 → M i = 0 := by
    obtain ⟨m, hm, hmax⟩ := Finset.exists_max_image (Finset.Icc 1 (n-2)) (fun i => |M i|) ⟨1, by simp; omega⟩
    rw [Finset.mem_Icc] at hm
    have z : |M m| = 0 := by
      by_cases hm1 : m = 1
      · rw [hm1, e1, abs_zero]
      · by_cases hm2 : m = n - 2
        · rw [hm2, e2, abs_zero]
        · have r := rec_ (m-1) (by omega)
          rw [show m - 1 + 1 = m by omega, show m - 1 + 2 = m + 1 by omega] at r
          have a := hmax (m-1) (by rw [Finset.mem_Icc]; omega)
          have b := hmax (m+1) (by rw [Finset.mem_Icc]; omega)
          have c : 4 * |M m| ≤ |M (m-1)| + |M (m+1)| := by
            have : 4 * M m = -(M (m-1) + M (m+1)) := by linarith
            calc 4 * |M m| = |4 * M m| := by rw [abs_mul]; norm_num
              _ = |M (m-1) + M (m+1)| := by rw [this, abs_neg]
              _ ≤ _ := abs_add_le _ _
          have := abs_nonneg (M m)
          linarith
    intro i h1 h2
    have := hmax i (by rw [Finset.mem_Icc]; exact ⟨h1, h2⟩)
    simp only [z] at this
    exact abs_nonpos_iff.mp this
  have all : ∀ i, i < n → M i = 0 := by
    intro i hi
    by_cases h0 : i = 0
    · have := rec_ 0 (by omega)
      rw [Nat.zero_add, e1, inner 2 (by omega) (by omega)] at this
      rw [h0]; linarith
    · by_cases h1 : i ≤ n - 2
      · exact inner i (by omega) h1
      · have := rec_ (n-3) (by omega)
        rw [show n - 3 + 1 = n - 2 by omega, show n - 3 + 2 = n - 1 by omega, e2, inner (n-3) (by omega) (by omega)] at this
        rw [show i = n - 1 by omega]; linarith
  intro i hi
  have a := hM i hi
  rw [all i (by omega)] at a
  rw [all (i+1) (by omega)] at a
  have b := hl i hi
  have c := hr i hi
  norm_num at b c
  refine ⟨b, ?_, a.1, ?_⟩ <;> linarith [a.1, a.2]

/-- The pieces with given values and (halved) curvatures at the rows. -/
noncomputable def splinePieces (y : List ℝ) (M : ℕ → ℝ) (i : ℕ) : Cubic :=
  ⟨y.getD i 0, y.getD (i + 1) 0 - y.getD i 0 - M i - (M (i + 1) - M i) / 3, M i, (M (i + 1) - M i) / 3⟩

theorem splinePieces_spline (y : List ℝ) (M : ℕ → ℝ) (hn : 4 ≤ y.length)
    (hr : ∀ i, i + 2 < y.length → M i + 4 * M (i + 1) + M (i + 2) = 3 * (y.getD (i + 2) 0 - 2 * y.getD (i + 1) 0 + y.getD i 0))
    (h0 : M 0 - 2 * M 1 + M 2 = 0) (h1 : M (y.length - 1) - 2 * M (y.length - 2) + M (y.length - 3) = 0) : IsSpline y (splinePieces y M) where
  left i _ := by simp [splinePieces, Cubic.at]
  right i _ := by simp only [splinePieces, Cubic.at]; ring
  slope i hi := by
    have := hr i hi
    simp only [splinePieces]
    rw [show i + 1 + 1 = i + 2 by omega]
    linarith
  curvature i _ := by simp only [splinePieces]; ring
  first := by simp only [splinePieces]; norm_num; linarith
  last := by
    simp only [splinePieces]
    rw [show y.length - 3 + 1 = y.length - 2 by omega, show y.length - 2 + 1 = y.length - 1 by omega]
    linarith

/-- A vector as a function of all numbers. -/
noncomputable def extend (n : ℕ) (v : Fin n → ℝ) (k : ℕ) : ℝ := if h : k < n then v ⟨k, h⟩ else 0

theorem extend_add (n : ℕ) (v w : Fin n → ℝ) (k : ℕ) : extend n (v + w) k = extend n v k + extend n w k := by
  unfold extend
  split_ifs <;> simp

theorem extend_smul (n : ℕ) (r : ℝ) (v : Fin n → ℝ) (k : ℕ) : extend n (r • v) k = r * extend n v k := by
  unfold extend
  split_ifs <;> simp

/-- The equations for the curvatures. -/
noncomputable def splineSystem (n : ℕ) : (Fin n → ℝ) →ₗ[ℝ] (Fin n → ℝ) where
  toFun v i :=
    if i.1 = 0 then extend n v 0 - 2 * extend n v 1 + extend n v 2
    else if i.1 = n - 1 then extend n v (n - 1) - 2 * extend n v (n - 2) + extend n v (n - 3)
    else extend n v (i.1 - 1) + 4 * extend n v i.1 + extend n v (i.1 + 1)
  map_add' v w := by
    funext i
    simp only [extend_add, Pi.add_apply]
    split_ifs <;> ring
  map_smul' r v := by
    funext i
    simp only [extend_smul, Pi.smul_apply, RingHom.id_apply, smul_eq_mul]
    split_ifs <;> ring

theorem splineSystem_eqs (n : ℕ) (hn : 4 ≤ n) (v r : Fin n → ℝ) (h : splineSystem n v = r) :
    (extend n v 0 - 2 * extend n v 1 + extend n v 2 = extend n r 0) ∧
    (extend n v (n - 1) - 2 * extend n v (n - 2) + extend n v (n - 3) = extend n r (n - 1)) ∧
    ∀ i, i + 2 < n → extend n v i + 4 * extend n v (i + 1) + extend n v (i + 2) = extend n r (i + 1) := by
  refine ⟨?_, ?_, ?_⟩
  · have := congrFun h ⟨0, by omega⟩
    simp only [splineSystem, LinearMap.coe_mk, AddHom.coe_mk, if_true] at this
    rw [this]; simp [extend, show 0 < n by omega]
  · have := congrFun h ⟨n - 1, by omega⟩
    simp only [splineSystem, LinearMap.coe_mk, AddHom.coe_mk, if_true] at this
    rw [if_neg (by omega)] at this
    rw [this]; simp [extend, show n - 1 < n by omega]
  · intro i hi
    have := congrFun h ⟨i + 1, by omega⟩
    simp only [splineSystem, LinearMap.coe_mk, AddHom.coe_mk] at this
    rw [if_neg (by omega), if_neg (by omega), Nat.add_sub_cancel] at this
    rw [this]; simp [extend, show i + 1 < n by omega]

theorem splineSystem_injective (n : ℕ) (hn : 4 ≤ n) : Function.Injective (splineSystem n) := by
  rw [← LinearMap.ker_eq_bot, LinearMap.ker_eq_bot']
  intro v hv
  obtain ⟨e0, e1, e2⟩ := splineSystem_eqs n hn v 0 hv
  have z : ∀ k, extend n (0 : Fin n → ℝ) k = 0 := fun k => by unfold extend; split_ifs <;> rfl
  simp only [z] at e0 e1 e2
  have g : ∀ i, (List.replicate n (0:ℝ)).getD i 0 = 0 := by
    intro i
    by_cases hi : i < n <;> simp [List.getD, hi]
  have hs := splinePieces_spline (List.replicate n 0) (extend n v) (by simpa using hn)
    (fun i hi => by rw [List.length_replicate] at hi; rw [e2 i hi, g, g, g]; norm_num) e0 (by rw [List.length_replicate]; exact e1)
  have k := spline_zero n _ hn hs
  have all : ∀ i, i < n → extend n v i = 0 := by
    intro i hi
    by_cases h1 : i + 1 < n
    · exact (k i h1).2.2.1
    · have a := (k (n - 2) (by omega)).2.2
      simp only [splinePieces] at a
      rw [show n - 2 + 1 = n - 1 by omega] at a
      rw [show i = n - 1 by omega]
      linarith [a.1, a.2]
  funext i
  have := all i.1 i.2
  simpa [extend, i.2] using this

/-- There is a spline through every column of at least four values. -/
theorem spline_exists (y : List ℝ) (hn : 4 ≤ y.length) : ∃ p, IsSpline y p := by
  obtain ⟨v, hv⟩ := LinearMap.injective_iff_surjective.mp (splineSystem_injective y.length hn)
    (fun i => if i.1 = 0 ∨ i.1 = y.length - 1 then 0 else 3 * (y.getD (i.1 + 1) 0 - 2 * y.getD i.1 0 + y.getD (i.1 - 1) 0))
  obtain ⟨e0, e1, e2⟩ := splineSystem_eqs _ hn _ _ hv
  refine ⟨_, splinePieces_spline y (extend y.length v) hn (fun i hi => ?_) ?_ ?_⟩
  · rw [e2 i hi]
    simp only [extend, show i + 1 < y.length by omega, dif_pos]
    rw [if_neg (by omega), Nat.add_sub_cancel]
  · rw [e0]; simp [extend, show 0 < y.length by omega]
  · rw [e1]; simp [extend, show y.length - 1 < y.length by omega]

/-- An interpolation that is right for every column. -/
theorem interpolation_exists : ∃ cubic, ∀ y : List ℝ, 4 ≤ y.length → Interpolates cubic 0 y := by
  classical
  refine ⟨fun y i s => if h : 4 ≤ y.length then ((spline_exists y h).choose i).at s else 0, fun y hy => ?_⟩
  refine ⟨(spline_exists y hy).choose, (spline_exists y hy).choose_spec, ?_⟩
  intro i s _ _ _
  simp [hy]

/-- The values of a line at the rows. -/
def lineColumn (α β : ℝ) (n : ℕ) : List ℝ := (List.range n).map (fun i : ℕ => α + β * i)

theorem spline_line (α β : ℝ) (n : ℕ) (hn : 4 ≤ n) (p : ℕ → Cubic) (h : IsSpline (lineColumn α β n) p) (i : ℕ) (hi : i + 1 < n) (s : ℝ) : (p i).at s = α + β * (i + s) := by
  obtain ⟨hl, hr, hs, hc, hf, hla⟩ := h
  have hlen : (lineColumn α β n).length = n := by simp [lineColumn]
  have g : ∀ i, i < n → (lineColumn α β n).getD i 0 = α + β * i := by
    intro i hi
    simp [lineColumn, List.getD, hi]
  rw [hlen] at hl hr hs hc hla
  have z := spline_zero n (fun i => ⟨(p i).a - (α + β * i), (p i).b - β, (p i).c, (p i).d⟩) hn
    { left := by
        intro i hi
        rw [List.length_replicate] at hi
        have := hl i hi
        rw [g i (by omega)] at this
        have e : (List.replicate n (0:ℝ)).getD i 0 = 0 := by simp [List.getD, show i < n by omega]
        rw [e]
        simp only [Cubic.at] at this ⊢
        linarith
      right := by
        intro i hi
        rw [List.length_replicate] at hi
        have := hr i hi
        rw [g (i+1) (by omega)] at this
        have e : (List.replicate n (0:ℝ)).getD (i+1) 0 = 0 := by simp [List.getD, show i + 1 < n by omega]
        rw [e]
        simp only [Cubic.at] at this ⊢
        push_cast at this
        linarith
      slope := by
        intro i hi
        rw [List.length_replicate] at hi
        have := hs i hi
        simp only
        linarith
      curvature := by
        intro i hi
        rw [List.length_replicate] at hi
        exact hc i hi
      first := hf
      last := by rw [List.length_replicate]; exact hla }
  obtain ⟨z1, z2, z3, z4⟩ := z i hi
  simp only at z1 z2 z3 z4
  unfold Cubic.at
  rw [z3, z4, show (p i).a = α + β * i by linarith, show (p i).b = β by linarith]
  ring

/-- **C121, lines.**  Columns that change evenly (like the times of the rows, or a constant light) are continued exactly: every sample is on the line, up to the error of the interpolation. -/
theorem C121_lines (cubic : List ℝ → ℕ → ℝ → ℝ) (e : ℝ) (he : 0 ≤ e) (α β : ℝ) (n u : ℕ) (hn : 4 ≤ n) (hu : 1 ≤ u) (h : Interpolates cubic e (lineColumn α β n)) :
    (fillColumn cubic u (lineColumn α β n)).length = (n - 1) * u ∧
    ∀ (j : ℕ) (x : ℝ), (fillColumn cubic u (lineColumn α β n))[j]? = some x → |x - (α + β * (j / u))| ≤ e := by
  have hlen : (lineColumn α β n).length = n := by simp [lineColumn]
  refine ⟨by rw [fillColumn_length, hlen], ?_⟩
  intro j x hx
  have hj : j < (n - 1) * u := by
    have := (List.getElem?_eq_some_iff.mp hx).1
    rwa [fillColumn_length, hlen] at this
  have hq : j / u < n - 1 := Nat.div_lt_of_lt_mul (by rwa [Nat.mul_comm])
  have hu0 : (0:ℝ) < u := by exact_mod_cast hu
  have hdiv : (j:ℝ) / u = ((j / u : ℕ) : ℝ) + ((j % u : ℕ) : ℝ) / u := by
    have : (j:ℝ) = u * ((j / u : ℕ) : ℝ) + ((j % u : ℕ) : ℝ) := by exact_mod_cast (Nat.div_add_mod j u).symm
    rw [eq_comm, ← sub_eq_zero]
    field_simp
    linarith
  unfold fillColumn at hx
  rw [List.getElem?_map, hlen, List.getElem?_range hj] at hx
  simp only [Option.map_some, Option.some.injEq] at hx
  by_cases h0 : j % u = 0
  · rw [if_pos h0] at hx
    have : (lineColumn α β n).getD (j / u) 0 = α + β * (j / u : ℕ) := by
      simp [lineColumn, List.getD, show j / u < n by omega]
    rw [hdiv, h0, ← hx, this]
    simpa using he
  · rw [if_neg h0] at hx
    obtain ⟨p, hp, hpe⟩ := h
    have hm : j % u < u := Nat.mod_lt _ (by omega)
    have := hpe (j / u) (((j % u : ℕ) : ℝ) / u) (by rw [hlen]; omega) (by positivity) (by rw [div_le_one hu0]; exact_mod_cast hm.le)
    rw [spline_line α β n hn p hp (j / u) (by omega)] at this
    rw [hdiv, ← hx]
    exact this

/-! ## Between the rows -/

theorem fillColumn_between (cubic : List ℝ → ℕ → ℝ → ℝ) (u : ℕ) (y : List ℝ) (i j : ℕ) (hi : i + 1 < y.length) (h0 : 0 < j) (hj : j < u) :
    (fillColumn cubic u y)[i * u + j]? = some (cubic y i ((j : ℝ) / u)) := by
  have h1 : i * u + j < (y.length - 1) * u := by
    have : (i + 1) * u ≤ (y.length - 1) * u := Nat.mul_le_mul_right u (by omega)
    rw [Nat.add_mul] at this
    omega
  have h2 : (i * u + j) % u = j := by rw [Nat.mul_add_mod_self_right, Nat.mod_eq_of_lt hj]
  have h3 : (i * u + j) / u = i := by rw [Nat.mul_comm, Nat.mul_add_div (by omega), Nat.div_eq_of_lt hj, Nat.add_zero]
  simp [fillColumn, h1, h2, h3, h0.ne']

theorem fraction_bound (u j : ℕ) (h0 : 0 < j) (hj : j < u) : 0 < (j:ℝ) / u ∧ (j:ℝ) / u < 1 ∧ 1 / (2 * (u:ℝ)) ≤ (j:ℝ) / u * (1 - (j:ℝ) / u) := by
  have hu : (0:ℝ) < u := by exact_mod_cast (by omega : 0 < u)
  have j1 : (1:ℝ) ≤ j := by exact_mod_cast h0
  have j2 : (j:ℝ) + 1 ≤ u := by exact_mod_cast hj
  refine ⟨by positivity, by rw [div_lt_one hu]; linarith, ?_⟩
  have e : (j:ℝ) / u * (1 - (j:ℝ) / u) = j * (u - j) / u^2 := by field_simp
  rw [e, div_le_div_iff₀ (by positivity) (by positivity)]
  have : (u:ℝ) ≤ 2 * (j * (u - j)) := by nlinarith
  nlinarith

/-- The spline through a rise between two equal pairs of rows. -/
theorem spline_rise (v : ℝ) (p : ℕ → Cubic) (h : IsSpline [0, 0, v, v] p) (s : ℝ) :
    (p 0).at s = -(v * (s * (1 - s) * (7 - 2 * s) / 6)) ∧ (p 2).at s = v + v * (s * (1 - s) * (5 + 2 * s) / 6) := by
  obtain ⟨hl, hr, hs, hc, hf, hla⟩ := h
  have l0 := hl 0 (by simp); have l1 := hl 1 (by simp); have l2 := hl 2 (by simp)
  have r0 := hr 0 (by simp); have r1 := hr 1 (by simp); have r2 := hr 2 (by simp)
  have s0 := hs 0 (by simp); have s1 := hs 1 (by simp)
  have c0 := hc 0 (by simp); have c1 := hc 1 (by simp)
  simp [Cubic.at] at l0 l1 l2 r0 r1 r2 s0 s1 c0 c1 hf hla
  have d0 : (p 0).d = -(v / 3) := by linarith
  have b0 : (p 0).b = -(7 * v / 6) := by linarith
  have cc0 : (p 0).c = 3 * v / 2 := by linarith
  have d2 : (p 2).d = -(v / 3) := by linarith
  have b2 : (p 2).b = 5 * v / 6 := by linarith
  have cc2 : (p 2).c = -(v / 2) := by linarith
  unfold Cubic.at
  rw [l0, d0, b0, cc0, l2, d2, b2, cc2]
  constructor <;> ring

/-- The spline through a late rise, where it begins. -/
theorem spline_late (v : ℝ) (p : ℕ → Cubic) (h : IsSpline [0, 0, 0, 0, v] p) (s : ℝ) : (p 0).at s = -(v * (s * (1 - s) * (2 - s) / 24)) := by
  obtain ⟨hl, hr, hs, hc, hf, hla⟩ := h
  have l0 := hl 0 (by simp); have l1 := hl 1 (by simp); have l2 := hl 2 (by simp); have l3 := hl 3 (by simp)
  have r0 := hr 0 (by simp); have r1 := hr 1 (by simp); have r2 := hr 2 (by simp); have r3 := hr 3 (by simp)
  have s0 := hs 0 (by simp); have s1 := hs 1 (by simp); have s2 := hs 2 (by simp)
  have c0 := hc 0 (by simp); have c1 := hc 1 (by simp); have c2 := hc 2 (by simp)
  simp [Cubic.at] at l0 l1 l2 l3 r0 r1 r2 r3 s0 s1 s2 c0 c1 c2 hf hla
  have d0 : (p 0).d = -(v / 24) := by linarith
  have b0 : (p 0).b = -(v / 12) := by linarith
  have cc0 : (p 0).c = v / 8 := by linarith
  unfold Cubic.at
  rw [l0, d0, b0, cc0]
  ring

theorem iscVoc_slice (cubic : List ℝ → ℕ → ℝ → ℝ) (vMax : ℝ) (rows : List IvCoeffs) (u d maxElements : ℕ) (hu : 2 ≤ u) (h4 : 4 ≤ min (d + 1) rows.length) (hd : d ≤ rows.length)
    (hm : rows.length ≤ maxElements / u) :
    upsampleIscVoc cubic vMax rows u d maxElements =
      ((fillColumn cubic u ((rows.take (d + 1)).map (clippedVoc vMax))).zip (fillColumn cubic u ((rows.take (d + 1)).map getIsc)), .ok ()) := by
  have hc : 1 ≤ maxElements / u := by omega
  unfold upsampleIscVoc convertSamples
  rw [if_neg (by omega), if_neg (by omega)]
  obtain ⟨f, rfl⟩ : ∃ f, d = f + 1 := ⟨d - 1, by omega⟩
  have tail : ∀ g, sampleLoop cubic (fun k => .ok (clippedVoc vMax k, getIsc k)) rows u (f + 1) (maxElements / u) g (maxElements / u) = ([], .ok ()) := by
    intro g
    cases g with
    | zero => rfl
    | succ g => unfold sampleLoop; rw [if_neg (by omega)]
  unfold sampleLoop
  rw [if_pos (by omega), Nat.zero_add, tail, show min (maxElements / u) (f + 1) = f + 1 by omega]
  unfold sampleSlice
  rw [trackTable_map _ (fun k => (clippedVoc vMax k, getIsc k)) _ (fun _ _ => rfl)]
  dsimp only
  rw [List.length_map, List.drop_zero, Nat.sub_zero, List.length_take, if_neg (by omega)]
  simp [Function.comp_def]

theorem dark_voc (vMax : ℝ) (hv : 0 < vMax) (k : IvCoeffs) (h : k.a = 0) : clippedVoc vMax k = 0 := by
  have : getVoc k = 0 := by simp [getVoc, h]
  unfold clippedVoc
  rw [this, if_neg (by linarith)]

theorem bright_voc (vMax : ℝ) (k : IvCoeffs) (h : vMax ≤ getVoc k) : clippedVoc vMax k = vMax := by
  unfold clippedVoc
  rw [if_pos h]

/-- **C121, limits.**  When the light is switched on - two dark rows, two rows in which the cell exceeds the limit - all samples between the last two rows have a voltage above the limit `v_max` and all
between the first two rows one below zero, although no row has. -/
theorem C121_limits_violated (cubic : List ℝ → ℕ → ℝ → ℝ) (e vMax : ℝ) (hv : 0 < vMax) (dark bright : IvCoeffs) (hdark : dark.a = 0) (hbright : vMax ≤ getVoc bright)
    (u maxElements : ℕ) (hu : 2 ≤ u) (hm : 4 ≤ maxElements / u) (he : e < vMax / (3 * u)) (h : Interpolates cubic e [0, 0, vMax, vMax]) :
    ∃ samples, upsampleIscVoc cubic vMax [dark, dark, bright, bright] u 4 maxElements = (samples, .ok ()) ∧ samples.length = 3 * u ∧
      ∀ j, 0 < j → j < u → (∃ x, samples[2 * u + j]? = some x ∧ vMax < x.1) ∧ (∃ x, samples[j]? = some x ∧ x.1 < 0) := by
  rw [iscVoc_slice cubic vMax _ u 4 maxElements hu (by simp) (by simp) (by simpa using hm)]
  have hcol : ([dark, dark, bright, bright].take (4 + 1)).map (clippedVoc vMax) = [0, 0, vMax, vMax] := by
    simp [dark_voc vMax hv dark hdark, bright_voc vMax bright hbright]
  rw [hcol]
  refine ⟨_, rfl, by simp [fillColumn_length], ?_⟩
  intro j h0 hj
  obtain ⟨f0, f1, f2⟩ := fraction_bound u j h0 hj
  obtain ⟨p, hp, hpe⟩ := h
  have hu0 : (0:ℝ) < u := by exact_mod_cast (by omega : 0 < u)
  have e1 := hpe 2 ((j:ℝ) / u) (by simp) f0.le f1.le
  have e0 := hpe 0 ((j:ℝ) / u) (by simp) f0.le f1.le
  rw [(spline_rise vMax p hp _).2, abs_le] at e1
  rw [(spline_rise vMax p hp _).1, abs_le] at e0
  have k : vMax / (3 * u) ≤ vMax * ((j:ℝ) / u * (1 - (j:ℝ) / u) * 5 / 6) := by
    have : vMax / (3 * u) ≤ vMax * (1 / (2 * (u:ℝ)) * 5 / 6) := by
      rw [div_le_iff₀ (by positivity)]
      field_simp
      norm_num
    refine this.trans ?_
    gcongr
  set s := (j:ℝ) / u with hs
  have q0 : 0 ≤ s * (1 - s) := by nlinarith
  have k1 : vMax * (s * (1 - s) * 5 / 6) ≤ vMax * (s * (1 - s) * (5 + 2 * s) / 6) := by
    have : s * (1 - s) * 5 ≤ s * (1 - s) * (5 + 2 * s) := by nlinarith
    gcongr
  have k2 : vMax * (s * (1 - s) * 5 / 6) ≤ vMax * (s * (1 - s) * (7 - 2 * s) / 6) := by
    have : s * (1 - s) * 5 ≤ s * (1 - s) * (7 - 2 * s) := by nlinarith
    gcongr
  constructor
  · refine ⟨(cubic [0, 0, vMax, vMax] 2 s, cubic ([dark, dark, bright, bright].map getIsc) 2 s), ?_, by simp only; linarith [e1.1]⟩
    rw [List.getElem?_zip_eq_some, fillColumn_between _ _ _ 2 j (by simp) h0 hj, fillColumn_between _ _ _ 2 j (by simp) h0 hj]
    exact ⟨rfl, rfl⟩
  · refine ⟨(cubic [0, 0, vMax, vMax] 0 s, cubic ([dark, dark, bright, bright].map getIsc) 0 s), ?_, by simp only; linarith [e0.2]⟩
    have a := fillColumn_between cubic u [0, 0, vMax, vMax] 0 j (by simp) h0 hj
    have b := fillColumn_between cubic u ([dark, dark, bright, bright].map getIsc) 0 j (by simp) h0 hj
    rw [Nat.zero_mul, Nat.zero_add] at a b
    rw [List.getElem?_zip_eq_some]
    exact ⟨a, b⟩

/-- **C121, the end counts.**  The first samples depend on rows that come later, and so on how much of the table is asked for: of a table that is dark but for its fifth row, three rows give samples of
0 V from the start, four rows give samples below zero at the same times. -/
theorem C121_duration_violated (cubic : List ℝ → ℕ → ℝ → ℝ) (e vMax : ℝ) (hv : 0 < vMax) (dark bright : IvCoeffs) (hdark : dark.a = 0) (hbright : vMax ≤ getVoc bright)
    (u maxElements : ℕ) (hu : 2 ≤ u) (hm : 5 ≤ maxElements / u) (he : e < vMax / (96 * u)) (h : Interpolates cubic e [0, 0, 0, 0, vMax]) (h' : Interpolates cubic e [0, 0, 0, 0]) :
    ∃ short long, upsampleIscVoc cubic vMax [dark, dark, dark, dark, bright] u 3 maxElements = (short, .ok ()) ∧
      upsampleIscVoc cubic vMax [dark, dark, dark, dark, bright] u 4 maxElements = (long, .ok ()) ∧
      ∀ j, 0 < j → j < u → ∃ x y, short[j]? = some x ∧ long[j]? = some y ∧ |x.1| ≤ e ∧ y.1 < -e := by
  rw [iscVoc_slice cubic vMax _ u 3 maxElements hu (by simp) (by simp) (by simpa using hm),
    iscVoc_slice cubic vMax _ u 4 maxElements hu (by simp) (by simp) (by simpa using hm)]
  have hcol : ([dark, dark, dark, dark, bright].take (4 + 1)).map (clippedVoc vMax) = [0, 0, 0, 0, vMax] := by
    simp [dark_voc vMax hv dark hdark, bright_voc vMax bright hbright]
  have hcol' : ([dark, dark, dark, dark, bright].take (3 + 1)).map (clippedVoc vMax) = [0, 0, 0, 0] := by
    simp [dark_voc vMax hv dark hdark]
  rw [hcol, hcol']
  refine ⟨_, _, rfl, rfl, ?_⟩
  intro j h0 hj
  obtain ⟨f0, f1, f2⟩ := fraction_bound u j h0 hj
  obtain ⟨p, hp, hpe⟩ := h
  obtain ⟨p', hp', hpe'⟩ := h'
  have hu0 : (0:ℝ) < u := by exact_mod_cast (by omega : 0 < u)
  have e1 := hpe 0 ((j:ℝ) / u) (by simp) f0.le f1.le
  have e0 := hpe' 0 ((j:ℝ) / u) (by simp) f0.le f1.le
  rw [spline_late vMax p hp _, abs_le] at e1
  have z := spline_zero 4 p' le_rfl hp' 0 (by norm_num)
  have z0 : (p' 0).at ((j:ℝ) / u) = 0 := by
    unfold Cubic.at
    rw [z.1, z.2.1, z.2.2.1, z.2.2.2]; ring
  rw [z0, sub_zero] at e0
  have k : vMax / (48 * u) ≤ vMax * ((j:ℝ) / u * (1 - (j:ℝ) / u) * 1 / 24) := by
    have : vMax / (48 * u) = vMax * (1 / (2 * (u:ℝ)) * 1 / 24) := by field_simp; norm_num
    rw [this]
    gcongr
  have k0 : vMax / (48 * u) = 2 * (vMax / (96 * u)) := by field_simp; norm_num
  set s := (j:ℝ) / u with hs
  have k1 : vMax * (s * (1 - s) * 1 / 24) ≤ vMax * (s * (1 - s) * (2 - s) / 24) := by
    have : s * (1 - s) * 1 ≤ s * (1 - s) * (2 - s) := by
      have : 0 ≤ s * (1 - s) := by nlinarith
      nlinarith
    gcongr
  have a := fillColumn_between cubic u [0, 0, 0, 0] 0 j (by simp) h0 hj
  have b := fillColumn_between cubic u ([dark, dark, dark, dark].map getIsc) 0 j (by simp) h0 hj
  have a' := fillColumn_between cubic u [0, 0, 0, 0, vMax] 0 j (by simp) h0 hj
  have b' := fillColumn_between cubic u ([dark, dark, dark, dark, bright].map getIsc) 0 j (by simp) h0 hj
  rw [Nat.zero_mul, Nat.zero_add] at a b a' b'
  refine ⟨(_, _), (_, _), List.getElem?_zip_eq_some.mpr ⟨a, b⟩, List.getElem?_zip_eq_some.mpr ⟨a', b'⟩, e0, ?_⟩
  simp only
  linarith [e1.2]

/-! ## Curves -/

theorem curveSlice_rows (cubic : List ℝ → ℕ → ℝ → ℝ) (vMax : ℝ) (pts : ℕ) (rows : List IvCoeffs) (u idx top : ℕ) (hu : 1 ≤ u) (hi : idx < rows.length) (ht : idx ≤ top)
    (hn : u ≤ 1 ∨ min (top + 1) rows.length - idx = 1 ∨ 4 ≤ min (top + 1) rows.length - idx) :
    ∃ l, curveSlice cubic vMax pts rows u idx top = .ok l ∧ l.length = (min (top + 1) rows.length - 1 - idx) * u ∧ (∀ c ∈ l, c.length = pts ∧ ∀ i ∈ c, 0 ≤ i) ∧
      ∀ j, j < min (top + 1) rows.length - 1 - idx → l[j * u]? = (rows[idx + j]?).map (fun k => (vProto vMax pts).map (ivModel k)) := by
  have hlen : ((rows.drop idx).take (top + 1 - idx)).length = min (top + 1) rows.length - idx := by
    rw [List.length_take, List.length_drop]; omega
  have hg : ∀ j, j < min (top + 1) rows.length - idx → ((rows.drop idx).take (top + 1 - idx))[j]? = rows[idx + j]? := by
    intro j hj
    rw [List.getElem?_take_of_lt (by omega), List.getElem?_drop]
  set sl := (rows.drop idx).take (top + 1 - idx) with hsl
  unfold curveSlice
  dsimp only
  rw [← hsl, if_neg (by rintro ⟨a, b, c⟩; omega)]
  refine ⟨_, rfl, ?_, ?_, ?_⟩
  · rw [List.length_map, List.length_range, hlen]; congr 1; omega
  · intro c hc
    obtain ⟨j, -, rfl⟩ := List.mem_map.mp hc
    refine ⟨by simp [vProto], fun i hi => ?_⟩
    obtain ⟨v, -, rfl⟩ := List.mem_map.mp hi
    exact le_max_left _ _
  · intro j hj
    have hj2 : j < sl.length := by omega
    have f : ∀ col : IvCoeffs → ℝ, (fillColumn cubic u (sl.map col)).getD (j * u) 0 = col sl[j] := by
      intro col
      rw [List.getD_eq_getElem?_getD, fillColumn_row _ _ hu _ _ (by simp only [List.length_map, hlen]; omega)]
      simp [hj2]
    have hr : j * u < (sl.length - 1) * u := Nat.mul_lt_mul_of_pos_right (by omega) (by omega)
    rw [List.getElem?_map, List.getElem?_range hr, ← hg j (by omega)]
    simp only [Option.map_some, f, List.getElem?_eq_getElem hj2]

/-- **C121, curves.**  Converting to curves gives for each row its own curve at its time, wherever the borders of the blocks are, and all curves have as many points as asked for and no negative current,
whatever the interpolation gives between the rows. -/
theorem C121_curves (cubic : List ℝ → ℕ → ℝ → ℝ) (vMax : ℝ) (pts : ℕ) (rows : List IvCoeffs) (u d c : ℕ) (hu : 1 ≤ u) (hc : 1 ≤ c) (hd : d ≤ rows.length)
    (hrest : u ≤ 1 ∨ ∀ k, k * c < d → rowsInBlock rows.length d c k = 1 ∨ 4 ≤ rowsInBlock rows.length d c k) :
    ∃ curves, curveLoop cubic vMax pts rows u d c d 0 = (curves, .ok ()) ∧ curves.length = min d (rows.length - 1) * u ∧ (∀ x ∈ curves, x.length = pts ∧ ∀ i ∈ x, 0 ≤ i) ∧
      ∀ k, k < min d (rows.length - 1) → curves[k * u]? = (rows[k]?).map (fun k => (vProto vMax pts).map (ivModel k)) := by
  suffices H : ∀ fuel k, d ≤ k * c + fuel → (u ≤ 1 ∨ ∀ j, k ≤ j → j * c < d → rowsInBlock rows.length d c j = 1 ∨ 4 ≤ rowsInBlock rows.length d c j) →
      ∃ l, curveLoop cubic vMax pts rows u d c fuel (k * c) = (l, .ok ()) ∧ l.length = (min d (rows.length - 1) - k * c) * u ∧ (∀ x ∈ l, x.length = pts ∧ ∀ i ∈ x, 0 ≤ i) ∧
        ∀ j, j < min d (rows.length - 1) - k * c → l[j * u]? = (rows[k * c + j]?).map (fun k => (vProto vMax pts).map (ivModel k)) by
    have := H d 0 (by omega) (by
      rcases hrest with h | h
      · exact .inl h
      · exact .inr (fun j _ => h j))
    simpa only [Nat.zero_mul, Nat.sub_zero, Nat.zero_add] using this
  intro fuel
  induction fuel with
  | zero =>
    intro k hf _
    have : min d (rows.length - 1) - k * c = 0 := by omega
    exact ⟨[], rfl, by simp [this], by simp, by omega⟩
  | succ fuel ih =>
    intro k hf hrest
    unfold curveLoop
    by_cases h1 : k * c < d
    · rw [if_pos h1]
      obtain ⟨l2, e2, n2, w2, v2⟩ := ih (k + 1) (by rw [Nat.add_mul]; omega) (by
        rcases hrest with h1 | h1
        · exact .inl h1
        · exact .inr (fun j hj => h1 j (by omega)))
      rw [Nat.add_mul, Nat.one_mul] at e2 n2 v2
      have hr : min (min (k * c + c) d + 1) rows.length - k * c = rowsInBlock rows.length d c k := by
        unfold rowsInBlock
        omega
      obtain ⟨l1, e1, n1, w1, v1⟩ := curveSlice_rows cubic vMax pts rows u (k * c) (min (k * c + c) d) hu (by omega) (by omega) (by
        rcases hrest with h2 | h2
        · exact .inl h2
        · exact .inr (by rw [hr]; exact h2 k le_rfl h1))
      rw [e1, e2]
      refine ⟨l1 ++ l2, rfl, ?_, ?_, ?_⟩
      · rw [List.length_append, n1, n2, ← Nat.add_mul]
        congr 1
        omega
      · intro x hx
        rcases List.mem_append.mp hx with hx | hx
        · exact w1 x hx
        · exact w2 x hx
      · intro j hj
        by_cases hj1 : j < min (min (k * c + c) d + 1) rows.length - 1 - k * c
        · rw [List.getElem?_append_left (by rw [n1]; exact Nat.mul_lt_mul_of_pos_right hj1 (by omega)), v1 j hj1]
        · have hb : min (min (k * c + c) d + 1) rows.length - 1 - k * c = c := by omega
          rw [hb] at n1 hj1
          rw [List.getElem?_append_right (by rw [n1]; exact Nat.mul_le_mul_right u (by omega)), n1, ← Nat.sub_mul, v2 (j - c) (by omega)]
          congr 2
          omega
    · rw [if_neg h1]
      have : min d (rows.length - 1) - k * c = 0 := by omega
      exact ⟨[], rfl, by simp [this], by simp, by omega⟩

/-- **C121, currents of curves.**  Between two rows of the same light, after two dark ones, every curve has a short circuit current above that of all rows. -/
theorem C121_curves_violated (cubic : List ℝ → ℕ → ℝ → ℝ) (e vMax : ℝ) (pts : ℕ) (hp : 1 ≤ pts) (dark bright : IvCoeffs) (hdark : dark.a = 0) (hbright : 0 < bright.a)
    (u c : ℕ) (hu : 2 ≤ u) (hc : 4 ≤ c) (he : e < bright.a / (3 * u)) (h : Interpolates cubic e [0, 0, bright.a, bright.a]) :
    ∃ curves, curveLoop cubic vMax pts [dark, dark, bright, bright] u 4 c 4 0 = (curves, .ok ()) ∧
      ∀ j, 0 < j → j < u → ∃ x i, curves[2 * u + j]? = some x ∧ x[0]? = some i ∧ bright.a < i := by
  have tail : ∀ g, curveLoop cubic vMax pts [dark, dark, bright, bright] u 4 c g c = ([], .ok ()) := by
    intro g
    cases g with
    | zero => rfl
    | succ g => unfold curveLoop; rw [if_neg (by omega)]
  unfold curveLoop
  rw [if_pos (by omega), Nat.zero_add, tail, show min c 4 = 4 by omega]
  unfold curveSlice
  simp only [List.drop_zero, Nat.sub_zero, show [dark, dark, bright, bright].take (4 + 1) = [dark, dark, bright, bright] from rfl]
  rw [if_neg (by simp)]
  refine ⟨_, rfl, ?_⟩
  intro j h0 hj
  obtain ⟨f0, f1, f2⟩ := fraction_bound u j h0 hj
  obtain ⟨p, hp', hpe⟩ := h
  have hu0 : (0:ℝ) < u := by exact_mod_cast (by omega : 0 < u)
  have e1 := hpe 2 ((j:ℝ) / u) (by simp) f0.le f1.le
  rw [(spline_rise bright.a p hp' _).2, abs_le] at e1
  have k : bright.a / (3 * u) ≤ bright.a * ((j:ℝ) / u * (1 - (j:ℝ) / u) * 5 / 6) := by
    have : bright.a / (3 * u) ≤ bright.a * (1 / (2 * (u:ℝ)) * 5 / 6) := by
      rw [div_le_iff₀ (by positivity)]
      field_simp
      norm_num
    refine this.trans ?_
    gcongr
  set s := (j:ℝ) / u with hs
  have q0 : 0 ≤ s * (1 - s) := by nlinarith
  have k1 : bright.a * (s * (1 - s) * 5 / 6) ≤ bright.a * (s * (1 - s) * (5 + 2 * s) / 6) := by
    have : s * (1 - s) * 5 ≤ s * (1 - s) * (5 + 2 * s) := by nlinarith
    gcongr
  have hcol : [dark, dark, bright, bright].map (·.a) = [0, 0, bright.a, bright.a] := by simp [hdark]
  have ha : (fillColumn cubic u ([dark, dark, bright, bright].map (·.a))).getD (2 * u + j) 0 = cubic [0, 0, bright.a, bright.a] 2 s := by
    rw [hcol, List.getD_eq_getElem?_getD, fillColumn_between _ _ _ 2 j (by simp) h0 hj]
    rfl
  have hr : 2 * u + j < (([dark, dark, bright, bright] : List IvCoeffs).length - 1) * u := by
    simp only [List.length_cons, List.length_nil]; omega
  have hx : bright.a < cubic [0, 0, bright.a, bright.a] 2 s := by linarith [e1.1]
  have hv : (vProto vMax pts)[0]? = some 0 := by
    simp [vProto, show 0 < pts by omega]
  rw [List.append_nil]
  refine ⟨_, max 0 (cubic [0, 0, bright.a, bright.a] 2 s), by rw [List.getElem?_map, List.getElem?_range hr]; rfl, ?_, lt_of_lt_of_le hx (le_max_right (0:ℝ) _)⟩
  rw [List.getElem?_map, hv]
  simp only [Option.map_some, ivModel, ha, mul_zero, Real.exp_zero, sub_self, sub_zero]

/-! ## Concrete cases -/

/-- A cell that exceeds 5 V. -/
example : (5:ℝ) ≤ getVoc ⟨Real.exp 6, 1, 1⟩ := by
  unfold getVoc
  simp only [div_one]
  have : (6:ℝ) ≤ Real.log (Real.exp 6 + 1) := by
    rw [Real.le_log_iff_exp_le (by positivity)]
    linarith
  linarith

/-- The splines of the columns in use exist. -/
example (v : ℝ) : IsSpline [0, 0, v, v] (fun i => if i = 0 then ⟨0, -(7 * v / 6), 3 * v / 2, -(v / 3)⟩ else if i = 1 then ⟨0, 5 * v / 6, v / 2, -(v / 3)⟩ else ⟨v, 5 * v / 6, -(v / 2), -(v / 3)⟩) := by
  constructor
  · intro i hi
    have : i < 3 := by simp at hi; omega
    interval_cases i <;> simp [Cubic.at]
  · intro i hi
    have : i < 3 := by simp at hi; omega
    interval_cases i <;> simp [Cubic.at] <;> ring
  · intro i hi
    have : i < 2 := by simp at hi; omega
    interval_cases i <;> simp <;> ring
  · intro i hi
    have : i < 2 := by simp at hi; omega
    interval_cases i <;> simp <;> ring
  · simp
  · simp

example (α β : ℝ) (n : ℕ) : IsSpline (lineColumn α β n) (fun i => ⟨α + β * i, β, 0, 0⟩) := by
  constructor
  · intro i hi
    have : i + 1 < n := by simpa [lineColumn] using hi
    simp [lineColumn, Cubic.at, List.getD, show i < n by omega]
  · intro i hi
    have : i + 1 < n := by simpa [lineColumn] using hi
    simp [lineColumn, Cubic.at, List.getD, this]; ring
  all_goals intros; simp

end Verif.Props
