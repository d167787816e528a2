import Verif.Model.Mppt
import Mathlib.Analysis.SpecialFunctions.Exp
import Mathlib.Tactic.LinearCombination
import Mathlib.Analysis.Complex.ExponentialBounds

/-!
# C66, C76: harvesting from a model of a solar cell
-/

namespace Verif.Props
open Verif.Py Verif.Model

/-! ## The curve -/

/-- A cell: its saturation current and its exponent are positive, its short circuit current is not negative. -/
structure IsCell (k : IvCoeffs) : Prop where
  a : 0 ≤ k.a
  b : 0 < k.b
  c : 0 < k.c

theorem cell_zero {k : IvCoeffs} (h : IsCell k) : ivModel k 0 = k.a := by
  simp [ivModel, h.a]

theorem cell_nonneg (k : IvCoeffs) (v : ℝ) : 0 ≤ ivModel k v := le_max_left _ _

theorem cell_antitone {k : IvCoeffs} (h : IsCell k) {v w : ℝ} (hvw : v ≤ w) : ivModel k w ≤ ivModel k v := by
  unfold ivModel
  apply max_le_max le_rfl
  have : Real.exp (k.c * v) ≤ Real.exp (k.c * w) := Real.exp_le_exp.mpr (mul_le_mul_of_nonneg_left hvw h.c.le)
  nlinarith [h.b]

theorem cell_le {k : IvCoeffs} (h : IsCell k) {v : ℝ} (hv : 0 ≤ v) : ivModel k v ≤ k.a := by
  rw [← cell_zero h]; exact cell_antitone h hv

/-- At the open circuit voltage the bracket vanishes. -/
theorem cell_voc {k : IvCoeffs} (h : IsCell k) : k.b * (Real.exp (k.c * getVoc k) - 1) = k.a := by
  have hpos : 0 < k.a / k.b + 1 := by have := div_nonneg h.a h.b.le; linarith
  rw [getVoc, mul_div_cancel₀ _ h.c.ne', Real.exp_log hpos]
  have := h.b.ne'
  field_simp
  ring

/-- **C66, the curve.**  The model has the short circuit current of the coefficients at zero volts; the current falls with the voltage, is positive below the open circuit voltage and zero from there on. -/
theorem C66_curve {k : IvCoeffs} (h : IsCell k) : ivModel k 0 = getIsc k ∧ (∀ v w, v ≤ w → ivModel k w ≤ ivModel k v) ∧ (∀ v, 0 < ivModel k v ↔ v < getVoc k) ∧ ∀ v, ivModel k v = 0 ↔ getVoc k ≤ v := by
  have key : ∀ v, 0 < ivModel k v ↔ v < getVoc k := by
    intro v
    have e := cell_voc h
    constructor
    · intro hp
      by_contra hn
      push Not at hn
      have : Real.exp (k.c * getVoc k) ≤ Real.exp (k.c * v) := Real.exp_le_exp.mpr (mul_le_mul_of_nonneg_left hn h.c.le)
      have : k.a - k.b * (Real.exp (k.c * v) - 1) ≤ 0 := by nlinarith [h.b]
      rw [ivModel, max_eq_left this] at hp
      exact lt_irrefl _ hp
    · intro hv
      have : Real.exp (k.c * v) < Real.exp (k.c * getVoc k) := Real.exp_lt_exp.mpr (mul_lt_mul_of_pos_left hv h.c)
      have : 0 < k.a - k.b * (Real.exp (k.c * v) - 1) := by nlinarith [h.b]
      exact lt_max_of_lt_right this
  refine ⟨cell_zero h, fun v w => cell_antitone h, key, ?_⟩
  intro v
  rw [← not_lt, ← key, not_lt]
  exact ⟨fun h => h.le, fun hv => le_antisymm hv (cell_nonneg k v)⟩

/-! ## Positions of maxima -/

theorem argmaxFrom_spec (rest pre : List ℝ) (best : ℕ) (val : ℝ) (hb : best < pre.length) (hval : pre.getD best 0 = val) (hmax : ∀ j < pre.length, pre.getD j 0 ≤ val)
    (hfirst : ∀ j < best, pre.getD j 0 < val) :
    argmaxFrom pre.length best val rest < (pre ++ rest).length ∧
    (∀ j < (pre ++ rest).length, (pre ++ rest).getD j 0 ≤ (pre ++ rest).getD (argmaxFrom pre.length best val rest) 0) ∧
    ∀ j < argmaxFrom pre.length best val rest, (pre ++ rest).getD j 0 < (pre ++ rest).getD (argmaxFrom pre.length best val rest) 0 := by
  induction rest generalizing pre best val with
  | nil =>
    simp only [argmaxFrom, List.append_nil]
    exact ⟨hb, fun j hj => by rw [hval]; exact hmax j hj, fun j hj => by rw [hval]; exact hfirst j hj⟩
  | cons x t ih =>
    have happ : ∀ j < pre.length, (pre ++ [x]).getD j 0 = pre.getD j 0 := fun j hj => by simp [List.getD_eq_getElem?_getD, List.getElem?_append, hj]
    have hx : (pre ++ [x]).getD pre.length 0 = x := by simp [List.getD_eq_getElem?_getD]
    unfold argmaxFrom
    split_ifs with hlt
    · have := ih (pre ++ [x]) pre.length x (by simp) hx
        (fun j hj => by
          rcases Nat.lt_or_ge j pre.length with h1 | h1
          · rw [happ j h1]; exact ((hmax j h1).trans_lt hlt).le
          · have : j = pre.length := by simp at hj; omega
            rw [this, hx])
        (fun j hj => by rw [happ j hj]; exact (hmax j hj).trans_lt hlt)
      simpa using this
    · have := ih (pre ++ [x]) best val (by simp; omega) (by rw [happ best hb, hval])
        (fun j hj => by
          rcases Nat.lt_or_ge j pre.length with h1 | h1
          · rw [happ j h1]; exact hmax j h1
          · have : j = pre.length := by simp at hj; omega
            rw [this, hx]; exact not_lt.mp hlt)
        (fun j hj => by rw [happ j (by omega)]; exact hfirst j hj)
      simpa using this

theorem argmax_spec (l : List ℝ) (hl : l ≠ []) : ∃ p, argmax l = .ok p ∧ p < l.length ∧ (∀ j < l.length, l.getD j 0 ≤ l.getD p 0) ∧ ∀ j < p, l.getD j 0 < l.getD p 0 := by
  cases l with
  | nil => exact absurd rfl hl
  | cons x t =>
    have := argmaxFrom_spec t [x] 0 x (by simp) (by simp) (fun j hj => by simp at hj; simp [hj]) (by simp)
    exact ⟨argmaxFrom 1 0 x t, rfl, by simpa using this⟩

/-! ## The grid -/

theorem vProto_length (vMax : ℝ) (n : ℕ) : (vProto vMax n).length = n := by simp [vProto]
theorem vProto_getD (vMax : ℝ) (n i : ℕ) (h : i < n) : (vProto vMax n).getD i 0 = i * (vMax / ((n : ℝ) - 1)) := by
  simp [vProto, List.getD_eq_getElem?_getD, h]

theorem map_getD (f : ℝ → ℝ) (l : List ℝ) (i : ℕ) (h : i < l.length) : (l.map f).getD i 0 = f (l.getD i 0) := by
  simp [List.getD_eq_getElem?_getD, h]

theorem zip_getD (l m : List ℝ) (i : ℕ) (h : i < l.length) (h2 : i < m.length) : (List.zipWith (· * ·) l m).getD i 0 = l.getD i 0 * m.getD i 0 := by
  simp [List.getD_eq_getElem?_getD, h, h2]

/-- **C66, the optimal tracker.**  For every row and every grid with a point: the tracker delivers a voltage of the grid and the current of the curve at that voltage, and no voltage of the grid has more power; of equal ones
it takes the lowest. -/
theorem C66_optimal (k : IvCoeffs) (vMax : ℝ) (n : ℕ) (hn : 1 ≤ n) :
    ∃ p < n, optimalTracker vMax n k = .ok (p * (vMax / ((n : ℝ) - 1)), ivModel k (p * (vMax / ((n : ℝ) - 1)))) ∧
      (∀ j < n, (j * (vMax / ((n : ℝ) - 1))) * ivModel k (j * (vMax / ((n : ℝ) - 1))) ≤ (p * (vMax / ((n : ℝ) - 1))) * ivModel k (p * (vMax / ((n : ℝ) - 1)))) ∧
      ∀ j < p, (j * (vMax / ((n : ℝ) - 1))) * ivModel k (j * (vMax / ((n : ℝ) - 1))) < (p * (vMax / ((n : ℝ) - 1))) * ivModel k (p * (vMax / ((n : ℝ) - 1))) := by
  have hlen := vProto_length vMax n
  have hzl : (List.zipWith (· * ·) (vProto vMax n) ((vProto vMax n).map (ivModel k))).length = n := by simp [hlen]
  obtain ⟨p, h1, h2, h3, h4⟩ := argmax_spec (List.zipWith (· * ·) (vProto vMax n) ((vProto vMax n).map (ivModel k))) (by
    intro h0; rw [h0] at hzl; simp at hzl; omega)
  rw [hzl] at h2 h3
  have hz : ∀ j < n, (List.zipWith (· * ·) (vProto vMax n) ((vProto vMax n).map (ivModel k))).getD j 0 = (j * (vMax / ((n : ℝ) - 1))) * ivModel k (j * (vMax / ((n : ℝ) - 1))) := by
    intro j hj
    rw [zip_getD _ _ _ (by omega) (by simpa [hlen] using hj), map_getD _ _ _ (by omega), vProto_getD _ _ _ hj]
  refine ⟨p, h2, ?_, ?_, ?_⟩
  · simp only [optimalTracker, h1]
    rw [map_getD _ _ _ (by omega), vProto_getD _ _ _ h2]
  · intro j hj
    rw [← hz j hj, ← hz p h2]
    exact h3 j hj
  · intro j hj
    rw [← hz j (by omega), ← hz p h2]
    exact h4 j hj

/-- **C66, distance from the true maximum.**  No voltage that shepherd supports would deliver more than the tracker, up to the short circuit current times one step of the grid. -/
theorem C66_loss {k : IvCoeffs} (h : IsCell k) (vMax : ℝ) (hv : 0 ≤ vMax) (n : ℕ) (hn : 2 ≤ n) (v i : ℝ) (ht : optimalTracker vMax n k = .ok (v, i)) (u : ℝ) (hu0 : 0 ≤ u) (hu : u ≤ vMax) :
    u * ivModel k u ≤ v * i + vMax / ((n : ℝ) - 1) * k.a := by
  obtain ⟨p, hp, h1, h2, _⟩ := C66_optimal k vMax n (by omega)
  rw [h1] at ht
  injection ht with ht
  injection ht with hv1 hi1
  subst hv1 hi1
  have hn1 : (0 : ℝ) < (n : ℝ) - 1 := by
    have : (2 : ℝ) ≤ n := by exact_mod_cast hn
    linarith
  set s := vMax / ((n : ℝ) - 1) with hs
  have hs0 : 0 ≤ s := div_nonneg hv hn1.le
  have hsn : s * ((n : ℝ) - 1) = vMax := by rw [hs]; field_simp
  obtain ⟨j, hj, hj1, hj2⟩ : ∃ j < n, (j : ℝ) * s ≤ u ∧ u ≤ (j : ℝ) * s + s := by
    rcases hs0.eq_or_lt with h0 | hpos
    · refine ⟨0, by omega, by simpa using hu0, ?_⟩
      rw [← h0] at hsn ⊢
      simp
      linarith
    · by_cases hlast : u / s < n
      · refine ⟨⌊u / s⌋₊, ?_, ?_, ?_⟩
        · exact (Nat.floor_lt (div_nonneg hu0 hpos.le)).mpr hlast
        · have := Nat.floor_le (div_nonneg hu0 hpos.le)
          rw [le_div_iff₀ hpos] at this
          exact this
        · have := (Nat.lt_floor_add_one (u / s)).le
          rw [div_le_iff₀ hpos] at this
          linarith
      · exfalso
        apply hlast
        rw [div_lt_iff₀ hpos]
        nlinarith
  have hle := h2 j hj
  have hju : 0 ≤ (j : ℝ) * s := by positivity
  have e1 := cell_antitone h hj1
  have e2 := cell_le h hju
  have e3 := cell_nonneg k u
  calc u * ivModel k u ≤ (j * s + s) * ivModel k (j * s) := mul_le_mul hj2 e1 e3 (by positivity)
    _ = j * s * ivModel k (j * s) + s * ivModel k (j * s) := by ring
    _ ≤ p * s * ivModel k (p * s) + s * k.a := add_le_add hle (mul_le_mul_of_nonneg_left e2 hs0)

/-- **C66, all voltages.**  If the open circuit voltage is within the supported range this holds for every voltage at all. -/
theorem C66_loss_all {k : IvCoeffs} (h : IsCell k) (vMax : ℝ) (hv : getVoc k ≤ vMax) (hv0 : 0 ≤ vMax) (n : ℕ) (hn : 2 ≤ n) (v i : ℝ) (ht : optimalTracker vMax n k = .ok (v, i)) (u : ℝ) :
    u * ivModel k u ≤ v * i + vMax / ((n : ℝ) - 1) * k.a := by
  have h0 := C66_loss h vMax hv0 n hn v i ht 0 le_rfl hv0
  rw [zero_mul] at h0
  rcases le_total 0 u with hu | hu
  · rcases le_total u vMax with hm | hm
    · exact C66_loss h vMax hv0 n hn v i ht u hu hm
    · rw [((C66_curve h).2.2.2 u).mpr (hv.trans hm), mul_zero]
      exact h0
  · exact (mul_nonpos_of_nonpos_of_nonneg hu (cell_nonneg k u)).trans h0

/-! ## The open circuit tracker -/

theorem filter_prefix (s x : ℝ) (hs : 0 ≤ s) (n : ℕ) : ∃ m ≤ n, ((List.range n).map (fun i : ℕ => (i : ℝ) * s)).filter (fun y => @decide (y < x) (Classical.propDecidable _)) = (List.range m).map (fun i : ℕ => (i : ℝ) * s) ∧
    (∀ j < m, (j : ℝ) * s < x) ∧ ∀ j < n, m ≤ j → x ≤ (j : ℝ) * s := by
  induction n with
  | zero => exact ⟨0, le_rfl, rfl, by simp, by simp⟩
  | succ n ih =>
    obtain ⟨m, h1, h2, h3, h4⟩ := ih
    rw [List.range_succ, List.map_append, List.filter_append, h2]
    by_cases hx : (n : ℝ) * s < x
    · have hmn : m = n := by
        by_contra hne
        have := h4 m (by omega) le_rfl
        have h5 : (m : ℝ) * s ≤ n * s := mul_le_mul_of_nonneg_right (by exact_mod_cast h1) hs
        linarith
      subst hmn
      refine ⟨m + 1, le_rfl, ?_, ?_, by intro j hj hm; omega⟩
      · simp [List.range_succ, hx]
      · intro j hj
        rcases Nat.lt_succ_iff_lt_or_eq.mp hj with h | h
        · exact h3 j h
        · rw [h]; exact hx
    · refine ⟨m, by omega, by simp [hx], h3, ?_⟩
      intro j hj hm
      rcases Nat.lt_succ_iff_lt_or_eq.mp hj with h | h
      · exact h4 j h hm
      · rw [h]; exact not_lt.mp hx

/-- **C66, the open circuit tracker** with an open circuit voltage: it takes the largest voltage of the grid that is below the share of the open circuit voltage, and the current of the curve there.  If there is no such voltage (the share is not
positive) it raises. -/
theorem C66_oc (k : IvCoeffs) (vMax : ℝ) (hv : 0 < vMax) (n : ℕ) (hn : 2 ≤ n) (ratio voc : ℝ) :
    (ratio * voc ≤ 0 → ocTracker vMax n ratio k (some voc) = .error .valueError) ∧
    (0 < ratio * voc → ∃ p < n, ocTracker vMax n ratio k (some voc) = .ok (p * (vMax / ((n : ℝ) - 1)), ivModel k (p * (vMax / ((n : ℝ) - 1)))) ∧
      p * (vMax / ((n : ℝ) - 1)) < ratio * voc ∧ ∀ j < n, p < j → ratio * voc ≤ j * (vMax / ((n : ℝ) - 1))) := by
  have hn1 : (0 : ℝ) < (n : ℝ) - 1 := by
    have : (2 : ℝ) ≤ n := by exact_mod_cast hn
    linarith
  set s := vMax / ((n : ℝ) - 1) with hs
  have hs0 : 0 < s := div_pos hv hn1
  obtain ⟨m, h1, h2, h3, h4⟩ := filter_prefix s (ratio * voc) hs0.le n
  have hf : (vProto vMax n).filter (fun y => @decide (y < ratio * voc) (Classical.propDecidable _)) = (List.range m).map (fun i : ℕ => (i : ℝ) * s) := h2
  constructor
  · intro hle
    have hm : m = 0 := by
      by_contra h0
      have := h3 0 (by omega)
      simp at this
      linarith
    subst hm
    simp only [ocTracker, hf]
    rfl
  · intro hpos
    have hm : 0 < m := by
      by_contra h0
      have := h4 0 (by omega) (by omega)
      simp at this
      linarith
    obtain ⟨p, q1, q2, q3, q4⟩ := argmax_spec ((List.range m).map (fun i : ℕ => (i : ℝ) * s)) (by
      intro h0
      have := congrArg List.length h0
      simp at this
      omega)
    simp only [List.length_map, List.length_range] at q2 q3
    have hg : ∀ j < m, ((List.range m).map (fun i : ℕ => (i : ℝ) * s)).getD j 0 = j * s := by
      intro j hj; simp [List.getD_eq_getElem?_getD, hj]
    have hp : p = m - 1 := by
      by_contra hne
      have := q3 (m - 1) (by omega)
      rw [hg _ (by omega), hg _ q2] at this
      have h5 : ((p : ℝ)) < ((m - 1 : ℕ) : ℝ) := by exact_mod_cast (by omega : p < m - 1)
      nlinarith
    refine ⟨p, by omega, ?_, h3 p q2, fun j hj hpj => h4 j hj (by omega)⟩
    simp only [ocTracker, hf, q1]
    rw [map_getD _ _ _ (by rw [vProto_length]; omega), vProto_getD _ _ _ (by omega)]

/-- Below the open circuit voltage (ratio at most one) the tracker always harvests a positive current. -/
theorem C66_oc_current {k : IvCoeffs} (h : IsCell k) (ha : 0 < k.a) (vMax : ℝ) (hv : 0 < vMax) (n : ℕ) (hn : 2 ≤ n) (ratio : ℝ) (hr0 : 0 < ratio) (hr1 : ratio ≤ 1) :
    ∃ v i, ocTracker vMax n ratio k (some (clippedVoc vMax k)) = .ok (v, i) ∧ 0 < i ∧ v ≤ vMax := by
  have hvoc : 0 < getVoc k := ((C66_curve h).2.2.1 0).mp (by rw [cell_zero h]; exact ha)
  have hc : 0 < clippedVoc vMax k ∧ clippedVoc vMax k ≤ getVoc k ∧ clippedVoc vMax k ≤ vMax := by
    unfold clippedVoc
    split_ifs with h1
    · exact ⟨hv, h1, le_rfl⟩
    · exact ⟨hvoc, le_rfl, (not_le.mp h1).le⟩
  obtain ⟨p, hp, h1, h2, _⟩ := (C66_oc k vMax hv n hn ratio (clippedVoc vMax k)).2 (mul_pos hr0 hc.1)
  refine ⟨_, _, h1, ?_, ?_⟩
  · rw [(C66_curve h).2.2.1]
    nlinarith [hc.1, hc.2.1]
  · nlinarith [hc.1, hc.2.2]

/-- **C66, violated: the open circuit tracker without a column for the open circuit voltage**, which it promises to compute, always fails. -/
theorem C66_oc_missing_violated (vMax : ℝ) (n : ℕ) (ratio : ℝ) (k : IvCoeffs) : ocTracker vMax n ratio k none = .error .keyError := rfl

/-- **C66, the approximation of the open circuit voltage**: the voltage at the first position with a current below the limit. -/
theorem C66_find_oc_partial (v i : List ℝ) (i0 ratio : ℝ) (t : List ℝ) (hi : i = i0 :: t) (p : ℕ) (hp : p < i.length) (hlow : i.getD p 0 < i0 * ratio) (hbefore : ∀ j < p, i0 * ratio ≤ i.getD j 0) :
    findOc v i ratio = .ok (v.getD p 0) := by
  classical
  have : i.findIdx? (fun x => @decide (x < i0 * ratio) (Classical.propDecidable _)) = some p := by
    rw [List.findIdx?_eq_some_iff_getElem]
    refine ⟨hp, by simpa [List.getD_eq_getElem?_getD, hp] using hlow, ?_⟩
    intro j hj
    have := hbefore j hj
    simpa [List.getD_eq_getElem?_getD, show j < i.length by omega] using this
  subst hi
  simp only [findOc, this]

/-- **C66, violated: curves beyond the supported voltage.**  If the current stays above the limit over the whole grid, which is so for cells with a high voltage, the result is the first voltage, zero, instead of the last one. -/
theorem C66_find_oc_violated {k : IvCoeffs} (h : IsCell k) (ha : 0 < k.a) (vMax : ℝ) (hv : 0 ≤ vMax) (n : ℕ) (hn : 2 ≤ n) (ratio : ℝ) (hr : k.a * ratio ≤ ivModel k vMax) :
    findOc (vProto vMax n) ((vProto vMax n).map (ivModel k)) ratio = .ok 0 ∧ (0 < ratio → vMax < getVoc k) := by
  classical
  refine ⟨?_, fun h0 => ((C66_curve h).2.2.1 vMax).mp (lt_of_lt_of_le (mul_pos ha h0) hr)⟩
  have hn1 : (0 : ℝ) < (n : ℝ) - 1 := by
    have : (2 : ℝ) ≤ n := by exact_mod_cast hn
    linarith
  obtain ⟨m, rfl⟩ : ∃ m, n = m + 1 := ⟨n - 1, by omega⟩
  have h0 : vProto vMax (m + 1) = 0 :: (List.range m).map (fun i : ℕ => ((i + 1 : ℕ) : ℝ) * (vMax / (((m + 1 : ℕ) : ℝ) - 1))) := by
    simp [vProto, List.range_succ_eq_map, Function.comp_def]
  have hnone : ((vProto vMax (m + 1)).map (ivModel k)).findIdx? (fun x => @decide (x < ivModel k 0 * ratio) (Classical.propDecidable _)) = none := by
    rw [List.findIdx?_eq_none_iff]
    intro x hx
    obtain ⟨w, hw, rfl⟩ := List.mem_map.mp hx
    obtain ⟨i, hi, rfl⟩ := List.mem_map.mp hw
    have hi' : (i : ℝ) ≤ ((m + 1 : ℕ) : ℝ) - 1 := by
      have : i ≤ m := by simpa [Nat.lt_succ_iff] using hi
      have : (i : ℝ) ≤ m := by exact_mod_cast this
      push_cast
      linarith
    have hle : (i : ℝ) * (vMax / (((m + 1 : ℕ) : ℝ) - 1)) ≤ vMax := by
      calc (i : ℝ) * (vMax / (((m + 1 : ℕ) : ℝ) - 1)) ≤ (((m + 1 : ℕ) : ℝ) - 1) * (vMax / (((m + 1 : ℕ) : ℝ) - 1)) := mul_le_mul_of_nonneg_right hi' (div_nonneg hv hn1.le)
        _ = vMax := by field_simp
    have := cell_antitone h hle
    rw [cell_zero h]
    simpa using hr.trans this
  rw [h0] at hnone ⊢
  rw [List.map_cons] at hnone ⊢
  simp only [findOc, hnone]
  rfl

/-- Every row of a table is tracked on its own. -/
theorem C66_table (vMax : ℝ) (n : ℕ) (hn : 1 ≤ n) (ks : List IvCoeffs) : ∃ l, trackTable (optimalTracker vMax n) ks = .ok l ∧ l.length = ks.length ∧ ∀ (j : ℕ) k, ks[j]? = some k → ∃ r, l[j]? = some r ∧ optimalTracker vMax n k = .ok r := by
  induction ks with
  | nil => exact ⟨[], rfl, rfl, by simp⟩
  | cons k t ih =>
    obtain ⟨l, h1, h2, h3⟩ := ih
    obtain ⟨r, hp⟩ : ∃ r, optimalTracker vMax n k = .ok r := by
      obtain ⟨p, _, hp, _⟩ := C66_optimal k vMax n hn
      exact ⟨_, hp⟩
    refine ⟨r :: l, ?_, by simp [h2], ?_⟩
    · unfold trackTable
      rw [hp, h1]
      rfl
    · intro j x hx
      cases j with
      | zero => simp at hx; subst hx; exact ⟨_, rfl, hp⟩
      | succ j => simpa using h3 j x (by simpa using hx)

/-! ## C76: up-sampling in blocks -/

/-- A table with `n` rows at equal distances, each `u` intervals of the output. -/
def regularTable (t0 step u n : ℕ) : List ℕ := (List.range n).map (fun i => t0 + i * (u * step))

/-- The samples of the output: one every `step` from `t0` on. -/
def evenly (t0 step m : ℕ) : List ℕ := (List.range m).map (fun j => t0 + j * step)

/-- The number of rows in the `k`-th block of `c` rows out of `d` wanted, with the row that follows it if there is one. -/
def rowsInBlock (n d c k : ℕ) : ℕ := min (k * c + c + 1) (min (d + 1) n) - k * c

theorem regular_slice (t0 step u n idx top : ℕ) (h : idx < n) (ht : idx ≤ top) :
    ((regularTable t0 step u n).drop idx).take (top + 1 - idx) = regularTable (t0 + idx * (u * step)) step u (min (top + 1) n - idx) := by
  apply List.ext_getElem
  · simp [regularTable]
    omega
  · intro j h1 h2
    simp [regularTable]
    ring

theorem evenly_append (t0 step a b : ℕ) : evenly t0 step a ++ evenly (t0 + a * step) step b = evenly t0 step (a + b) := by
  apply List.ext_getElem
  · simp [evenly]
  · intro j h1 h2
    simp only [evenly, List.length_map, List.length_range, List.getElem_map, List.getElem_range] at h2 ⊢
    rw [List.getElem_append]
    split_ifs with h
    · simp
    · simp only [List.length_map, List.length_range, not_lt] at h
      simp only [List.length_map, List.length_range, List.getElem_map, List.getElem_range]
      obtain ⟨i, rfl⟩ := Nat.exists_eq_add_of_le h
      rw [Nat.add_sub_cancel_left]
      ring

theorem regular_cons (t0 step u m : ℕ) : regularTable t0 step u (m + 1) = t0 :: regularTable (t0 + u * step) step u m := by
  simp only [regularTable, List.range_succ_eq_map, List.map_cons, List.map_map, Nat.zero_mul, Nat.add_zero, List.cons.injEq, true_and]
  refine List.map_congr_left (fun i _ => ?_)
  simp only [Function.comp_apply, Nat.succ_eq_add_one]
  ring

theorem regular_last (t0 step u m : ℕ) : (regularTable (t0 + u * step) step u m).getLastD t0 = t0 + m * (u * step) := by
  cases m with
  | zero => simp [regularTable]
  | succ m =>
    rw [regularTable, List.range_succ, List.map_append, List.map_singleton, List.getLastD_concat]
    ring

theorem slice_times (t0 step u n idx top : ℕ) (hs : 0 < step) (h : idx < n) (ht : idx ≤ top) :
    upsampleSlice (regularTable t0 step u n) step idx top =
      if 2 ≤ u ∧ 2 ≤ min (top + 1) n - idx ∧ min (top + 1) n - idx ≤ 3 then .error .valueError
      else .ok (evenly (t0 + idx * (u * step)) step ((min (top + 1) n - 1 - idx) * u)) := by
  obtain ⟨m, hm⟩ : ∃ m, min (top + 1) n - idx = m + 1 := ⟨min (top + 1) n - idx - 1, by omega⟩
  have hm' : min (top + 1) n - 1 - idx = m := by omega
  unfold upsampleSlice
  rw [regular_slice t0 step u n idx top h ht, hm, hm', regular_cons]
  set r := t0 + idx * (u * step) with hr
  dsimp only
  have hq : ((regularTable (r + u * step) step u m).getLastD r - r) / step = m * u := by
    rw [regular_last, Nat.add_sub_cancel_left, ← Nat.mul_assoc, Nat.mul_div_cancel _ hs]
  have hk : ((r :: regularTable (r + u * step) step u m).filter (fun x => (x - r) % step = 0)).length = m + 1 := by
    rw [← regular_cons, List.filter_eq_self.mpr, regularTable, List.length_map, List.length_range]
    intro x hx
    obtain ⟨i, -, rfl⟩ := List.mem_map.mp hx
    rw [Nat.add_sub_cancel_left, ← Nat.mul_assoc, Nat.mul_mod_left]
    rfl
  rw [hq, hk]
  have hc : (m + 1 < m * u + 1 ∧ m + 1 < 4) ↔ (2 ≤ u ∧ 2 ≤ m + 1 ∧ m + 1 ≤ 3) := by
    constructor
    · rintro ⟨h1, h2⟩
      have hu : 2 ≤ u := by
        by_contra hu
        have : m * u ≤ m * 1 := Nat.mul_le_mul_left m (by omega)
        omega
      have hm0 : m ≠ 0 := by
        rintro rfl
        omega
      exact ⟨hu, by omega, by omega⟩
    · rintro ⟨h1, h2, h3⟩
      have : m * 2 ≤ m * u := Nat.mul_le_mul_left m h1
      exact ⟨by omega, by omega⟩
  by_cases hcc : 2 ≤ u ∧ 2 ≤ m + 1 ∧ m + 1 ≤ 3
  · rw [if_pos (hc.mpr hcc), if_pos hcc]
  · rw [if_neg (fun x => hcc (hc.mp x)), if_neg hcc, List.range_succ, List.dropLast_concat]
    rfl

theorem loop_times (t0 step u n d c : ℕ) (hs : 0 < step) (hc : 1 ≤ c) (hd : d ≤ n) (fuel k : ℕ) (hf : d ≤ k * c + fuel)
    (hrest : u ≤ 1 ∨ ∀ j, k ≤ j → j * c < d → rowsInBlock n d c j = 1 ∨ 4 ≤ rowsInBlock n d c j) :
    upsampleLoop (regularTable t0 step u n) step d c fuel (k * c) = (evenly (t0 + k * c * (u * step)) step ((min d (n - 1) - k * c) * u), .ok ()) := by
  induction fuel generalizing k with
  | zero =>
    have : min d (n - 1) - k * c = 0 := by omega
    simp [upsampleLoop, this, evenly]
  | succ fuel ih =>
    unfold upsampleLoop
    split_ifs with h
    · have e1 := ih (k + 1) (by rw [Nat.add_mul]; omega) (by
        rcases hrest with h1 | h1
        · exact .inl h1
        · exact .inr (fun j hj => h1 j (by omega)))
      rw [Nat.add_mul, Nat.one_mul] at e1
      rw [slice_times t0 step u n (k * c) _ hs (by omega) (by omega), e1]
      have hr : min (min (k * c + c) d + 1) n - k * c = rowsInBlock n d c k := by
        unfold rowsInBlock
        omega
      rw [hr, if_neg (by
        rintro ⟨a1, a2, a3⟩
        rcases hrest with h1 | h1
        · omega
        · rcases h1 k le_rfl h with h2 | h2 <;> omega)]
      dsimp only
      congr 1
      by_cases hb : k * c + c ≤ min d (n - 1)
      · have e2 : min (min (k * c + c) d + 1) n - 1 - k * c = c := by omega
        rw [e2, show t0 + (k * c + c) * (u * step) = t0 + k * c * (u * step) + c * u * step by ring, evenly_append, ← Nat.add_mul]
        congr 2
        omega
      · have e2 : min (min (k * c + c) d + 1) n - 1 - k * c = min d (n - 1) - k * c := by omega
        have e3 : min d (n - 1) - (k * c + c) = 0 := by omega
        rw [e2, e3]
        simp [evenly]
    · have : min d (n - 1) - k * c = 0 := by omega
      simp [this, evenly]

/-- **C76** (partial: see `C76_rest_violated`).  For every table with rows at equal distances of a multiple of the interval of the output, whatever part of it is wanted and wherever the borders
of blocks are, as long as no block is left with two or three rows: the output has one sample for each interval from the start up to the last row that is wanted (or there is), none missing and none twice. -/
theorem C76_gapless_partial (t0 n d u inNs outNs step maxElements : ℕ) (hs : 0 < step) (hd : d ≤ n) (hu : 0 < inNs / outNs) (hm : inNs / outNs ≤ maxElements)
    (hrest : u ≤ 1 ∨ ∀ k, k * (maxElements / (inNs / outNs)) < d → rowsInBlock n d (maxElements / (inNs / outNs)) k = 1 ∨ 4 ≤ rowsInBlock n d (maxElements / (inNs / outNs)) k) :
    upsampleTable none (regularTable t0 step u n) d inNs outNs step maxElements = (some (evenly t0 step (min d (n - 1) * u)), .ok ()) := by
  have hc : 1 ≤ maxElements / (inNs / outNs) := (Nat.le_div_iff_mul_le hu).mpr (by omega)
  unfold upsampleTable
  have h1 := loop_times t0 step u n d _ hs hc hd d 0 (by omega) (by
    rcases hrest with h | h
    · exact .inl h
    · exact .inr (fun j _ => h j))
  rw [Nat.zero_mul] at h1
  simp only [hu.ne', if_false, show maxElements / (inNs / outNs) ≠ 0 by omega, h1]
  simp

theorem curve_concat (outNs pts : ℕ) (t0 m : ℕ) : curveStamps outNs pts (evenly t0 (pts * outNs) m) = evenly t0 outNs (m * pts) := by
  induction m with
  | zero => simp [curveStamps, evenly]
  | succ m ih =>
    have h1 : evenly t0 (pts * outNs) (m + 1) = evenly t0 (pts * outNs) m ++ [t0 + m * (pts * outNs)] := by simp [evenly, List.range_succ]
    rw [h1, curveStamps, List.flatMap_append, ← curveStamps, ih, List.flatMap_singleton, Nat.succ_mul, ← evenly_append, Nat.mul_assoc]
    rfl

/-- **C76, curves.**  The same for the samples of curves, of any number of points. -/
theorem C76_curves_partial (t0 n d u pts inNs outNs maxElements : ℕ) (hp : 0 < pts) (hd : d ≤ n) (hu : 0 < inNs / outNs) (hm : inNs / outNs ≤ maxElements)
    (hrest : u ≤ 1 ∨ ∀ k, k * (maxElements / (inNs / outNs)) < d → rowsInBlock n d (maxElements / (inNs / outNs)) k = 1 ∨ 4 ≤ rowsInBlock n d (maxElements / (inNs / outNs)) k) :
    ∃ l, upsampleTable none (regularTable t0 (pts * outNs) u n) d inNs outNs (pts * outNs) maxElements = (some l, .ok ()) ∧
      curveStamps outNs pts l = evenly t0 outNs (min d (n - 1) * u * pts) := by
  have ho : 0 < outNs := by
    rcases Nat.eq_zero_or_pos outNs with h | h
    · rw [h, Nat.div_zero] at hu; omega
    · exact h
  exact ⟨_, C76_gapless_partial t0 n d u inNs outNs (pts * outNs) maxElements (by positivity) hd hu hm hrest, curve_concat outNs pts t0 _⟩

theorem loop_error (t0 step u n d c : ℕ) (hs : 0 < step) (hu : 2 ≤ u) (hc : 1 ≤ c) (hd : d ≤ n) (k : ℕ) (hk : k * c < d)
    (hr : 2 ≤ rowsInBlock n d c k ∧ rowsInBlock n d c k ≤ 3) (j fuel : ℕ) (hj : j ≤ k) (hf : d ≤ j * c + fuel) :
    (upsampleLoop (regularTable t0 step u n) step d c fuel (j * c)).2 = .error .valueError := by
  induction fuel generalizing j with
  | zero =>
    have : j * c ≤ k * c := Nat.mul_le_mul_right c hj
    omega
  | succ fuel ih =>
    have hjk : j * c ≤ k * c := Nat.mul_le_mul_right c hj
    unfold upsampleLoop
    rw [if_pos (by omega), slice_times t0 step u n (j * c) _ hs (by omega) (by omega)]
    have he : min (min (j * c + c) d + 1) n - j * c = rowsInBlock n d c j := by
      unfold rowsInBlock
      omega
    rw [he]
    rcases Nat.eq_or_lt_of_le hj with rfl | hlt
    · rw [if_pos ⟨hu, hr⟩]
    · by_cases h : 2 ≤ u ∧ 2 ≤ rowsInBlock n d c j ∧ rowsInBlock n d c j ≤ 3
      · rw [if_pos h]
      · rw [if_neg h]
        dsimp only
        have := ih (j + 1) hlt (by rw [Nat.add_mul]; omega)
        rwa [Nat.add_mul, Nat.one_mul] at this

/-- **C76, violated: short blocks.**  Whenever some block of a regular table is left with two or three rows, the conversion raises; the output is incomplete, but taken as finished by the next call. -/
theorem C76_rest_violated (t0 n d u inNs outNs step maxElements k : ℕ) (hs : 0 < step) (h2 : 2 ≤ u) (hd : d ≤ n) (hu : 0 < inNs / outNs) (hm : inNs / outNs ≤ maxElements)
    (hk : k * (maxElements / (inNs / outNs)) < d) (hr : 2 ≤ rowsInBlock n d (maxElements / (inNs / outNs)) k ∧ rowsInBlock n d (maxElements / (inNs / outNs)) k ≤ 3) :
    ∃ l, upsampleTable none (regularTable t0 step u n) d inNs outNs step maxElements = (some l, .error .valueError) ∧
      upsampleTable (some l) (regularTable t0 step u n) d inNs outNs step maxElements = (some l, .ok ()) := by
  have hc : 1 ≤ maxElements / (inNs / outNs) := (Nat.le_div_iff_mul_le hu).mpr (by omega)
  refine ⟨(upsampleLoop (regularTable t0 step u n) step d (maxElements / (inNs / outNs)) d 0).1, ?_, rfl⟩
  unfold upsampleTable
  have h1 := loop_error t0 step u n d _ hs h2 hc hd k hk hr 0 d (by omega) (by omega)
  rw [Nat.zero_mul] at h1
  simp only [hu.ne', if_false, show maxElements / (inNs / outNs) ≠ 0 by omega, h1]

/-- **C76, violated: other rates.**  If in the first block only the first row is at a multiple of the interval of the output, the conversion raises. -/
theorem C76_grid_violated (t0 : ℕ) (ts : List ℕ) (d inNs outNs step maxElements : ℕ) (hs : 0 < step) (hd : 0 < d) (hu : 0 < inNs / outNs) (hm : inNs / outNs ≤ maxElements)
    (hoff : ∀ t ∈ ts.take (min (maxElements / (inNs / outNs)) d), (t - t0) % step ≠ 0)
    (hlong : t0 + step ≤ (ts.take (min (maxElements / (inNs / outNs)) d)).getLastD t0) :
    upsampleTable none (t0 :: ts) d inNs outNs step maxElements = (some [], .error .valueError) := by
  have hc : 1 ≤ maxElements / (inNs / outNs) := (Nat.le_div_iff_mul_le hu).mpr (by omega)
  unfold upsampleTable
  simp only [hu.ne', if_false, show maxElements / (inNs / outNs) ≠ 0 by omega]
  set c := maxElements / (inNs / outNs)
  obtain ⟨f, rfl⟩ : ∃ f, d = f + 1 := ⟨d - 1, by omega⟩
  have h1 : upsampleSlice (t0 :: ts) step 0 (min (0 + c) (f + 1)) = .error .valueError := by
    unfold upsampleSlice
    rw [List.drop_zero, Nat.sub_zero, List.take_succ_cons, Nat.zero_add]
    dsimp only
    have hk : ((t0 :: ts.take (min c (f + 1))).filter (fun x => (x - t0) % step = 0)).length = 1 := by
      rw [List.filter_cons_of_pos (by simp), List.filter_eq_nil_iff.mpr (fun x hx => by simpa using hoff x hx)]
      rfl
    rw [hk]
    have : 1 ≤ ((ts.take (min c (f + 1))).getLastD t0 - t0) / step := (Nat.le_div_iff_mul_le hs).mpr (by omega)
    rw [if_pos ⟨by omega, by omega⟩]
  rw [upsampleLoop, if_pos (by omega), h1]

/-- The number of rows asked for is never more than there are. -/
theorem C76_rows (rows : ℕ) (rate : ℤ) (runtime : ℝ) (duration : Option ℝ) : rowsWanted rows rate runtime duration ≤ rows := by
  unfold rowsWanted
  cases duration with
  | none => exact le_rfl
  | some d =>
    dsimp only
    split_ifs
    · exact min_le_left _ _
    · exact min_le_left _ _
    · exact le_rfl

/-- **C76, the rows wanted**, if the duration is shorter than the recording: exactly those whose interval ends before it does; all rows otherwise. -/
theorem C76_wanted (rows : ℕ) (rate : ℤ) (hr : 0 < rate) (runtime : ℝ) (duration : Option ℝ) (i : ℕ) :
    ((i : ℤ) < rowsWanted rows rate runtime duration ↔ i < rows ∧ ∀ d, duration = some d → d < runtime → ((i : ℝ) + 1) / rate ≤ d) := by
  have hr' : (0:ℝ) < rate := by exact_mod_cast hr
  unfold rowsWanted
  cases duration with
  | none => simp
  | some d =>
    dsimp only
    split_ifs with h1 h2
    · rw [lt_min_iff, Nat.cast_lt, ← Int.add_one_le_iff, Int.le_floor]
      refine and_congr_right (fun _ => ?_)
      push_cast
      rw [← div_le_iff₀ hr']
      exact ⟨fun h e he _ => by cases he; exact h, fun h => h d rfl h1⟩
    · have hd : d * rate < 0 := not_le.mp h2
      have hd0 : d < 0 := by
        by_contra h
        have := mul_nonneg (not_lt.mp h) hr'.le
        linarith
      constructor
      · intro h
        have h3 := (lt_min_iff.mp h).2
        have h4 : ⌈d * (rate:ℝ)⌉ ≤ 0 := Int.ceil_le.mpr (by push_cast; exact hd.le)
        omega
      · rintro ⟨-, h⟩
        have h3 := h d rfl h1
        have : 0 ≤ ((i : ℝ) + 1) / rate := by positivity
        linarith
    · rw [Nat.cast_lt]
      exact ⟨fun h => ⟨h, fun e he hlt => by cases he; exact absurd hlt h1⟩, fun h => h.1⟩

/-- **C76, existing output** is never changed. -/
theorem C76_existing (l times : List ℕ) (d inNs outNs step maxElements : ℕ) : upsampleTable (some l) times d inNs outNs step maxElements = (some l, .ok ()) := rfl

/-- **C76, violated: recordings with a higher rate than the output** raise an exception but leave an (empty) output, that is taken as finished by the next call. -/
theorem C76_rate_violated (times : List ℕ) (d inNs outNs step maxElements : ℕ) (h : inNs < outNs) :
    upsampleTable none times d inNs outNs step maxElements = (some [], .error .zeroDivisionError) ∧ upsampleTable (some []) times d inNs outNs step maxElements = (some [], .ok ()) := by
  have : inNs / outNs = 0 := Nat.div_eq_of_lt h
  exact ⟨by simp [upsampleTable, this], rfl⟩

/-! ### The hypotheses are met -/

/-- A cell with 5 mA and 3 V at most. -/
noncomputable def demoCell : IvCoeffs := ⟨5 / 1000, 5 / 1000 / (Real.exp 6 - 1), 2⟩

theorem demoCell_cell : IsCell demoCell := by
  have : 1 < Real.exp 6 := Real.one_lt_exp_iff.mpr (by norm_num)
  exact ⟨by norm_num [demoCell], div_pos (by norm_num) (by linarith), by norm_num [demoCell]⟩

example : getVoc demoCell = 3 := by
  have : 1 < Real.exp 6 := Real.one_lt_exp_iff.mpr (by norm_num)
  have h : Real.exp 6 - 1 ≠ 0 := by linarith
  have e : (5 : ℝ) / 1000 / (5 / 1000 / (Real.exp 6 - 1)) + 1 = Real.exp 6 := by field_simp; ring
  simp only [getVoc, demoCell, e, Real.log_exp]
  norm_num

example : ∃ v i, ocTracker 5 1000 (4 / 5) demoCell (some (clippedVoc 5 demoCell)) = .ok (v, i) ∧ 0 < i ∧ v ≤ 5 :=
  C66_oc_current demoCell_cell (by norm_num [demoCell]) 5 (by norm_num) 1000 (by norm_num) (4 / 5) (by norm_num) (by norm_num)

example : upsampleTable none (regularTable 7 10 3 9) 8 30 10 10 12 = (some (evenly 7 10 24), .ok ()) := by decide
/-- 50 Hz and 10 µs, blocks of 4,000,000: 4004 of 10000 rows. -/
example : 0 < 20000000 / 10000 ∧ 20000000 / 10000 ≤ 4000000 ∧ ∀ k, k * (4000000 / (20000000 / 10000)) < 4004 → rowsInBlock 10000 4004 (4000000 / (20000000 / 10000)) k = 1 ∨ 4 ≤ rowsInBlock 10000 4004 (4000000 / (20000000 / 10000)) k := by
  refine ⟨by norm_num, by norm_num, fun k hk => ?_⟩
  unfold rowsInBlock
  norm_num at hk ⊢
  omega
/-- The same rates, 2002 rows: the last block has two. -/
example : 1 * (4000000 / (20000000 / 10000)) < 2002 ∧ rowsInBlock 2002 2002 (4000000 / (20000000 / 10000)) 1 = 2 := by decide
/-- 30 Hz with intervals cut to ns: no row but the first is at a multiple of 10 µs. -/
example : upsampleTable none [0, 33333333, 66666666, 99999999, 133333332] 5 33333333 10000 10000 4000000 = (some [], .error .valueError) :=
  C76_grid_violated 0 _ 5 33333333 10000 10000 4000000 (by norm_num) (by norm_num) (by norm_num) (by norm_num) (by decide) (by decide)

end Verif.Props
