import Verif.Model.Reports
import Verif.Lemmas.Recorder
import Verif.Lemmas.Calibration
import Mathlib.Data.Nat.Digits.Lemmas
import Mathlib.Data.List.Perm.Subperm
import Mathlib.Algebra.Order.BigOperators.Group.List
import Mathlib.Algebra.BigOperators.Group.List.Lemmas

namespace Verif.Model
open Verif.Py

/-! ## Names -/

theorem rfindDot_eq (x t : Name) (ht : '.' ∉ t) : rfindDot (x ++ '.' :: t) = some x.length := by
  unfold rfindDot
  rw [if_pos (by simp)]
  have : (x ++ '.' :: t).reverse.takeWhile (· ≠ '.') = t.reverse := by
    rw [List.reverse_append, List.reverse_cons, List.append_assoc, List.takeWhile_append_of_pos]
    · simp
    · intro c hc
      simp only [List.mem_reverse] at hc
      simp only [ne_eq, decide_eq_true_eq]
      rintro rfl
      exact ht hc
  rw [this]
  simp only [List.length_append, List.length_cons, List.length_reverse]
  congr 1
  omega

theorem splitName_eq (x t : Name) (hx : x ≠ []) (ht : t ≠ []) (hd : '.' ∉ t) : splitName (x ++ '.' :: t) = (x, '.' :: t) := by
  unfold splitName
  rw [rfindDot_eq x t hd]
  have h1 : 0 < x.length := List.length_pos_of_ne_nil hx
  have h2 : 0 < t.length := List.length_pos_of_ne_nil ht
  dsimp only
  rw [if_pos ⟨h1, by simp only [List.length_append, List.length_cons]; omega⟩]
  simp

theorem exists_last_dot : ∀ (n : Name), '.' ∈ n → ∃ x t, n = x ++ '.' :: t ∧ '.' ∉ t
  | [], h => absurd h (by simp)
  | c :: n, h => by
    by_cases hn : '.' ∈ n
    · obtain ⟨x, t, rfl, ht⟩ := exists_last_dot n hn
      exact ⟨c :: x, t, by simp, ht⟩
    · have : c = '.' := by
        rcases List.mem_cons.1 h with h | h
        · exact h.symm
        · exact absurd h hn
      exact ⟨[], n, by simp [this], hn⟩

theorem splitName_spec (n : Name) :
    (splitName n = (n, [])) ∨ ∃ x t, x ≠ [] ∧ t ≠ [] ∧ '.' ∉ t ∧ n = x ++ '.' :: t ∧ splitName n = (x, '.' :: t) := by
  by_cases h : '.' ∈ n
  · obtain ⟨x, t, rfl, ht⟩ := exists_last_dot n h
    by_cases hx : x = []
    · left
      subst hx
      unfold splitName
      rw [rfindDot_eq _ _ ht]
      simp
    · by_cases htn : t = []
      · left
        subst htn
        unfold splitName
        rw [rfindDot_eq _ _ ht]
        simp
      · exact Or.inr ⟨x, t, hx, htn, ht, rfl, splitName_eq x t hx htn ht⟩
  · left
    unfold splitName rfindDot
    rw [if_neg h]

theorem digitChar_inj {a b : ℕ} (ha : a < 10) (hb : b < 10) (h : Nat.digitChar a = Nat.digitChar b) : a = b := by
  interval_cases a <;> interval_cases b <;> first | rfl | (exact absurd h (by decide))

theorem digitChar_ne_dot {a : ℕ} (ha : a < 10) : Nat.digitChar a ≠ '.' := by
  interval_cases a <;> decide

theorem dec_injective : Function.Injective dec := by
  intro a b h
  unfold dec at h
  have key : ∀ k, k ≠ 0 → ((Nat.digits 10 k).map Nat.digitChar).reverse ≠ ['0'] := by
    intro k hk h
    have h2 := congrArg List.reverse h
    rw [List.reverse_reverse] at h2
    simp only [List.reverse_cons, List.reverse_nil, List.nil_append] at h2
    cases hd : Nat.digits 10 k with
    | nil => rw [hd] at h2; simp at h2
    | cons d ds =>
      rw [hd] at h2
      simp only [List.map_cons, List.cons.injEq, List.map_eq_nil_iff] at h2
      obtain ⟨h3, rfl⟩ := h2
      have hlt : d < 10 := Nat.digits_lt_base (by norm_num) (by rw [hd]; simp : d ∈ Nat.digits 10 k)
      have : d = 0 := digitChar_inj hlt (by norm_num) h3
      subst this
      have := Nat.getLast_digit_ne_zero 10 hk
      simp [hd] at this
  by_cases ha : a = 0
  · by_cases hb : b = 0
    · rw [ha, hb]
    · rw [if_pos ha, if_neg hb] at h
      exact absurd h.symm (key b hb)
  · by_cases hb : b = 0
    · rw [if_neg ha, if_pos hb] at h
      exact absurd h (key a ha)
    · rw [if_neg ha, if_neg hb, List.reverse_inj] at h
      have : Nat.digits 10 a = Nat.digits 10 b := by
        have hA : ∀ d ∈ Nat.digits 10 a, d < 10 := fun d hd => Nat.digits_lt_base (by norm_num) hd
        have hB : ∀ d ∈ Nat.digits 10 b, d < 10 := fun d hd => Nat.digits_lt_base (by norm_num) hd
        revert h hA hB
        generalize Nat.digits 10 a = A
        generalize Nat.digits 10 b = B
        intro h hA hB
        induction A generalizing B with
        | nil => cases B with
          | nil => rfl
          | cons => simp at h
        | cons x A ih => cases B with
          | nil => simp at h
          | cons y B =>
            simp only [List.map_cons, List.cons.injEq] at h
            rw [digitChar_inj (hA x (by simp)) (hB y (by simp)) h.1,
              ih B h.2 (fun d hd => hA d (by simp [hd])) (fun d hd => hB d (by simp [hd]))]
      exact Nat.digits_inj_iff.1 this

theorem dec_ne_nil (k : ℕ) : dec k ≠ [] := by
  unfold dec
  split
  · simp
  · rename_i h
    simp [Nat.digits_ne_nil_iff_ne_zero.2 h]

theorem dot_not_mem_dec (k : ℕ) : '.' ∉ dec k := by
  unfold dec
  split
  · decide
  · intro h
    simp only [List.mem_reverse, List.mem_map] at h
    obtain ⟨d, hd, e⟩ := h
    exact digitChar_ne_dot (Nat.digits_lt_base (by norm_num) hd) e

theorem candidate_injective (base suffix : Name) : Function.Injective (candidate base suffix) := by
  intro a b h
  unfold candidate withSuffix at h
  have h1 := List.append_cancel_left h
  simp only [List.cons_append, List.cons.injEq, true_and] at h1
  exact dec_injective (List.append_cancel_right h1)

/-- Some candidate is free. -/
theorem exists_free (existing : List Name) (base suffix : Name) : ∃ j ≤ existing.length, candidate base suffix j ∉ existing := by
  by_contra hcon
  push Not at hcon
  have hsub : (List.range (existing.length + 1)).map (candidate base suffix) ⊆ existing := by
    intro n hn
    obtain ⟨j, hj, rfl⟩ := List.mem_map.1 hn
    exact hcon j (by have := List.mem_range.1 hj; omega)
  have hnd : ((List.range (existing.length + 1)).map (candidate base suffix)).Nodup :=
    List.Nodup.map (candidate_injective base suffix) List.nodup_range
  have := (List.subperm_of_subset hnd hsub).length_le
  simp at this

theorem uniqueLoop_spec (existing : List Name) (base suffix : Name) (j : ℕ) (hj : candidate base suffix j ∉ existing)
    (fuel k : ℕ) (hk : k ≤ j) (hlt : ∀ i, k ≤ i → i < j → candidate base suffix i ∈ existing) (hf : j - k < fuel) :
    uniqueLoop existing base suffix fuel k = some (candidate base suffix j) := by
  induction fuel generalizing k with
  | zero => omega
  | succ fuel ih =>
    unfold uniqueLoop
    dsimp only
    by_cases h : k = j
    · subst h; rw [if_neg hj]
    · rw [if_pos (hlt k le_rfl (by omega))]
      exact ih (k + 1) (by omega) (fun i h1 h2 => hlt i (by omega) h2) (by omega)

/-! ## Chunks -/

theorem chunks_nil {α : Type} (k : ℕ) (hk : 0 < k) : chunks k ([] : List α) = [] := by
  unfold chunks
  have : (([] : List α).length + k - 1) / k = 0 := by simp; omega
  rw [this]; rfl

theorem chunks_cons {α : Type} (k : ℕ) (hk : 0 < k) (l : List α) (hl : l ≠ []) :
    chunks k l = l.take k :: chunks k (l.drop k) := by
  unfold chunks
  have hpos : 0 < l.length := List.length_pos_of_ne_nil hl
  have e : (l.length + k - 1) / k = ((l.drop k).length + k - 1) / k + 1 := by
    rw [List.length_drop]
    rcases le_or_gt l.length k with h | h
    · have h1 : (l.length + k - 1) / k = 1 := by
        rw [Nat.div_eq_iff (by omega)]; omega
      have h2 : (l.length - k + k - 1) / k = 0 := by
        rw [Nat.div_eq_iff (by omega)]; omega
      omega
    · have h1 : l.length + k - 1 = (l.length - k + k - 1) + k := by omega
      rw [h1, Nat.add_div_right _ hk]
  rw [e, List.range_succ_eq_map, List.map_cons, List.map_map]
  congr 1
  · simp
  · refine List.map_congr_left (fun i _ => ?_)
    simp only [Function.comp, List.drop_drop]
    congr 2
    rw [Nat.succ_mul, Nat.add_comm]

/-- Induction along the chunks of a list. -/
theorem chunks_induction {α : Type} (k : ℕ) (hk : 0 < k) {P : List α → Prop} (h0 : P [])
    (h1 : ∀ l, l ≠ [] → P (l.drop k) → P l) (l : List α) : P l := by
  induction hn : l.length using Nat.strong_induction_on generalizing l with
  | _ n ih =>
    by_cases hl : l = []
    · rw [hl]; exact h0
    · have hpos : 0 < l.length := List.length_pos_of_ne_nil hl
      exact h1 l hl (ih _ (by rw [List.length_drop]; omega) _ rfl)

theorem chunks_flatten {α : Type} (k : ℕ) (hk : 0 < k) (l : List α) : (chunks k l).flatten = l := by
  refine chunks_induction (P := fun l => (chunks k l).flatten = l) k hk ?_ ?_ l
  · rw [chunks_nil k hk]; rfl
  · intro l hl ih
    rw [chunks_cons k hk l hl, List.flatten_cons, ih, List.take_append_drop]

theorem mem_chunks_ne {α : Type} (k : ℕ) (hk : 0 < k) (l : List α) : ∀ c ∈ chunks k l, c ≠ [] ∧ c.length ≤ k := by
  refine chunks_induction (P := fun l => ∀ c ∈ chunks k l, c ≠ [] ∧ c.length ≤ k) k hk ?_ ?_ l
  · rw [chunks_nil k hk]; simp
  · intro l hl ih c hc
    rw [chunks_cons k hk l hl] at hc
    rcases List.mem_cons.1 hc with rfl | hc
    · refine ⟨?_, by simp⟩
      intro h
      rw [List.take_eq_nil_iff] at h
      rcases h with h | h
      · omega
      · exact hl h
    · exact ih c hc

theorem chunks_small {α : Type} (k : ℕ) (hk : 0 < k) (l : List α) (h0 : l ≠ []) (h : l.length ≤ k) : chunks k l = [l] := by
  rw [chunks_cons k hk l h0, List.take_of_length_le h, List.drop_of_length_le h, chunks_nil k hk]

theorem chunks_append {α : Type} (k : ℕ) (hk : 0 < k) (a b : List α) (ha : k ∣ a.length) : chunks k (a ++ b) = chunks k a ++ chunks k b := by
  revert ha
  refine chunks_induction (P := fun a => k ∣ a.length → chunks k (a ++ b) = chunks k a ++ chunks k b) k hk ?_ ?_ a
  · intro _; rw [chunks_nil k hk]; rfl
  · intro a hne ih ha
    have hle : k ≤ a.length := Nat.le_of_dvd (List.length_pos_of_ne_nil hne) ha
    rw [chunks_cons k hk (a ++ b) (by simp [hne]), chunks_cons k hk a hne, List.take_append_of_le_length hle, List.drop_append_of_le_length hle,
      ih (by rw [List.length_drop]; exact Nat.dvd_sub ha dvd_rfl)]
    rfl

theorem map_chunks {α β : Type} (f : α → β) (k : ℕ) (l : List α) : (chunks k l).map (List.map f) = chunks k (l.map f) := by
  unfold chunks
  simp only [List.map_map, List.length_map]
  refine List.map_congr_left (fun i _ => ?_)
  simp

/-! ## Minimum and maximum -/

theorem foldl_min_le (l : List ℚ) (a : ℚ) : l.foldl min a ≤ a ∧ ∀ x ∈ l, l.foldl min a ≤ x := by
  induction l generalizing a with
  | nil => simp
  | cons y l ih =>
    obtain ⟨h1, h2⟩ := ih (min a y)
    simp only [List.foldl_cons, List.mem_cons]
    refine ⟨h1.trans (min_le_left _ _), ?_⟩
    rintro x (rfl | hx)
    · exact h1.trans (min_le_right _ _)
    · exact h2 x hx

theorem foldl_min_mem (l : List ℚ) (a : ℚ) : l.foldl min a ∈ a :: l := by
  induction l generalizing a with
  | nil => simp
  | cons y l ih =>
    have := ih (min a y)
    simp only [List.foldl_cons, List.mem_cons] at this ⊢
    rcases this with h | h
    · rcases min_choice a y with h2 | h2
      · exact Or.inl (h.trans h2)
      · exact Or.inr (Or.inl (h.trans h2))
    · exact Or.inr (Or.inr h)

theorem npMin_spec (l : List ℚ) (h : l ≠ []) : npMin l ∈ l ∧ ∀ x ∈ l, npMin l ≤ x := by
  cases l with
  | nil => exact absurd rfl h
  | cons a l =>
    refine ⟨foldl_min_mem l a, ?_⟩
    intro x hx
    rcases List.mem_cons.1 hx with rfl | hx
    · exact (foldl_min_le l _).1
    · exact (foldl_min_le l _).2 x hx

theorem neg_max_eq (a b : ℚ) : -max a b = min (-a) (-b) := by
  rcases le_total a b with h | h
  · rw [max_eq_right h, min_eq_right (neg_le_neg h)]
  · rw [max_eq_left h, min_eq_left (neg_le_neg h)]

theorem foldl_max_eq (l : List ℚ) (a : ℚ) : l.foldl max a = -((l.map (fun x => -x)).foldl min (-a)) := by
  induction l generalizing a with
  | nil => simp
  | cons y l ih => simp only [List.foldl_cons, List.map_cons]; rw [ih, neg_max_eq]

theorem npMax_spec (l : List ℚ) (h : l ≠ []) : npMax l ∈ l ∧ ∀ x ∈ l, x ≤ npMax l := by
  cases l with
  | nil => exact absurd rfl h
  | cons a l =>
    have hn : npMin ((a :: l).map (fun x => -x)) = -npMax (a :: l) := by
      simp only [npMin, npMax, List.map_cons]; rw [foldl_max_eq, neg_neg]
    obtain ⟨h1, h2⟩ := npMin_spec ((a :: l).map (fun x => -x)) (by simp)
    rw [hn] at h1 h2
    refine ⟨?_, fun x hx => ?_⟩
    · obtain ⟨y, hy, e⟩ := List.mem_map.1 h1
      have : y = npMax (a :: l) := by linarith
      rwa [this] at hy
    · have := h2 (-x) (List.mem_map.2 ⟨x, hx, rfl⟩)
      linarith

/-! ## Storing SI values -/

/-- Error of storing an SI value and reading it back, in machine arithmetic. -/
theorem back_error {fl : ℚ → ℚ} (h : AccRounding fl) (c : CalPair) (hg : 1 / 10^100 ≤ c.gain) (ho : |c.offset| ≤ 2^40 * c.gain)
    (x : ℚ) (hx0 : c.offset ≤ x) (hx : x - c.offset ≤ 2^32 * c.gain) :
    |c.rawToSi fl (c.siToRaw fl x) - x| ≤ c.gain * (1/2 + 1/2^11) ∧ (c.siToRaw fl x : ℚ) ≤ (x - c.offset) / c.gain + 1/2 + 1/2^18 := by
  set g := c.gain with hgdef
  set o := c.offset with hodef
  have hg0 : 0 < g := lt_of_lt_of_le (by positivity) hg
  have ht := tiny_div hg
  have ht0 : 0 ≤ (2:ℚ)^(-1075:ℤ) / g := by positivity
  have hO : |o / g| ≤ 2^40 := by
    rw [abs_div, abs_of_pos hg0, div_le_iff₀ hg0]; exact ho
  have h75 : (2:ℚ)^(-1075:ℤ) ≤ 1/2^60 := by
    refine le_trans tiny_le ?_
    have : (1:ℚ)/10^100 ≤ 1 := by norm_num
    calc (1:ℚ)/2^60 * (1/10^100) ≤ 1/2^60 * 1 := mul_le_mul_of_nonneg_left this (by positivity)
      _ = _ := by ring
  have hX0 : 0 ≤ (x - o) / g := div_nonneg (by linarith) hg0.le
  have hX : (x - o) / g ≤ 2^32 := by rw [div_le_iff₀ hg0]; exact hx
  have e1 := err_div h hg0 (x - o)
  set X := (x - o) / g with hXdef
  set a := fl (x - o) with ha
  have e2 := h.err (a / g)
  set A := a / g
  rw [abs_of_nonneg hX0] at e1
  have A1 : |A - X| ≤ 1/2^20 := by
    refine le_trans e1 ?_
    have : X / 2^53 ≤ 2^32/2^53 := div_le_div_of_nonneg_right hX (by positivity)
    norm_num at this ht ⊢; linarith
  have A2 : |A| ≤ 2^33 := by
    have := abs_sub_abs_le_abs_sub A X
    rw [abs_of_nonneg hX0] at this
    norm_num at this A1 hX ⊢; linarith
  have B1 : |fl A - A| ≤ 1/2^19 := by
    refine le_trans e2 ?_
    have : |A| / 2^53 ≤ 2^33/2^53 := div_le_div_of_nonneg_right A2 (by positivity)
    norm_num at this h75 ⊢; linarith
  have B2 : |max (fl A) 0 - X| ≤ 1/2^20 + 1/2^19 := by
    have h1 : |fl A - X| ≤ 1/2^20 + 1/2^19 := by
      have e : fl A - X = (fl A - A) + (A - X) := by ring
      rw [e]; exact (abs_add_le _ _).trans (by linarith)
    rcases le_total 0 (fl A) with h0 | h0
    · rw [max_eq_left h0]; exact h1
    · rw [max_eq_right h0]
      rw [abs_le] at h1 ⊢
      constructor <;> linarith
  have R1 := abs_pyRound_sub_le (max (fl A) 0)
  have hr : c.siToRaw fl x = pyRound (max (fl A) 0) := rfl
  rw [hr]
  have R0 : 0 ≤ pyRound (max (fl A) 0) := pyRound_nonneg (le_max_right _ _)
  generalize pyRound (max (fl A) 0) = r at *
  have R2 : |(r : ℚ) - X| ≤ 1/2 + (1/2^20 + 1/2^19) := by
    have e : (r : ℚ) - X = (r - max (fl A) 0) + (max (fl A) 0 - X) := by ring
    rw [e]; exact (abs_add_le _ _).trans (add_le_add R1 B2)
  have R2' := abs_le.1 R2
  have R3 : (r : ℚ) ≤ 2^33 := by norm_num at R2' hX ⊢; linarith
  have R0q : (0:ℚ) ≤ r := by exact_mod_cast R0
  have hfr : fl (r : ℚ) = r := h.toRounding.exactInt r (by
    rw [abs_of_nonneg R0]
    have : (r : ℚ) ≤ ((2^53 : ℤ) : ℚ) := R3.trans (by norm_num)
    exact_mod_cast this)
  have hsi : c.rawToSi fl (r : ℚ) = fl (fl (r * g) + o) := by
    simp only [CalPair.rawToSi, hfr, Bool.not_true, Bool.false_eq_true, if_false]; rfl
  rw [hsi]
  have e3 := err_div h hg0 (r * g)
  rw [mul_div_cancel_right₀ _ hg0.ne', abs_of_nonneg R0q] at e3
  set cc := fl (r * g)
  have e4 := err_div h hg0 (cc + o)
  rw [add_div] at e4
  set C := cc / g
  set O := o / g with hOdef
  have C1 : |C - r| ≤ 1/2^19 := by
    refine le_trans e3 ?_
    have : (r:ℚ) / 2^53 ≤ 2^33/2^53 := div_le_div_of_nonneg_right R3 (by positivity)
    norm_num at this ht ⊢; linarith
  have C2 : |C| ≤ 2^34 := by
    have := abs_sub_abs_le_abs_sub C r
    rw [abs_of_nonneg R0q] at this
    norm_num at this C1 R3 ⊢; linarith
  set d := fl (cc + o)
  have D1 : |d / g - (C + O)| ≤ 1/2^12 := by
    refine le_trans e4 ?_
    have h1 : |C + O| ≤ 2^34 + 2^40 := le_trans (abs_add_le _ _) (add_le_add C2 hO)
    have : |C + O| / 2^53 ≤ (2^34 + 2^40)/2^53 := div_le_div_of_nonneg_right h1 (by positivity)
    norm_num at this ht ⊢; linarith
  have hxg : x / g = X + O := by rw [hXdef, hOdef, ← add_div]; ring
  constructor
  · have hfin : |d / g - x / g| ≤ 1/2 + 1/2^11 := by
      rw [hxg]
      have e : d / g - (X + O) = (d / g - (C + O)) + (C - r) + (r - X) := by ring
      rw [e]
      refine (abs_add_le _ _).trans ((add_le_add ((abs_add_le _ _).trans (add_le_add D1 C1)) R2).trans ?_)
      norm_num
    rw [← sub_div, abs_div, abs_of_pos hg0, div_le_iff₀ hg0] at hfin
    linarith
  · norm_num at R2' ⊢; linarith

end Verif.Model
