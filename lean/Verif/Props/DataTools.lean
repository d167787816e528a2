import Verif.Model.DataTools
import Verif.Lemmas.DataTools
import Verif.Py.Binary64
import Mathlib.Tactic.Linarith
import Mathlib.Tactic.NormNum

/-! # C63: down-sampling -/

namespace Verif.Props
open Verif.Model Verif.Py

section
variable {α σ : Type}

/-! ## Specification -/

/-- The samples from `startN` up to, not including, `endN`. -/
def selected (src : List α) (startN : ℕ) (endN : Option ℕ) : List α :=
  match endN with
  | some e => (src.take e).drop startN
  | none => src.drop startN

/-- `r` is every `n`-th member of `l`, `l.length / n` of them. -/
def IsDecimated (n : ℕ) (l r : List α) : Prop := r.length = l.length / n ∧ ∀ i, i < r.length → r[i]? = l[i * n]?

/-- The results of a machine for data, from a state on. -/
def resultsFrom (step : σ → α → σ × α) : σ → List α → List α
  | _, [] => []
  | s, x :: l => (step s x).2 :: resultsFrom step (step s x).1 l

/-- The low-pass applied to the whole data at once. -/
def lowpass (f : SampleFilter α σ) (l : List α) : List α := resultsFrom f.step f.init l

theorem lowpass_eq (f : SampleFilter α σ) (l : List α) : lowpass f l = (f.run f.init l).1 := by
  unfold lowpass
  generalize f.init = s
  induction l generalizing s with
  | nil => rfl
  | cons x l ih => simp [resultsFrom, SampleFilter.run, ih]

/-! ## Theorems -/

/-- The range in use. -/
theorem selected_eq (src : List α) (startN : ℕ) (endN : Option ℕ) :
    let e := dsEnd src.length endN
    selected src startN endN = (src.drop (min e startN)).take (e - min e startN) ∧ (selected src startN endN).length = e - min e startN := by
  have key : ∀ e : ℕ, e ≤ src.length → (src.drop (min e startN)).take (e - min e startN) = (src.take e).drop startN := by
    intro e he
    rw [List.drop_take]
    rcases le_total e startN with h | h
    · rw [min_eq_left h, Nat.sub_self, Nat.sub_eq_zero_of_le h, List.take_zero, List.take_zero]
    · rw [min_eq_right h]
  cases endN with
  | none =>
    refine ⟨?_, ?_⟩
    · simp only [selected, dsEnd]
      rw [key _ (le_refl _), List.take_length]
    · simp [selected, dsEnd]; omega
  | some e =>
    refine ⟨?_, ?_⟩
    · simp only [selected, dsEnd]
      rw [key _ (min_le_left _ _)]
      rcases le_total e src.length with h | h
      · rw [min_eq_right h]
      · rw [min_eq_left h, List.take_length, List.take_of_length_le h]
    · simp [selected, dsEnd]; omega

/-- **C63** as far as it is true.  If the factor divides the block size, or the range fits into one block, down-sampling never fails.  The result has
`floor(length / factor)` members.  Time stamps (and anything with a factor of 1) are exactly every n-th sample of the range; other data is every n-th sample of the
range after filtering it in one go, although it is filtered block by block.  Missing: factors that do not divide the block size, see `C63_grid_violated` and
`C63_fails_violated`. -/
theorem C63_downsample_partial {fl : ℚ → ℚ} (h : AccRounding fl) (zero : α) (f : SampleFilter α σ) (h5 isTime : Bool) (maxElements : ℕ) (src dst : List α)
    (startN : ℕ) (endN : Option ℕ) (factor : ℕ) (hm : 0 < maxElements) (hsize : src.length ≤ 2 ^ 50) (hfac : factor ≤ 2 ^ 50)
    (hfit : max 1 factor ∣ maxElements ∨ (selected src startN endN).length ≤ maxElements) (hne : selected src startN endN ≠ []) :
    ∃ out, downsample fl zero f h5 isTime maxElements src dst startN endN factor = .ok out ∧
      IsDecimated (max 1 factor) (if isTime ∨ factor ≤ 1 then selected src startN endN else lowpass f (selected src startN endN)) out := by
  obtain ⟨hsel, hsellen⟩ := selected_eq src startN endN
  set e := dsEnd src.length endN with he
  have hele : e ≤ src.length := by
    rw [he]; cases endN <;> simp [dsEnd]
  set S := min e startN with hS
  set L := e - S with hLdef
  have hLpos : 0 < L := by
    rw [← hsellen]; exact List.length_pos_iff.mpr hne
  set ds := max 1 factor with hds
  have hds0 : 0 < ds := by omega
  set ib := min maxElements L with hib
  have hib0 : 0 < ib := by omega
  set ob := (pyRound (fl ((ib : ℚ) / ds))).toNat with hob
  have hSL : S + L ≤ src.length := by omega
  have hcase : ds * ob = ib ∨ (ib = L ∧ L / ds ≤ ob) := by
    by_cases hle : L ≤ maxElements
    · right
      have : ib = L := by omega
      refine ⟨this, ?_⟩
      rw [hob, this]
      exact round_div_ge h hds0 (by omega)
    · left
      have : ib = maxElements := by omega
      have hd : ds ∣ ib := by
        rcases hfit with h1 | h1
        · rwa [this]
        · exact absurd (hsellen ▸ h1) hle
      rw [hob, round_div_eq h.toRounding hds0 (by omega) hd, Nat.mul_div_cancel' hd]
  have hit : ⌈fl ((L : ℚ) / ib)⌉.toNat = (L + ib - 1) / ib := ceil_div h hib0 (by omega) (by omega)
  have hdl : ⌊fl ((L : ℚ) / ds)⌋.toNat = L / ds := floor_div h hds0 (by omega) (by omega)
  set it := (L + ib - 1) / ib with hitd
  have hq := Nat.div_add_mod (L + ib - 1) ib
  have hmod := Nat.mod_lt (L + ib - 1) hib0
  rw [← hitd] at hq
  have hit0 : 0 < it := by
    rcases Nat.eq_zero_or_pos it with h0 | h0
    · rw [h0] at hq; omega
    · exact h0
  have hitL : ∀ k, k < it → (0 + k) * ib < L := by
    intro k hk
    have : ib * (k + 1) ≤ ib * it := Nat.mul_le_mul_left ib hk
    rw [Nat.mul_add] at this
    rw [Nat.zero_add, Nat.mul_comm]
    omega
  set filtered := (!isTime && decide (1 < ds)) with hfilt
  obtain ⟨dst', e1, hlen, hget⟩ := dsLoop_spec f h5 filtered src S ib ob ds L hds0 hSL hcase it 0 f.init (resizeTo zero (L / ds) dst) hitL
    (by intro _; simp [SampleFilter.run]) (resizeTo_length zero _ _) (by intro j hj; omega)
  have hcover : L / ds ≤ it * ob := by
    rcases hcase with h1 | ⟨h1, h2⟩
    · have : L ≤ it * ob * ds := by
        rw [show it * ob * ds = ib * it by rw [← h1]; ring]
        omega
      calc L / ds ≤ (it * ob * ds) / ds := Nat.div_le_div_right this
        _ = it * ob := Nat.mul_div_cancel _ hds0
    · exact le_trans h2 (Nat.le_mul_of_pos_left ob hit0)
  have hprev : (it - 1) * ob ≤ L / ds := by
    rcases hcase with h1 | ⟨h1, h2⟩
    · rw [Nat.le_div_iff_mul_le hds0]
      have := hitL (it - 1) (by omega)
      rw [Nat.zero_add, ← h1] at this
      rw [show (it - 1) * ob * ds = (it - 1) * (ds * ob) by ring]
      omega
    · have : it = 1 := by
        rw [hitd, h1, show L + L - 1 = (L - 1) + L by omega, Nat.add_div_right _ hLpos, Nat.div_eq_of_lt (by omega)]
      rw [this]; simp
  have hfinal : (((ob * (it - 1) : ℕ) : ℤ) + min (((L / ds : ℕ) : ℤ) - (((it - 1 : ℕ) : ℕ) : ℤ) * ob) ob).toNat = L / ds := by
    have h1 : it * ob = (it - 1) * ob + ob := by
      conv_lhs => rw [show it = (it - 1) + 1 by omega]
      rw [Nat.add_mul, Nat.one_mul]
    have h2 : ((it - 1 : ℕ) : ℤ) * (ob : ℤ) = (((it - 1) * ob : ℕ) : ℤ) := by push_cast; ring
    have h3 : ((ob * (it - 1) : ℕ) : ℤ) = (((it - 1) * ob : ℕ) : ℤ) := by rw [Nat.mul_comm]
    rw [h2, h3]
    omega
  refine ⟨dst', ?_, ?_, ?_⟩
  · unfold downsample
    simp only []
    rw [← hds, ← hS, ← hLdef, if_neg (by omega), ← hib, ← hob, hit, hdl, ← hfilt, e1]
    simp only []
    rw [hfinal, ← hlen, resizeTo_self]
  · rw [hlen]
    split_ifs <;> simp [lowpass_eq, run_length, hsellen]
  · intro i hi
    rw [hlen] at hi
    have hiL : i * ds < L := by
      have := Nat.div_mul_le_self L ds
      have h2 : (i + 1) * ds ≤ L / ds * ds := Nat.mul_le_mul_right ds hi
      rw [Nat.add_mul] at h2
      omega
    rw [hget i (by rw [Nat.zero_add]; omega) hi]
    have hf : filtered = true ↔ ¬ (isTime = true ∨ factor ≤ 1) := by
      rw [hfilt, hds]
      cases isTime <;> simp
    by_cases hc : isTime = true ∨ factor ≤ 1
    · have : ¬ filtered = true := fun hx => hf.mp hx hc
      rw [if_pos hc, if_neg this, hsel, List.getElem?_take_of_lt hiL]
    · rw [if_neg hc, if_pos (hf.mpr hc), lowpass_eq, hsel, run_take, List.getElem?_take_of_lt hiL]

/-- An empty range leaves the destination as it is. -/
theorem C63_empty (fl : ℚ → ℚ) (zero : α) (f : SampleFilter α σ) (h5 isTime : Bool) (maxElements : ℕ) (src dst : List α) (startN : ℕ) (endN : Option ℕ)
    (factor : ℕ) (he : selected src startN endN = []) : downsample fl zero f h5 isTime maxElements src dst startN endN factor = .ok dst := by
  obtain ⟨-, hsellen⟩ := selected_eq src startN endN
  rw [he, List.length_nil] at hsellen
  unfold downsample
  simp only []
  rw [if_pos hsellen.symm]

/-- The reader takes blocks of four million samples; a factor of 3 makes blocks of 1333333 results. -/
theorem ob_third {fl : ℚ → ℚ} (h : AccRounding fl) : (pyRound (fl (((4000000 : ℕ) : ℚ) / (3 : ℕ)))).toNat = 1333333 := by
  have e := h.err (((4000000 : ℕ) : ℚ) / (3 : ℕ))
  have h2 : (2 : ℚ) ^ (-1075 : ℤ) ≤ 2 ^ (-10 : ℤ) := by apply zpow_le_zpow_right₀ (by norm_num) (by norm_num)
  rw [show (2 : ℚ) ^ (-10 : ℤ) = 1 / 1024 by norm_num] at h2
  have h3 : |((4000000 : ℕ) : ℚ) / (3 : ℕ)| / 2 ^ 53 ≤ 1 / 1024 := by norm_num [abs_of_pos]
  have h4 := abs_le.mp (le_trans e (add_le_add h3 h2))
  have : pyRound (fl (((4000000 : ℕ) : ℚ) / (3 : ℕ))) = 1333333 := by
    apply pyRound_eq_of_lt
    generalize fl (((4000000 : ℕ) : ℚ) / (3 : ℕ)) = y at h4
    norm_num at h4 ⊢
    rw [abs_lt]
    constructor <;> linarith [h4.1, h4.2]
  rw [this]; rfl

/-- **C63, violated: the grid.**  Eight million time stamps (80 s at 100 kHz), factor 3, blocks of four million: the result begins with the samples 0, 3, 6, …, and sample
1333333 of the result is sample 4000000 of the recording, not 3999999, as every block begins a new grid. -/
theorem C63_grid_violated {fl : ℚ → ℚ} (h : AccRounding fl) (zero : α) (f : SampleFilter α σ) (h5 : Bool) (src dst : List α) (hlen : src.length = 8000000) :
    ∃ out, downsample fl zero f h5 true 4000000 src dst 0 none 3 = .ok out ∧ out.length = 2666666 ∧ out[1333332]? = src[1333332 * 3]? ∧
      out[1333333]? = src[1333333 * 3 + 1]? := by
  have hit : ⌈fl (((8000000 : ℕ) : ℚ) / (4000000 : ℕ))⌉.toNat = 2 := ceil_div h (by norm_num) (by norm_num) (by norm_num)
  have hdl : ⌊fl (((8000000 : ℕ) : ℚ) / (3 : ℕ))⌋.toNat = 8000000 / 3 := floor_div h (by norm_num) (by norm_num) (by norm_num)
  have hob := ob_third h
  obtain ⟨s1, d1, e1, g1, l1, -, v1⟩ := dsPass_core f h5 false src 0 4000000 1333333 3 8000000 0 f.init (resizeTo zero (8000000 / 3) dst) (by norm_num)
    (by omega) (by omega) (by intro j hj; omega) (by intro hf; cases hf) (resizeTo_length _ _ _)
  obtain ⟨s2, d2, e2, g2, l2, o2, v2⟩ := dsPass_core f h5 false src 0 4000000 1333333 3 8000000 1 s1 d1 (by norm_num)
    (by omega) (by omega) (by intro j hj; omega) (by intro hf; cases hf) l1
  refine ⟨d2, ?_, by rw [l2], ?_, ?_⟩
  · unfold downsample
    simp only [dsEnd, hlen, Nat.zero_min, Nat.min_zero, Nat.sub_zero, show max 1 3 = 3 from rfl, show min 4000000 8000000 = 4000000 from rfl, hit, hdl, hob,
      Bool.not_true, Bool.false_and]
    rw [if_neg (by norm_num)]
    have : dsLoop f h5 false src 0 4000000 1333333 3 (8000000 / 3) (0 + 1 + 1) 0 f.init (resizeTo zero (8000000 / 3) dst) = .ok d2 := by
      simp only [dsLoop, e1, e2]
    rw [show (2 : ℕ) = 0 + 1 + 1 from rfl, this]
    simp only []
    have hl : (((1333333 * (0 + 1 + 1 - 1) : ℕ) : ℤ) + min (((8000000 / 3 : ℕ) : ℤ) - ((0 + 1 + 1 - 1 : ℕ) : ℤ) * ((1333333 : ℕ) : ℤ)) ((1333333 : ℕ) : ℤ)).toNat = d2.length := by
      rw [l2]; rfl
    rw [hl, resizeTo_self]
  · have := o2 1333332 (by norm_num)
    rw [this]
    have := v1 1333332 (by norm_num)
    simp only [Nat.zero_mul, Nat.zero_add, Bool.false_eq_true, if_false, List.drop_zero] at this
    exact this
  · have := v2 0 (by norm_num)
    simp only [Nat.one_mul, Nat.add_zero, Nat.zero_mul, Bool.false_eq_true, if_false, List.drop_zero] at this
    exact this

/-- The first three blocks of a long recording are complete. -/
theorem fit_third (L iter : ℕ) (hL : 12000000 ≤ L) (hi : iter ≤ 2) : iter * 1333333 ≤ L / 3 ∧ ∀ j, j < min (L / 3 - iter * 1333333) 1333333 → j * 3 < min 4000000 (L - iter * 4000000) := by
  refine ⟨by omega, ?_⟩
  intro j hj
  omega

/-- **C63, violated: down-sampling fails.**  Recordings of 12000006, 12000009, … samples (120 s at 100 kHz) can not be down-sampled by 3: for the last block there are too few
samples, because of the samples lost in the blocks before. -/
theorem C63_fails_violated {fl : ℚ → ℚ} (h : AccRounding fl) (zero : α) (f : SampleFilter α σ) (isTime : Bool) (src dst : List α) (k : ℕ) (hk : 2 ≤ k)
    (hk2 : k < 1333333) (hlen : src.length = 12000000 + 3 * k) : downsample fl zero f true isTime 4000000 src dst 0 none 3 = .error .typeError := by
  obtain ⟨L, hL⟩ : ∃ L, L = 12000000 + 3 * k := ⟨_, rfl⟩
  rw [← hL] at hlen
  have hL3 : L / 3 = 4000000 + k := by omega
  have hit : ⌈fl ((L : ℚ) / (4000000 : ℕ))⌉.toNat = 4 := by
    rw [ceil_div h (by norm_num) (by omega) (by norm_num)]
    omega
  have hdl : ⌊fl ((L : ℚ) / (3 : ℕ))⌋.toNat = L / 3 := floor_div h (by norm_num) (by omega) (by norm_num)
  have hob := ob_third h
  set filtered := (!isTime && decide (1 < 3)) with hfl
  obtain ⟨s1, d1, e1, g1, l1, -, -⟩ := dsPass_core f true filtered src 0 4000000 1333333 3 L 0 f.init (resizeTo zero (L / 3) dst) (by norm_num)
    (by omega) (fit_third L 0 (by omega) (by norm_num)).1 (fit_third L 0 (by omega) (by norm_num)).2 (by intro _; simp [SampleFilter.run]) (resizeTo_length _ _ _)
  obtain ⟨s2, d2, e2, g2, l2, -, -⟩ := dsPass_core f true filtered src 0 4000000 1333333 3 L 1 s1 d1 (by norm_num)
    (by omega) (fit_third L 1 (by omega) (by norm_num)).1 (fit_third L 1 (by omega) (by norm_num)).2 g1 l1
  obtain ⟨s3, d3, e3, g3, l3, -, -⟩ := dsPass_core f true filtered src 0 4000000 1333333 3 L 2 s2 d2 (by norm_num)
    (by omega) (fit_third L 2 (by omega) (by norm_num)).1 (fit_third L 2 (by omega) (by norm_num)).2 g2 l2
  have e4 : dsPass f true filtered src 0 4000000 1333333 3 (L / 3) 3 s3 d3 = .error .typeError := by
    have hsl : (dsSlice src (0 + 3 * 4000000) (0 + (3 + 1) * 4000000)).length = 3 * k := by rw [dsSlice_length, hlen, hL]; omega
    obtain ⟨r, hr⟩ : ∃ r, r = (if filtered then f.run s3 (dsSlice src (0 + 3 * 4000000) (0 + (3 + 1) * 4000000)) else (dsSlice src (0 + 3 * 4000000) (0 + (3 + 1) * 4000000), s3)) := ⟨_, rfl⟩
    have hrl : r.1.length = 3 * k := by rw [hr]; split_ifs <;> simp [run_length, hsl]
    have hst : (stride 3 r.1).length = k := by
      apply le_antisymm
      · by_contra hc
        have := stride_get 3 (by norm_num) r.1 k
        rw [List.getElem?_eq_none (l := r.1) (by omega), List.getElem?_eq_none_iff] at this
        omega
      · exact stride_length_ge 3 (by norm_num) r.1 k (by intro j hj; omega)
    have hint : min (((L / 3 : ℕ) : ℤ) - ((3 : ℕ) : ℤ) * ((1333333 : ℕ) : ℤ)) ((1333333 : ℕ) : ℤ) = ((k + 1 : ℕ) : ℤ) := by rw [hL3]; omega
    have hsel : (dsSlice d3 (3 * 1333333) ((3 + 1) * 1333333)).length = k + 1 := by rw [dsSlice_length, l3, hL3]; omega
    have hv : (takeInt (min (((L / 3 : ℕ) : ℤ) - ((3 : ℕ) : ℤ) * ((1333333 : ℕ) : ℤ)) ((1333333 : ℕ) : ℤ)) (stride 3 r.1)).length = k := by
      rw [hint, takeInt, if_pos (by positivity), Int.toNat_natCast, List.length_take, hst]
      omega
    have hasg : ∀ v : List α, v.length = k → assignSlice true d3 (3 * 1333333) ((3 + 1) * 1333333) v = .error .typeError := by
      intro v hvk
      unfold assignSlice
      simp only [hsel, hvk]
      rw [if_neg (by omega), if_neg (by omega)]
      match v, hvk with
      | [], _ => rfl
      | [_], hvk => simp at hvk; omega
      | _ :: _ :: _, _ => rfl
    unfold dsPass
    simp only []
    rw [← hr, hasg _ hv]
  unfold downsample
  simp only [dsEnd, hlen, Nat.zero_min, Nat.min_zero, Nat.sub_zero, show max 1 3 = 3 from rfl, show min 4000000 L = 4000000 by omega, hit, hdl, hob]
  rw [if_neg (by omega), ← hfl]
  have : dsLoop f true filtered src 0 4000000 1333333 3 (L / 3) (0 + 1 + 1 + 1 + 1) 0 f.init (resizeTo zero (L / 3) dst) = .error .typeError := by
    simp only [dsLoop, e1, e2, e3, e4]
  rw [show (4 : ℕ) = 0 + 1 + 1 + 1 + 1 from rfl, this]

end

/-! ## Examples -/

/-- A filter with memory: the running sum. -/
def sumFilter : SampleFilter ℤ ℤ where
  init := 0
  step := fun s x => (s + x, s + x)

/-- The hypotheses of `C63_downsample_partial` are met: eleven samples in blocks of four, from the second one on, every second one. -/
example : (max 1 2 ∣ 4 ∨ (selected [1, 2, 3, 4, 5, 6, 7, 8, 9, 10, 11] 1 none).length ≤ 4) ∧ selected [1, 2, 3, 4, 5, 6, 7, 8, 9, 10, 11] 1 none ≠ [] ∧
    (match downsample b64 0 sumFilter true true 4 [1, 2, 3, 4, 5, 6, 7, 8, 9, 10, 11] [] 1 none 2 with | .ok r => decide (r = [2, 4, 6, 8, 10]) | .error _ => false) = true ∧
    (match downsample b64 0 sumFilter true false 4 [1, 2, 3, 4, 5, 6, 7, 8, 9, 10, 11] [] 1 none 2 with | .ok r => decide (r = [2, 9, 20, 35, 54]) | .error _ => false) = true := by
  refine ⟨by decide, by decide, by decide +kernel, by decide +kernel⟩

/-- A factor that does not divide the size of the blocks: with blocks of five the grid 0, 3, 6 breaks. -/
example : (match downsample b64 0 sumFilter true true 5 [0, 1, 2, 3, 4, 5, 6, 7, 8, 9] [] 0 none 3 with | .ok r => decide (r = [0, 3, 5]) | .error _ => false) = true := by decide +kernel

end Verif.Props
