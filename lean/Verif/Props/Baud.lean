import Verif.Model.Baud
import Verif.Props.Uart
import Verif.Props.CutFile
import Mathlib.Tactic.LinearCombination

/-!
# C79: detection of the baud rate
-/

namespace Verif.Props
open Verif.Py Verif.Model

/-! ## Specification -/

/-- Exact distances of neighbouring edges. -/
def distances (rows : List (ℚ × Bool)) : List ℚ := List.zipWith (fun a b => b.1 - a.1) rows rows.tail

/-- The distances that stand for a single bit at `ν` bits per second. -/
def singles (ν : ℚ) (ds : List ℚ) : List ℚ := ds.filter (fun d => d * ν ≤ 3 / 2)

/-- Every distance is about one bit time, or about two or more. -/
def Ticks (ν : ℚ) (ds : List ℚ) : Prop := ∀ d ∈ ds, |d * ν - 1| ≤ 9 / 100 ∨ 19 / 10 ≤ d * ν

/-- What is known of `np.mean`: up to 1000 positive values are averaged with a small relative error, whatever the order of the summation. -/
def MeanClose (npMean : List ℚ → ℚ) : Prop :=
  ∀ l : List ℚ, l ≠ [] → l.length ≤ 1000 → (∀ x ∈ l, 1 / 10 ^ 10 ≤ x) → |npMean l - l.sum / l.length| ≤ l.sum / l.length / 2 ^ 40

/-- Phases show the line at `ν` bits per second: levels agree, and the distance of the edges of every part that is not idle is off by at most `τ` bit times. -/
inductive PhasesWithin (τ ν : ℚ) : List Phase → List Seg → Prop
  | last (p : Phase) (s : Seg) (h1 : p.level = s.level) (h2 : s.idle = true) : PhasesWithin τ ν [p] [s]
  | cons (p q : Phase) (ps : List Phase) (s : Seg) (segs : List Seg) (h1 : p.level = s.level)
      (h2 : s.idle = true ∨ |(q.time - p.time) * ν - s.dur| ≤ τ) (h3 : PhasesWithin τ ν (q :: ps) segs) : PhasesWithin τ ν (p :: q :: ps) (s :: segs)

/-! ## Lemmas -/

/-- Errors of a value of about a bit time. -/
theorem err_unit {fl : ℚ → ℚ} (h : AccRounding fl) {U : ℚ} (hU : 1 / 10 ^ 9 ≤ U) {x : ℚ} (h0 : 0 ≤ x) (h2 : x ≤ 2 * U) : |fl x - x| ≤ U / 2 ^ 50 := by
  have e := h.err x
  rw [abs_of_nonneg h0] at e
  have h3 : (2 : ℚ) ^ (-1075 : ℤ) ≤ 2 ^ (-90 : ℤ) := by apply zpow_le_zpow_right₀ (by norm_num) (by norm_num)
  have h4 : (2 : ℚ) ^ (-90 : ℤ) ≤ 1 / 10 ^ 9 / 2 ^ 53 := by norm_num
  have h5 : x / 2 ^ 53 ≤ 2 * U / 2 ^ 53 := by apply div_le_div_of_nonneg_right h2 (by norm_num)
  have h6 : (1 : ℚ) / 10 ^ 9 / 2 ^ 53 ≤ U / 2 ^ 53 := by apply div_le_div_of_nonneg_right hU (by norm_num)
  generalize (2 : ℚ) ^ (-1075 : ℤ) = z at *
  norm_num at *
  linarith

/-- A sorted list begins with its small values. -/
theorem sorted_small {l : List ℚ} (c : ℚ) (j : ℕ) (hj : j < (l.filter (fun x => x ≤ c)).length) : ∃ x, (l.insertionSort (· ≤ ·))[j]? = some x ∧ x ∈ l ∧ x ≤ c := by
  have hp := List.perm_insertionSort (· ≤ ·) l
  have hs : (l.insertionSort (· ≤ ·)).Pairwise (· ≤ ·) := List.pairwise_insertionSort (· ≤ ·) l
  have hf : ((l.insertionSort (· ≤ ·)).filter (fun x => x ≤ c)).length = (l.filter (fun x => x ≤ c)).length := (hp.filter _).length_eq
  have hmem : ∀ x, x ∈ l.insertionSort (· ≤ ·) → x ∈ l := fun x hx => hp.mem_iff.mp hx
  generalize l.insertionSort (· ≤ ·) = s at *
  rw [← hf] at hj
  have hjs : j < s.length := lt_of_lt_of_le hj (List.length_filter_le _ _)
  refine ⟨s[j], by rw [List.getElem?_eq_getElem hjs], hmem _ (List.getElem_mem hjs), ?_⟩
  by_contra hc
  have h1 : (s.filter (fun x => x ≤ c)).length ≤ j := by
    conv_lhs => rw [← List.take_append_drop j s]
    rw [List.filter_append, List.length_append]
    have h2 : (s.drop j).filter (fun x => x ≤ c) = [] := by
      rw [List.filter_eq_nil_iff]
      intro x hx
      obtain ⟨k, hk, rfl⟩ := List.getElem_of_mem hx
      rw [List.getElem_drop]
      rw [List.length_drop] at hk
      have : s[j] ≤ s[j + k] := by
        rcases Nat.eq_zero_or_pos k with rfl | hk0
        · exact le_refl _
        · exact (List.pairwise_iff_getElem.mp hs) j (j + k) hjs (by omega) (by omega)
      simp only [decide_eq_true_eq]
      linarith
    rw [h2, List.length_nil, Nat.add_zero]
    exact (List.length_filter_le _ _).trans (by rw [List.length_take]; omega)
  omega

/-- The interpolation stays between its ends. -/
theorem percentile_near {fl : ℚ → ℚ} (h : AccRounding fl) {U : ℚ} (hU : 1 / 10 ^ 9 ≤ U) (l : List ℚ) (hlen : l.length ≤ 1000)
    (hmany : l.length + 9 < 10 * (l.filter (fun x => x ≤ 3 / 2 * U)).length) (hl : ∀ x ∈ l, x ≤ 3 / 2 * U → 90 / 100 * U ≤ x ∧ x ≤ 110 / 100 * U) (lo hi : ℚ)
    (hlo : ∀ x ∈ l, lo ≤ x) (hhi : ∀ x ∈ l, x ≤ 3 / 2 * U → x ≤ hi) :
    lo - U / 2 ^ 40 ≤ percentile10 fl l ∧ percentile10 fl l ≤ hi + U / 2 ^ 40 := by
  have hU0 : 0 < U := lt_of_lt_of_le (by norm_num) hU
  have hn1 : 1 ≤ l.length := by
    by_contra h0
    have : l = [] := List.length_eq_zero_iff.mp (by omega)
    rw [this] at hmany
    simp at hmany
  -- the index
  have e1 := abs_le.mp (err_small h (1 / 10) 1 (by norm_num) (by norm_num))
  have hN : (((l.length - 1 : ℕ) : ℚ)) ≤ 999 := by exact_mod_cast (by omega : l.length - 1 ≤ 999)
  have hN0 : (0 : ℚ) ≤ ((l.length - 1 : ℕ) : ℚ) := by positivity
  have hf0 : 0 ≤ fl (1 / 10) := h.toRounding.nonneg (by norm_num)
  have hv1 : ((l.length - 1 : ℕ) : ℚ) * fl (1 / 10) ≤ ((l.length - 1 : ℕ) : ℚ) / 10 + 1 / 100 := by
    norm_num at e1 ⊢
    nlinarith [e1.2]
  have hv0 : 0 ≤ ((l.length - 1 : ℕ) : ℚ) * fl (1 / 10) := by positivity
  have e2 := abs_le.mp (err_small h (((l.length - 1 : ℕ) : ℚ) * fl (1 / 10)) 100 hv0 (by linarith))
  have hvv0 : 0 ≤ fl (((l.length - 1 : ℕ) : ℚ) * fl (1 / 10)) := h.toRounding.nonneg hv0
  unfold percentile10
  dsimp only
  generalize hv : fl (((l.length - 1 : ℕ) : ℚ) * fl (1 / 10)) = v at *
  have hvs : v < ((l.filter (fun x => x ≤ 3 / 2 * U)).length : ℚ) - 1 := by
    have : ((l.length - 1 : ℕ) : ℚ) / 10 + 1 / 10 ≤ ((l.filter (fun x => x ≤ 3 / 2 * U)).length : ℚ) - 1 := by
      have h1 : l.length - 1 + 11 ≤ 10 * (l.filter (fun x => x ≤ 3 / 2 * U)).length := by omega
      have h2 : ((l.length - 1 : ℕ) : ℚ) + 11 ≤ 10 * ((l.filter (fun x => x ≤ 3 / 2 * U)).length : ℚ) := by exact_mod_cast h1
      linarith
    norm_num at e2
    linarith [e2.2]
  have hfl0 : 0 ≤ ⌊v⌋ := Int.floor_nonneg.mpr hvv0
  have hi1 : ⌊v⌋.toNat + 1 < (l.filter (fun x => x ≤ 3 / 2 * U)).length := by
    have h1 : ((⌊v⌋ : ℤ) : ℚ) ≤ v := Int.floor_le v
    have h2 : ((⌊v⌋ : ℤ) : ℚ) < (((l.filter (fun x => x ≤ 3 / 2 * U)).length : ℤ) - 1 : ℤ) := by push_cast; linarith
    have h3 : ⌊v⌋ < ((l.filter (fun x => x ≤ 3 / 2 * U)).length : ℤ) - 1 := by exact_mod_cast h2
    omega
  obtain ⟨a, ha, hal, hac⟩ := sorted_small (l := l) (3 / 2 * U) ⌊v⌋.toNat (Nat.lt_of_succ_lt hi1)
  obtain ⟨b, hb, hbl, hbc⟩ := sorted_small (3 / 2 * U) (⌊v⌋.toNat + 1) hi1
  have hab : a ≤ b := by
    have hs : (l.insertionSort (· ≤ ·)).Pairwise (· ≤ ·) := List.pairwise_insertionSort (· ≤ ·) l
    obtain ⟨h1, rfl⟩ := List.getElem?_eq_some_iff.mp ha
    obtain ⟨h2, rfl⟩ := List.getElem?_eq_some_iff.mp hb
    exact (List.pairwise_iff_getElem.mp hs) _ _ h1 h2 (by omega)
  rw [List.getD_eq_getElem?_getD, ha, List.getD_eq_getElem?_getD, hb]
  simp only [Option.getD_some]
  have ha1 := hl a hal hac
  have hb1 := hl b hbl hbc
  have hla := hlo a hal
  have hhb := hhi b hbl hbc
  -- the fraction
  have hg0 : 0 ≤ fl (v - ⌊v⌋) := h.toRounding.nonneg (by linarith [Int.floor_le v])
  have hg1 : fl (v - ⌊v⌋) ≤ 1 := by
    have := h.toRounding.le_int (n := 1) (x := v - ⌊v⌋) (by norm_num) (by push_cast; linarith [Int.lt_floor_add_one v])
    exact_mod_cast this
  generalize fl (v - ⌊v⌋) = g at *
  have ed := abs_le.mp (err_unit h hU (x := b - a) (by linarith) (by linarith))
  have hd0 : 0 ≤ fl (b - a) := h.toRounding.nonneg (by linarith)
  generalize fl (b - a) = d at *
  have part : ∀ t : ℚ, 0 ≤ t → t ≤ 1 → 0 ≤ fl (d * t) ∧ fl (d * t) ≤ b - a + U / 2 ^ 49 := by
    intro t h0 h1
    have hdt : d * t ≤ d := by nlinarith
    have hdt0 : 0 ≤ d * t := by positivity
    have e := abs_le.mp (err_unit h hU (x := d * t) hdt0 (by norm_num at ed; linarith [ed.2]))
    refine ⟨h.toRounding.nonneg hdt0, ?_⟩
    norm_num at ed e ⊢
    linarith [e.2, ed.2]
  split_ifs with hg
  · obtain ⟨p0, p1⟩ := part g hg0 hg1
    generalize fl (d * g) = p at *
    norm_num at p1
    have e := abs_le.mp (err_unit h hU (x := a + p) (by linarith only [p0, ha1.1, hU0]) (by linarith only [p1, hb1.2, hU0]))
    norm_num at e ⊢
    constructor <;> linarith only [e.1, e.2, p0, p1, hla, hhb, hU0, hab]
  · have h10 : 0 ≤ fl (1 - g) := h.toRounding.nonneg (by linarith only [hg1])
    have h11 : fl (1 - g) ≤ 1 := by
      have := h.toRounding.le_int (n := 1) (x := 1 - g) (by norm_num) (by push_cast; linarith only [hg0])
      exact_mod_cast this
    obtain ⟨p0, p1⟩ := part (fl (1 - g)) h10 h11
    generalize fl (d * fl (1 - g)) = p at *
    norm_num at p1
    have e := abs_le.mp (err_unit h hU (x := b - p) (by linarith only [p1, ha1.1, hU0]) (by linarith only [p0, hb1.2, hU0]))
    norm_num at e ⊢
    constructor <;> linarith only [e.1, e.2, p0, p1, hla, hhb, hU0, hab]

theorem edgeSteps_eq (fl : ℚ → ℚ) (rows : List (ℚ × Bool)) : edgeSteps fl rows = (distances rows).map fl := by
  unfold edgeSteps distances
  rw [List.map_zipWith]

theorem sum_near {fl : ℚ → ℚ} (c : ℚ) : ∀ l : List ℚ, (∀ x ∈ l, |fl x - x| ≤ c) → |(l.map fl).sum - l.sum| ≤ l.length * c
  | [], _ => by simp
  | x :: l, h => by
    have ih := abs_le.mp (sum_near c l (fun y hy => h y (List.mem_cons_of_mem _ hy)))
    have h1 := abs_le.mp (h x (by simp))
    rw [List.map_cons, List.sum_cons, List.sum_cons, List.length_cons, abs_le]
    push_cast
    constructor <;> linarith [ih.1, ih.2, h1.1, h1.2]

theorem sum_between {a b : ℚ} : ∀ l : List ℚ, (∀ x ∈ l, a ≤ x ∧ x ≤ b) → l.length * a ≤ l.sum ∧ l.sum ≤ l.length * b
  | [], _ => by simp
  | x :: l, h => by
    have ih := sum_between l (fun y hy => h y (List.mem_cons_of_mem _ hy))
    have h1 := h x (by simp)
    rw [List.sum_cons, List.length_cons]
    push_cast
    constructor <;> linarith [ih.1, ih.2, h1.1, h1.2]

/-! ## Theorems -/

/-- **C79, detection.**  If every distance of the first 1000 edges is about one bit time or at least (about) two, except for edges at the same time, and more than a tenth are single bit times, the detected
baud rate is as close to the real one (`ν`) as the mean of the single bit times, up to rounding to a whole number. -/
theorem C79_detect {fl : ℚ → ℚ} (h : AccRounding fl) {npMean : List ℚ → ℚ} (hmean : MeanClose npMean) (rows : List (ℚ × Bool)) (ν μ : ℚ) (hν : 1 ≤ ν ∧ ν ≤ 10 ^ 9) (ds : List ℚ)
    (hsorted : ∀ d ∈ distances (rows.take 1000), 0 ≤ d) (hds : ds = (distances (rows.take 1000)).filter (fun d => 0 < d))
    (hticks : Ticks ν ds) (hmany : ds.length + 9 < 10 * (singles ν ds).length) (hμ : |(singles ν ds).sum / (singles ν ds).length * ν - 1| ≤ μ) :
    ∃ b, detectBaud fl npMean rows = .ok b ∧ |(b : ℚ) - ν| ≤ 1 / 2 + ν * (11 / 10 * μ + 1 / 2 ^ 30) := by
  obtain ⟨hν1, hν2⟩ := hν
  have hν0 : 0 < ν := by linarith
  obtain ⟨U, hUdef⟩ : ∃ U, U = 1 / ν := ⟨_, rfl⟩
  have hUν : U * ν = 1 := by rw [hUdef]; field_simp
  have hU0 : 0 < U := by rw [hUdef]; positivity
  have hU : 1 / 10 ^ 9 ≤ U := by rw [hUdef]; exact one_div_le_one_div_of_le hν0 hν2
  have hdiv : ∀ x c : ℚ, x * ν ≤ c ↔ x ≤ c * U := by
    intro x c
    rw [hUdef, mul_one_div, le_div_iff₀ hν0]
  have hdiv' : ∀ x c : ℚ, c ≤ x * ν ↔ c * U ≤ x := by
    intro x c
    rw [hUdef, mul_one_div, div_le_iff₀ hν0]
  have hlen : ds.length ≤ 1000 := by
    rw [hds]
    refine (List.length_filter_le _ _).trans ?_
    unfold distances
    simp only [List.length_zipWith, List.length_tail, List.length_take]
    omega
  unfold detectBaud
  rw [edgeSteps_eq]
  dsimp only
  generalize distances (rows.take 1000) = D at *
  have hs : singles ν ds = ds.filter (fun d => d ≤ 3 / 2 * U) := by
    unfold singles
    apply List.filter_congr
    intro d _
    simp only [hdiv]
  rw [hs] at hmany hμ
  -- the rounded distances
  have hfar := abs_le.mp (err_unit h hU (x := 19 / 10 * U) (by positivity) (by linarith))
  have hd : ∀ d ∈ ds, (d ≤ 3 / 2 * U ∧ 91 / 100 * U ≤ d ∧ d ≤ 109 / 100 * U ∧ |fl d - d| ≤ U / 2 ^ 50) ∨ (3 / 2 * U < d ∧ 189 / 100 * U ≤ fl d) := by
    intro d hd
    rcases hticks d hd with hn | hn
    · obtain ⟨h1, h2⟩ := abs_le.mp hn
      have h3 := (hdiv' d (91 / 100)).mp (by linarith)
      have h4 := (hdiv d (109 / 100)).mp (by linarith)
      exact .inl ⟨by linarith, h3, h4, err_unit h hU (by linarith) (by linarith)⟩
    · have h1 := (hdiv' d (19 / 10)).mp hn
      have h2 := h.mono h1
      refine .inr ⟨by linarith, ?_⟩
      norm_num at hfar
      linarith [hfar.1]
  have hnear : ∀ d ∈ ds, (fl d ≤ 3 / 2 * U ↔ d ≤ 3 / 2 * U) ∧ (d ≤ 3 / 2 * U → 909 / 1000 * U ≤ fl d ∧ fl d ≤ 1091 / 1000 * U) ∧ 909 / 1000 * U ≤ fl d ∧ (¬ d ≤ 3 / 2 * U → 189 / 100 * U ≤ fl d) := by
    intro d hdm
    rcases hd d hdm with ⟨h0, h1, h2, h3⟩ | ⟨h1, h2⟩
    · obtain ⟨h4, h5⟩ := abs_le.mp h3
      norm_num at h4 h5
      have h6 : 909 / 1000 * U ≤ fl d := by linarith
      have h7 : fl d ≤ 1091 / 1000 * U := by linarith
      exact ⟨⟨fun _ => h0, fun _ => by linarith⟩, fun _ => ⟨h6, h7⟩, h6, fun hc => absurd h0 hc⟩
    · exact ⟨⟨fun _ => by linarith, fun _ => by linarith⟩, fun _ => by linarith, by linarith, fun _ => h2⟩
  have hzero : fl 0 = 0 := by simpa using h.exact 0 0 (by norm_num) (by norm_num)
  have hpos : (D.map fl).filter (fun x => 0 < x) = ds.map fl := by
    rw [List.filter_map, hds]
    congr 1
    apply List.filter_congr
    intro d hd
    simp only [Function.comp_apply, decide_eq_decide]
    by_cases h0 : 0 < d
    · have := (hnear d (by rw [hds, List.mem_filter]; exact ⟨hd, by simpa using h0⟩)).2.2.1
      have h1 : 0 < 909 / 1000 * U := by positivity
      exact ⟨fun _ => h0, fun _ => by linarith⟩
    · have h1 : d = 0 := le_antisymm (not_lt.mp h0) (hsorted d hd)
      rw [h1, hzero]
  have hfilt : (ds.map fl).filter (fun x => x ≤ 3 / 2 * U) = (ds.filter (fun d => d ≤ 3 / 2 * U)).map fl := by
    rw [List.filter_map]
    congr 1
    apply List.filter_congr
    intro d hd
    simp only [Function.comp_apply, (hnear d hd).1]
  have hne : ds.filter (fun d => d ≤ 3 / 2 * U) ≠ [] := by
    intro h0
    rw [h0] at hmany
    simp at hmany
  have hne2 : ds.map fl ≠ [] := by
    intro h0
    rw [List.map_eq_nil_iff] at h0
    rw [h0] at hne
    exact hne rfl
  obtain ⟨s1, s2⟩ := percentile_near h hU (ds.map fl) (by rw [List.length_map]; exact hlen) (by rw [hfilt, List.length_map, List.length_map]; exact hmany)
    (by
      intro x hx hc
      obtain ⟨d, hd, rfl⟩ := List.mem_map.mp hx
      have := (hnear d hd).2.1 ((hnear d hd).1.mp hc)
      constructor <;> linarith [this.1, this.2]) (909 / 1000 * U) (1091 / 1000 * U)
    (by
      intro x hx
      obtain ⟨d, hd, rfl⟩ := List.mem_map.mp hx
      exact (hnear d hd).2.2.1)
    (by
      intro x hx hc
      obtain ⟨d, hd, rfl⟩ := List.mem_map.mp hx
      exact ((hnear d hd).2.1 ((hnear d hd).1.mp hc)).2)
  rw [hpos, if_neg hne2]
  generalize percentile10 fl (ds.map fl) = st at *
  have hst1 : 908 / 1000 * U ≤ st := by norm_num at s1; linarith
  have hst2 : st ≤ 1092 / 1000 * U := by norm_num at s2; linarith
  have c1 := abs_le.mp (err_small h (66 / 100) 1 (by norm_num) (by norm_num))
  have c2 := abs_le.mp (err_small h (133 / 100) 2 (by norm_num) (by norm_num))
  have g10 : 0 ≤ fl (66 / 100) := h.toRounding.nonneg (by norm_num)
  generalize fl (66 / 100) = g1 at *
  generalize fl (133 / 100) = g2 at *
  norm_num at c1 c2
  have p1 : g1 * st ≤ 661 / 1000 * (1092 / 1000 * U) := mul_le_mul (by linarith [c1.2]) hst2 (by linarith) (by norm_num)
  have p1'' : 659 / 1000 * (908 / 1000 * U) ≤ g1 * st := mul_le_mul (by linarith [c1.1]) hst1 (by positivity) g10
  have p1' : 0 ≤ g1 * st := mul_nonneg g10 (by linarith)
  have p2 : g2 * st ≤ 1331 / 1000 * (1092 / 1000 * U) := mul_le_mul (by linarith [c2.2]) hst2 (by linarith) (by norm_num)
  have p2' : 1329 / 1000 * (908 / 1000 * U) ≤ g2 * st := mul_le_mul (by linarith [c2.1]) hst1 (by positivity) (by linarith [c2.1])
  have e1 := abs_le.mp (err_unit h hU (x := g1 * st) p1' (by linarith))
  have e2 := abs_le.mp (err_unit h hU (x := g2 * st) (by linarith) (by linarith))
  generalize g1 * st = w1 at *
  generalize g2 * st = w2 at *
  norm_num at e1 e2
  have hsel : (D.map fl).filter (fun x => fl w1 ≤ x ∧ x ≤ fl w2) = (ds.filter (fun d => d ≤ 3 / 2 * U)).map fl := by
    have hD : (D.map fl).filter (fun x => fl w1 ≤ x ∧ x ≤ fl w2) = ((D.map fl).filter (fun x => 0 < x)).filter (fun x => fl w1 ≤ x ∧ x ≤ fl w2) := by
      rw [List.filter_filter]
      apply List.filter_congr
      intro x _
      rw [← Bool.decide_and, decide_eq_decide]
      refine ⟨fun hx => ⟨hx, ?_⟩, fun hx => hx.1⟩
      have h1 : 0 < 1 / 2 * U := by positivity
      linarith [e1.1, hx.1, p1'']
    rw [hD, hpos, List.filter_map]
    congr 1
    apply List.filter_congr
    intro d hd
    simp only [Function.comp_apply, decide_eq_decide]
    obtain ⟨-, n2, n3, n4⟩ := hnear d hd
    constructor
    · rintro ⟨-, hc⟩
      by_contra hcon
      have := n4 hcon
      linarith [e2.2]
    · intro hc
      have := n2 hc
      constructor <;> linarith [e1.2, e2.1, this.1, this.2]
  rw [hsel]
  have hsd : ∀ d ∈ ds.filter (fun d => d ≤ 3 / 2 * U), 91 / 100 * U ≤ d ∧ d ≤ 109 / 100 * U ∧ |fl d - d| ≤ U / 2 ^ 50 := by
    intro d hdm
    rw [List.mem_filter, decide_eq_true_eq] at hdm
    rcases hd d hdm.1 with h1 | h1
    · exact h1.2
    · linarith [h1.1, hdm.2]
  have hsl : (ds.filter (fun d => d ≤ 3 / 2 * U)).length ≤ 1000 := (List.length_filter_le _ _).trans hlen
  generalize ds.filter (fun d => d ≤ 3 / 2 * U) = sg at *
  rw [if_neg (by simpa using hne)]
  have hn0 : (0 : ℚ) < sg.length := by
    have : 0 < sg.length := List.length_pos_iff.mpr hne
    exact_mod_cast this
  have hm := hmean (sg.map fl) (by simpa using hne) (by rw [List.length_map]; exact hsl) (by
    intro x hx
    obtain ⟨d, hd, rfl⟩ := List.mem_map.mp hx
    obtain ⟨a1, -, a3⟩ := hsd d hd
    obtain ⟨a4, -⟩ := abs_le.mp a3
    norm_num at a4 hU ⊢
    linarith)
  rw [List.length_map] at hm
  have hsum := abs_le.mp (sum_near (fl := fl) (U / 2 ^ 50) sg (fun d hd => (hsd d hd).2.2))
  obtain ⟨b1, b2⟩ := sum_between (a := 91 / 100 * U) (b := 109 / 100 * U) sg (fun d hd => ⟨(hsd d hd).1, (hsd d hd).2.1⟩)
  obtain ⟨M, hM⟩ : ∃ M, M = sg.sum / sg.length := ⟨_, rfl⟩
  obtain ⟨M', hM'⟩ : ∃ M', M' = (sg.map fl).sum / sg.length := ⟨_, rfl⟩
  rw [← hM'] at hm
  rw [← hM] at hμ
  have hM1 : 91 / 100 * U ≤ M := by rw [hM, le_div_iff₀ hn0]; linarith
  have hM2 : M ≤ 109 / 100 * U := by rw [hM, div_le_iff₀ hn0]; linarith
  have hMM : |M' - M| ≤ U / 2 ^ 50 := by
    rw [hM, hM', ← sub_div, abs_div, abs_of_pos hn0, div_le_iff₀ hn0, abs_le]
    constructor <;> linarith [hsum.1, hsum.2]
  obtain ⟨mm1, mm2⟩ := abs_le.mp hMM
  have hm' : |npMean (sg.map fl) - M| ≤ U / 2 ^ 38 := by
    obtain ⟨k1, k2⟩ := abs_le.mp hm
    rw [abs_le]
    norm_num at k1 k2 mm1 mm2 ⊢
    constructor <;> linarith
  generalize npMean (sg.map fl) = m at *
  clear hm hMM hM hM' hsum b1 b2 hsel hfilt hd hnear hpos s1 s2 hst1 hst2 e1 e2 p1 p1' p1'' p2 p2' c1 c2 hmany hticks hs hne2
  obtain ⟨k1, k2⟩ := abs_le.mp hm'
  have hm1 : 9099 / 10000 * U ≤ m := by norm_num at k1; linarith
  have hm0 : 0 < m := by have : 0 < 9099 / 10000 * U := by positivity
                         linarith
  rw [if_neg hm0.ne']
  refine ⟨_, rfl, ?_⟩
  -- the inverse
  have hMν : |M - U| ≤ μ * U := by
    have : (M * ν - 1) * U = M - U := by linear_combination M * hUν
    rw [← this, abs_mul, abs_of_pos hU0]
    exact mul_le_mul_of_nonneg_right hμ hU0.le
  have hmU : |m - U| ≤ (μ + 1 / 2 ^ 38) * U := by
    have := abs_sub_le m M U
    have h2 : (μ + 1 / 2 ^ 38) * U = μ * U + U / 2 ^ 38 := by ring
    linarith
  have hμ0 : 0 ≤ μ := (abs_nonneg _).trans hμ
  have hinv : |1 / m - ν| ≤ ν * (11 / 10 * (μ + 1 / 2 ^ 38)) := by
    have h1 : 1 / m - ν = (U - m) * (ν / m) := by
      field_simp
      linear_combination -hUν
    rw [h1, abs_mul, abs_sub_comm, abs_of_pos (by positivity : 0 < ν / m)]
    have h2 : ν / m ≤ ν * (11 / 10 * ν) := by
      rw [div_le_iff₀ hm0]
      have : 1 ≤ 11 / 10 * ν * m := by
        have : 9099 / 10000 * (U * ν) ≤ m * ν := by nlinarith
        rw [hUν] at this
        linarith
      nlinarith
    calc |m - U| * (ν / m) ≤ ((μ + 1 / 2 ^ 38) * U) * (ν * (11 / 10 * ν)) := mul_le_mul hmU h2 (by positivity) (by positivity)
      _ = ν * (11 / 10 * (μ + 1 / 2 ^ 38)) * (U * ν) := by ring
      _ = _ := by rw [hUν, mul_one]
  have him : 1 / m ≤ 11 / 10 * ν := by
    rw [div_le_iff₀ hm0]
    have : 9099 / 10000 * (U * ν) ≤ m * ν := by nlinarith
    rw [hUν] at this
    linarith
  have e := h.err (1 / m)
  rw [abs_of_pos (by positivity : 0 < 1 / m)] at e
  have hz : (2 : ℚ) ^ (-1075 : ℤ) ≤ 1 / 2 ^ 53 := by
    calc (2 : ℚ) ^ (-1075 : ℤ) ≤ 2 ^ (-53 : ℤ) := by apply zpow_le_zpow_right₀ (by norm_num) (by norm_num)
      _ = 1 / 2 ^ 53 := by norm_num
  have e' : |fl (1 / m) - 1 / m| ≤ ν / 2 ^ 50 := by
    generalize (2 : ℚ) ^ (-1075 : ℤ) = z at *
    refine e.trans ?_
    have : 1 / m / 2 ^ 53 ≤ 11 / 10 * ν / 2 ^ 53 := div_le_div_of_nonneg_right him (by norm_num)
    norm_num at this hz ⊢
    linarith
  have r1 := pyRound_sub_le (fl (1 / m))
  have r2 := sub_pyRound_le (fl (1 / m))
  obtain ⟨x1, x2⟩ := abs_le.mp e'
  obtain ⟨y1, y2⟩ := abs_le.mp hinv
  have hx : ν * (11 / 10 * μ + 1 / 2 ^ 30) = ν * (11 / 10 * (μ + 1 / 2 ^ 38)) + ν * (1 / 2 ^ 30 - 11 / 10 / 2 ^ 38) := by ring
  rw [hx, abs_le]
  generalize ν * (11 / 10 * (μ + 1 / 2 ^ 38)) = Q at *
  generalize pyRound (fl (1 / m)) = w at *
  generalize fl (1 / m) = w1 at *
  generalize 1 / m = w2 at *
  norm_num at x1 x2 ⊢
  constructor <;> linarith only [x1, x2, y1, y2, r1, r2, hν0]

/-- `C79_detect` without edges at the same time. -/
theorem detect_ticks {fl : ℚ → ℚ} (h : AccRounding fl) {npMean : List ℚ → ℚ} (hmean : MeanClose npMean) (rows : List (ℚ × Bool)) (ν μ : ℚ) (hν : 1 ≤ ν ∧ ν ≤ 10 ^ 9)
    (hticks : Ticks ν (distances (rows.take 1000))) (hmany : (distances (rows.take 1000)).length + 9 < 10 * (singles ν (distances (rows.take 1000))).length)
    (hμ : |(singles ν (distances (rows.take 1000))).sum / (singles ν (distances (rows.take 1000))).length * ν - 1| ≤ μ) :
    ∃ b, detectBaud fl npMean rows = .ok b ∧ |(b : ℚ) - ν| ≤ 1 / 2 + ν * (11 / 10 * μ + 1 / 2 ^ 30) := by
  have hp : ∀ d ∈ distances (rows.take 1000), 0 < d := by
    intro d hd
    have h0 : 0 < d * ν := by
      rcases hticks d hd with h1 | h1
      · linarith [(abs_le.mp h1).1]
      · linarith
    exact pos_of_mul_pos_left h0 (by linarith [hν.1])
  have he : (distances (rows.take 1000)).filter (fun d => 0 < d) = distances (rows.take 1000) := by
    rw [List.filter_eq_self]
    intro d hd
    simpa using hp d hd
  exact C79_detect h hmean rows ν μ hν _ (fun d hd => (hp d hd).le) he.symm hticks hmany hμ

/-- **C79, exact detection.**  If the mean of the single bit times is off by less than `0.45 / ν` (and so for exact time stamps up to 450 Mbaud), the baud rate is detected exactly. -/
theorem C79_exact {fl : ℚ → ℚ} (h : AccRounding fl) {npMean : List ℚ → ℚ} (hmean : MeanClose npMean) (rows : List (ℚ × Bool)) (baud : ℤ) (μ : ℚ) (hν : 1 ≤ baud ∧ baud ≤ 10 ^ 9)
    (hticks : Ticks baud (distances (rows.take 1000))) (hmany : (distances (rows.take 1000)).length + 9 < 10 * (singles baud (distances (rows.take 1000))).length)
    (hμ : |(singles baud (distances (rows.take 1000))).sum / (singles baud (distances (rows.take 1000))).length * baud - 1| ≤ μ)
    (hsmall : baud * (11 / 10 * μ + 1 / 2 ^ 30) < 1 / 2) : detectBaud fl npMean rows = .ok baud := by
  obtain ⟨b, e, hb⟩ := detect_ticks h hmean rows baud μ ⟨by exact_mod_cast hν.1, by exact_mod_cast hν.2⟩ hticks hmany hμ
  have h1 : |(b : ℚ) - baud| < 1 := by linarith
  have h2 : |b - baud| < 1 := by exact_mod_cast h1
  rw [e, Int.abs_lt_one_iff.mp h2 |> sub_eq_zero.mp]

theorem within_phases {τ ν : ℚ} {b : ℤ} (hν : 0 < ν) {c : ℚ} (hb : |(b : ℚ) - ν| ≤ c * ν) (N : ℚ) (hN : τ + (N + τ) * c ≤ 99 / 1000) {ps : List Phase} {segs : List Seg}
    (h : PhasesWithin τ ν ps segs) : (∀ s ∈ segs, s.idle = true ∨ (1 ≤ s.dur ∧ s.dur ≤ N)) → PhasesOf b ps segs := by
  induction h with
  | last p s h1 h2 => intro _; exact .last p s h1 h2
  | cons p q ps s segs h1 h2 h3 ih =>
    intro hd
    refine .cons p q ps s segs h1 ?_ (ih (fun x hx => hd x (List.mem_cons_of_mem _ hx)))
    rcases h2 with h2 | h2
    · exact .inl h2
    · rcases hd s (by simp) with h4 | ⟨h4, h5⟩
      · exact .inl h4
      · right
        generalize q.time - p.time = d at *
        have hτ : 0 ≤ τ := (abs_nonneg _).trans h2
        have hc : 0 ≤ c := by
          by_contra hneg
          have : c * ν < 0 := by nlinarith
          linarith [abs_nonneg ((b : ℚ) - ν)]
        have h6 : |d| * ν ≤ N + τ := by
          have h7 : |d * ν| ≤ |d * ν - s.dur| + |s.dur| := by
            have := abs_add_le (d * ν - s.dur) s.dur
            simpa using this
          rw [abs_mul, abs_of_pos hν, abs_of_nonneg (by linarith : 0 ≤ s.dur)] at h7
          linarith
        have h8 : d * b - s.dur = (d * ν - s.dur) + d * (b - ν) := by ring
        have h9 : |d * ((b : ℚ) - ν)| ≤ (N + τ) * c := by
          rw [abs_mul]
          calc |d| * |(b : ℚ) - ν| ≤ |d| * (c * ν) := mul_le_mul_of_nonneg_left hb (abs_nonneg d)
            _ = (|d| * ν) * c := by ring
            _ ≤ (N + τ) * c := mul_le_mul_of_nonneg_right h6 hc
        rw [h8]
        exact (abs_add_le _ _).trans (by linarith)

/-- **C79, decoding without a baud rate (partial: values from 1 to 2^(L-1) - 1, enough single bit times).**  The table of a line with edges that are displaced a little is decoded to the message,
whatever the (unknown) baud rate. -/
theorem C79_decode_partial {fl : ℚ → ℚ} (hf : AccRounding fl) {npMean : List ℚ → ℚ} (hmean : MeanOf fl npMean) (hclose : MeanClose npMean) (ν τ μ : ℚ) (hτ : 0 ≤ τ) (hν : 1 ≤ ν ∧ ν ≤ 10 ^ 9) (L : ℕ) (hL : L ≤ 64)
    (msg : List (ℕ × ℚ)) (hne : msg ≠ []) (hm : ∀ m ∈ msg, 1 ≤ m.1 ∧ m.1 < 2^(L - 1) ∧ m.1 < 0x110000) (lead : List Seg)
    (hlead : lead = [] ∨ ∃ g, lead = [⟨true, g, true, none⟩]) (ps : List Phase) (hps : PhasesWithin τ ν ps (lead ++ line L msg))
    (hlen : 8 ≤ (ps.flatMap Phase.rows).length ∧ (ps.flatMap Phase.rows).length ≤ 2^53)
    (hsorted : ((ps.flatMap Phase.rows).map (·.1)).IsChain (· ≤ ·)) (inv : Option Bool) (hinv : inv ≠ some true)
    (hticks : Ticks ν (distances ((ps.map (fun p => (p.time, p.level))).take 1000)))
    (hmany : (distances ((ps.map (fun p => (p.time, p.level))).take 1000)).length + 9 < 10 * (singles ν (distances ((ps.map (fun p => (p.time, p.level))).take 1000))).length)
    (hμ : |(singles ν (distances ((ps.map (fun p => (p.time, p.level))).take 1000))).sum / (singles ν (distances ((ps.map (fun p => (p.time, p.level))).take 1000))).length * ν - 1| ≤ μ)
    (htol : τ + (L + 1 + τ) * (1 / (2 * ν) + (11 / 10 * μ + 1 / 2 ^ 30)) ≤ 99 / 1000) :
    ∃ out, uartDecodeAuto fl npMean L inv (ps.flatMap Phase.rows) = .ok out ∧ out.map (·.2) = msg.map (fun m => [m.1]) ∧ out = stamped ps (lead ++ line L msg) := by
  have hL1 : 1 ≤ L := by
    cases msg with
    | nil => exact absurd rfl hne
    | cons m msg =>
      have := hm m (by simp)
      by_contra hc
      have h0 : L - 1 = 0 := by omega
      rw [h0] at this
      simp only [pow_zero] at this
      omega
  have hν0 : 0 < ν := by linarith [hν.1]
  obtain ⟨b, e, hb⟩ := detect_ticks hf hclose _ ν μ hν hticks hmany hμ
  have hb' : |(b : ℚ) - ν| ≤ (1 / (2 * ν) + (11 / 10 * μ + 1 / 2 ^ 30)) * ν := by
    have : (1 / (2 * ν) + (11 / 10 * μ + 1 / 2 ^ 30)) * ν = 1 / 2 + ν * (11 / 10 * μ + 1 / 2 ^ 30) := by
      field_simp
    rw [this]; exact hb
  have hdur : ∀ s ∈ lead ++ line L msg, s.idle = true ∨ (1 ≤ s.dur ∧ s.dur ≤ (L : ℚ) + 1) := by
    intro s hs
    rcases List.mem_append.mp hs with h | h
    · rcases hlead with rfl | ⟨g, rfl⟩
      · cases h
      · rw [List.mem_singleton] at h; left; rw [h]
    · rcases line_dur hL1 (fun m h => (hm m h).2.1) s h with h | h
      · exact .inl h.1
      · exact .inr h
  have hps' := within_phases hν0 hb' ((L : ℚ) + 1) htol hps hdur
  have hμ0 : 0 ≤ μ := (abs_nonneg _).trans hμ
  have hbr : 0 < b ∧ b ≤ 10 ^ 20 := by
    have hc0 : 0 ≤ 1 / (2 * ν) + (11 / 10 * μ + 1 / 2 ^ 30) := by positivity
    have hLq : (1 : ℚ) ≤ L := by exact_mod_cast hL1
    have hc1 : 1 / (2 * ν) + (11 / 10 * μ + 1 / 2 ^ 30) ≤ 1 / 10 := by
      generalize 1 / (2 * ν) + (11 / 10 * μ + 1 / 2 ^ 30) = c at *
      nlinarith
    have hb2 : |(b : ℚ) - ν| ≤ 1 / 10 * ν := hb'.trans (mul_le_mul_of_nonneg_right hc1 hν0.le)
    obtain ⟨u1, u2⟩ := abs_le.mp hb2
    have v1 : (0 : ℚ) < b := by linarith
    have v2 : (b : ℚ) ≤ 10 ^ 20 := by
      have := hν.2
      norm_num at this ⊢
      linarith
    exact ⟨by exact_mod_cast v1, by exact_mod_cast v2⟩
  obtain ⟨out, hd, ho⟩ := C47_table_partial hf hmean b hbr L hL msg hne hm lead hlead ps hps' hlen hsorted inv hinv
  refine ⟨out, ?_, ho⟩
  obtain ⟨hdig, hred⟩ := table_prepared hf hmean b L msg hne lead hlead ps hps' hlen.2
  unfold uartDecode at hd
  unfold uartDecodeAuto uartInitAuto
  rw [hdig, hred, e]
  have hchk : ¬ (ps.flatMap Phase.rows).length < 8 := by omega
  rw [if_neg hchk]
  split_ifs with hany
  · exfalso
    unfold uartInit at hd
    rw [if_neg hchk, if_pos hany] at hd
    cases hd
  · exact hd

/-- **C79, violated: no single bits.**  If the edges of a line are never a single bit time apart (zeros with two stop bits: 9 and 2 bit times), half the baud rate is detected. -/
theorem C79_half_violated {fl : ℚ → ℚ} (h : AccRounding fl) {npMean : List ℚ → ℚ} (hmean : MeanClose npMean) (rows : List (ℚ × Bool)) (baud : ℤ) (hν : 2 ≤ baud ∧ baud ≤ 10 ^ 8)
    (hds : ∀ d ∈ distances (rows.take 1000), d * baud = 2 ∨ d * baud = 9)
    (hmany : (distances (rows.take 1000)).length + 9 < 10 * ((distances (rows.take 1000)).filter (fun d : ℚ => d * baud = 2)).length) :
    ∃ b, detectBaud fl npMean rows = .ok b ∧ |2 * b - baud| ≤ 1 := by
  have hν2 : (2 : ℚ) ≤ baud := by exact_mod_cast hν.1
  have hν8 : (baud : ℚ) ≤ 10 ^ 8 := by exact_mod_cast hν.2
  have hs : singles ((baud : ℚ) / 2) (distances (rows.take 1000)) = (distances (rows.take 1000)).filter (fun d : ℚ => d * baud = 2) := by
    unfold singles
    apply List.filter_congr
    intro d hd
    have : d * ((baud : ℚ) / 2) = d * baud / 2 := by ring
    rw [this, decide_eq_decide]
    rcases hds d hd with h1 | h1 <;> rw [h1] <;> norm_num
  have hval : ∀ d ∈ (distances (rows.take 1000)).filter (fun d : ℚ => d * baud = 2), 2 / (baud : ℚ) ≤ d ∧ d ≤ 2 / (baud : ℚ) := by
    intro d hd
    rw [List.mem_filter, decide_eq_true_eq] at hd
    have : d = 2 / (baud : ℚ) := by rw [eq_div_iff (by linarith)]; exact hd.2
    rw [this]
    exact ⟨le_refl _, le_refl _⟩
  obtain ⟨s1, s2⟩ := sum_between _ hval
  have hpos : (0 : ℚ) < (((distances (rows.take 1000)).filter (fun d : ℚ => d * baud = 2)).length : ℚ) := by
    have : 0 < ((distances (rows.take 1000)).filter (fun d : ℚ => d * baud = 2)).length := by omega
    exact_mod_cast this
  obtain ⟨b, e, hb⟩ := detect_ticks h hmean rows ((baud : ℚ) / 2) 0 ⟨by linarith, by norm_num at hν8 ⊢; linarith⟩ (by
      intro d hd
      have : d * ((baud : ℚ) / 2) = d * baud / 2 := by ring
      rw [this]
      rcases hds d hd with h1 | h1 <;> rw [h1] <;> norm_num) (by rw [hs]; exact hmany) (by
      rw [hs]
      have hsum : ((distances (rows.take 1000)).filter (fun d : ℚ => d * baud = 2)).sum = ((distances (rows.take 1000)).filter (fun d : ℚ => d * baud = 2)).length * (2 / (baud : ℚ)) := le_antisymm s2 s1
      rw [hsum, mul_div_cancel_left₀ _ hpos.ne']
      have : 2 / (baud : ℚ) * (baud / 2) - 1 = 0 := by
        have : (baud : ℚ) ≠ 0 := by linarith
        field_simp
        norm_num
      rw [this]; simp)
  refine ⟨b, e, ?_⟩
  have h1 : |(2 : ℚ) * b - baud| < 2 := by
    have : (2 : ℚ) * b - baud = 2 * (b - baud / 2) := by ring
    rw [this, abs_mul, abs_of_pos (by norm_num : (0 : ℚ) < 2)]
    norm_num at hb hν8 ⊢
    linarith
  have h2 : |2 * b - baud| < 2 := by exact_mod_cast h1
  omega

/-! ## Cases that meet the hypotheses -/

/-- A mean with one rounding per addition. -/
def plainMean (fl : ℚ → ℚ) (l : List ℚ) : ℚ := fl (l.foldl (fun a x => fl (a + x)) 0 / l.length)

theorem plain_sum {fl : ℚ → ℚ} (h : AccRounding fl) : ∀ (l : List ℚ) (k : ℕ) (a s : ℚ), (∀ x ∈ l, 1 / 10 ^ 10 ≤ x) → k + l.length ≤ 1000 → 0 ≤ s → |a - s| ≤ k * (s / 2 ^ 51) →
    |l.foldl (fun a x => fl (a + x)) a - (s + l.sum)| ≤ (k + l.length : ℕ) * ((s + l.sum) / 2 ^ 51)
  | [], k, a, s, _, _, _, h1 => by simpa using h1
  | x :: l, k, a, s, hx, hk, h0, h1 => by
    have hx0 := hx x (by simp)
    have hxp : 0 < x := lt_of_lt_of_le (by norm_num) hx0
    have hk' : (k : ℚ) ≤ 1000 := by
      have : k ≤ 1000 := by simp at hk; omega
      exact_mod_cast this
    have hk0 : (0 : ℚ) ≤ k := by positivity
    rw [List.length_cons] at hk
    have hstep : |fl (a + x) - (s + x)| ≤ (k + 1 : ℕ) * ((s + x) / 2 ^ 51) := by
      obtain ⟨a1, a2⟩ := abs_le.mp h1
      have hks : (k : ℚ) * (s / 2 ^ 51) ≤ s / 2 ^ 40 := by
        have : s / 2 ^ 51 * k ≤ s / 2 ^ 51 * 1000 := mul_le_mul_of_nonneg_left hk' (by positivity)
        norm_num at this ⊢
        linarith
      have hax : 0 ≤ a + x := by norm_num at hks; linarith
      have e := h.err (a + x)
      rw [abs_of_nonneg hax] at e
      have hz : (2 : ℚ) ^ (-1075 : ℤ) ≤ 1 / 10 ^ 10 / 2 ^ 53 := by
        calc (2 : ℚ) ^ (-1075 : ℤ) ≤ 2 ^ (-100 : ℤ) := by apply zpow_le_zpow_right₀ (by norm_num) (by norm_num)
          _ ≤ 1 / 10 ^ 10 / 2 ^ 53 := by norm_num
      obtain ⟨e1, e2⟩ := abs_le.mp e
      have hkx : 0 ≤ (k : ℚ) * (x / 2 ^ 51) := by positivity
      have hexp : ((k + 1 : ℕ) : ℚ) * ((s + x) / 2 ^ 51) = k * (s / 2 ^ 51) + k * (x / 2 ^ 51) + (s + x) / 2 ^ 51 := by push_cast; ring
      rw [hexp, abs_le]
      generalize (2 : ℚ) ^ (-1075 : ℤ) = z at *
      generalize (k : ℚ) * (s / 2 ^ 51) = p at *
      generalize (k : ℚ) * (x / 2 ^ 51) = q at *
      norm_num at *
      constructor <;> linarith
    have ih := plain_sum h l (k + 1) (fl (a + x)) (s + x) (fun y hy => hx y (List.mem_cons_of_mem _ hy)) (by omega) (by linarith) hstep
    rw [List.foldl_cons, List.sum_cons, List.length_cons, show s + (x + l.sum) = s + x + l.sum by ring, show k + (l.length + 1) = k + 1 + l.length by omega]
    exact ih

/-- The plain mean is close. -/
theorem plainMean_close {fl : ℚ → ℚ} (h : AccRounding fl) : MeanClose (plainMean fl) := by
  intro l hne hlen hx
  have hn : (1 : ℚ) ≤ l.length := by
    have : 1 ≤ l.length := List.length_pos_iff.mpr hne
    exact_mod_cast this
  have hn0 : (0 : ℚ) < l.length := by linarith
  have hs := plain_sum h l 0 0 0 hx (by omega) (le_refl _) (by simp)
  rw [Nat.zero_add, zero_add] at hs
  have hnl : (l.length : ℚ) ≤ 1000 := by exact_mod_cast hlen
  have hsum : l.length * (1 / 10 ^ 10) ≤ l.sum := by
    clear hs
    induction l with
    | nil => simp
    | cons x l ih =>
      rcases eq_or_ne l [] with rfl | hl
      · simpa using hx x (by simp)
      · have hlp : (0 : ℚ) < l.length := by
          have : 0 < l.length := List.length_pos_iff.mpr hl
          exact_mod_cast this
        have hl1 : (1 : ℚ) ≤ l.length := by
          have : 1 ≤ l.length := List.length_pos_iff.mpr hl
          exact_mod_cast this
        have := ih hl (by rw [List.length_cons] at hlen; omega) (fun y hy => hx y (List.mem_cons_of_mem _ hy)) hl1 hlp (by
          have : l.length ≤ 1000 := by rw [List.length_cons] at hlen; omega
          exact_mod_cast this)
        have h1 := hx x (by simp)
        rw [List.sum_cons, List.length_cons]
        push_cast
        linarith
  unfold plainMean
  generalize l.foldl (fun a x => fl (a + x)) 0 = A at *
  obtain ⟨M, hM⟩ : ∃ M, M = l.sum / l.length := ⟨_, rfl⟩
  have hM1 : 1 / 10 ^ 10 ≤ M := by rw [hM, le_div_iff₀ hn0]; linarith
  have hM0 : 0 < M := lt_of_lt_of_le (by norm_num) hM1
  rw [← hM]
  have hA : |A / l.length - M| ≤ 1000 * (M / 2 ^ 51) := by
    have h1 : A / l.length - M = (A - l.sum) / l.length := by rw [hM]; ring
    rw [h1, abs_div, abs_of_pos hn0, div_le_iff₀ hn0]
    refine hs.trans ?_
    have h2 : 1000 * (M / 2 ^ 51) * (l.length : ℚ) = 1000 * (l.sum / 2 ^ 51) := by rw [hM]; field_simp
    rw [h2]
    apply mul_le_mul_of_nonneg_right hnl
    have : 0 ≤ l.sum := by
      have : 0 ≤ (l.length : ℚ) * (1 / 10 ^ 10) := by positivity
      linarith
    positivity
  obtain ⟨a1, a2⟩ := abs_le.mp hA
  have hA0 : 0 ≤ A / l.length := by norm_num at a1; linarith
  have e := h.err (A / l.length)
  rw [abs_of_nonneg hA0] at e
  have hz : (2 : ℚ) ^ (-1075 : ℤ) ≤ 1 / 10 ^ 10 / 2 ^ 53 := by
    calc (2 : ℚ) ^ (-1075 : ℤ) ≤ 2 ^ (-100 : ℤ) := by apply zpow_le_zpow_right₀ (by norm_num) (by norm_num)
      _ ≤ 1 / 10 ^ 10 / 2 ^ 53 := by norm_num
  obtain ⟨e1, e2⟩ := abs_le.mp e
  rw [abs_le]
  generalize (2 : ℚ) ^ (-1075 : ℤ) = z at *
  generalize fl (A / l.length) = w at *
  generalize A / (l.length : ℚ) = w2 at *
  norm_num at a1 a2 e1 e2 hz hM1 ⊢
  constructor <;> linarith

/-- The plain mean of zeros and ones is exact. -/
theorem plainMean_of {fl : ℚ → ℚ} (h : Rounding fl) : MeanOf fl (plainMean fl) := by
  intro l h01 hne hlen
  have key : ∀ (l : List ℚ) (k : ℕ), (∀ x ∈ l, x = 0 ∨ x = 1) → k + l.length ≤ 2 ^ 53 → l.foldl (fun a x => fl (a + x)) (k : ℚ) = k + l.sum := by
    intro l
    induction l with
    | nil => intro k _ _; simp
    | cons x l ih =>
      intro k hx hk
      rw [List.length_cons] at hk
      rw [List.foldl_cons, List.sum_cons]
      rcases hx x (by simp) with rfl | rfl
      · rw [add_zero, h.exactNat k (by omega), ih k (fun y hy => hx y (List.mem_cons_of_mem _ hy)) (by omega), zero_add]
      · have : (k : ℚ) + 1 = ((k + 1 : ℕ) : ℚ) := by push_cast; rfl
        rw [this, h.exactNat (k + 1) (by omega), ih (k + 1) (fun y hy => hx y (List.mem_cons_of_mem _ hy)) (by omega)]
        push_cast; ring
  have := key l 0 h01 (by omega)
  unfold plainMean
  rw [show ((0 : ℕ) : ℚ) = 0 by norm_num] at this
  rw [this, zero_add]

/-- Edges of the character "U" at 9600 baud (single bits), with exact time stamps. -/
def rowsU : List (ℚ × Bool) := (List.range 12).map (fun i : ℕ => ((i : ℚ) / 9600, decide (i % 2 = 0)))

/-- `C79_exact` (and so `C79_detect`) applies to "U". -/
example : detectBaud b64 (plainMean b64) rowsU = .ok 9600 := by
  refine C79_exact b64_accRounding (plainMean_close b64_accRounding) rowsU 9600 0 (by norm_num) ?_ ?_ ?_ (by norm_num)
  · unfold Ticks; decide +kernel
  · decide +kernel
  · decide +kernel

/-- `C79_detect` applies with two edges at the same time. -/
example : ∃ b, detectBaud b64 (plainMean b64) ((0, true) :: (0, false) :: rowsU) = .ok b ∧ |(b : ℚ) - 9600| ≤ 1 / 2 + 9600 * (11 / 10 * 0 + 1 / 2 ^ 30) := by
  refine C79_detect b64_accRounding (plainMean_close b64_accRounding) _ 9600 0 (by norm_num) _ (by decide +kernel) rfl ?_ ?_ ?_
  · unfold Ticks; decide +kernel
  · decide +kernel
  · decide +kernel

/-- Edges of zeros with two stop bits at 9600 baud. -/
def rowsNul : List (ℚ × Bool) := (List.range 12).map (fun i : ℕ => (((i / 2 * 11 + i % 2 * 9 : ℕ) : ℚ) / 9600, decide (i % 2 = 1)))

/-- `C79_half_violated` applies: 4800 is detected. -/
example : ∃ b, detectBaud b64 (plainMean b64) rowsNul = .ok b ∧ |2 * b - 9600| ≤ 1 :=
  C79_half_violated b64_accRounding (plainMean_close b64_accRounding) rowsNul 9600 (by norm_num) (by decide +kernel) (by decide +kernel)

/-- `C79_decode_partial` applies to the table for "H" (with redundant rows). -/
example : ∃ out, uartDecodeAuto b64 (plainMean b64) 8 none (tableH.flatMap Phase.rows) = .ok out ∧ out.map (·.2) = [[72]] ∧ out = stamped tableH ([⟨true, 10, true, none⟩] ++ line 8 [(72, 3)]) := by
  have hl : [(⟨true, 10, true, none⟩ : Seg)] ++ line 8 [(72, 3)] =
      [⟨true, 10, true, none⟩, ⟨false, 4, false, some 72⟩, ⟨true, 1, false, none⟩, ⟨false, 2, false, none⟩, ⟨true, 1, false, none⟩, ⟨false, 1, false, none⟩, ⟨true, 4, true, none⟩] := by decide +kernel
  refine C79_decode_partial b64_accRounding (plainMean_of b64_rounding) (plainMean_close b64_accRounding) 9600 0 0 (le_refl _) (by norm_num) 8 (by norm_num) [(72, 3)] (by simp) (by simp)
    [⟨true, 10, true, none⟩] (.inr ⟨10, rfl⟩) tableH ?_ (by decide +kernel) (by decide +kernel) none (by simp) ?_ (by decide +kernel) (by decide +kernel) (by norm_num)
  · rw [hl]
    unfold tableH
    refine .cons _ _ _ _ _ rfl (.inl rfl) (.cons _ _ _ _ _ rfl (.inr ?_) (.cons _ _ _ _ _ rfl (.inr ?_) (.cons _ _ _ _ _ rfl (.inr ?_) (.cons _ _ _ _ _ rfl (.inr ?_)
      (.cons _ _ _ _ _ rfl (.inr ?_) (.last _ _ rfl rfl)))))) <;> norm_num
  · unfold Ticks; decide +kernel

end Verif.Props
