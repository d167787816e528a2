import Verif.Props.Reports

/-!
# C40: how far the reported statistics of long recordings are off
-/

namespace Verif.Props
open Verif.Py Verif.Model

/-- Variance of a list: mean of the squared distances to the mean. -/
def varOf (l : List ℚ) : ℚ := meanOf (l.map (fun x => (x - meanOf l)^2))

theorem sum_sq_dist (a : ℚ) : ∀ l : List ℚ, (l.map (fun x => (x - a)^2)).sum = (l.map (fun x => x^2)).sum - 2 * a * l.sum + l.length * a^2
  | [] => by simp
  | x :: l => by
    simp only [List.map_cons, List.sum_cons, List.length_cons, sum_sq_dist a l]
    push_cast
    ring

theorem sum_dist_nonneg (a : ℚ) (l : List ℚ) : 0 ≤ (l.map (fun x => (x - a)^2)).sum :=
  List.sum_nonneg (by simp only [List.mem_map]; rintro y ⟨x, -, rfl⟩; positivity)

theorem meanOf_mul {l : List ℚ} (h : l ≠ []) : meanOf l * l.length = l.sum := by
  unfold meanOf
  rw [div_mul_cancel₀]
  exact_mod_cast (List.length_pos_of_ne_nil h).ne'

/-- The squared distances to the mean are the smallest. -/
theorem varOf_le {l : List ℚ} (h : l ≠ []) (a : ℚ) : varOf l * l.length ≤ (l.map (fun x => (x - a)^2)).sum := by
  have h0 : (l.map (fun x => (x - meanOf l)^2)) ≠ [] := by simpa using h
  have h1 := meanOf_mul h0
  rw [List.length_map] at h1
  unfold varOf
  rw [h1, sum_sq_dist, sum_sq_dist]
  have hm := meanOf_mul h
  have hl : (0:ℚ) ≤ l.length := by positivity
  rw [← hm]
  nlinarith [mul_nonneg hl (sq_nonneg (meanOf l - a))]

/-- Sums of means and variances of chunks of equal length. -/
theorem chunks_equal (k : ℕ) (hk : 0 < k) (v : List ℚ) (hd : k ∣ v.length) :
    ((chunks k v).map meanOf).sum * k = v.sum ∧ (chunks k v).length * k = v.length ∧ ∀ a, ((chunks k v).map varOf).sum * k ≤ (v.map (fun x => (x - a)^2)).sum := by
  refine chunks_induction (P := fun v => k ∣ v.length → ((chunks k v).map meanOf).sum * k = v.sum ∧ (chunks k v).length * k = v.length ∧
    ∀ a, ((chunks k v).map varOf).sum * k ≤ (v.map (fun x => (x - a)^2)).sum) k hk ?_ ?_ v hd
  · intro _; rw [chunks_nil k hk]; simp
  · intro v hv ih hd
    have hle : k ≤ v.length := Nat.le_of_dvd (List.length_pos_of_ne_nil hv) hd
    obtain ⟨h1, h2, h3⟩ := ih (by rw [List.length_drop]; exact Nat.dvd_sub hd dvd_rfl)
    rw [chunks_cons k hk v hv, List.map_cons, List.sum_cons, List.length_cons, add_mul, add_mul, h1, h2, List.length_drop]
    have hk0 : (k:ℚ) ≠ 0 := by exact_mod_cast hk.ne'
    have htl : (v.take k).length = k := by rw [List.length_take, min_eq_left hle]
    have htn : v.take k ≠ [] := by intro h; rw [h] at htl; simp at htl; omega
    refine ⟨?_, by omega, ?_⟩
    · have := meanOf_mul htn
      rw [htl] at this
      rw [this, ← List.sum_append, List.take_append_drop]
    · intro a
      rw [List.map_cons, List.sum_cons, add_mul]
      have h4 := varOf_le htn a
      rw [htl] at h4
      calc _ ≤ ((v.take k).map (fun x => (x - a)^2)).sum + ((v.drop k).map (fun x => (x - a)^2)).sum := add_le_add h4 (h3 a)
        _ = _ := by rw [← List.sum_append, ← List.map_append, List.take_append_drop]

/-- **C40, mean.**  For every recording of `m` full chunks and a last one of `r` samples, `0 < r < k`, the reported mean is off by exactly `(1 - r/k)/(m + 1)` times the distance between the
mean of the last chunk and the mean of the recording. -/
theorem C40_mean_error (fl : ℚ → ℚ) (std : List ℚ → ℚ) (k m r : ℕ) (hr : 0 < r) (hrk : r < k) (d : Dset) (ha : PlainAttrs d) (hl : d.data.length = m * k + r) :
    ∃ st, dsetStatistics fl ⟨meanOf, std⟩ k d = some st ∧
      st.mean - meanOf (siValues fl d) = (meanOf ((siValues fl d).drop (m * k)) - meanOf (siValues fl d)) * (1 - r / k) / (m + 1) := by
  have hk : 0 < k := by omega
  have hne : d.data ≠ [] := by intro h; rw [h] at hl; simp at hl; omega
  refine ⟨_, dsetStatistics_eq fl _ k hk d ha hne, ?_⟩
  dsimp only
  rw [← siValues_length fl d] at hl
  have hv := siValues_ne fl d hne
  generalize siValues fl d = v at hv hl
  have hta : (v.take (m * k)).length = m * k := by rw [List.length_take]; omega
  have htd : (v.drop (m * k)).length = r := by rw [List.length_drop]; omega
  obtain ⟨h1, h2, -⟩ := chunks_equal k hk (v.take (m * k)) (by rw [hta]; exact dvd_mul_left k m)
  have hdn : v.drop (m * k) ≠ [] := by intro h; rw [h] at htd; simp at htd; omega
  have hch : chunks k v = chunks k (v.take (m * k)) ++ [v.drop (m * k)] := by
    conv_lhs => rw [← List.take_append_drop (m * k) v]
    rw [chunks_append k hk _ _ (by rw [hta]; exact dvd_mul_left k m), chunks_small k hk _ hdn (by omega)]
  have hm : (chunks k (v.take (m * k))).length = m := by
    rw [hta] at h2
    exact Nat.eq_of_mul_eq_mul_right hk h2
  have hk0 : (k:ℚ) ≠ 0 := by exact_mod_cast hk.ne'
  have hr0 : (r:ℚ) ≠ 0 := by exact_mod_cast hr.ne'
  have hs : v.sum = (v.take (m * k)).sum + (v.drop (m * k)).sum := by rw [← List.sum_append, List.take_append_drop]
  have hrep : meanOf ((chunks k v).map meanOf) = ((v.take (m * k)).sum / k + (v.drop (m * k)).sum / r) / (m + 1) := by
    rw [hch]
    unfold meanOf at h1 ⊢
    rw [List.map_append, List.sum_append, List.length_append, List.length_map, hm]
    simp only [List.map_cons, List.map_nil, List.sum_cons, List.sum_nil, List.length_cons, List.length_nil, htd]
    rw [← h1, mul_div_cancel_right₀ _ hk0]
    push_cast
    ring
  have hmean : meanOf v = ((v.take (m * k)).sum + (v.drop (m * k)).sum) / (m * k + r) := by
    unfold meanOf; rw [hs, hl]; push_cast; rfl
  have hlast : meanOf (v.drop (m * k)) = (v.drop (m * k)).sum / r := by unfold meanOf; rw [htd]
  rw [hrep, hmean, hlast]
  have hp : (m:ℚ) * k + r ≠ 0 := by positivity
  have hm1 : (m:ℚ) + 1 ≠ 0 := by positivity
  field_simp
  ring

theorem meanOf_mem {l : List ℚ} (h : l ≠ []) {lo hi : ℚ} (hb : ∀ x ∈ l, lo ≤ x ∧ x ≤ hi) : lo ≤ meanOf l ∧ meanOf l ≤ hi := by
  have hl : (0:ℚ) < l.length := by exact_mod_cast List.length_pos_of_ne_nil h
  have key : ∀ l : List ℚ, (∀ x ∈ l, lo ≤ x ∧ x ≤ hi) → l.length * lo ≤ l.sum ∧ l.sum ≤ l.length * hi := by
    intro l
    induction l with
    | nil => simp
    | cons a t ih =>
      intro hb
      obtain ⟨h1, h2⟩ := ih fun x hx => hb x (List.mem_cons_of_mem _ hx)
      have h3 := hb a (by simp)
      simp only [List.length_cons, List.sum_cons]
      push_cast
      constructor <;> linarith
  obtain ⟨h1, h2⟩ := key l hb
  unfold meanOf
  rw [le_div_iff₀ hl, div_le_iff₀ hl]
  constructor <;> linarith

/-- **C40, mean.**  For every recording and chunk size: if the values lie between `lo` and `hi`, so does the reported mean, and it is off by less than their distance divided by the number of
chunks. -/
theorem C40_mean_bound (fl : ℚ → ℚ) (std : List ℚ → ℚ) (k : ℕ) (hk : 0 < k) (d : Dset) (ha : PlainAttrs d) (hne : d.data ≠ []) (lo hi : ℚ) (hb : ∀ x ∈ siValues fl d, lo ≤ x ∧ x ≤ hi) :
    ∃ st, dsetStatistics fl ⟨meanOf, std⟩ k d = some st ∧ lo ≤ st.mean ∧ st.mean ≤ hi ∧
      |st.mean - meanOf (siValues fl d)| ≤ (hi - lo) / ((d.data.length + k - 1) / k : ℕ) := by
  have hv := siValues_ne fl d hne
  have hlh : lo ≤ hi := by
    obtain ⟨x, hx⟩ := List.exists_mem_of_ne_nil _ hv
    exact (hb x hx).1.trans (hb x hx).2
  have hn := List.length_pos_of_ne_nil hne
  refine ⟨_, dsetStatistics_eq fl _ k hk d ha hne, ?_⟩
  dsimp only
  have hmem : ∀ c ∈ chunks k (siValues fl d), c ≠ [] ∧ ∀ x ∈ c, x ∈ siValues fl d := by
    intro c hc
    unfold chunks at hc
    obtain ⟨i, hi', rfl⟩ := List.mem_map.1 hc
    rw [List.mem_range] at hi'
    refine ⟨?_, fun x hx => List.mem_of_mem_drop (List.mem_of_mem_take hx)⟩
    intro h
    have := congrArg List.length h
    rw [List.length_take, List.length_drop] at this
    have h2 : i * k < (siValues fl d).length := by
      have := (Nat.lt_div_iff_mul_lt hk).1 hi'
      omega
    simp only [List.length_nil] at this
    omega
  have hcne : (chunks k (siValues fl d)).map meanOf ≠ [] := by
    rw [chunks_cons k hk _ hv]; simp
  have hin := meanOf_mem hcne (lo := lo) (hi := hi) (by
    intro x hx
    obtain ⟨c, hc, rfl⟩ := List.mem_map.1 hx
    exact meanOf_mem (hmem c hc).1 fun x hx => hb x ((hmem c hc).2 x hx))
  refine ⟨hin.1, hin.2, ?_⟩
  by_cases hdvd : k ∣ d.data.length
  · obtain ⟨st, h1, h2⟩ := C40_mean_partial fl std k hk d ha hne hdvd
    rw [dsetStatistics_eq fl _ k hk d ha hne] at h1
    injection h1 with h1
    rw [← h1] at h2
    dsimp only at h2
    rw [h2, sub_self, abs_zero]
    exact div_nonneg (by linarith) (by positivity)
  · have hr : 0 < d.data.length % k := Nat.pos_of_ne_zero fun h => hdvd (Nat.dvd_of_mod_eq_zero h)
    have hl : d.data.length = d.data.length / k * k + d.data.length % k := by
      have := Nat.div_add_mod d.data.length k
      rw [Nat.mul_comm] at this
      omega
    have hrk := Nat.mod_lt d.data.length hk
    obtain ⟨st, h1, h2⟩ := C40_mean_error fl std k _ _ hr hrk d ha hl
    rw [dsetStatistics_eq fl _ k hk d ha hne] at h1
    injection h1 with h1
    rw [← h1] at h2
    dsimp only at h2
    have hq : (d.data.length + k - 1) / k = d.data.length / k + 1 := by
      rw [Nat.div_eq_iff hk]
      generalize d.data.length / k = q at *
      generalize d.data.length % k = r at *
      rw [hl]
      constructor
      · have : (q + 1) * k = q * k + k := by ring
        omega
      · have : (q + 1) * k = q * k + k := by ring
        omega
    rw [h2, hq, abs_div]
    push_cast
    have hm1 : (0:ℚ) < (d.data.length / k : ℕ) + 1 := by positivity
    rw [abs_of_pos hm1]
    refine div_le_div_of_nonneg_right ?_ hm1.le
    rw [abs_mul]
    have hkq : (0:ℚ) < k := by exact_mod_cast hk
    have hf : |1 - ((d.data.length % k : ℕ) : ℚ) / k| ≤ 1 := by
      have h3 : ((d.data.length % k : ℕ) : ℚ) / k ≤ 1 := by
        rw [div_le_one hkq]; exact_mod_cast hrk.le
      have h4 : 0 ≤ ((d.data.length % k : ℕ) : ℚ) / k := by positivity
      rw [abs_le]; constructor <;> linarith
    have hdn : (siValues fl d).drop (d.data.length / k * k) ≠ [] := by
      intro h
      have := congrArg List.length h
      rw [List.length_drop, siValues_length] at this
      simp only [List.length_nil] at this
      omega
    have hd1 := meanOf_mem hdn (lo := lo) (hi := hi) fun x hx => hb x (List.mem_of_mem_drop hx)
    have hd2 := meanOf_mem hv hb
    have hdist : |meanOf ((siValues fl d).drop (d.data.length / k * k)) - meanOf (siValues fl d)| ≤ hi - lo := by
      rw [abs_le]; constructor <;> linarith [hd1.1, hd1.2, hd2.1, hd2.2]
    calc _ ≤ (hi - lo) * 1 := mul_le_mul hdist hf (abs_nonneg _) (by linarith)
      _ = _ := mul_one _

/-- **C40, deviation (equal chunks).**  Whatever is computed as the deviation of a chunk, if its square is not above the variance of the chunk, the reported deviation is never above the deviation of
the recording. -/
theorem C40_std_below (fl : ℚ → ℚ) (std : List ℚ → ℚ) (k : ℕ) (hk : 0 < k) (d : Dset) (ha : PlainAttrs d) (hne : d.data ≠ []) (hl : k ∣ d.data.length)
    (hstd : ∀ c, c.length = k → 0 ≤ std c ∧ std c ^ 2 ≤ varOf c) :
    ∃ st, dsetStatistics fl ⟨meanOf, std⟩ k d = some st ∧ 0 ≤ st.std ∧ st.std ^ 2 ≤ varOf (siValues fl d) := by
  refine ⟨_, dsetStatistics_eq fl _ k hk d ha hne, ?_⟩
  dsimp only
  rw [← siValues_length fl d] at hl
  have hv := siValues_ne fl d hne
  generalize siValues fl d = v at hv hl
  obtain ⟨-, h2, h3⟩ := chunks_equal k hk v hl
  have hlen : ∀ c ∈ chunks k v, c.length = k := by
    intro c hc
    unfold chunks at hc
    obtain ⟨i, hi', rfl⟩ := List.mem_map.1 hc
    rw [List.mem_range] at hi'
    obtain ⟨q, hq⟩ := hl
    rw [List.length_take, List.length_drop]
    have h5 : (v.length + k - 1) / k = q := by
      rw [Nat.div_eq_iff hk, hq]
      have : k * q = q * k := Nat.mul_comm _ _
      omega
    rw [h5] at hi'
    have : (i + 1) * k ≤ q * k := Nat.mul_le_mul_right k hi'
    have e1 : (i + 1) * k = i * k + k := by ring
    have e2 : v.length = q * k := by rw [hq, Nat.mul_comm]
    omega
  generalize hs : (chunks k v).map std = s
  have hsn : s ≠ [] := by rw [← hs, chunks_cons k hk v hv]; simp
  have hsl : s.length = (chunks k v).length := by rw [← hs, List.length_map]
  have hn : (0:ℚ) < s.length := by exact_mod_cast List.length_pos_of_ne_nil hsn
  have hpos : ∀ x ∈ s, 0 ≤ x := by
    intro x hx
    rw [← hs] at hx
    obtain ⟨c, hc, rfl⟩ := List.mem_map.1 hx
    exact (hstd c (hlen c hc)).1
  have hsq : (s.map (fun x => x^2)).sum ≤ ((chunks k v).map varOf).sum := by
    rw [← hs, List.map_map]
    exact List.sum_le_sum fun c hc => (hstd c (hlen c hc)).2
  refine ⟨div_nonneg (List.sum_nonneg hpos) hn.le, ?_⟩
  have h4 := sum_dist_nonneg (meanOf s) s
  rw [sum_sq_dist, ← meanOf_mul hsn] at h4
  have h5 : meanOf s ^ 2 * s.length ≤ (s.map (fun x => x^2)).sum := by nlinarith
  have hvl : (0:ℚ) < v.length := by exact_mod_cast List.length_pos_of_ne_nil hv
  have h6 : varOf v = (v.map (fun x => (x - meanOf v)^2)).sum / v.length := by unfold varOf; rw [meanOf, List.length_map]
  rw [h6, le_div_iff₀ hvl, ← h2]
  push_cast
  have hkq : (0:ℚ) ≤ k := by positivity
  calc meanOf s ^ 2 * (((chunks k v).length : ℚ) * k) = meanOf s ^ 2 * s.length * k := by rw [hsl]; ring
    _ ≤ ((chunks k v).map varOf).sum * k := mul_le_mul_of_nonneg_right (h5.trans hsq) hkq
    _ ≤ _ := h3 _

example : PlainAttrs (plain [1, 2, 3, 4, 9]) ∧ (plain [1, 2, 3, 4, 9]).data.length = 2 * 2 + 1 := ⟨⟨Or.inl rfl, Or.inl rfl⟩, rfl⟩
example : varOf [1, 3] = 1 := by norm_num [varOf, meanOf]

end Verif.Props
