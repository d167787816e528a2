import Verif.Props.Uart

/-!
# C109: decoding the same table again

The decoder keeps the array it is given and writes into it.
-/

namespace Verif.Props
open Verif.Model Verif.Py

/-- A signal that is 0 or 1 everywhere, and 1 somewhere, is its own digital form. -/
theorem toDigital_again {fl : ℚ → ℚ} (hf : Rounding fl) {npMean : List ℚ → ℚ} (hmean : MeanOf fl npMean) (brows : List (ℚ × Bool)) (hhigh : ∃ r ∈ brows, r.2 = true) (hlen : brows.length ≤ 2^53) :
    toDigital npMean false (brows.map (fun r => (r.1, ofBool r.2))) = brows := by
  have h01 : ∀ x ∈ (brows.map (fun r => (r.1, ofBool r.2))).map (·.2), x = 0 ∨ x = 1 := by
    rw [List.map_map]
    intro x hx
    obtain ⟨r, -, rfl⟩ := List.mem_map.mp hx
    exact ofBool_cases _
  have h1 : (1:ℚ) ∈ (brows.map (fun r => (r.1, ofBool r.2))).map (·.2) := by
    obtain ⟨r, hr, hl⟩ := hhigh
    rw [List.map_map, List.mem_map]
    exact ⟨r, hr, by simp [hl, ofBool]⟩
  unfold toDigital
  simp only
  rw [hmean _ h01 (List.ne_nil_of_mem h1) (by simpa using hlen)]
  obtain ⟨m0, m1⟩ := mean_bounds hf _ h01 h1 (by simpa using hlen)
  generalize fl (((brows.map (fun r => (r.1, ofBool r.2))).map (·.2)).sum / ((brows.map (fun r => (r.1, ofBool r.2))).map (·.2)).length) = m at *
  rw [List.map_map]
  conv_rhs => rw [← List.map_id brows]
  refine List.map_congr_left (fun r _ => ?_)
  obtain ⟨t, b⟩ := r
  cases b
  · simp [ofBool, m0]
  · simp [ofBool, m1]

/-- Times and order of the rows are never changed. -/
theorem C109_times (fl : ℚ → ℚ) (npMean : List ℚ → ℚ) (rows : List (ℚ × ℚ)) : (callerTable fl npMean rows).map (·.1) = rows.map (·.1) := by
  unfold callerTable
  split_ifs
  · rfl
  · rfl
  · simp [toDigital, Function.comp_def]

/-- A table that is refused is left as it is. -/
theorem C109_refused {fl : ℚ → ℚ} {npMean : List ℚ → ℚ} {rows : List (ℚ × ℚ)} (baud L : ℤ) (inversion : Option Bool)
    (h : uartInit fl npMean baud L inversion rows = .error .typeError) : callerTable fl npMean rows = rows := by
  unfold callerTable
  split_ifs with h1 h2
  · rfl
  · rfl
  · exfalso
    unfold uartInit at h
    rw [if_neg h1, if_neg h2] at h
    by_cases hb : baud = 0
    · rw [if_pos hb] at h; simp at h
    rw [if_neg hb] at h
    have hd : ∀ evs, detectInversion fl npMean evs ≠ .error .typeError := by
      intro evs hc
      unfold detectInversion at hc
      simp only at hc
      split at hc
      · cases hc
      · split_ifs at hc
        simp at hc
    simp only at h
    cases hi : chooseInversion fl npMean inversion (addDuration fl (fl (1 / baud)) (dropRedundant (toDigital npMean false rows))) with
    | error e =>
      rw [hi] at h
      simp only [Except.error.injEq] at h
      subst h
      unfold chooseInversion at hi
      cases inversion with
      | none => exact hd _ hi
      | some b => cases hi
    | ok inv =>
      rw [hi] at h
      simp only at h
      by_cases hL : ¬ (0 < L ∧ L ≤ 64)
      · rw [if_pos hL] at h; simp at h
      · rw [if_neg hL] at h
        split at h
        · rename_i e he
          injection h with h
          subst h
          exact hd _ he
        · cases h

/-- **C109, again.**  Decoding the table once more, after the first decoder wrote into it, gives the same result, whatever parameters are chosen for the second one.  The condition says that the mean of
the signal, as numpy computes it, is not above all of its values. -/
theorem C109_again {fl : ℚ → ℚ} (hf : Rounding fl) {npMean : List ℚ → ℚ} (hmean : MeanOf fl npMean) (rows : List (ℚ × ℚ)) (hhigh : ∃ r ∈ rows, npMean (rows.map (·.2)) ≤ r.2) (hlen : rows.length ≤ 2^53)
    (baud L : ℤ) (inversion : Option Bool) :
    uartDecode fl npMean baud L inversion (callerTable fl npMean rows) = uartDecode fl npMean baud L inversion rows := by
  unfold callerTable
  split_ifs with h1 h2
  · rfl
  · rfl
  · have hd : toDigital npMean false ((toDigital npMean false rows).map (fun r => (r.1, ofBool r.2))) = toDigital npMean false rows := by
      apply toDigital_again hf hmean
      · obtain ⟨r, hr, hle⟩ := hhigh
        refine ⟨(r.1, decide (r.2 ≥ npMean (rows.map (·.2)))), ?_, by simpa using hle⟩
        unfold toDigital
        exact List.mem_map.mpr ⟨r, hr, by simp⟩
      · simpa [toDigital] using hlen
    have htime : ((toDigital npMean false rows).map (fun r => (r.1, ofBool r.2))).map (·.1) = rows.map (·.1) := by simp [toDigital, Function.comp_def]
    have hz : ∀ (l : List (ℚ × ℚ)), List.zipWith (fun a b => fl (b.1 - a.1)) l l.tail = List.zipWith (fun a b => fl (b - a)) (l.map (·.1)) (l.map (·.1)).tail := by
      intro l
      rw [← List.map_tail, List.zipWith_map]
    have hl2 : ((toDigital npMean false rows).map (fun r => (r.1, ofBool r.2))).length = rows.length := by simp [toDigital]
    unfold uartDecode uartInit
    rw [hd, hl2, hz, htime, ← hz]

/-- The decoder finds the array as any number of decoders left it. -/
theorem C109_stable {fl : ℚ → ℚ} (hf : Rounding fl) {npMean : List ℚ → ℚ} (hmean : MeanOf fl npMean) (rows : List (ℚ × ℚ)) (hhigh : ∃ r ∈ rows, npMean (rows.map (·.2)) ≤ r.2) (hlen : rows.length ≤ 2^53) :
    callerTable fl npMean (callerTable fl npMean rows) = callerTable fl npMean rows := by
  by_cases h1 : rows.length < 8
  · unfold callerTable; simp [h1]
  by_cases h2 : (List.zipWith (fun a b => fl (b.1 - a.1)) rows rows.tail).any (fun d => d < 0) = true
  · have : callerTable fl npMean rows = rows := by
      unfold callerTable; rw [if_neg h1, if_pos h2]
    rw [this, this]
  · have hc : callerTable fl npMean rows = (toDigital npMean false rows).map (fun r => (r.1, ofBool r.2)) := by
      unfold callerTable; rw [if_neg h1, if_neg h2]
    have hd : toDigital npMean false ((toDigital npMean false rows).map (fun r => (r.1, ofBool r.2))) = toDigital npMean false rows := by
      apply toDigital_again hf hmean
      · obtain ⟨r, hr, hle⟩ := hhigh
        refine ⟨(r.1, decide (r.2 ≥ npMean (rows.map (·.2)))), ?_, by simpa using hle⟩
        unfold toDigital
        exact List.mem_map.mpr ⟨r, hr, by simp⟩
      · simpa [toDigital] using hlen
    rw [hc]
    conv_lhs => unfold callerTable
    rw [hd]
    split_ifs <;> rfl

/-- **C109 violated: the data of the caller.**  An analog signal does not survive: every value is replaced by 0 or 1. -/
theorem C109_untouched_violated {fl : ℚ → ℚ} {npMean : List ℚ → ℚ} {rows : List (ℚ × ℚ)} (h8 : 8 ≤ rows.length)
    (hmono : (List.zipWith (fun a b => fl (b.1 - a.1)) rows rows.tail).any (fun d => d < 0) = false) (hana : ∃ r ∈ rows, r.2 ≠ 0 ∧ r.2 ≠ 1) :
    callerTable fl npMean rows ≠ rows ∧ ∀ r ∈ callerTable fl npMean rows, r.2 = 0 ∨ r.2 = 1 := by
  have hc : callerTable fl npMean rows = (toDigital npMean false rows).map (fun r => (r.1, ofBool r.2)) := by
    unfold callerTable; rw [if_neg (by omega), if_neg (by rw [hmono]; decide)]
  have hall : ∀ r ∈ callerTable fl npMean rows, r.2 = 0 ∨ r.2 = 1 := by
    rw [hc]
    intro r hr
    obtain ⟨x, -, rfl⟩ := List.mem_map.mp hr
    exact ofBool_cases _
  refine ⟨fun he => ?_, hall⟩
  obtain ⟨r, hr, h0, h1⟩ := hana
  rw [← he] at hr
  rcases hall r hr with h | h
  · exact h0 h
  · exact h1 h

/-- A signal of 3.3 V: the condition holds, the first decoder turns it into zeros and ones. -/
def analogTable : List (ℚ × ℚ) := [(0, 33/10), (1, 33/10), (2, 1/10), (3, 32/10), (4, 0), (5, 33/10), (6, 2/10), (7, 31/10), (8, 1/10)]

example : (∃ r ∈ analogTable, (analogTable.map (·.2)).sum / 9 ≤ r.2) ∧ 8 ≤ analogTable.length ∧
    callerTable b64 (fun l => l.sum / l.length) analogTable = [(0, 1), (1, 1), (2, 0), (3, 1), (4, 0), (5, 1), (6, 0), (7, 1), (8, 0)] := by
  refine ⟨⟨(0, 33/10), by simp [analogTable], by decide +kernel⟩, by decide, by decide +kernel⟩

end Verif.Props
