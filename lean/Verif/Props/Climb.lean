import Verif.Props.Harvester

/-!
# C97: perturb and observe follows the power
-/

namespace Verif.Props
open Verif.Py Verif.Model

variable {fl : ℚ → ℚ}

/-! ## Specification -/

/-- The power that the harvester reports for sample `x` behind the stream `xs`. -/
def powerAt (fl : ℚ → ℚ) (c : HrvCfg) (xs : List HrvIn) (x : HrvIn) : ℤ := (hrvStep fl c (after fl c xs) x).2.v * (hrvStep fl c (after fl c xs) x).2.i

/-- The tracker adapts with the last sample of the stream `xs`. -/
def Adapts (fl : ℚ → ℚ) (c : HrvCfg) (xs : List HrvIn) : Prop := (after fl c xs).intervalStep = 0

/-- `p` is the power that was reported with the last adaptation in the stream `xs`, or zero without one. -/
def LastPower (fl : ℚ → ℚ) (c : HrvCfg) (xs : List HrvIn) (p : ℤ) : Prop :=
  (∃ ys x zs, xs = ys ++ x :: zs ∧ Adapts fl c (ys ++ [x]) ∧ (∀ us, us ≠ [] → us <+: zs → ¬ Adapts fl c (ys ++ x :: us)) ∧ p = powerAt fl c ys x) ∨
    (∀ us, us ≠ [] → us <+: xs → ¬ Adapts fl c us) ∧ p = 0

/-- The lowest set-point. -/
def poLow (c : HrvCfg) : ℕ := max c.voltageMin c.voltageStep

/-! ## Lemmas -/

theorem after_snoc (c : HrvCfg) (xs : List HrvIn) (x : HrvIn) : after fl c (xs ++ [x]) = (hrvStep fl c (after fl c xs) x).1 := by
  unfold after; rw [hrvRun_snoc]

/-- The state behind one more sample. -/
theorem po_after (c : HrvCfg) (hw : 1 < c.windowSize) (ha : 2^13 ≤ c.algorithm) (hb : c.algorithm < 2^14) (xs : List HrvIn) (x : HrvIn) (hf : x.feedback = none) :
    ∃ t y : _, t.voltageSet = (after fl c xs).voltageSet ∧ t.voltStep = (after fl c xs).voltStep ∧ t.isRising = (after fl c xs).isRising ∧ t.powerLast = (after fl c xs).powerLast ∧
      powerAt fl c xs x = y.v * y.i ∧
      (Adapts fl c (xs ++ [x]) → after fl c (xs ++ [x]) = poClampStep c (poClampMin c (poClampMax c (poPerturb fl c t y)))) ∧
      (¬ Adapts fl c (xs ++ [x]) → after fl c (xs ++ [x]) = t) := by
  unfold Adapts powerAt
  rw [after_snoc, hrvStep_none fl c _ x hf, sample_po fl c _ _ hw ha hb]
  generalize after fl c xs = s
  obtain ⟨t, ht, h1, h2, h3, h4, h5⟩ := cv_po_frame fl c s x.toSample
  refine ⟨t, (ivcurvePo fl c s x.toSample).2, h1, h2, h3, h4, rfl, ?_, ?_⟩
  · intro h
    rw [po_interval] at h
    rw [ht, if_pos (by rw [h5]; exact h)]
  · intro h
    rw [po_interval] at h
    rw [ht, if_neg (by rw [h5]; exact h)]

theorem clamp_power (c : HrvCfg) (s : HrvState) : (poClampStep c (poClampMin c (poClampMax c s))).powerLast = s.powerLast := by
  unfold poClampStep poClampMin poClampMax
  split_ifs <;> rfl

theorem perturb_power (c : HrvCfg) (s : HrvState) (y : Sample) : (poPerturb fl c s y).powerLast = y.v * y.i := by
  unfold poPerturb
  dsimp only
  split_ifs <;> rfl

theorem power_step (c : HrvCfg) (hw : 1 < c.windowSize) (ha : 2^13 ≤ c.algorithm) (hb : c.algorithm < 2^14) (xs : List HrvIn) (x : HrvIn) (hf : x.feedback = none) :
    (Adapts fl c (xs ++ [x]) → (after fl c (xs ++ [x])).powerLast = powerAt fl c xs x) ∧ (¬ Adapts fl c (xs ++ [x]) → (after fl c (xs ++ [x])).powerLast = (after fl c xs).powerLast) := by
  obtain ⟨t, y, -, -, -, h4, h5, h6, h7⟩ := po_after (fl := fl) c hw ha hb xs x hf
  constructor
  · intro h
    rw [h6 h, clamp_power, perturb_power, h5]
  · intro h
    rw [h7 h, h4]

/-- Without adaptation the state of the tracker does not change. -/
theorem no_adapt (c : HrvCfg) (hw : 1 < c.windowSize) (ha : 2^13 ≤ c.algorithm) (hb : c.algorithm < 2^14) (xs zs : List HrvIn) (hf : ∀ y ∈ zs, y.feedback = none)
    (h : ∀ us, us ≠ [] → us <+: zs → ¬ Adapts fl c (xs ++ us)) :
    (after fl c (xs ++ zs)).voltageSet = (after fl c xs).voltageSet ∧ (after fl c (xs ++ zs)).voltStep = (after fl c xs).voltStep ∧
      (after fl c (xs ++ zs)).isRising = (after fl c xs).isRising ∧ (after fl c (xs ++ zs)).powerLast = (after fl c xs).powerLast := by
  induction zs using List.reverseRecOn with
  | nil => simp
  | append_singleton zs z ih =>
    obtain ⟨i1, i2, i3, i4⟩ := ih (fun y hy => hf y (by simp [hy])) (fun us h1 h2 => h us h1 (h2.trans (List.prefix_append _ _)))
    obtain ⟨t, y, h1, h2, h3, h4, -, -, h7⟩ := po_after (fl := fl) c hw ha hb (xs ++ zs) z (hf z (by simp))
    have hn := h (zs ++ [z]) (by simp) (List.prefix_refl _)
    rw [← List.append_assoc] at hn ⊢
    rw [h7 hn]
    exact ⟨h1.trans i1, h2.trans i2, h3.trans i3, h4.trans i4⟩

theorem lastPower_eq (c : HrvCfg) (hw : 1 < c.windowSize) (ha : 2^13 ≤ c.algorithm) (hb : c.algorithm < 2^14) (xs : List HrvIn) (hf : ∀ y ∈ xs, y.feedback = none) (p : ℤ)
    (h : LastPower fl c xs p) : (after fl c xs).powerLast = p := by
  rcases h with ⟨ys, x, zs, rfl, h1, h2, rfl⟩ | ⟨h1, rfl⟩
  · have k := no_adapt (fl := fl) c hw ha hb (ys ++ [x]) zs (fun y hy => hf y (by simp [hy])) (fun us hu hp => by simpa using h2 us hu hp)
    rw [List.append_assoc, List.singleton_append] at k
    rw [k.2.2.2]
    exact (power_step c hw ha hb ys x (hf x (by simp))).1 h1
  · have k := no_adapt (fl := fl) c hw ha hb [] xs hf (fun us hu hp => by simpa using h1 us hu hp)
    rw [List.nil_append] at k
    rw [k.2.2.2]
    rfl

theorem lastPower_exists (c : HrvCfg) (xs : List HrvIn) : ∃ p, LastPower fl c xs p := by
  induction xs using List.reverseRecOn with
  | nil => exact ⟨0, Or.inr ⟨fun us h1 h2 => absurd (List.prefix_nil.1 h2) h1, rfl⟩⟩
  | append_singleton xs x ih =>
    by_cases hA : Adapts fl c (xs ++ [x])
    · exact ⟨_, Or.inl ⟨xs, x, [], rfl, hA, fun us h1 h2 => absurd (List.prefix_nil.1 h2) h1, rfl⟩⟩
    · obtain ⟨p, ⟨ys, y, zs, rfl, h1, h2, h3⟩ | ⟨h1, h2⟩⟩ := ih
      · refine ⟨p, Or.inl ⟨ys, y, zs ++ [x], by simp, h1, ?_, h3⟩⟩
        intro us hu hp
        rcases List.prefix_concat_iff.1 hp with h | h
        · subst h; simpa using hA
        · exact h2 us hu h
      · refine ⟨p, Or.inr ⟨?_, h2⟩⟩
        intro us hu hp
        rcases List.prefix_concat_iff.1 hp with h | h
        · subst h; exact hA
        · exact h1 us hu h

theorem clamp_inside (c : HrvCfg) (s : HrvState) (h1 : ((poLow c : ℕ) : ℚ) < (poClampStep c (poClampMin c (poClampMax c s))).voltageSet)
    (h2 : (poClampStep c (poClampMin c (poClampMax c s))).voltageSet < c.voltageMax) : poClampStep c (poClampMin c (poClampMax c s)) = s := by
  have hlow : ((poLow c : ℕ) : ℚ) = max (c.voltageMin : ℚ) c.voltageStep := by unfold poLow; push_cast; rfl
  rw [hlow] at h1
  have a1 := le_max_left (c.voltageMin : ℚ) c.voltageStep
  have a2 := le_max_right (c.voltageMin : ℚ) c.voltageStep
  unfold poClampStep poClampMin poClampMax at *
  split_ifs at * <;> first | rfl | (exfalso; (try dsimp only at *); linarith)

theorem set_pos (c : HrvCfg) (hw : 1 < c.windowSize) (ha : 2^13 ≤ c.algorithm) (hb : c.algorithm < 2^14) (hs : 0 < c.voltageStep) (xs : List HrvIn) (hf : ∀ y ∈ xs, y.feedback = none) :
    0 < (after fl c xs).voltageSet := by
  induction xs using List.reverseRecOn with
  | nil =>
    show (0 : ℚ) < ((c.voltage + 1 : ℕ) : ℚ)
    positivity
  | append_singleton xs x ih =>
    obtain ⟨t, y, h1, -, -, -, -, h6, h7⟩ := po_after (fl := fl) c hw ha hb xs x (hf x (by simp))
    by_cases hA : Adapts fl c (xs ++ [x])
    · rw [h6 hA]
      have := (po_clamped c (poPerturb fl c t y)).1.1
      have h0 : (0 : ℚ) < c.voltageStep := by exact_mod_cast hs
      linarith
    · rw [h7 hA, h1]
      exact ih (fun y hy => hf y (by simp [hy]))

/-- What an adaptation does before the limits. -/
theorem perturb_cases (hfl : Rounding fl) (c : HrvCfg) (hc : c.Valid) (hv : c.voltage ≤ c.voltageMax) (hm : c.voltageMin ≤ c.voltageMax) (hsm : c.voltageStep ≤ c.voltageMax) (hs : 0 < c.voltageStep)
    (hw : 1 < c.windowSize) (ha : 2^13 ≤ c.algorithm) (hb : c.algorithm < 2^14) (xs : List HrvIn) (x : HrvIn) (hf : ∀ y ∈ xs ++ [x], y.feedback = none)
    (hA : Adapts fl c (xs ++ [x])) :
    ∃ u : HrvState, after fl c (xs ++ [x]) = poClampStep c (poClampMin c (poClampMax c u)) ∧
    (((after fl c xs).powerLast < powerAt fl c xs x ∧ u.isRising = (after fl c xs).isRising ∧ u.voltStep = 2 * (after fl c xs).voltStep ∧
        u.voltageSet = (after fl c xs).voltageSet + (if (after fl c xs).isRising then ((after fl c xs).voltStep : ℚ) else -(after fl c xs).voltStep)) ∨
      (powerAt fl c xs x ≤ (after fl c xs).powerLast ∧ powerAt fl c xs x ≤ 0 ∧ u.isRising = true ∧ u.voltStep = c.voltageStep ∧
        u.voltageSet = (after fl c xs).voltageSet - 4 * c.voltageStep) ∨
      (powerAt fl c xs x ≤ (after fl c xs).powerLast ∧ 0 < powerAt fl c xs x ∧ u.isRising = !(after fl c xs).isRising ∧ u.voltStep = c.voltageStep ∧
        u.voltageSet = (after fl c xs).voltageSet + (if (after fl c xs).isRising then -(c.voltageStep : ℚ) else c.voltageStep))) := by
  obtain ⟨t, y, h1, h2, h3, h4, h5, h6, -⟩ := po_after (fl := fl) c hw ha hb xs x (hf x (by simp))
  refine ⟨_, h6 hA, ?_⟩
  have hf' : ∀ y ∈ xs, y.feedback = none := fun y hy => hf y (by simp [hy])
  have hpos := set_pos (fl := fl) c hw ha hb hs xs hf'
  obtain ⟨n, hn, hnm⟩ := C22_setpoint_run hfl c hc hv hm hsm hw ha hb xs hf'
  have hst := (C22_step hfl c hc hv hw ha hb xs hf').2
  have b1 := hc.voltageMax; have b2 := hc.voltageMin; have b3 := hc.voltageStep
  rw [← h1] at hpos hn ⊢
  rw [← h2] at hst ⊢
  rw [← h3, ← h4, h5]
  have ex : ∀ z : ℤ, |(n : ℤ) + z| ≤ 2 ^ 53 → fl (t.voltageSet + z) = t.voltageSet + z := by
    intro z hz
    rw [hn, show ((n : ℕ) : ℚ) + (z : ℚ) = (((n : ℤ) + z : ℤ) : ℚ) by push_cast; ring]
    exact hfl.exactInt _ hz
  have hv1 : (t.voltStep : ℤ) < 2 ^ 34 := by
    have : max (c.voltageMax : ℤ) (max (c.voltageMin : ℤ) (c.voltageStep : ℤ)) < 2 ^ 32 := by omega
    omega
  have e1 : fl (t.voltageSet + (t.voltStep : ℚ)) = t.voltageSet + t.voltStep := by
    have := ex t.voltStep (by rw [abs_le]; constructor <;> omega)
    push_cast at this; exact this
  have e2 : fl (t.voltageSet - (t.voltStep : ℚ)) = t.voltageSet + -t.voltStep := by
    have := ex (-t.voltStep) (by rw [abs_le]; constructor <;> omega)
    push_cast at this; rw [sub_eq_add_neg]; exact this
  have e3 : fl (t.voltageSet + (c.voltageStep : ℚ)) = t.voltageSet + c.voltageStep := by
    have := ex c.voltageStep (by rw [abs_le]; constructor <;> omega)
    push_cast at this; exact this
  have e4 : fl (t.voltageSet - (c.voltageStep : ℚ)) = t.voltageSet + -c.voltageStep := by
    have := ex (-c.voltageStep) (by rw [abs_le]; constructor <;> omega)
    push_cast at this; rw [sub_eq_add_neg]; exact this
  have e5 : fl (t.voltageSet - (c.voltageStepX4 : ℚ)) = t.voltageSet - 4 * c.voltageStep := by
    have := ex (-(4 * c.voltageStep)) (by rw [abs_le]; constructor <;> omega)
    unfold HrvCfg.voltageStepX4
    push_cast at this ⊢
    rw [sub_eq_add_neg, this, ← sub_eq_add_neg]
  unfold poPerturb
  dsimp only
  by_cases g1 : y.v * y.i > t.powerLast
  · rw [if_pos g1]
    refine Or.inl ⟨g1, rfl, by dsimp only; omega, ?_⟩
    dsimp only
    split_ifs <;> assumption
  · rw [if_neg g1]
    by_cases g2 : y.v * y.i ≤ 0
    · rw [if_pos ⟨g2, hpos⟩]
      exact Or.inr (Or.inl ⟨not_lt.1 g1, g2, rfl, rfl, e5⟩)
    · rw [if_neg (fun hh => g2 hh.1)]
      refine Or.inr (Or.inr ⟨not_lt.1 g1, not_le.1 g2, rfl, rfl, ?_⟩)
      cases t.isRising <;> simp [e3, e4]

/-! ## Theorems -/

/-- **C97, the direction.**  Two adaptations that follow each other, with power at the first one and both set-points within the limits; `p0`, `p1`, `p2` are the powers reported with the adaptation before, the first
and the second one, `v0`, `v1`, `v2` the set-points before, between and behind them.  If the power grew, the set-point goes on in the same direction (twice as far if it had grown before as well); if it did not, the
set-point turns round with the configured step; without any power it goes down by four steps. -/
theorem C97_direction (hfl : Rounding fl) (c : HrvCfg) (hc : c.Valid) (hv : c.voltage ≤ c.voltageMax) (hs : 0 < c.voltageStep)
    (hw : 1 < c.windowSize) (ha : 2^13 ≤ c.algorithm) (hb : c.algorithm < 2^14) (xs : List HrvIn) (x1 : HrvIn) (ys : List HrvIn) (x2 : HrvIn)
    (hf : ∀ y ∈ xs ++ x1 :: ys ++ [x2], y.feedback = none)
    (hA1 : Adapts fl c (xs ++ [x1])) (hno : ∀ us, us ≠ [] → us <+: ys → ¬ Adapts fl c (xs ++ x1 :: us)) (hA2 : Adapts fl c (xs ++ x1 :: ys ++ [x2]))
    (p0 p1 p2 : ℤ) (hp0 : LastPower fl c xs p0) (hp1 : p1 = powerAt fl c xs x1) (hp2 : p2 = powerAt fl c (xs ++ x1 :: ys) x2)
    (v0 v1 v2 : ℚ) (hv0 : v0 = (after fl c xs).voltageSet) (hv1 : v1 = (after fl c (xs ++ [x1])).voltageSet) (hv2 : v2 = (after fl c (xs ++ x1 :: ys ++ [x2])).voltageSet)
    (hin1 : ((poLow c : ℕ) : ℚ) < v1 ∧ v1 < c.voltageMax) (hin2 : ((poLow c : ℕ) : ℚ) < v2 ∧ v2 < c.voltageMax) (hpos : 0 < p1) :
    (v0 < v1 ∨ v1 < v0) ∧
    (p1 < p2 → p0 < p1 → v2 - v1 = 2 * (v1 - v0)) ∧
    (p1 < p2 → p1 ≤ p0 → v2 - v1 = v1 - v0 ∧ |v1 - v0| = c.voltageStep) ∧
    (p2 ≤ p1 → 0 < p2 → v0 < v1 → v2 = v1 - c.voltageStep) ∧
    (p2 ≤ p1 → 0 < p2 → v1 < v0 → v2 = v1 + c.voltageStep) ∧
    (p2 ≤ 0 → v2 = v1 - 4 * c.voltageStep) := by
  have hlow : ((poLow c : ℕ) : ℚ) = max (c.voltageMin : ℚ) c.voltageStep := by unfold poLow; push_cast; rfl
  have hm : c.voltageMin ≤ c.voltageMax := by
    have : ((poLow c : ℕ) : ℚ) < c.voltageMax := lt_trans hin1.1 hin1.2
    have : poLow c < c.voltageMax := by exact_mod_cast this
    unfold poLow at this; omega
  have hsm : c.voltageStep ≤ c.voltageMax := by
    have : ((poLow c : ℕ) : ℚ) < c.voltageMax := lt_trans hin1.1 hin1.2
    have : poLow c < c.voltageMax := by exact_mod_cast this
    unfold poLow at this; omega
  have f1 : ∀ y ∈ xs ++ [x1], y.feedback = none := fun y hy => hf y (by simp at hy ⊢; tauto)
  have f2 : ∀ y ∈ ys, y.feedback = none := fun y hy => hf y (by simp [hy])
  have f0 : ∀ y ∈ xs, y.feedback = none := fun y hy => hf y (by simp [hy])
  have hP0 := lastPower_eq (fl := fl) c hw ha hb xs f0 p0 hp0
  have hP1 := (power_step (fl := fl) c hw ha hb xs x1 (hf x1 (by simp))).1 hA1
  obtain ⟨k1, k2, k3, k4⟩ := no_adapt (fl := fl) c hw ha hb (xs ++ [x1]) ys f2 (fun us hu hp => by simpa using hno us hu hp)
  rw [List.append_assoc, List.singleton_append] at k1 k2 k3 k4
  obtain ⟨u, hu, cu⟩ := perturb_cases hfl c hc hv hm hsm hs hw ha hb xs x1 f1 hA1
  obtain ⟨w, hwe, cw⟩ := perturb_cases hfl c hc hv hm hsm hs hw ha hb (xs ++ x1 :: ys) x2 hf hA2
  have hu' := clamp_inside c u (by rw [← hu, ← hv1]; exact hin1.1) (by rw [← hu, ← hv1]; exact hin1.2)
  have hw' := clamp_inside c w (by rw [← hwe, ← hv2]; exact hin2.1) (by rw [← hwe, ← hv2]; exact hin2.2)
  rw [hu'] at hu
  rw [hw'] at hwe
  rw [k1, k2, k3, k4, ← hp2] at cw
  rw [hP1, ← hp1, ← hv1] at cw
  rw [← hwe, ← hv2] at cw
  rw [← hu, hP0, ← hp1, ← hv0, ← hv1] at cu
  have hst := (C22_step hfl c hc hv hw ha hb xs f0).1
  have hst' : (c.voltageStep : ℚ) ≤ (after fl c xs).voltStep := by exact_mod_cast hst
  have hs' : (0 : ℚ) < c.voltageStep := by exact_mod_cast hs
  have h2s : ((after fl c (xs ++ [x1])).voltStep : ℚ) = (if (p0 : ℤ) < p1 then 2 * ((after fl c xs).voltStep : ℚ) else c.voltageStep) := by
    rcases cu with ⟨c1, c2, c3, c4⟩ | ⟨c1, c2, c3, c4, c5⟩ | ⟨c1, c2, c3, c4, c5⟩
    · rw [if_pos c1, c3]; push_cast; ring
    · rw [if_neg (by omega), c4]
    · rw [if_neg (by omega), c4]
  rcases cu with ⟨c1, c2, c3, c4⟩ | ⟨c1, c2, c3, c4, c5⟩ | ⟨c1, c2, c3, c4, c5⟩
  · rw [if_pos c1] at h2s
    rw [h2s, c2] at cw
    cases hr : (after fl c xs).isRising with
    | true =>
      rw [hr] at c4 cw
      simp only [if_true] at c4 cw
      refine ⟨Or.inl (by linarith), ?_, ?_, ?_, ?_, ?_⟩
      · intro g1 g2
        rcases cw with ⟨d1, -, -, d4⟩ | ⟨d1, -⟩ | ⟨d1, -⟩
        · linarith
        · omega
        · omega
      · intro g1 g2; omega
      · intro g1 g2 g3
        rcases cw with ⟨d1, -, -, d4⟩ | ⟨d1, d2, -⟩ | ⟨d1, -, -, -, d5⟩
        · omega
        · omega
        · linarith
      · intro g1 g2 g3; exfalso; linarith
      · intro g1
        rcases cw with ⟨d1, -, -, d4⟩ | ⟨d1, -, -, -, d5⟩ | ⟨d1, d2, -⟩
        · omega
        · linarith
        · omega
    | false =>
      rw [hr] at c4 cw
      simp only [Bool.false_eq_true, if_false] at c4 cw
      refine ⟨Or.inr (by linarith), ?_, ?_, ?_, ?_, ?_⟩
      · intro g1 g2
        rcases cw with ⟨d1, -, -, d4⟩ | ⟨d1, -⟩ | ⟨d1, -⟩
        · linarith
        · omega
        · omega
      · intro g1 g2; omega
      · intro g1 g2 g3; exfalso; linarith
      · intro g1 g2 g3
        rcases cw with ⟨d1, -, -, d4⟩ | ⟨d1, d2, -⟩ | ⟨d1, -, -, -, d5⟩
        · omega
        · omega
        · linarith
      · intro g1
        rcases cw with ⟨d1, -, -, d4⟩ | ⟨d1, -, -, -, d5⟩ | ⟨d1, d2, -⟩
        · omega
        · linarith
        · omega
  · omega
  · rw [if_neg (by omega)] at h2s
    rw [h2s, c3] at cw
    cases hr : (after fl c xs).isRising with
    | true =>
      rw [hr] at c5 cw
      simp only [if_true, Bool.not_true, Bool.false_eq_true, if_false] at c5 cw
      have habs : |v1 - v0| = c.voltageStep := by rw [show v1 - v0 = -(c.voltageStep : ℚ) by linarith, abs_neg, abs_of_pos hs']
      refine ⟨Or.inr (by linarith), ?_, ?_, ?_, ?_, ?_⟩
      · intro g1 g2; omega
      · intro g1 g2
        refine ⟨?_, habs⟩
        rcases cw with ⟨d1, -, -, d4⟩ | ⟨d1, -⟩ | ⟨d1, -⟩
        · linarith
        · omega
        · omega
      · intro g1 g2 g3; exfalso; linarith
      · intro g1 g2 g3
        rcases cw with ⟨d1, -, -, d4⟩ | ⟨d1, d2, -⟩ | ⟨d1, -, -, -, d5⟩
        · omega
        · omega
        · linarith
      · intro g1
        rcases cw with ⟨d1, -, -, d4⟩ | ⟨d1, -, -, -, d5⟩ | ⟨d1, d2, -⟩
        · omega
        · linarith
        · omega
    | false =>
      rw [hr] at c5 cw
      simp only [Bool.not_false, Bool.false_eq_true, if_false, if_true] at c5 cw
      have habs : |v1 - v0| = c.voltageStep := by rw [show v1 - v0 = (c.voltageStep : ℚ) by linarith, abs_of_pos hs']
      refine ⟨Or.inl (by linarith), ?_, ?_, ?_, ?_, ?_⟩
      · intro g1 g2; omega
      · intro g1 g2
        refine ⟨?_, habs⟩
        rcases cw with ⟨d1, -, -, d4⟩ | ⟨d1, -⟩ | ⟨d1, -⟩
        · linarith
        · omega
        · omega
      · intro g1 g2 g3
        rcases cw with ⟨d1, -, -, d4⟩ | ⟨d1, d2, -⟩ | ⟨d1, -, -, -, d5⟩
        · omega
        · omega
        · linarith
      · intro g1 g2 g3; exfalso; linarith
      · intro g1
        rcases cw with ⟨d1, -, -, d4⟩ | ⟨d1, -, -, -, d5⟩ | ⟨d1, d2, -⟩
        · omega
        · linarith
        · omega

/-- Behind an adaptation that ends at a limit, the tracker is set to leave it. -/
theorem at_limit (c : HrvCfg) (hlt : poLow c < c.voltageMax) (u : HrvState) (L : ℕ) (hL : L = poLow c ∨ L = c.voltageMax)
    (h : (poClampStep c (poClampMin c (poClampMax c u))).voltageSet = L) : (poClampStep c (poClampMin c (poClampMax c u))).isRising = decide (L = poLow c) := by
  have hlow : ((poLow c : ℕ) : ℚ) = max (c.voltageMin : ℚ) c.voltageStep := by unfold poLow; push_cast; rfl
  have hlt' : ((poLow c : ℕ) : ℚ) < c.voltageMax := by exact_mod_cast hlt
  have a1 := le_max_left (c.voltageMin : ℚ) c.voltageStep
  have a2 := le_max_right (c.voltageMin : ℚ) c.voltageStep
  rw [← hlow] at a1 a2
  rcases hL with rfl | rfl
  · rw [decide_eq_true rfl]
    unfold poClampStep poClampMin poClampMax at *
    rcases max_choice (c.voltageMin : ℚ) c.voltageStep with hm | hm <;> rw [← hlow] at hm <;> split_ifs at * <;> first | rfl | (exfalso; (try dsimp only at *); linarith)
  · rw [decide_eq_false (by omega)]
    unfold poClampStep poClampMin poClampMax at *
    split_ifs at * <;> first | rfl | (exfalso; (try dsimp only at *); linarith)

/-- Beyond a limit the tracker is set to it. -/
theorem to_limit (c : HrvCfg) (hlt : poLow c < c.voltageMax) (u : HrvState) :
    ((c.voltageMax : ℚ) ≤ u.voltageSet → (poClampStep c (poClampMin c (poClampMax c u))).voltageSet = c.voltageMax) ∧
      (u.voltageSet ≤ ((poLow c : ℕ) : ℚ) → (poClampStep c (poClampMin c (poClampMax c u))).voltageSet = ((poLow c : ℕ) : ℚ)) := by
  have hlow : ((poLow c : ℕ) : ℚ) = max (c.voltageMin : ℚ) c.voltageStep := by unfold poLow; push_cast; rfl
  have hlt' : ((poLow c : ℕ) : ℚ) < c.voltageMax := by exact_mod_cast hlt
  have a1 := le_max_left (c.voltageMin : ℚ) c.voltageStep
  have a2 := le_max_right (c.voltageMin : ℚ) c.voltageStep
  rw [← hlow] at a1 a2
  constructor
  · intro h
    unfold poClampStep poClampMin poClampMax
    split_ifs <;> first | rfl | (exfalso; (try dsimp only at *); linarith)
  · intro h
    unfold poClampStep poClampMin poClampMax
    rcases max_choice (c.voltageMin : ℚ) c.voltageStep with hm | hm <;> rw [← hlow] at hm <;> split_ifs <;> (try dsimp only at *) <;> linarith

/-- **C97, violated: the tracker stays at a limit.**  Once an adaptation ends at the upper or at the lowest set-point, and as long as no adaptation reports more power than the one before (as with a constant source),
the set-point stays where it is, however far it is from the optimum: the direction is turned twice, by the limit and by the missing growth. -/
theorem C97_limit_violated (hfl : Rounding fl) (c : HrvCfg) (hc : c.Valid) (hv : c.voltage ≤ c.voltageMax) (hs : 0 < c.voltageStep) (hlt : poLow c < c.voltageMax)
    (hw : 1 < c.windowSize) (ha : 2^13 ≤ c.algorithm) (hb : c.algorithm < 2^14) (xs ys : List HrvIn) (hf : ∀ y ∈ xs ++ ys, y.feedback = none) (hne : xs ≠ [])
    (hA : Adapts fl c xs) (L : ℕ) (hL : L = poLow c ∨ L = c.voltageMax) (hset : (after fl c xs).voltageSet = L)
    (hpow : ∀ us y, us ++ [y] <+: ys → Adapts fl c (xs ++ us ++ [y]) → ∀ p0, LastPower fl c (xs ++ us) p0 → 0 < powerAt fl c (xs ++ us) y ∧ powerAt fl c (xs ++ us) y ≤ p0) :
    (after fl c (xs ++ ys)).voltageSet = L := by
  have hm : c.voltageMin ≤ c.voltageMax := by unfold poLow at hlt; omega
  have hsm : c.voltageStep ≤ c.voltageMax := by unfold poLow at hlt; omega
  have key : (after fl c (xs ++ ys)).voltageSet = L ∧ (after fl c (xs ++ ys)).isRising = decide (L = poLow c) := by
    induction ys using List.reverseRecOn with
    | nil =>
      rw [List.append_nil]
      refine ⟨hset, ?_⟩
      obtain ⟨zs, z, rfl⟩ : ∃ zs z, xs = zs ++ [z] := by
        rcases List.eq_nil_or_concat xs with h | ⟨zs, z, h⟩
        · exact absurd h hne
        · exact ⟨zs, z, by rw [h, List.concat_eq_append]⟩
      obtain ⟨t, y, -, -, -, -, -, h6, -⟩ := po_after (fl := fl) c hw ha hb zs z (hf z (by simp))
      rw [h6 hA] at hset ⊢
      exact at_limit c hlt _ L hL hset
    | append_singleton ys y ih =>
      obtain ⟨i1, i2⟩ := ih (fun z hz => hf z (by simp at hz ⊢; tauto)) (fun us z hu => hpow us z (hu.trans (List.prefix_append _ _)))
      rw [← List.append_assoc]
      by_cases hA2 : Adapts fl c (xs ++ ys ++ [y])
      · have hf' : ∀ z ∈ xs ++ ys ++ [y], z.feedback = none := by rw [List.append_assoc]; exact hf
        obtain ⟨u, hu, cu⟩ := perturb_cases hfl c hc hv hm hsm hs hw ha hb (xs ++ ys) y hf' hA2
        obtain ⟨p0, hp0⟩ := lastPower_exists (fl := fl) c (xs ++ ys)
        obtain ⟨g1, g2⟩ := hpow ys y (List.prefix_refl _) hA2 p0 hp0
        have hq := lastPower_eq (fl := fl) c hw ha hb (xs ++ ys) (fun z hz => hf' z (by simp only [List.mem_append] at hz ⊢; tauto)) p0 hp0
        rw [hq] at cu
        have hs' : (0 : ℚ) < c.voltageStep := by exact_mod_cast hs
        have hend : (after fl c (xs ++ ys ++ [y])).voltageSet = L := by
          rcases cu with ⟨c1, -⟩ | ⟨-, c2, -⟩ | ⟨-, -, -, -, c5⟩
          · omega
          · omega
          · rw [i1, i2] at c5
            rw [hu]
            rcases hL with rfl | rfl
            · rw [decide_eq_true rfl, if_pos rfl] at c5
              exact (to_limit c hlt u).2 (by linarith)
            · rw [decide_eq_false (by omega), if_neg (by simp)] at c5
              exact (to_limit c hlt u).1 (by linarith)
        refine ⟨hend, ?_⟩
        rw [hu] at hend ⊢
        exact at_limit c hlt u L hL hend
      · obtain ⟨t, z, h1, -, h3, -, -, -, h7⟩ := po_after (fl := fl) c hw ha hb (xs ++ ys) y (hf y (by simp))
        rw [h7 hA2, h1, h3]
        exact ⟨i1, i2⟩
  exact key.1

/-! ## A constant source -/

/-- `n` samples of a constant source that is measured over and over again: 8 µA less 2 µA for every volt, from 0 to 3.5 V in steps of 0.5 V. -/
def constantSource (n : ℕ) : List HrvIn := (List.range n).map fun k => { v := 500000 * ((k % 8 : ℕ) : ℤ), i := 8000 - 1000 * ((k % 8 : ℕ) : ℤ) }

/-- A tracker from 0 V to 3.5 V in steps of 0.5 V. -/
def stuckHrv : HrvCfg := { demoHrv (2^13) 3 with voltageStep := 500000, voltageMax := 3500000, voltage := 1000000, intervalN := 16 }

theorem constantSource_add (n : ℕ) : constantSource (16 * n + 16) = constantSource (16 * n) ++ constantSource 16 := by
  unfold constantSource
  rw [List.range_add, List.map_append, List.map_map]
  congr 1
  apply List.map_congr_left
  intro k _
  have : (16 * n + k) % 8 = k % 8 := by omega
  show ({ v := 500000 * (((16 * n + k) % 8 : ℕ) : ℤ), i := 8000 - 1000 * (((16 * n + k) % 8 : ℕ) : ℤ) } : HrvIn) = _
  rw [this]

theorem stuck_state (g : ℚ → ℚ) (h : (hrvRun g stuckHrv (after g stuckHrv (constantSource 96)) (constantSource 16)).1 = after g stuckHrv (constantSource 96)) (n : ℕ) :
    after g stuckHrv (constantSource (16 * (6 + n))) = after g stuckHrv (constantSource 96) := by
  induction n with
  | zero => rfl
  | succ n ih =>
    rw [show 16 * (6 + (n + 1)) = 16 * (6 + n) + 16 by ring, constantSource_add]
    unfold after at *
    rw [hrvRun_append]
    dsimp only
    rw [ih, h]

/-- **C97, violated: a constant source.**  The source gives 8 µW at 2 V, but the tracker overshoots, and from then on it stays for ever at the upper limit and harvests 3.5 µW. -/
theorem C97_constant_violated (n : ℕ) :
    (after b64 stuckHrv (constantSource (16 * (6 + n)))).voltageSet = 3500000 ∧ (after b64 stuckHrv (constantSource (16 * (6 + n)))).powerLast = 3500000 * 1000 ∧
    (after (fun x => x) stuckHrv (constantSource (16 * (6 + n)))).voltageSet = 3500000 ∧ (⟨⟨2000000, 4000⟩, none⟩ : HrvIn) ∈ constantSource (16 * (6 + n)) ∧
    stuckHrv.Valid ∧ stuckHrv.voltage ≤ stuckHrv.voltageMax ∧ poLow stuckHrv < stuckHrv.voltageMax := by
  refine ⟨?_, ?_, ?_, ?_, ?_, by decide, by decide⟩
  · rw [stuck_state b64 (by decide +kernel)]; decide +kernel
  · rw [stuck_state b64 (by decide +kernel)]; decide +kernel
  · rw [stuck_state (fun x => x) (by decide +kernel)]; decide +kernel
  · exact List.mem_map.2 ⟨4, List.mem_range.2 (by omega), by decide⟩
  · constructor <;> decide

/-- The hypotheses of `C97_direction` are met: adaptations with samples 17 and 33, none between, with growing power and set-points within the limits. -/
example : (after b64 stuckHrv (constantSource 17)).intervalStep = 0 ∧ (∀ k < 15, (after b64 stuckHrv (constantSource (18 + k))).intervalStep ≠ 0) ∧
    (after b64 stuckHrv (constantSource 33)).intervalStep = 0 ∧ powerAt b64 stuckHrv (constantSource 16) ⟨⟨0, 8000⟩, none⟩ = 500000 * 7000 ∧
    powerAt b64 stuckHrv (constantSource 32) ⟨⟨0, 8000⟩, none⟩ = 1000000 * 6000 ∧ (after b64 stuckHrv (constantSource 16)).voltageSet = 500000 ∧
    (after b64 stuckHrv (constantSource 17)).voltageSet = 1000000 ∧ (after b64 stuckHrv (constantSource 33)).voltageSet = 2000000 ∧ poLow stuckHrv = 500000 := by
  refine ⟨by decide +kernel, by decide +kernel, by decide +kernel, by decide +kernel, by decide +kernel, by decide +kernel, by decide +kernel, by decide +kernel, by decide⟩

end Verif.Props
