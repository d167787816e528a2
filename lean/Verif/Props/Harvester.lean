import Verif.Lemmas.Harvester
import Verif.Py.Binary64

/-!
# C19–C23 — the virtual harvester

`after fl c xs` is the state of a fresh harvester with configuration `c` that was fed with the
stream `xs`; `output fl c xs x` is the point it returns for one more sample `x`.  Every element of
the output list of a run is of this form (`C23_stream`), so a statement about all `xs`, `x` is a statement about every
instant of every run.  A sample may carry a feedback set-point (written by the source model);
`feedback = none` is a plain harvester.
-/

namespace Verif.Props
open Verif.Py Verif.Model

variable {fl : ℚ → ℚ}

/-- State of a fresh harvester after the stream `xs`. -/
abbrev after (fl : ℚ → ℚ) (c : HrvCfg) (xs : List HrvIn) : HrvState :=
  (hrvRun fl c (HrvState.init c) xs).1

/-- All points returned for the stream `xs`. -/
abbrev outputs (fl : ℚ → ℚ) (c : HrvCfg) (xs : List HrvIn) : List Sample :=
  (hrvRun fl c (HrvState.init c) xs).2

/-- The point returned for `x` after the stream `xs`. -/
abbrev output (fl : ℚ → ℚ) (c : HrvCfg) (xs : List HrvIn) (x : HrvIn) : Sample :=
  (hrvStep fl c (after fl c xs) x).2

/-- The bare samples of a stream. -/
abbrev samples (xs : List HrvIn) : List Sample := xs.map HrvIn.toSample

/-- Eight-point ivcurves, used in the examples. -/
def demoHrv (algorithm mode : ℕ) : HrvCfg where
  algorithm := algorithm
  hrvMode := mode
  windowSize := 8
  voltage := 2500000
  voltageMin := 0
  voltageMax := 5000000
  voltageStep := 350000
  currentLimit := 1000
  setpointN8 := 128
  intervalN := 8
  durationN := 8
  waitCyclesN := 0

theorem demoHrv_valid (a m : ℕ) (ha : a < 2^32) (hm : m < 2^32) : (demoHrv a m).Valid := by
  constructor <;> simp [demoHrv] <;> assumption

/-- Rising ivcurves with a drop of the current at the point `cliff`. -/
def demoCurves (cliff : ℕ) (n : ℕ) : List HrvIn :=
  (List.range n).map fun k =>
    { v := 700000 * ((k % 8 : ℕ) : ℤ), i := if k % 8 < cliff then 5000 else 2000 }

/-! ## C23 dispatch -/

/-- C23: with a window of at most one sample the harvester hands every sample through and keeps its state. -/
theorem C23_passthrough (c : HrvCfg) (hw : c.windowSize ≤ 1) (s : HrvState) (x : Sample) :
    ivcurveSample fl c s x = (s, x) := by
  unfold ivcurveSample; rw [if_pos hw]

/-- C23, whole streams: the output is the input. -/
theorem C23_passthrough_run (c : HrvCfg) (hw : c.windowSize ≤ 1 ∨ c.algorithm < 2^8) (xs : List HrvIn) :
    outputs fl c xs = samples xs := by
  suffices h : ∀ s, (hrvRun fl c s xs).2 = samples xs from h _
  intro s
  induction xs generalizing s with
  | nil => rfl
  | cons x xs ih =>
    have hx : (hrvStep fl c s x).2 = x.toSample := by
      rw [hrvStep_out]
      unfold ivcurveSample hrvOPT hrvPO hrvVOC hrvCV
      split_ifs <;> first | rfl | omega
    simp [hrvRun, hx, ih]

/-- C23: with a larger window exactly the algorithm selected by the number works on the sample:
numbers of at least 2^14 optimal, 2^13 perturb-observe, 2^12 open-circuit, 2^8 constant voltage,
less than that hands through. -/
theorem C23_dispatch (c : HrvCfg) (hw : 1 < c.windowSize) (s : HrvState) (x : Sample) :
    (2^14 ≤ c.algorithm → ivcurveSample fl c s x = ivcurveOpt c s x) ∧
    (2^13 ≤ c.algorithm → c.algorithm < 2^14 → ivcurveSample fl c s x = ivcurvePo fl c s x) ∧
    (2^12 ≤ c.algorithm → c.algorithm < 2^13 → ivcurveSample fl c s x = ivcurveVoc fl c s x) ∧
    (2^8 ≤ c.algorithm → c.algorithm < 2^12 → ivcurveSample fl c s x = ivcurveCv fl c s x) ∧
    (c.algorithm < 2^8 → ivcurveSample fl c s x = (s, x)) := by
  refine ⟨sample_opt fl c s x hw, sample_po fl c s x hw, sample_voc fl c s x hw, sample_cv fl c s x hw, ?_⟩
  intro h
  unfold ivcurveSample hrvOPT hrvPO hrvVOC hrvCV
  split_ifs <;> first | rfl | omega

/-- C23: a stream gives one point per sample, each computed from the samples before it. -/
theorem C23_stream (c : HrvCfg) (xs : List HrvIn) :
    (outputs fl c xs).length = xs.length ∧
    ∀ o ∈ outputs fl c xs, ∃ pre x post, xs = pre ++ x :: post ∧ o = output fl c pre x :=
  ⟨hrvRun_length fl c _ xs, fun o ho => hrvRun_outputs fl c _ xs o ho⟩

example : outputs (fl := b64) { demoHrv (2^13) 7 with windowSize := 0 } (demoCurves 2 3) =
    [⟨0, 5000⟩, ⟨700000, 5000⟩, ⟨1400000, 2000⟩] := by decide +kernel
example : outputs (fl := b64) (demoHrv (2^14) 7) (demoCurves 2 4) =
    [⟨0, 5000⟩, ⟨700000, 5000⟩, ⟨700000, 5000⟩, ⟨2100000, 2000⟩] := by decide +kernel

/-! ## C19 constant voltage -/

/-- Ghost invariant: hold and last sample come from the stream. -/
private structure CvGhost (c : HrvCfg) (xs : List HrvIn) (s : HrvState) : Prop where
  hold : (⟨s.voltageHold, s.currentHold⟩ : Sample) = ⟨0, 0⟩ ∨ (⟨s.voltageHold, s.currentHold⟩ : Sample) ∈ samples xs
  last : (⟨s.voltageLast, s.currentLast⟩ : Sample) = (samples xs).getLastD ⟨0, 0⟩

private theorem po_hold (c : HrvCfg) (s : HrvState) (x : Sample) :
    (ivcurvePo fl c s x).2 = (ivcurveCv fl c { s with intervalStep := nextInterval c s.intervalStep } x).2 ∧
    (⟨(ivcurvePo fl c s x).1.voltageHold, (ivcurvePo fl c s x).1.currentHold⟩ : Sample) = (ivcurvePo fl c s x).2 ∧
    (⟨(ivcurvePo fl c s x).1.voltageLast, (ivcurvePo fl c s x).1.currentLast⟩ : Sample) = x := by
  have h1 : ∀ u, (poClampStep c u).voltageHold = u.voltageHold ∧ (poClampStep c u).currentHold = u.currentHold ∧
      (poClampStep c u).voltageLast = u.voltageLast ∧ (poClampStep c u).currentLast = u.currentLast := by
    intro u; unfold poClampStep; split_ifs <;> simp
  have h2 : ∀ u, (poClampMin c u).voltageHold = u.voltageHold ∧ (poClampMin c u).currentHold = u.currentHold ∧
      (poClampMin c u).voltageLast = u.voltageLast ∧ (poClampMin c u).currentLast = u.currentLast := by
    intro u; unfold poClampMin; split_ifs <;> simp
  have h3 : ∀ u, (poClampMax c u).voltageHold = u.voltageHold ∧ (poClampMax c u).currentHold = u.currentHold ∧
      (poClampMax c u).voltageLast = u.voltageLast ∧ (poClampMax c u).currentLast = u.currentLast := by
    intro u; unfold poClampMax; split_ifs <;> simp
  have h4 : ∀ u y, (poPerturb fl c u y).voltageHold = u.voltageHold ∧ (poPerturb fl c u y).currentHold = u.currentHold ∧
      (poPerturb fl c u y).voltageLast = u.voltageLast ∧ (poPerturb fl c u y).currentLast = u.currentLast := by
    intro u y; unfold poPerturb; dsimp only; split_ifs <;> simp
  unfold ivcurvePo
  dsimp only
  have hl := cv_last fl c { s with intervalStep := nextInterval c s.intervalStep } x
  split_ifs
  · refine ⟨rfl, ?_, ?_⟩
    · simp only [h1, h2, h3, h4]; rfl
    · simp only [h1, h2, h3, h4]; rfl
  · exact ⟨rfl, rfl, rfl⟩

private theorem voc_hold (c : HrvCfg) (s : HrvState) (x : Sample) :
    (ivcurveVoc fl c s x).2 = (ivcurveCv fl c (vocTrack c s x) x).2 ∧
    (⟨(ivcurveVoc fl c s x).1.voltageHold, (ivcurveVoc fl c s x).1.currentHold⟩ : Sample) = (ivcurveVoc fl c s x).2 ∧
    (⟨(ivcurveVoc fl c s x).1.voltageLast, (ivcurveVoc fl c s x).1.currentLast⟩ : Sample) = x :=
  ⟨rfl, rfl, rfl⟩

/-- All three set-point algorithms answer with the constant-voltage step taken at the present set-point. -/
private theorem through_cv (c : HrvCfg) (hw : 1 < c.windowSize) (ha : 2^8 ≤ c.algorithm)
    (hb : c.algorithm < 2^14) (s : HrvState) (x : HrvIn) :
    ∃ t : HrvState, (hrvStep fl c s x).2 = (ivcurveCv fl c t x.toSample).2 ∧
      t.voltageSet = s.voltageSet ∧ t.voltageHold = s.voltageHold ∧ t.currentHold = s.currentHold ∧
      t.voltageLast = s.voltageLast ∧ t.currentLast = s.currentLast ∧ t.compareLast = s.compareLast ∧
      (⟨(hrvStep fl c s x).1.voltageHold, (hrvStep fl c s x).1.currentHold⟩ : Sample) = (hrvStep fl c s x).2 ∧
      (⟨(hrvStep fl c s x).1.voltageLast, (hrvStep fl c s x).1.currentLast⟩ : Sample) = x.toSample := by
  obtain ⟨q, hq⟩ := hrvStep_state fl c s x
  rw [hrvStep_out, hq]
  dsimp only
  by_cases h1 : c.algorithm < 2^12
  · rw [sample_cv fl c s _ hw ha h1]
    exact ⟨s, rfl, rfl, rfl, rfl, rfl, rfl, rfl, rfl, rfl⟩
  by_cases h2 : c.algorithm < 2^13
  · rw [sample_voc fl c s _ hw (by omega) h2]
    obtain ⟨f1, f2, f3, f4, f5, f6, _⟩ := vocTrack_frame c s x.toSample
    exact ⟨vocTrack c s x.toSample, rfl, f1, f2, f3, f4, f5, f6, (voc_hold c s _).2.1, (voc_hold c s _).2.2⟩
  · rw [sample_po fl c s _ hw (by omega) hb]
    exact ⟨_, (po_hold c s x.toSample).1, rfl, rfl, rfl, rfl, rfl, rfl, (po_hold c s _).2.1, (po_hold c s _).2.2⟩

private theorem cv_ghost (c : HrvCfg) (hw : 1 < c.windowSize) (ha : 2^8 ≤ c.algorithm)
    (hb : c.algorithm < 2^14) (hl : c.linExtrapolation = false) (xs : List HrvIn) :
    CvGhost c xs (after fl c xs) := by
  refine hrvRun_inv fl c _ (CvGhost c) (fun _ => True) ⟨Or.inl rfl, rfl⟩ ?_ xs (fun _ _ => trivial)
  rintro xs s x - - ⟨ih1, ih2⟩
  obtain ⟨t, ho, t1, t2, t3, t4, t5, t6, hh, hlast⟩ := through_cv (fl := fl) c hw ha hb s x
  refine ⟨?_, ?_⟩
  · rw [hh, ho, cv_out]
    rcases cv_hold fl c t x.toSample hl with ⟨a, b⟩ | ⟨a, b, _⟩ | ⟨a, b, _⟩ <;> rw [a, b]
    · rw [t2, t3]
      rcases ih1 with h | h
      · exact Or.inl h
      · exact Or.inr (by simp only [samples, List.map_append, List.mem_append]; exact Or.inl h)
    · exact Or.inr (by simp [samples])
    · rw [t4, t5, ih2]
      rcases List.eq_nil_or_concat xs with rfl | ⟨xs', y, rfl⟩
      · exact Or.inl rfl
      · exact Or.inr (by simp [samples])
  · rw [hlast]; simp [samples]

private theorem cv_prev (c : HrvCfg) (hw : 1 < c.windowSize) (ha : 2^8 ≤ c.algorithm)
    (hb : c.algorithm < 2^14) (xs : List HrvIn) :
    (⟨(after fl c xs).voltageHold, (after fl c xs).currentHold⟩ : Sample) = (outputs fl c xs).getLastD ⟨0, 0⟩ := by
  induction xs using List.reverseRecOn with
  | nil => rfl
  | append_singleton xs x _ =>
    unfold after outputs
    rw [hrvRun_snoc]
    obtain ⟨t, _, _, _, _, _, _, _, hh, _⟩ := through_cv (fl := fl) c hw ha hb (after fl c xs) x
    simpa using hh

/-- C19 (constant voltage, open-circuit and perturb-observe harvesting, extrapolation off): every
returned point is `(0,0)` or one of the samples fed in so far, voltage and current from the same sample. -/
theorem C19_measured (c : HrvCfg) (hw : 1 < c.windowSize) (ha : 2^8 ≤ c.algorithm)
    (hb : c.algorithm < 2^14) (hl : c.hrvMode.testBit 2 = false) (xs : List HrvIn) (x : HrvIn) :
    output fl c xs x = ⟨0, 0⟩ ∨ output fl c xs x ∈ samples (xs ++ [x]) := by
  have h := (cv_ghost (fl := fl) c hw ha hb hl (xs ++ [x])).hold
  unfold after at h
  rw [hrvRun_snoc] at h
  obtain ⟨t, _, _, _, _, _, _, _, hh, _⟩ := through_cv (fl := fl) c hw ha hb (after fl c xs) x
  simpa only [hh] using h

/-- C19: so without extrapolation a stream of non-negative currents gives non-negative currents. -/
theorem C19_nonneg (c : HrvCfg) (hw : 1 < c.windowSize) (ha : 2^8 ≤ c.algorithm)
    (hb : c.algorithm < 2^14) (hl : c.hrvMode.testBit 2 = false) (xs : List HrvIn) (x : HrvIn)
    (hi : ∀ y ∈ xs ++ [x], 0 ≤ y.i) : 0 ≤ (output fl c xs x).i := by
  rcases C19_measured (fl := fl) c hw ha hb hl xs x with h | h
  · rw [h]
  · obtain ⟨y, hy, he⟩ := List.mem_map.1 h
    rw [← he]; exact hi y hy

private theorem abs_lt_of_fl (hfl : Rounding fl) {a b : ℚ} (h : |fl a| < |fl b|) : |a| < |b| := by
  have ho : ∀ x, |fl x| = fl |x| := by
    intro x
    rcases le_total 0 x with hx | hx
    · rw [abs_of_nonneg hx, abs_of_nonneg (hfl.nonneg hx)]
    · rw [abs_of_nonpos hx, abs_of_nonpos (hfl.nonpos hx), hfl.odd]
  rw [ho, ho] at h
  by_contra hn
  exact absurd (hfl.mono (not_lt.1 hn)) (not_le.2 h)

/-- C19: a point is only taken over if its voltage is closer than four steps to the set-point in
force, it is the current or the previous sample, and it is the closer one of the two; otherwise the previous answer is
repeated. -/
theorem C19_near (hfl : Rounding fl) (c : HrvCfg) (hc : c.Valid) (hw : 1 < c.windowSize) (ha : 2^8 ≤ c.algorithm)
    (hb : c.algorithm < 2^14) (hl : c.hrvMode.testBit 2 = false) (xs : List HrvIn) (x : HrvIn) :
    output fl c xs x = (outputs fl c xs).getLastD ⟨0, 0⟩ ∨
    ((output fl c xs x = x.toSample ∨ output fl c xs x = (samples xs).getLastD ⟨0, 0⟩) ∧
      |((output fl c xs x).v : ℚ) - (after fl c xs).voltageSet| < 4 * c.voltageStep ∧
      |((output fl c xs x).v : ℚ) - (after fl c xs).voltageSet| ≤ |(x.v : ℚ) - (after fl c xs).voltageSet| ∧
      |((output fl c xs x).v : ℚ) - (after fl c xs).voltageSet| ≤
        |((((samples xs).getLastD ⟨0, 0⟩).v : ℤ) : ℚ) - (after fl c xs).voltageSet|) := by
  have hprev := cv_prev (fl := fl) c hw ha hb xs
  have hlast := (cv_ghost (fl := fl) c hw ha hb hl xs).last
  obtain ⟨t, ho, t1, t2, t3, t4, t5, t6, -, -⟩ := through_cv (fl := fl) c hw ha hb (after fl c xs) x
  have h4 : fl (((4 * c.voltageStep : ℕ)) : ℚ) = ((4 * c.voltageStep : ℕ) : ℚ) :=
    hfl.exactNat _ (by have := hc.voltageStep; norm_num at this ⊢; omega)
  have near : ∀ a : ℚ, |fl a| < ((4 * c.voltageStep : ℕ) : ℚ) → |a| < 4 * c.voltageStep := by
    intro a hlt
    have h := abs_lt_of_fl hfl (a := a) (b := ((4 * c.voltageStep : ℕ) : ℚ)) (by
      rw [h4, abs_of_nonneg (by positivity : (0:ℚ) ≤ ((4 * c.voltageStep : ℕ) : ℚ))]; exact hlt)
    rw [abs_of_nonneg (by positivity : (0:ℚ) ≤ ((4 * c.voltageStep : ℕ) : ℚ))] at h
    push_cast at h; exact h
  show (hrvStep fl c (after fl c xs) x).2 = _ ∨ _
  have hout : output fl c xs x = (ivcurveCv fl c t x.toSample).2 := ho
  rw [← hlast, ← hprev]
  rcases cv_hold fl c t x.toSample hl with ⟨a, b⟩ | ⟨a, b, d, e⟩ | ⟨a, b, d, e⟩
  · left; rw [ho, cv_out, a, b, t2, t3]
  · right
    have : output fl c xs x = x.toSample := by rw [hout, cv_out, a, b]
    rw [this]
    rw [t1] at d e; rw [t4] at e
    exact ⟨Or.inl rfl, near _ d, le_refl _, le_of_lt (abs_lt_of_fl hfl e)⟩
  · right
    have : output fl c xs x = ⟨(after fl c xs).voltageLast, (after fl c xs).currentLast⟩ := by
      rw [hout, cv_out, a, b, t4, t5]
    rw [this]
    rw [t1, t4] at d e
    exact ⟨Or.inr rfl, near _ d, le_of_lt (abs_lt_of_fl hfl e), le_refl _⟩

example : ∃ c : HrvCfg, c.Valid ∧ 1 < c.windowSize ∧ 2^8 ≤ c.algorithm ∧ c.algorithm < 2^14 ∧
    c.hrvMode.testBit 2 = false ∧
    output b64 c (demoCurves 2 4) { v := 2800000, i := 2000 } = ⟨2800000, 2000⟩ ∧
    output b64 c (demoCurves 2 5) { v := 3500000, i := 2000 } = ⟨2800000, 2000⟩ :=
  ⟨demoHrv (2^8) 1, demoHrv_valid _ _ (by decide) (by decide), by decide, by decide, by decide, by decide,
    by decide +kernel, by decide +kernel⟩

/-- Ghost invariant of constant-voltage harvesting with a fixed set-point `q`. -/
private structure FixedSet (q : ℚ) (s : HrvState) : Prop where
  set : s.voltageSet = q
  lastNN : 0 ≤ s.voltageLast ∧ 0 ≤ s.currentLast
  cmp : s.compareLast = decide ((s.voltageLast : ℚ) < q) ∨ (s.voltageLast = 0 ∧ s.currentLast = 0)
  nn : 0 ≤ s.currentHold
  dir : 0 ≤ s.currentDelta ∨
    ∃ a b : Sample, 0 ≤ a.v ∧ 0 ≤ a.i ∧ 0 ≤ b.v ∧ 0 ≤ b.i ∧
      (decide ((a.v : ℚ) < q) ≠ decide ((b.v : ℚ) < q)) ∧
      s.voltageDelta = b.v - a.v ∧ s.currentDelta = b.i - a.i ∧
      ((s.voltageHold = a.v ∧ s.currentHold = a.i) ∨ (s.voltageHold = b.v ∧ s.currentHold = b.i))

private theorem fixedSet_extrapolate (q : ℚ) (s : HrvState) (h : FixedSet q s) :
    0 ≤ (cvExtrapolate s).currentHold ∧
    (cvExtrapolate s).currentDelta = s.currentDelta ∧ (cvExtrapolate s).voltageSet = s.voltageSet ∧
    (0 ≤ s.currentDelta ∨
    ∃ a b : Sample, 0 ≤ a.v ∧ 0 ≤ a.i ∧ 0 ≤ b.v ∧ 0 ≤ b.i ∧
      (decide ((a.v : ℚ) < q) ≠ decide ((b.v : ℚ) < q)) ∧
      (cvExtrapolate s).voltageDelta = b.v - a.v ∧ s.currentDelta = b.i - a.i ∧
      (((cvExtrapolate s).voltageHold = a.v ∧ (cvExtrapolate s).currentHold = a.i) ∨
       ((cvExtrapolate s).voltageHold = b.v ∧ (cvExtrapolate s).currentHold = b.i))) := by
  have hfr : (cvExtrapolate s).currentDelta = s.currentDelta ∧ (cvExtrapolate s).voltageDelta = s.voltageDelta ∧
      (cvExtrapolate s).voltageSet = s.voltageSet := by
    unfold cvExtrapolate; split_ifs <;> exact ⟨rfl, rfl, rfl⟩
  rcases h.dir with hd | ⟨a, b, a1, a2, b1, b2, hne, hv, hi, hh⟩
  · refine ⟨?_, hfr.1, hfr.2.2, Or.inl hd⟩
    have := h.nn
    unfold cvExtrapolate
    split_ifs <;> dsimp only <;> omega
  · have hvv : (decide ((a.v : ℚ) < q) = true ∧ decide ((b.v : ℚ) < q) = false ∧ 0 < s.voltageDelta) ∨
        (decide ((a.v : ℚ) < q) = false ∧ decide ((b.v : ℚ) < q) = true ∧ s.voltageDelta < 0) := by
      by_cases ha : (a.v : ℚ) < q <;> by_cases hb : (b.v : ℚ) < q <;> simp [ha, hb] at hne ⊢
      · have : (a.v : ℚ) < b.v := lt_of_lt_of_le ha (not_lt.1 hb)
        have : a.v < b.v := by exact_mod_cast this
        omega
      · have : (b.v : ℚ) < a.v := lt_of_lt_of_le hb (not_lt.1 ha)
        have : b.v < a.v := by exact_mod_cast this
        omega
    have hset := h.set
    have hres : ((cvExtrapolate s).voltageHold = a.v ∧ (cvExtrapolate s).currentHold = a.i) ∨
       ((cvExtrapolate s).voltageHold = b.v ∧ (cvExtrapolate s).currentHold = b.i) := by
      unfold cvExtrapolate
      rcases hh with ⟨h1, h2⟩ | ⟨h1, h2⟩
      · right
        rw [h1, h2, hset]
        have hc : decide ((a.v : ℚ) < q) = decide (s.voltageDelta > 0) := by
          rcases hvv with ⟨e1, e2, e3⟩ | ⟨e1, e2, e3⟩ <;> rw [e1] <;> simp <;> omega
        rw [if_pos hc]
        exact ⟨by dsimp only; omega, by dsimp only; omega⟩
      · left
        rw [h1, h2, hset]
        have hc : ¬ decide ((b.v : ℚ) < q) = decide (s.voltageDelta > 0) := by
          rcases hvv with ⟨e1, e2, e3⟩ | ⟨e1, e2, e3⟩ <;> rw [e2] <;> simp <;> omega
        rw [if_neg hc]
        constructor <;> dsimp only <;> split_ifs <;> omega
    refine ⟨?_, hfr.1, hfr.2.2, Or.inr ⟨a, b, a1, a2, b1, b2, hne, by rw [hfr.2.1]; exact hv, hi, hres⟩⟩
    rcases hres with h | h <;> omega

private theorem fixedSet_step (c : HrvCfg) (q : ℚ) (s : HrvState) (x : Sample) (hv : 0 ≤ x.v) (hi : 0 ≤ x.i)
    (h : FixedSet q s) : FixedSet q (ivcurveCv fl c s x).1 := by
  have fin : ∀ t : HrvState, t.voltageSet = q → 0 ≤ t.currentHold →
      (0 ≤ t.currentDelta ∨
        ∃ a b : Sample, 0 ≤ a.v ∧ 0 ≤ a.i ∧ 0 ≤ b.v ∧ 0 ≤ b.i ∧
          (decide ((a.v : ℚ) < q) ≠ decide ((b.v : ℚ) < q)) ∧
          t.voltageDelta = b.v - a.v ∧ t.currentDelta = b.i - a.i ∧
          ((t.voltageHold = a.v ∧ t.currentHold = a.i) ∨ (t.voltageHold = b.v ∧ t.currentHold = b.i))) →
      FixedSet q { t with voltageLast := x.v, currentLast := x.i,
                          compareLast := decide ((x.v : ℚ) < s.voltageSet) } := by
    intro t h1 h2 h3
    exact ⟨h1, ⟨hv, hi⟩, Or.inl (by rw [h.set]), h2, h3⟩
  unfold ivcurveCv
  dsimp only
  split_ifs with hc hl
  · unfold cvTakeOver
    dsimp only
    have pair : 0 ≤ x.i - s.currentLast ∨
        (decide ((s.voltageLast : ℚ) < q) ≠ decide ((x.v : ℚ) < q)) := by
      rcases h.cmp with h1 | ⟨_, h2⟩
      · right
        rw [← h1]
        have := hc.1
        rw [h.set] at this
        exact fun e => this e.symm
      · left; omega
    split_ifs with h1 h2
    · refine fin _ h.set hi ?_
      rcases pair with hp | hp
      · exact Or.inl hp
      · exact Or.inr ⟨⟨s.voltageLast, s.currentLast⟩, x, h.lastNN.1, h.lastNN.2, hv, hi, hp, rfl, rfl, Or.inr ⟨rfl, rfl⟩⟩
    · refine fin _ h.set h.lastNN.2 ?_
      rcases pair with hp | hp
      · exact Or.inl hp
      · exact Or.inr ⟨⟨s.voltageLast, s.currentLast⟩, x, h.lastNN.1, h.lastNN.2, hv, hi, hp, rfl, rfl, Or.inl ⟨rfl, rfl⟩⟩
    · exact fin s h.set h.nn h.dir
  · obtain ⟨e1, e2, e3, e4⟩ := fixedSet_extrapolate q s h
    exact fin _ (by rw [e3, h.set]) e1 (by rw [e2]; exact e4)
  · exact fin s h.set h.nn h.dir

/-- C19, constant-voltage algorithm without feedback: extrapolation on or off, a stream of
non-negative samples never gives a negative current. -/
theorem C19_cv_nonneg (c : HrvCfg) (hw : 1 < c.windowSize) (ha : 2^8 ≤ c.algorithm)
    (hb : c.algorithm < 2^12) (xs : List HrvIn) (x : HrvIn)
    (hi : ∀ y ∈ xs ++ [x], 0 ≤ y.v ∧ 0 ≤ y.i ∧ y.feedback = none) : 0 ≤ (output fl c xs x).i := by
  have h : FixedSet ((c.voltage + 1 : ℕ) : ℚ) (after fl c (xs ++ [x])) := by
    refine hrvRun_inv fl c _ (fun _ s => FixedSet ((c.voltage + 1 : ℕ) : ℚ) s) (fun y => 0 ≤ y.v ∧ 0 ≤ y.i ∧ y.feedback = none)
      ⟨rfl, ⟨le_refl _, le_refl _⟩, Or.inr ⟨rfl, rfl⟩, le_refl _, Or.inl (le_refl _)⟩ ?_ (xs ++ [x]) hi
    intro _ s y _ hy ih
    rw [hrvStep_none fl c s y hy.2.2, sample_cv fl c s _ hw ha hb]
    exact fixedSet_step c _ s y.toSample hy.1 hy.2.1 ih
  unfold after at h
  rw [hrvRun_snoc] at h
  obtain ⟨t, _, _, _, _, _, _, _, hh, _⟩ := through_cv (fl := fl) c hw ha (by omega) (after fl c xs) x
  have hn := h.nn
  have : (output fl c xs x).i = (hrvStep fl c (after fl c xs) x).1.currentHold := by
    unfold output; rw [← hh]
  rw [this]; exact hn

example : (∀ y ∈ demoCurves 4 20, 0 ≤ y.v ∧ 0 ≤ y.i ∧ y.feedback = none) ∧
    (outputs b64 (demoHrv (2^8) 7) (demoCurves 4 20)).getLast? = some ⟨2100000, 5000⟩ := by decide +kernel

/-- C19 does not hold with extrapolation: a stream of positive currents makes perturb-observe
harvesting (rising, extrapolating, as `from_vhrv` would configure it) return a negative current. -/
theorem C19_extrapolation_violated :
    ∃ (c : HrvCfg) (xs : List HrvIn), c.Valid ∧ (∀ y ∈ xs, 0 < y.i ∧ 0 ≤ y.v ∧ y.feedback = none) ∧
      (∃ o ∈ outputs b64 c xs, o.i < 0) ∧ (∃ o ∈ outputs (fun x => x) c xs, o.i < 0) :=
  ⟨demoHrv (2^13) 7, demoCurves 2 10, demoHrv_valid _ _ (by decide) (by decide), by decide +kernel,
    by decide +kernel, by decide +kernel⟩

/-- C19 does not hold with extrapolation: constant-voltage harvesting of the start of
an ivcurve returns a current (and a power) no sample of the stream has. -/
theorem C19_startup_violated :
    ∃ (c : HrvCfg) (xs : List HrvIn), c.Valid ∧ c.algorithm = 2^8 ∧ (∀ y ∈ xs, y.i ≤ 5000 ∧ y.feedback = none) ∧
      (∃ o ∈ outputs b64 c xs, 10000 ≤ o.i) ∧ (∃ o ∈ outputs (fun x => x) c xs, 10000 ≤ o.i) :=
  ⟨{ demoHrv (2^8) 7 with voltage := 1500000 }, [{ v := 700000, i := 5000 }, { v := 1400000, i := 5000 }],
    by constructor <;> decide, by decide, by decide +kernel, by decide +kernel, by decide +kernel⟩

/-! ## C20 optimal tracking -/

private theorem opt_ghost (c : HrvCfg) (hw : 1 < c.windowSize) (ha : 2^14 ≤ c.algorithm) (xs : List HrvIn) :
    OptInv c (samples xs) (after fl c xs) := by
  refine hrvRun_inv fl c _ (fun xs s => OptInv c (samples xs) s) (fun _ => True) (OptInv.init c) ?_ xs
    (fun _ _ => trivial)
  intro xs s x _ _ ih
  obtain ⟨q, hq⟩ := hrvStep_state fl c s x
  rw [hq, sample_opt fl c s _ hw ha]
  have := (opt_inv c (samples xs) s x.toSample ih).congr q
  simpa [samples] using this

private theorem opt_output (c : HrvCfg) (hw : 1 < c.windowSize) (ha : 2^14 ≤ c.algorithm) (xs : List HrvIn) (x : HrvIn) :
    output fl c xs x = ⟨(after fl c (xs ++ [x])).voltageNow, (after fl c (xs ++ [x])).currentNow⟩ := by
  unfold output after
  rw [hrvRun_snoc, hrvStep_out]
  obtain ⟨q, hq⟩ := hrvStep_state fl c (hrvRun fl c (HrvState.init c) xs).1 x
  dsimp only
  rw [hq, sample_opt fl c _ _ hw ha]
  rfl

/-- C20: the answer of the optimal tracker is `(0,0)` or a sample of the stream that is at most two
windows old, lies within the voltage limits, and whose power is at least that of every later
in-limits sample.  In both cases its power is at least that of the present sample if that one is within
the limits. -/
theorem C20_best (c : HrvCfg) (hw : 1 < c.windowSize) (ha : 2^14 ≤ c.algorithm) (xs : List HrvIn) (x : HrvIn) :
    (output fl c xs x = ⟨0, 0⟩ ∨
      ∃ pre y post, samples (xs ++ [x]) = pre ++ y :: post ∧ output fl c xs x = y ∧
        post.length ≤ 2 * c.windowSize ∧ (c.voltageMin : ℤ) ≤ y.v ∧ y.v ≤ (c.voltageMax : ℤ) ∧
        ∀ z ∈ post, (c.voltageMin : ℤ) ≤ z.v → z.v ≤ (c.voltageMax : ℤ) → z.v * z.i ≤ y.v * y.i) ∧
    ((c.voltageMin : ℤ) ≤ x.v → x.v ≤ (c.voltageMax : ℤ) →
      x.v * x.i ≤ (output fl c xs x).v * (output fl c xs x).i) := by
  have h := opt_ghost (fl := fl) c hw ha (xs ++ [x])
  have ho := opt_output (fl := fl) c hw ha xs x
  rcases h.now with ⟨h1, h2, h3, h4⟩ | ⟨hage, pre, y, post, hh, h1, h2, h3, h4, h5, h6⟩
  · rw [h1, h2] at ho
    rw [ho]
    refine ⟨Or.inl rfl, fun a b => ?_⟩
    simpa using h4 (samples xs) x.toSample (by simp [samples]) ⟨a, b⟩
  · rw [h1, h2] at ho
    rw [ho]
    refine ⟨Or.inr ⟨pre, y, post, hh, rfl, by omega, h5.1, h5.2, fun z hz a b => h3 ▸ h6 z hz ⟨a, b⟩⟩, fun a b => ?_⟩
    rcases List.eq_nil_or_concat post with rfl | ⟨post', z, rfl⟩
    · obtain ⟨_, he⟩ := List.append_inj' (show samples xs ++ [x.toSample] = pre ++ [y] by simpa [samples] using hh) rfl
      obtain rfl := List.singleton_inj.1 he
      exact le_refl _
    · have he : samples xs ++ [x.toSample] = (pre ++ y :: post') ++ [z] := by simpa [samples] using hh
      obtain ⟨_, he⟩ := List.append_inj' he rfl
      obtain rfl := List.singleton_inj.1 he
      exact h3 ▸ h6 x.toSample (by simp) ⟨a, b⟩

/-- C20, tracking the optimum: if `M > 0` is the largest in-limits power of the stream so far and an
in-limits sample of the last two windows has it, then the returned point has power `M`.  (So on
repeated ivcurves the maximum power point is always returned after the first pass.) -/
theorem C20_optimum (c : HrvCfg) (hw : 1 < c.windowSize) (ha : 2^14 ≤ c.algorithm) (M : ℤ) (hM : 0 < M)
    (xs : List HrvIn) (x : HrvIn)
    (hmax : ∀ y ∈ samples (xs ++ [x]), (c.voltageMin : ℤ) ≤ y.v → y.v ≤ (c.voltageMax : ℤ) → y.v * y.i ≤ M)
    (hpeak : ∃ pre y post, samples (xs ++ [x]) = pre ++ y :: post ∧ post.length ≤ 2 * c.windowSize ∧
      (c.voltageMin : ℤ) ≤ y.v ∧ y.v ≤ (c.voltageMax : ℤ) ∧ y.v * y.i = M) :
    (output fl c xs x).v * (output fl c xs x).i = M := by
  have key : ∀ zs : List HrvIn,
      (∀ y ∈ samples zs, inLimits c y → y.v * y.i ≤ M) → PeakInv c M (samples zs) (after fl c zs) := by
    intro zs
    induction zs using List.reverseRecOn with
    | nil =>
      intro _
      exact ⟨OptInv.init c, fun pre y post h => by simp [samples] at h⟩
    | append_singleton zs z ih =>
      intro hz
      have ih' := ih (fun y hy => hz y (by simp only [samples, List.map_append, List.mem_append]; exact Or.inl hy))
      unfold after
      rw [hrvRun_snoc]
      obtain ⟨q, hq⟩ := hrvStep_state fl c (after fl c zs) z
      dsimp only
      rw [hq, sample_opt fl c _ _ hw ha]
      have := peak_inv c M hM (samples zs) _ z.toSample (by simpa [samples] using hz) ih'
      have e : samples (zs ++ [z]) = samples zs ++ [z.toSample] := by simp [samples]
      rw [e]
      exact ⟨this.toOptInv.congr q, this.peak⟩
  have h := key (xs ++ [x]) (fun y hy hl => hmax y hy hl.1 hl.2)
  obtain ⟨pre, y, post, hh, hlen, hl1, hl2, hy⟩ := hpeak
  have hp := (h.peak pre y post hh ⟨hl1, hl2⟩ hy hlen).1
  have ho := opt_output (fl := fl) c hw ha xs x
  rcases h.now with ⟨h1, h2, h3, _⟩ | ⟨_, _, w, _, _, h1, h2, h3, _⟩
  · omega
  · rw [ho, h1, h2]; dsimp only; omega

example : output b64 (demoHrv (2^14) 7) (demoCurves 5 20) { v := 3500000, i := 2000 } = ⟨2800000, 5000⟩ ∧
    (∀ y ∈ samples (demoCurves 5 20 ++ [{ v := 3500000, i := 2000 }]), y.v * y.i ≤ 2800000 * 5000) := by
  decide +kernel

/-! ## C21 open-circuit tracking -/

private theorem voc_ghost (c : HrvCfg) (hw : 1 < c.windowSize) (ha : 2^12 ≤ c.algorithm) (hb : c.algorithm < 2^13)
    (xs : List HrvIn) : VocInv c (samples xs) (after fl c xs) := by
  refine hrvRun_inv fl c _ (fun xs s => VocInv c (samples xs) s) (fun _ => True) (VocInv.init c) ?_ xs
    (fun _ _ => trivial)
  intro xs s x _ _ ih
  obtain ⟨q, hq⟩ := hrvStep_state fl c s x
  rw [hq, sample_voc fl c s _ hw ha hb]
  have h := voc_inv c (samples xs) s x.toSample ih
  obtain ⟨_, _, _, _, f5, f6, f7, f8, _⟩ := cv_frame fl c (vocTrack c s x.toSample) x.toSample
  have e : samples (xs ++ [x]) = samples xs ++ [x.toSample] := by simp [samples]
  rw [e]
  exact h.congr f7 f8 f5 f6

/-- C21: the open-circuit estimate is the upper voltage limit, or the voltage of a sample of the last
two windows whose current is below the limit and whose voltage lies within the limits (and is at least 1 mV); no later such
sample has a lower voltage. -/
theorem C21_estimate (c : HrvCfg) (hw : 1 < c.windowSize) (ha : 2^12 ≤ c.algorithm) (hb : c.algorithm < 2^13)
    (xs : List HrvIn) :
    (after fl c xs).vocNow = (c.voltageMax : ℤ) ∨
    ∃ pre y post, samples xs = pre ++ y :: post ∧ (after fl c xs).vocNow = y.v ∧
      post.length ≤ 2 * c.windowSize ∧
      y.i < (c.currentLimit : ℤ) ∧ 1000 ≤ y.v ∧ (c.voltageMin : ℤ) ≤ y.v ∧ y.v ≤ (c.voltageMax : ℤ) ∧
      ∀ z ∈ post, z.i < (c.currentLimit : ℤ) → 1000 ≤ z.v → (c.voltageMin : ℤ) ≤ z.v →
        z.v ≤ (c.voltageMax : ℤ) → y.v ≤ z.v := by
  rcases (voc_ghost (fl := fl) c hw ha hb xs).now with h | ⟨hage, pre, y, post, hh, h1, h2, h3, h4⟩
  · exact Or.inl h.1
  · exact Or.inr ⟨pre, y, post, hh, h1, by omega, h3.1, h3.2.1, h3.2.2.1, h3.2.2.2,
      fun z hz a b d e => h1 ▸ h4 z hz ⟨a, b, d, e⟩⟩

/-- C21: the estimate stays within the configured limits. -/
theorem C21_bounds (c : HrvCfg) (hm : c.voltageMin ≤ c.voltageMax) (hw : 1 < c.windowSize)
    (ha : 2^12 ≤ c.algorithm) (hb : c.algorithm < 2^13) (xs : List HrvIn) :
    (c.voltageMin : ℤ) ≤ (after fl c xs).vocNow ∧ (after fl c xs).vocNow ≤ (c.voltageMax : ℤ) := by
  rcases C21_estimate (fl := fl) c hw ha hb xs with h | ⟨_, y, _, _, h, _, _, _, h1, h2, _⟩
  · rw [h]; exact ⟨by exact_mod_cast hm, le_refl _⟩
  · rw [h]; exact ⟨h1, h2⟩

/-- C21: it never exceeds the voltage of the present sample, if that counts as open circuit. -/
theorem C21_follows (c : HrvCfg) (hw : 1 < c.windowSize) (ha : 2^12 ≤ c.algorithm) (hb : c.algorithm < 2^13)
    (xs : List HrvIn) (x : HrvIn) (h1 : x.i < (c.currentLimit : ℤ)) (h2 : 1000 ≤ x.v)
    (h3 : (c.voltageMin : ℤ) ≤ x.v) (h4 : x.v ≤ (c.voltageMax : ℤ)) :
    (after fl c (xs ++ [x])).vocNow ≤ x.v := by
  have e : samples (xs ++ [x]) = samples xs ++ [x.toSample] := by simp [samples]
  rcases (voc_ghost (fl := fl) c hw ha hb (xs ++ [x])).now with ⟨h, hx⟩ | ⟨_, pre, y, post, hh, g1, g2, g3, g4⟩
  · rw [h, hx _ _ e ⟨h1, h2, h3, h4⟩]
  · rw [e] at hh
    rcases List.eq_nil_or_concat post with rfl | ⟨post', z, rfl⟩
    · obtain ⟨_, he⟩ := List.append_inj' (show samples xs ++ [x.toSample] = pre ++ [y] from hh) rfl
      obtain rfl := List.singleton_inj.1 he
      rw [g1]
    · have he : samples xs ++ [x.toSample] = (pre ++ y :: post') ++ [z] := by simpa using hh
      obtain ⟨_, he⟩ := List.append_inj' he rfl
      obtain rfl := List.singleton_inj.1 he
      exact g4 x.toSample (by simp) ⟨h1, h2, h3, h4⟩

private theorem voc_step (c : HrvCfg) (hw : 1 < c.windowSize) (ha : 2^12 ≤ c.algorithm) (hb : c.algorithm < 2^13)
    (xs : List HrvIn) (x : HrvIn) (hf : x.feedback = none) :
    (after fl c (xs ++ [x])).voltageSet = vocSetpoint fl c
      { after fl c (xs ++ [x]) with voltageSet := (after fl c xs).voltageSet } ∧
    (after fl c (xs ++ [x])).intervalStep = nextInterval c (after fl c xs).intervalStep := by
  unfold after
  rw [hrvRun_snoc, hrvStep_none fl c _ x hf, sample_voc fl c _ _ hw ha hb]
  obtain ⟨f1, f2, _⟩ := cv_frame fl c (vocTrack c (hrvRun fl c (HrvState.init c) xs).1 x.toSample) x.toSample
  obtain ⟨g1, _, _, _, _, _, g2⟩ := vocTrack_frame c (hrvRun fl c (HrvState.init c) xs).1 x.toSample
  constructor
  · unfold ivcurveVoc vocSetpoint
    dsimp only
    rw [f1, g1]
  · unfold ivcurveVoc
    dsimp only
    rw [f2, g2]

/-- C21: while measuring (interval counter below the duration) the set-point is the estimate; when the
measurement ends it becomes `setpoint_n8/256` of the estimate, rounded down to micro-volts;
afterwards it stays. -/
theorem C21_setpoint (hfl : Rounding fl) (c : HrvCfg) (hc : c.Valid) (hn : c.setpointN8 < 256)
    (hm : c.voltageMin ≤ c.voltageMax) (hw : 1 < c.windowSize)
    (ha : 2^12 ≤ c.algorithm) (hb : c.algorithm < 2^13) (xs : List HrvIn) (x : HrvIn) (hf : x.feedback = none) :
    let s := after fl c (xs ++ [x])
    (s.intervalStep < c.durationN → s.voltageSet = s.vocNow) ∧
    (s.intervalStep = c.durationN →
      s.voltageSet ≤ (s.vocNow : ℚ) * c.setpointN8 / 256 ∧
      (s.vocNow : ℚ) * c.setpointN8 / 256 < s.voltageSet + 1) ∧
    (c.durationN < s.intervalStep → s.voltageSet = (after fl c xs).voltageSet) := by
  dsimp only
  obtain ⟨h1, -⟩ := voc_step (fl := fl) c hw ha hb xs x hf
  have hb := C21_bounds (fl := fl) c hm hw ha hb (xs ++ [x])
  generalize after fl c (xs ++ [x]) = s at *
  unfold vocSetpoint at h1
  dsimp only at h1
  refine ⟨fun h => ?_, fun h => ?_, fun h => ?_⟩
  · rw [if_pos h] at h1; exact h1
  · rw [if_neg (by omega), if_pos h] at h1
    have hmax := hc.voltageMax
    have hmin := hc.voltageMin
    have hv0 : 0 ≤ s.vocNow := by omega
    set p : ℤ := s.vocNow * (c.setpointN8 : ℤ) with hp
    have hp0 : 0 ≤ p := by positivity
    have hp1 : p ≤ 2^40 := by
      have : s.vocNow * (c.setpointN8 : ℤ) ≤ 2^32 * 256 := by
        apply mul_le_mul <;> omega
      omega
    have hex : fl ((p : ℚ) / 256) = (p : ℚ) / 256 := by
      have := hfl.exact p (-8) (by rw [abs_of_nonneg hp0]; omega) (by norm_num)
      have e8 : ((2:ℚ) ^ (-8:ℤ)) = 1 / 256 := by norm_num
      rw [e8] at this
      rw [show (p:ℚ) / 256 = p * (1/256) by ring]; exact this
    rw [hex] at h1
    have hq0 : (0:ℚ) ≤ (p : ℚ) / 256 := by positivity
    have e : (s.vocNow : ℚ) * c.setpointN8 / 256 = (p : ℚ) / 256 := by rw [hp]; push_cast; ring
    rw [h1, e]
    exact ⟨pyInt_le hq0, lt_pyInt_add_one hq0⟩
  · rw [if_neg (by omega), if_neg (by omega)] at h1; exact h1

/-- C21, whole runs: the set-point never exceeds the upper limit (or the initial set-point) and is never negative. -/
theorem C21_setpoint_run (hfl : Rounding fl) (c : HrvCfg) (hc : c.Valid) (hn : c.setpointN8 < 256)
    (hm : c.voltageMin ≤ c.voltageMax) (hw : 1 < c.windowSize)
    (ha : 2^12 ≤ c.algorithm) (hb : c.algorithm < 2^13) (xs : List HrvIn) (hf : ∀ y ∈ xs, y.feedback = none) :
    0 ≤ (after fl c xs).voltageSet ∧
    (after fl c xs).voltageSet ≤ max (c.voltageMax : ℚ) ((c.voltage : ℚ) + 1) := by
  induction xs using List.reverseRecOn with
  | nil =>
    refine ⟨?_, ?_⟩ <;> simp only [after, hrvRun, HrvState.init] <;> push_cast
    · positivity
    · exact le_max_right _ _
  | append_singleton xs x ih =>
    have ih' := ih (fun y hy => hf y (by simp [hy]))
    have h := C21_setpoint hfl c hc hn hm hw ha hb xs x (hf x (by simp))
    have hbd := C21_bounds (fl := fl) c hm hw ha hb (xs ++ [x])
    obtain ⟨hset, -⟩ := voc_step (fl := fl) c hw ha hb xs x (hf x (by simp))
    dsimp only at h
    generalize after fl c (xs ++ [x]) = s at *
    have hv : (s.vocNow : ℚ) ≤ (c.voltageMax : ℚ) := by exact_mod_cast hbd.2
    have hv0 : (0:ℚ) ≤ (s.vocNow : ℚ) := by
      have : (0:ℤ) ≤ s.vocNow := by omega
      exact_mod_cast this
    rcases lt_trichotomy s.intervalStep c.durationN with hi | hi | hi
    · rw [h.1 hi]; exact ⟨hv0, le_max_of_le_left hv⟩
    · obtain ⟨a, b⟩ := h.2.1 hi
      have hn' : (c.setpointN8 : ℚ) ≤ 256 := by exact_mod_cast le_of_lt hn
      have hle : (s.vocNow : ℚ) * c.setpointN8 / 256 ≤ s.vocNow := by
        rw [div_le_iff₀ (by norm_num)]
        exact mul_le_mul_of_nonneg_left hn' hv0
      obtain ⟨n, hn2⟩ : ∃ n : ℤ, s.voltageSet = n := by
        unfold vocSetpoint at hset
        dsimp only at hset
        rw [if_neg (by omega), if_pos hi] at hset
        exact ⟨_, hset⟩
      refine ⟨?_, le_max_of_le_left (le_trans a (le_trans hle hv))⟩
      have : (0:ℚ) < s.voltageSet + 1 := lt_of_le_of_lt (by positivity) b
      rw [hn2] at this ⊢
      have : (0:ℤ) < n + 1 := by exact_mod_cast this
      exact_mod_cast (by omega : (0:ℤ) ≤ n)
    · rw [h.2.2 hi]; exact ih'

example : (after b64 (demoHrv (2^12) 3) (demoCurves 2 30)).vocNow = 5000000 ∧
    (after b64 { demoHrv (2^12) 3 with currentLimit := 3000, durationN := 4 } (demoCurves 2 30)).vocNow = 1400000 ∧
    (after b64 { demoHrv (2^12) 3 with currentLimit := 3000, durationN := 4 } (demoCurves 2 30)).voltageSet = 700000 := by
  decide +kernel

/-! ## C22 perturb and observe -/

/-- C22: after each adaptation the set-point is at least the lower limit and one step, and at most the upper
limit, if one step fits below the upper limit. -/
theorem C22_limits_partial (c : HrvCfg) (hm : c.voltageMin ≤ c.voltageMax) (hs : c.voltageStep ≤ c.voltageMax)
    (hw : 1 < c.windowSize) (ha : 2^13 ≤ c.algorithm) (hb : c.algorithm < 2^14)
    (xs : List HrvIn) (x : HrvIn) (hf : x.feedback = none)
    (hadapt : (after fl c (xs ++ [x])).intervalStep = 0) :
    (c.voltageMin : ℚ) ≤ (after fl c (xs ++ [x])).voltageSet ∧
    (c.voltageStep : ℚ) ≤ (after fl c (xs ++ [x])).voltageSet ∧
    (after fl c (xs ++ [x])).voltageSet ≤ (c.voltageMax : ℚ) := by
  unfold after at *
  rw [hrvRun_snoc, hrvStep_none fl c _ x hf, sample_po fl c _ _ hw ha hb] at *
  generalize (hrvRun fl c (HrvState.init c) xs).1 = s at *
  dsimp only at *
  rw [po_interval] at hadapt
  obtain ⟨t, ht, _, _, _, _, hi⟩ := cv_po_frame fl c s x.toSample
  rw [ht, if_pos (by omega)]
  obtain ⟨h1, h2, _⟩ := po_clamped c (poPerturb fl c t (ivcurvePo fl c s x.toSample).2)
  refine ⟨h1.2, h1.1, le_trans h2 ?_⟩
  have a1 : (c.voltageMin : ℚ) ≤ c.voltageMax := by exact_mod_cast hm
  have a2 : (c.voltageStep : ℚ) ≤ c.voltageMax := by exact_mod_cast hs
  exact max_le (le_refl _) (max_le a1 a2)

/-- C22: between adaptations the set-point does not move. -/
theorem C22_hold (c : HrvCfg) (hw : 1 < c.windowSize) (ha : 2^13 ≤ c.algorithm) (hb : c.algorithm < 2^14)
    (xs : List HrvIn) (x : HrvIn) (hf : x.feedback = none)
    (hno : (after fl c (xs ++ [x])).intervalStep ≠ 0) :
    (after fl c (xs ++ [x])).voltageSet = (after fl c xs).voltageSet := by
  unfold after at *
  rw [hrvRun_snoc, hrvStep_none fl c _ x hf, sample_po fl c _ _ hw ha hb] at *
  generalize (hrvRun fl c (HrvState.init c) xs).1 = s at *
  dsimp only at *
  rw [po_interval] at hno
  obtain ⟨t, ht, h1, _, _, _, hi⟩ := cv_po_frame fl c s x.toSample
  rw [ht, if_neg (by omega), h1]

/-- C22: there is an adaptation at least once per interval: the counter runs `0, 1, …, interval-1`. -/
theorem C22_interval (c : HrvCfg) (hw : 1 < c.windowSize) (ha : 2^13 ≤ c.algorithm) (hb : c.algorithm < 2^14)
    (xs : List HrvIn) (x : HrvIn) :
    (after fl c (xs ++ [x])).intervalStep = (after fl c xs).intervalStep + 1 ∧
      (after fl c (xs ++ [x])).intervalStep < c.intervalN ∨
    (after fl c (xs ++ [x])).intervalStep = 0 ∧ c.intervalN ≤ (after fl c xs).intervalStep + 1 := by
  unfold after
  rw [hrvRun_snoc]
  obtain ⟨q, hq⟩ := hrvStep_state fl c (hrvRun fl c (HrvState.init c) xs).1 x
  dsimp only
  rw [hq, sample_po fl c _ _ hw ha hb]
  dsimp only
  rw [po_interval]
  unfold nextInterval
  split_ifs with h
  · exact Or.inr ⟨rfl, h⟩
  · exact Or.inl ⟨rfl, by omega⟩

private theorem po_ghost (hfl : Rounding fl) (c : HrvCfg) (hc : c.Valid) (hv : c.voltage ≤ c.voltageMax)
    (hw : 1 < c.windowSize) (ha : 2^13 ≤ c.algorithm) (hb : c.algorithm < 2^14)
    (xs : List HrvIn) (hf : ∀ y ∈ xs, y.feedback = none) :
    PoInv c (max (c.voltageMax : ℤ) (max (c.voltageMin : ℤ) (c.voltageStep : ℤ)) + 1) (after fl c xs) := by
  set U := max (c.voltageMax : ℤ) (max (c.voltageMin : ℤ) (c.voltageStep : ℤ)) + 1 with hU
  have h1 := hc.voltageMax; have h2 := hc.voltageMin; have h3 := hc.voltageStep
  refine hrvRun_inv fl c _ (fun _ s => PoInv c U s) (fun y => y.feedback = none) ?_ ?_ xs hf
  · have hq : ((c.voltage + 1 : ℤ) : ℚ) ≤ (U : ℚ) := by
      have : (c.voltage + 1 : ℤ) ≤ U := by omega
      exact_mod_cast this
    refine ⟨⟨c.voltage + 1, by simp [HrvState.init], le_refl _, fun _ => Or.inr rfl, fun _ => ?_⟩, ?_, ?_⟩
    · simp only [HrvState.init]; omega
    · simp only [HrvState.init]; positivity
    · simp only [HrvState.init]; push_cast at hq ⊢; exact hq
  · intro _ s x _ hx ih
    rw [hrvStep_none fl c s x hx, sample_po fl c s _ hw ha hb]
    exact po_inv hfl c h3 U (by omega) (by omega) (by omega) (by omega) s x.toSample ih

/-- C22: the perturbation step is never smaller than the configured step, and doubling it cannot run away: it is
at most one configured step larger than the voltage range (so 34 bits are enough). -/
theorem C22_step (hfl : Rounding fl) (c : HrvCfg) (hc : c.Valid) (hv : c.voltage ≤ c.voltageMax)
    (hw : 1 < c.windowSize) (ha : 2^13 ≤ c.algorithm) (hb : c.algorithm < 2^14)
    (xs : List HrvIn) (hf : ∀ y ∈ xs, y.feedback = none) :
    c.voltageStep ≤ (after fl c xs).voltStep ∧
    ((after fl c xs).voltStep : ℤ) ≤
      max (c.voltageMax : ℤ) (max (c.voltageMin : ℤ) (c.voltageStep : ℤ)) + 1 + c.voltageStep := by
  obtain ⟨⟨n, hn, hs, hr, hfa⟩, h0, h1⟩ := po_ghost hfl c hc hv hw ha hb xs hf
  rw [hn] at h0 h1
  have h0' : 0 ≤ n := by exact_mod_cast h0
  have h1' : n ≤ max (c.voltageMax : ℤ) (max (c.voltageMin : ℤ) (c.voltageStep : ℤ)) + 1 := by exact_mod_cast h1
  refine ⟨hs, ?_⟩
  cases hbb : (after fl c xs).isRising with
  | true => rcases hr hbb with h | h <;> omega
  | false => have := hfa hbb; omega

/-- C22, whole runs: without feedback the set-point is a whole number of micro-volts within the limits
(widened by the initial offset of one micro-volt). -/
theorem C22_setpoint_run (hfl : Rounding fl) (c : HrvCfg) (hc : c.Valid) (hv : c.voltage ≤ c.voltageMax)
    (hm : c.voltageMin ≤ c.voltageMax) (hs : c.voltageStep ≤ c.voltageMax)
    (hw : 1 < c.windowSize) (ha : 2^13 ≤ c.algorithm) (hb : c.algorithm < 2^14)
    (xs : List HrvIn) (hf : ∀ y ∈ xs, y.feedback = none) :
    ∃ n : ℕ, (after fl c xs).voltageSet = n ∧ n ≤ c.voltageMax + 1 := by
  obtain ⟨⟨n, hn, _⟩, h0, h1⟩ := po_ghost hfl c hc hv hw ha hb xs hf
  rw [hn] at h0 h1
  have h0' : 0 ≤ n := by exact_mod_cast h0
  have h1' : n ≤ max (c.voltageMax : ℤ) (max (c.voltageMin : ℤ) (c.voltageStep : ℤ)) + 1 := by exact_mod_cast h1
  exact ⟨n.toNat, by rw [hn]; exact_mod_cast (Int.toNat_of_nonneg h0').symm, by omega⟩

example : (after b64 (demoHrv (2^13) 3) (demoCurves 5 9)).intervalStep = 0 ∧
    (after b64 (demoHrv (2^13) 3) (demoCurves 5 9)).voltageSet = 1450001 ∧
    (after b64 (demoHrv (2^13) 3) (demoCurves 5 9)).voltStep = 700000 := by decide +kernel

/-- C22 in full does not hold: a configured step larger than the upper limit (a legal configuration) lifts the set-point
above the limit. -/
theorem C22_limits_violated :
    ∃ (c : HrvCfg) (xs : List HrvIn), c.Valid ∧ c.voltageMin ≤ c.voltage ∧ c.voltage ≤ c.voltageMax ∧
      1 < c.windowSize ∧ c.algorithm = 2^13 ∧ (∀ y ∈ xs, y.feedback = none) ∧ (after b64 c xs).intervalStep = 0 ∧
      (c.voltageMax : ℚ) < (after b64 c xs).voltageSet ∧
      (c.voltageMax : ℚ) < (after (fun x => x) c xs).voltageSet :=
  ⟨{ demoHrv (2^13) 7 with voltageStep := 6000000 }, demoCurves 5 1,
    by constructor <;> decide, by decide, by decide, by decide, by decide, by decide, by decide +kernel,
    by decide +kernel, by decide +kernel⟩

end Verif.Props
