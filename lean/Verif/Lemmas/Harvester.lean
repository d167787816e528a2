import Verif.Model.Harvester
import Verif.Lemmas.Num

namespace Verif.Model
open Verif.Py

variable (fl : ℚ → ℚ)

theorem hrvRun_append (c : HrvCfg) (s : HrvState) (xs ys : List HrvIn) :
    hrvRun fl c s (xs ++ ys) =
      ((hrvRun fl c (hrvRun fl c s xs).1 ys).1,
       (hrvRun fl c s xs).2 ++ (hrvRun fl c (hrvRun fl c s xs).1 ys).2) := by
  induction xs generalizing s with
  | nil => simp [hrvRun]
  | cons x xs ih => simp [hrvRun, ih]

theorem hrvRun_snoc (c : HrvCfg) (s : HrvState) (xs : List HrvIn) (x : HrvIn) :
    hrvRun fl c s (xs ++ [x]) =
      ((hrvStep fl c (hrvRun fl c s xs).1 x).1,
       (hrvRun fl c s xs).2 ++ [(hrvStep fl c (hrvRun fl c s xs).1 x).2]) := by
  rw [hrvRun_append]; simp [hrvRun]

/-- Invariants with the history as ghost. -/
theorem hrvRun_inv (c : HrvCfg) (s : HrvState) (P : List HrvIn → HrvState → Prop)
    (Ok : HrvIn → Prop)
    (h0 : P [] s)
    (hstep : ∀ xs s x, (∀ y ∈ xs, Ok y) → Ok x → P xs s → P (xs ++ [x]) (hrvStep fl c s x).1)
    (xs : List HrvIn) (hok : ∀ y ∈ xs, Ok y) : P xs (hrvRun fl c s xs).1 := by
  induction xs using List.reverseRecOn with
  | nil => simpa [hrvRun]
  | append_singleton xs x ih =>
    rw [hrvRun_snoc]
    exact hstep xs _ x (fun y hy => hok y (by simp [hy])) (hok x (by simp))
      (ih (fun y hy => hok y (by simp [hy])))

/-- The outputs of a run are the step outputs after each prefix. -/
theorem hrvRun_outputs (c : HrvCfg) (s : HrvState) (xs : List HrvIn) (o : Sample)
    (h : o ∈ (hrvRun fl c s xs).2) :
    ∃ pre x post, xs = pre ++ x :: post ∧ o = (hrvStep fl c (hrvRun fl c s pre).1 x).2 := by
  induction xs using List.reverseRecOn with
  | nil => simp [hrvRun] at h
  | append_singleton xs x ih =>
    rw [hrvRun_snoc] at h
    rcases List.mem_append.1 h with h | h
    · obtain ⟨pre, y, post, rfl, ho⟩ := ih h
      exact ⟨pre, y, post ++ [x], by simp, ho⟩
    · exact ⟨xs, x, [], by simp, by simpa using h⟩

theorem hrvRun_length (c : HrvCfg) (s : HrvState) (xs : List HrvIn) :
    (hrvRun fl c s xs).2.length = xs.length := by
  induction xs generalizing s with
  | nil => simp [hrvRun]
  | cons x xs ih => simp [hrvRun, ih]

theorem hrvStep_out (c : HrvCfg) (s : HrvState) (x : HrvIn) :
    (hrvStep fl c s x).2 = (ivcurveSample fl c s x.toSample).2 := by
  unfold hrvStep; split <;> rfl

/-- `hrvStep` differs from `ivcurveSample` in the set-point only. -/
theorem hrvStep_state (c : HrvCfg) (s : HrvState) (x : HrvIn) :
    ∃ q, (hrvStep fl c s x).1 = { (ivcurveSample fl c s x.toSample).1 with voltageSet := q } := by
  unfold hrvStep; split
  · exact ⟨_, rfl⟩
  · exact ⟨_, rfl⟩

theorem hrvStep_none (c : HrvCfg) (s : HrvState) (x : HrvIn) (h : x.feedback = none) :
    hrvStep fl c s x = ivcurveSample fl c s x.toSample := by
  unfold hrvStep; rw [h]

/-! ### cv -/

theorem cv_out (c : HrvCfg) (s : HrvState) (x : Sample) :
    (ivcurveCv fl c s x).2 = ⟨(ivcurveCv fl c s x).1.voltageHold, (ivcurveCv fl c s x).1.currentHold⟩ := rfl

theorem cv_last (c : HrvCfg) (s : HrvState) (x : Sample) :
    (ivcurveCv fl c s x).1.voltageLast = x.v ∧ (ivcurveCv fl c s x).1.currentLast = x.i ∧
    (ivcurveCv fl c s x).1.compareLast = decide ((x.v : ℚ) < s.voltageSet) := ⟨rfl, rfl, rfl⟩

/-- What `ivcurve_2_cv` leaves alone. -/
theorem cv_frame (c : HrvCfg) (s : HrvState) (x : Sample) :
    (ivcurveCv fl c s x).1.voltageSet = s.voltageSet ∧
    (ivcurveCv fl c s x).1.intervalStep = s.intervalStep ∧
    (ivcurveCv fl c s x).1.isRising = s.isRising ∧
    (ivcurveCv fl c s x).1.voltStep = s.voltStep ∧
    (ivcurveCv fl c s x).1.ageNow = s.ageNow ∧
    (ivcurveCv fl c s x).1.ageNxt = s.ageNxt ∧
    (ivcurveCv fl c s x).1.vocNow = s.vocNow ∧
    (ivcurveCv fl c s x).1.vocNxt = s.vocNxt ∧
    (ivcurveCv fl c s x).1.powerLast = s.powerLast := by
  unfold ivcurveCv cvTakeOver cvExtrapolate
  dsimp only
  split_ifs <;> simp

/-- Without extrapolation the held point is the old one, the current or the previous sample; a new
one is close to the set-point. -/
theorem cv_hold (c : HrvCfg) (s : HrvState) (x : Sample) (hl : c.linExtrapolation = false) :
    ((ivcurveCv fl c s x).1.voltageHold = s.voltageHold ∧
      (ivcurveCv fl c s x).1.currentHold = s.currentHold) ∨
    ((ivcurveCv fl c s x).1.voltageHold = x.v ∧ (ivcurveCv fl c s x).1.currentHold = x.i ∧
      |fl ((x.v : ℚ) - s.voltageSet)| < ((4 * c.voltageStep : ℕ) : ℚ) ∧
      |fl ((x.v : ℚ) - s.voltageSet)| < |fl ((s.voltageLast : ℚ) - s.voltageSet)|) ∨
    ((ivcurveCv fl c s x).1.voltageHold = s.voltageLast ∧
      (ivcurveCv fl c s x).1.currentHold = s.currentLast ∧
      |fl ((s.voltageLast : ℚ) - s.voltageSet)| < ((4 * c.voltageStep : ℕ) : ℚ) ∧
      |fl ((s.voltageLast : ℚ) - s.voltageSet)| < |fl ((x.v : ℚ) - s.voltageSet)|) := by
  have key : ∀ t : HrvState, t = cvTakeOver fl c s x →
      (t.voltageHold = s.voltageHold ∧ t.currentHold = s.currentHold) ∨
      (t.voltageHold = x.v ∧ t.currentHold = x.i ∧
        |fl ((x.v : ℚ) - s.voltageSet)| < ((4 * c.voltageStep : ℕ) : ℚ) ∧
        |fl ((x.v : ℚ) - s.voltageSet)| < |fl ((s.voltageLast : ℚ) - s.voltageSet)|) ∨
      (t.voltageHold = s.voltageLast ∧ t.currentHold = s.currentLast ∧
        |fl ((s.voltageLast : ℚ) - s.voltageSet)| < ((4 * c.voltageStep : ℕ) : ℚ) ∧
        |fl ((s.voltageLast : ℚ) - s.voltageSet)| < |fl ((x.v : ℚ) - s.voltageSet)|) := by
    intro t ht
    unfold cvTakeOver HrvCfg.voltageStepX4 at ht
    dsimp only at ht
    split_ifs at ht with h1 h2
    · subst ht; exact Or.inr (Or.inl ⟨rfl, rfl, h1.2, h1.1⟩)
    · subst ht; exact Or.inr (Or.inr ⟨rfl, rfl, h2.2, h2.1⟩)
    · subst ht; exact Or.inl ⟨rfl, rfl⟩
  unfold ivcurveCv
  simp only [hl, Bool.false_eq_true, if_false]
  split_ifs with h1
  · exact key _ rfl
  · exact Or.inl ⟨rfl, rfl⟩

/-! ### dispatch -/

theorem sample_opt (c : HrvCfg) (s : HrvState) (x : Sample) (hw : 1 < c.windowSize)
    (ha : 2^14 ≤ c.algorithm) : ivcurveSample fl c s x = ivcurveOpt c s x := by
  unfold ivcurveSample hrvOPT; rw [if_neg (by omega), if_pos ha]

theorem sample_po (c : HrvCfg) (s : HrvState) (x : Sample) (hw : 1 < c.windowSize)
    (ha : 2^13 ≤ c.algorithm) (hb : c.algorithm < 2^14) :
    ivcurveSample fl c s x = ivcurvePo fl c s x := by
  unfold ivcurveSample hrvOPT hrvPO
  rw [if_neg (by omega), if_neg (by omega), if_pos ha]

theorem sample_voc (c : HrvCfg) (s : HrvState) (x : Sample) (hw : 1 < c.windowSize)
    (ha : 2^12 ≤ c.algorithm) (hb : c.algorithm < 2^13) :
    ivcurveSample fl c s x = ivcurveVoc fl c s x := by
  unfold ivcurveSample hrvOPT hrvPO hrvVOC
  rw [if_neg (by omega), if_neg (by omega), if_neg (by omega), if_pos ha]

theorem sample_cv (c : HrvCfg) (s : HrvState) (x : Sample) (hw : 1 < c.windowSize)
    (ha : 2^8 ≤ c.algorithm) (hb : c.algorithm < 2^12) :
    ivcurveSample fl c s x = ivcurveCv fl c s x := by
  unfold ivcurveSample hrvOPT hrvPO hrvVOC hrvCV
  rw [if_neg (by omega), if_neg (by omega), if_neg (by omega), if_neg (by omega), if_pos ha]

/-! ### voc -/

theorem vocTrack_frame (c : HrvCfg) (s : HrvState) (x : Sample) :
    (vocTrack c s x).voltageSet = s.voltageSet ∧
    (vocTrack c s x).voltageHold = s.voltageHold ∧ (vocTrack c s x).currentHold = s.currentHold ∧
    (vocTrack c s x).voltageLast = s.voltageLast ∧ (vocTrack c s x).currentLast = s.currentLast ∧
    (vocTrack c s x).compareLast = s.compareLast ∧
    (vocTrack c s x).intervalStep = nextInterval c s.intervalStep := by
  unfold vocTrack
  dsimp only
  split_ifs <;> simp

/-! ### opt -/

/-- In-limits test of the trackers. -/
def inLimits (c : HrvCfg) (x : Sample) : Prop := (c.voltageMin : ℤ) ≤ x.v ∧ x.v ≤ (c.voltageMax : ℤ)

/-- Ghost invariant of the optimal tracker. `hist` are the samples so far. -/
structure OptInv (c : HrvCfg) (hist : List Sample) (s : HrvState) : Prop where
  now : (s.voltageNow = 0 ∧ s.currentNow = 0 ∧ s.powerNow = 0 ∧
          ∀ pre x, hist = pre ++ [x] → inLimits c x → x.v * x.i ≤ 0) ∨
        (s.ageNow ≤ 2 * c.windowSize ∧ ∃ pre y post, hist = pre ++ y :: post ∧
          s.voltageNow = y.v ∧ s.currentNow = y.i ∧ s.powerNow = y.v * y.i ∧
          post.length = s.ageNow ∧ inLimits c y ∧
          ∀ z ∈ post, inLimits c z → z.v * z.i ≤ s.powerNow)
  nxt : (s.voltageNxt = 0 ∧ s.currentNxt = 0 ∧ s.powerNxt = 0) ∨
        (s.ageNxt < s.ageNow ∧ ∃ pre y post, hist = pre ++ y :: post ∧
          s.voltageNxt = y.v ∧ s.currentNxt = y.i ∧ s.powerNxt = y.v * y.i ∧
          post.length = s.ageNxt ∧ inLimits c y ∧
          ∀ z ∈ post, inLimits c z → z.v * z.i ≤ s.powerNxt)
  nonneg : 0 ≤ s.powerNxt
  order : s.powerNxt ≤ s.powerNow
  fresh : s.powerNow = 0 → s.voltageNxt = 0 ∧ s.currentNxt = 0 ∧ s.powerNxt = 0

theorem OptInv.init (c : HrvCfg) : OptInv c [] (HrvState.init c) where
  now := Or.inl ⟨rfl, rfl, rfl, fun pre x h => by simp at h⟩
  nxt := Or.inl ⟨rfl, rfl, rfl⟩
  nonneg := le_refl _
  order := le_refl _
  fresh := fun _ => ⟨rfl, rfl, rfl⟩

/-- Invariant half way: after recording the candidate. -/
structure OptMid (c : HrvCfg) (hist : List Sample) (x : Sample) (s : HrvState) : Prop where
  now : (s.voltageNow = 0 ∧ s.currentNow = 0 ∧ s.powerNow = 0) ∨
        (s.ageNow ≤ 2 * c.windowSize + 1 ∧ ∃ pre y post, hist ++ [x] = pre ++ y :: post ∧
          s.voltageNow = y.v ∧ s.currentNow = y.i ∧ s.powerNow = y.v * y.i ∧
          post.length = s.ageNow ∧ inLimits c y ∧
          ∀ z ∈ post, inLimits c z → z.v * z.i ≤ max s.powerNow s.powerNxt)
  nxt : (s.voltageNxt = 0 ∧ s.currentNxt = 0 ∧ s.powerNxt = 0) ∨
        (s.ageNxt < s.ageNow ∧ ∃ pre y post, hist ++ [x] = pre ++ y :: post ∧
          s.voltageNxt = y.v ∧ s.currentNxt = y.i ∧ s.powerNxt = y.v * y.i ∧
          post.length = s.ageNxt ∧ inLimits c y ∧
          ∀ z ∈ post, inLimits c z → z.v * z.i ≤ s.powerNxt)
  cur : inLimits c x → x.v * x.i ≤ s.powerNxt
  nonneg : 0 ≤ s.powerNxt
  fresh : s.powerNow = 0 → (s.voltageNxt = 0 ∧ s.currentNxt = 0 ∧ s.powerNxt = 0) ∨ s.ageNxt = 0

theorem optRecord_mid (c : HrvCfg) (hist : List Sample) (s : HrvState) (x : Sample)
    (h : OptInv c hist s) : OptMid c hist x (optRecord c s x) := by
  have hnow : ∀ P : ℤ, s.powerNxt ≤ P → (inLimits c x → x.v * x.i ≤ P) →
      (s.voltageNow = 0 ∧ s.currentNow = 0 ∧ s.powerNow = 0) ∨
        (s.ageNow + 1 ≤ 2 * c.windowSize + 1 ∧ ∃ pre y post, hist ++ [x] = pre ++ y :: post ∧
          s.voltageNow = y.v ∧ s.currentNow = y.i ∧ s.powerNow = y.v * y.i ∧
          post.length = s.ageNow + 1 ∧ inLimits c y ∧
          ∀ z ∈ post, inLimits c z → z.v * z.i ≤ max s.powerNow P) := by
    intro P _ hx
    rcases h.now with h1 | ⟨ha, pre, y, post, hh, h1, h2, h3, h4, h5, h6⟩
    · exact Or.inl ⟨h1.1, h1.2.1, h1.2.2.1⟩
    · refine Or.inr ⟨by omega, pre, y, post ++ [x], by simp [hh], h1, h2, h3, by simp [h4], h5, ?_⟩
      intro z hz hzl
      rcases List.mem_append.1 hz with hz | hz
      · exact le_max_of_le_left (h6 z hz hzl)
      · obtain rfl := List.mem_singleton.1 hz
        exact le_max_of_le_right (hx hzl)
  unfold optRecord
  dsimp only
  split_ifs with hc
  · refine ⟨hnow (x.v * x.i) hc.1 (fun _ => le_refl _), Or.inr ⟨by simp, hist, x, [], rfl, rfl, rfl, rfl, rfl,
      ⟨hc.2.1, hc.2.2⟩, by simp⟩, fun _ => le_refl _, le_trans h.nonneg hc.1, fun _ => Or.inr rfl⟩
  · have hx : inLimits c x → x.v * x.i ≤ s.powerNxt := by
      intro hl
      by_contra hlt
      exact hc ⟨by omega, hl.1, hl.2⟩
    refine ⟨hnow s.powerNxt (le_refl _) hx, ?_, hx, h.nonneg, fun h0 => Or.inl (h.fresh h0)⟩
    rcases h.nxt with h1 | ⟨ha, pre, y, post, hh, h1, h2, h3, h4, h5, h6⟩
    · exact Or.inl h1
    · refine Or.inr ⟨by simpa using ha, pre, y, post ++ [x], by simp [hh], h1, h2, h3, by simp [h4], h5, ?_⟩
      intro z hz hzl
      rcases List.mem_append.1 hz with hz | hz
      · exact h6 z hz hzl
      · obtain rfl := List.mem_singleton.1 hz
        exact hx hzl

theorem opt_inv (c : HrvCfg) (hist : List Sample) (s : HrvState) (x : Sample)
    (h : OptInv c hist s) : OptInv c (hist ++ [x]) (ivcurveOpt c s x).1 := by
  have m := optRecord_mid c hist s x h
  unfold ivcurveOpt HrvCfg.ageMax
  generalize optRecord c s x = t at m
  dsimp only
  split_ifs with hc
  · refine ⟨?_, Or.inl ⟨rfl, rfl, rfl⟩, le_refl _, m.nonneg, fun _ => ⟨rfl, rfl, rfl⟩⟩
    rcases m.nxt with ⟨h1, h2, h3⟩ | ⟨ha, h1⟩
    · refine Or.inl ⟨h1, h2, h3, ?_⟩
      intro pre y hy hl
      obtain ⟨_, rfl⟩ := List.append_inj' hy rfl |>.imp id (fun h => List.singleton_inj.1 h)
      have := m.cur hl
      omega
    · rcases m.now with hn | ⟨hn, _⟩
      · rcases m.fresh hn.2.2 with ⟨g1, g2, g3⟩ | g
        · refine Or.inl ⟨g1, g2, g3, ?_⟩
          intro pre y hy hl
          obtain ⟨_, rfl⟩ := List.append_inj' hy rfl |>.imp id (fun h => List.singleton_inj.1 h)
          have := m.cur hl
          omega
        · exact Or.inr ⟨by dsimp only; omega, h1⟩
      · exact Or.inr ⟨by dsimp only; omega, h1⟩
  · push Not at hc
    refine ⟨?_, m.nxt, m.nonneg, le_of_lt hc.2, fun h0 => by have := m.nonneg; have := hc.2; omega⟩
    rcases m.now with ⟨h1, h2, h3⟩ | ⟨ha, pre, y, post, hh, h1, h2, h3, h4, h5, h6⟩
    · have := m.nonneg; have := hc.2; omega
    · refine Or.inr ⟨hc.1, pre, y, post, hh, h1, h2, h3, h4, h5, fun z hz hzl => ?_⟩
      have := h6 z hz hzl
      rwa [max_eq_left (le_of_lt hc.2)] at this

/-- While no in-limits sample is above `M`, a sample with power `M` of the last two windows is what
the tracker returns. -/
structure PeakInv (c : HrvCfg) (M : ℤ) (hist : List Sample) (s : HrvState) : Prop extends
    OptInv c hist s where
  peak : ∀ pre y post, hist = pre ++ y :: post → inLimits c y → y.v * y.i = M →
    post.length ≤ 2 * c.windowSize → s.powerNow = M ∧ s.ageNow ≤ post.length

theorem peak_inv (c : HrvCfg) (M : ℤ) (hM : 0 < M) (hist : List Sample) (s : HrvState) (x : Sample)
    (hle : ∀ y ∈ hist ++ [x], inLimits c y → y.v * y.i ≤ M)
    (h : PeakInv c M hist s) : PeakInv c M (hist ++ [x]) (ivcurveOpt c s x).1 := by
  refine ⟨opt_inv c hist s x h.toOptInv, ?_⟩
  have m := optRecord_mid c hist s x h.toOptInv
  have hpn : (optRecord c s x).powerNow = s.powerNow := by unfold optRecord; dsimp only; split_ifs <;> rfl
  have han : (optRecord c s x).ageNow = s.ageNow + 1 := by unfold optRecord; dsimp only; split_ifs <;> rfl
  have hnowM : s.powerNow ≤ M := by
    rcases h.now with ⟨_, _, h3, _⟩ | ⟨_, pre, y, post, hh, _, _, h3, _, h5, _⟩
    · omega
    · rw [h3]; exact hle y (by simp [hh]) h5
  have hnxtM : s.powerNxt ≤ M := le_trans h.order hnowM
  have hmidM : (optRecord c s x).powerNxt ≤ M := by
    rcases m.nxt with ⟨_, _, h3⟩ | ⟨_, pre, y, post, hh, _, _, h3, _, h5, _⟩
    · omega
    · rw [h3]; exact hle y (by rw [hh]; simp) h5
  -- a peak just now
  have hnew : inLimits c x → x.v * x.i = M →
      (ivcurveOpt c s x).1.powerNow = M ∧ (ivcurveOpt c s x).1.ageNow = 0 := by
    intro hl hx
    have hr : (optRecord c s x).powerNxt = M ∧ (optRecord c s x).ageNxt = 0 := by
      unfold optRecord
      dsimp only
      rw [if_pos ⟨by omega, hl.1, hl.2⟩]
      exact ⟨hx, rfl⟩
    unfold ivcurveOpt
    dsimp only
    rw [if_pos (Or.inr (by omega))]
    exact ⟨hr.1, hr.2⟩
  intro pre y post hh hl hy hlen
  rcases List.eq_nil_or_concat post with rfl | ⟨post', z, rfl⟩
  · obtain ⟨rfl, h2⟩ := List.append_inj' hh rfl
    obtain rfl := List.singleton_inj.1 h2
    have := hnew hl hy
    exact ⟨this.1, by simp [this.2]⟩
  · have hh' : hist ++ [x] = (pre ++ y :: post') ++ [z] := by simpa using hh
    obtain ⟨rfl, h2⟩ := List.append_inj' hh' rfl
    obtain rfl := List.singleton_inj.1 h2
    simp only [List.concat_eq_append, List.length_append, List.length_singleton] at hlen ⊢
    obtain ⟨hp, ha⟩ := h.peak pre y post' rfl hl hy (by omega)
    unfold ivcurveOpt HrvCfg.ageMax
    dsimp only
    split_ifs with hc
    · have hge : (optRecord c s x).powerNxt = M := by
        rcases hc with hc | hc <;> omega
      refine ⟨hge, ?_⟩
      rcases m.nxt with ⟨_, _, h3⟩ | ⟨hlt, _⟩
      · omega
      · dsimp only; omega
    · exact ⟨by omega, by omega⟩

/-! ### voc -/

/-- A sample counts as open circuit. -/
def isOpenCircuit (c : HrvCfg) (x : Sample) : Prop :=
  x.i < (c.currentLimit : ℤ) ∧ (1000:ℤ) ≤ x.v ∧ (c.voltageMin : ℤ) ≤ x.v ∧ x.v ≤ (c.voltageMax : ℤ)

/-- Ghost invariant of the open-circuit tracker. -/
structure VocInv (c : HrvCfg) (hist : List Sample) (s : HrvState) : Prop where
  now : (s.vocNow = (c.voltageMax : ℤ) ∧
          ∀ pre x, hist = pre ++ [x] → isOpenCircuit c x → x.v = (c.voltageMax : ℤ)) ∨
        (s.ageNow ≤ 2 * c.windowSize ∧ ∃ pre y post, hist = pre ++ y :: post ∧
          s.vocNow = y.v ∧ post.length = s.ageNow ∧ isOpenCircuit c y ∧
          ∀ z ∈ post, isOpenCircuit c z → s.vocNow ≤ z.v)
  nxt : s.vocNxt = (c.voltageMax : ℤ) ∨
        (s.ageNxt < s.ageNow ∧ ∃ pre y post, hist = pre ++ y :: post ∧
          s.vocNxt = y.v ∧ post.length = s.ageNxt ∧ isOpenCircuit c y ∧
          ∀ z ∈ post, isOpenCircuit c z → s.vocNxt ≤ z.v)
  upper : s.vocNxt ≤ (c.voltageMax : ℤ)
  order : s.vocNow ≤ s.vocNxt
  fresh : s.vocNow = (c.voltageMax : ℤ) → s.vocNxt = (c.voltageMax : ℤ)

theorem VocInv.init (c : HrvCfg) : VocInv c [] (HrvState.init c) where
  now := Or.inl ⟨rfl, fun pre x h => by simp at h⟩
  nxt := Or.inl rfl
  upper := le_refl _
  order := le_refl _
  fresh := fun _ => rfl

/-- The half of `vocTrack` before the promotion (virtual_harvester_model.py l.150-163). -/
def vocRecord (c : HrvCfg) (s : HrvState) (x : Sample) : HrvState :=
  if x.i < (c.currentLimit : ℤ) ∧ x.v < s.vocNxt ∧ x.v ≥ (c.vocMin : ℤ) ∧ x.v ≤ (c.voltageMax : ℤ) then
    { s with intervalStep := nextInterval c s.intervalStep, ageNow := s.ageNow + 1,
             vocNxt := x.v, ageNxt := 0 }
  else { s with intervalStep := nextInterval c s.intervalStep,
                ageNxt := s.ageNxt + 1, ageNow := s.ageNow + 1 }

theorem vocTrack_eq (c : HrvCfg) (s : HrvState) (x : Sample) :
    vocTrack c s x =
      (let s2 := vocRecord c s x
       if s2.ageNow > c.ageMax ∨ s2.vocNxt ≤ s2.vocNow then
         { s2 with ageNow := s2.ageNxt, vocNow := s2.vocNxt, ageNxt := 0, vocNxt := c.voltageMax }
       else s2) := by
  unfold vocTrack vocRecord
  dsimp only

structure VocMid (c : HrvCfg) (hist : List Sample) (x : Sample) (s : HrvState) : Prop where
  now : (s.vocNow = (c.voltageMax : ℤ)) ∨
        (s.ageNow ≤ 2 * c.windowSize + 1 ∧ ∃ pre y post, hist ++ [x] = pre ++ y :: post ∧
          s.vocNow = y.v ∧ post.length = s.ageNow ∧ isOpenCircuit c y ∧
          ∀ z ∈ post, isOpenCircuit c z → min s.vocNow s.vocNxt ≤ z.v)
  nxt : s.vocNxt = (c.voltageMax : ℤ) ∨
        (s.ageNxt < s.ageNow ∧ ∃ pre y post, hist ++ [x] = pre ++ y :: post ∧
          s.vocNxt = y.v ∧ post.length = s.ageNxt ∧ isOpenCircuit c y ∧
          ∀ z ∈ post, isOpenCircuit c z → s.vocNxt ≤ z.v)
  cur : isOpenCircuit c x → s.vocNxt ≤ x.v
  upper : s.vocNxt ≤ (c.voltageMax : ℤ)
  fresh : s.vocNow = (c.voltageMax : ℤ) → s.vocNxt = (c.voltageMax : ℤ) ∨ s.ageNxt = 0

theorem vocRecord_mid (c : HrvCfg) (hist : List Sample) (s : HrvState) (x : Sample)
    (h : VocInv c hist s) : VocMid c hist x (vocRecord c s x) := by
  have hnow : ∀ P : ℤ, (isOpenCircuit c x → P ≤ x.v) →
      (s.vocNow = (c.voltageMax : ℤ)) ∨
        (s.ageNow + 1 ≤ 2 * c.windowSize + 1 ∧ ∃ pre y post, hist ++ [x] = pre ++ y :: post ∧
          s.vocNow = y.v ∧ post.length = s.ageNow + 1 ∧ isOpenCircuit c y ∧
          ∀ z ∈ post, isOpenCircuit c z → min s.vocNow P ≤ z.v) := by
    intro P hx
    rcases h.now with h1 | ⟨ha, pre, y, post, hh, h1, h4, h5, h6⟩
    · exact Or.inl h1.1
    · refine Or.inr ⟨by omega, pre, y, post ++ [x], by simp [hh], h1, by simp [h4], h5, ?_⟩
      intro z hz hzl
      rcases List.mem_append.1 hz with hz | hz
      · exact min_le_of_left_le (h6 z hz hzl)
      · obtain rfl := List.mem_singleton.1 hz
        exact min_le_of_right_le (hx hzl)
  unfold vocRecord HrvCfg.vocMin
  split_ifs with hc
  · refine ⟨hnow x.v (fun _ => le_refl _), Or.inr ⟨by simp, hist, x, [], rfl, rfl, rfl,
      ⟨hc.1, ?_, ?_, hc.2.2.2⟩, by simp⟩, fun _ => le_refl _, hc.2.2.2, fun _ => Or.inr rfl⟩
    · have := hc.2.2.1; push_cast at this; omega
    · have := hc.2.2.1; push_cast at this; omega
  · have hx : isOpenCircuit c x → s.vocNxt ≤ x.v := by
      rintro ⟨h1, h2, h3, h4⟩
      by_contra hlt
      exact hc ⟨h1, by omega, by push_cast; omega, h4⟩
    refine ⟨hnow s.vocNxt hx, ?_, hx, h.upper, fun h0 => Or.inl (h.fresh h0)⟩
    rcases h.nxt with h1 | ⟨ha, pre, y, post, hh, h1, h4, h5, h6⟩
    · exact Or.inl h1
    · refine Or.inr ⟨by simpa using ha, pre, y, post ++ [x], by simp [hh], h1, by simp [h4], h5, ?_⟩
      intro z hz hzl
      rcases List.mem_append.1 hz with hz | hz
      · exact h6 z hz hzl
      · obtain rfl := List.mem_singleton.1 hz
        exact hx hzl

theorem voc_inv (c : HrvCfg) (hist : List Sample) (s : HrvState) (x : Sample)
    (h : VocInv c hist s) : VocInv c (hist ++ [x]) (vocTrack c s x) := by
  have m := vocRecord_mid c hist s x h
  rw [vocTrack_eq]
  unfold HrvCfg.ageMax
  generalize vocRecord c s x = t at m
  have hlast : t.vocNxt = (c.voltageMax : ℤ) →
      ∀ pre y, hist ++ [x] = pre ++ [y] → isOpenCircuit c y → y.v = (c.voltageMax : ℤ) := by
    intro h1 pre y hy hl
    obtain ⟨_, rfl⟩ := List.append_inj' hy rfl |>.imp id (fun h => List.singleton_inj.1 h)
    have := m.cur hl
    have := hl.2.2.2
    omega
  dsimp only
  split_ifs with hc
  · refine ⟨?_, Or.inl rfl, le_refl _, m.upper, fun _ => rfl⟩
    rcases m.nxt with h1 | ⟨ha, h1⟩
    · exact Or.inl ⟨h1, hlast h1⟩
    · rcases m.now with hn | ⟨hn, _⟩
      · rcases m.fresh hn with g | g
        · exact Or.inl ⟨g, hlast g⟩
        · exact Or.inr ⟨by dsimp only; omega, h1⟩
      · exact Or.inr ⟨by dsimp only; omega, h1⟩
  · push Not at hc
    refine ⟨?_, m.nxt, m.upper, le_of_lt hc.2, fun h0 => by have := m.upper; have := hc.2; omega⟩
    rcases m.now with h1 | ⟨ha, pre, y, post, hh, h1, h4, h5, h6⟩
    · have := m.upper; have := hc.2; omega
    · refine Or.inr ⟨hc.1, pre, y, post, hh, h1, h4, h5, fun z hz hzl => ?_⟩
      have := h6 z hz hzl
      rwa [min_eq_left (le_of_lt hc.2)] at this

theorem VocInv.congr {c : HrvCfg} {hist : List Sample} {s t : HrvState} (h : VocInv c hist s)
    (h1 : t.vocNow = s.vocNow) (h2 : t.vocNxt = s.vocNxt) (h3 : t.ageNow = s.ageNow)
    (h4 : t.ageNxt = s.ageNxt) : VocInv c hist t := by
  obtain ⟨a, b, d, e, f⟩ := h
  exact ⟨by rwa [h1, h3], by rwa [h2, h3, h4], by rwa [h2], by rwa [h1, h2], by rwa [h1, h2]⟩

theorem OptInv.congr {c : HrvCfg} {hist : List Sample} {s : HrvState} (h : OptInv c hist s) (q : ℚ) :
    OptInv c hist { s with voltageSet := q } := ⟨h.now, h.nxt, h.nonneg, h.order, h.fresh⟩

/-! ### po -/

theorem cv_po_frame (c : HrvCfg) (s : HrvState) (x : Sample) :
    ∃ t : HrvState, (ivcurvePo fl c s x).1 =
      (if t.intervalStep = 0 then
        poClampStep c (poClampMin c (poClampMax c (poPerturb fl c t (ivcurvePo fl c s x).2))) else t) ∧
      t.voltageSet = s.voltageSet ∧ t.voltStep = s.voltStep ∧ t.isRising = s.isRising ∧
      t.powerLast = s.powerLast ∧ t.intervalStep = nextInterval c s.intervalStep := by
  refine ⟨(ivcurveCv fl c { s with intervalStep := nextInterval c s.intervalStep } x).1, ?_, ?_⟩
  · unfold ivcurvePo
    dsimp only
    split_ifs <;> rfl
  · obtain ⟨h1, h2, h3, h4, h5, h6, h7, h8, h9⟩ :=
      cv_frame fl c { s with intervalStep := nextInterval c s.intervalStep } x
    exact ⟨h1, h4, h3, h9, h2⟩

theorem po_interval (c : HrvCfg) (s : HrvState) (x : Sample) :
    (ivcurvePo fl c s x).1.intervalStep = nextInterval c s.intervalStep := by
  obtain ⟨t, h, _, _, _, _, hi⟩ := cv_po_frame fl c s x
  rw [h]
  have h1 : ∀ u, (poClampStep c u).intervalStep = u.intervalStep := by
    intro u; unfold poClampStep; split_ifs <;> rfl
  have h2 : ∀ u, (poClampMin c u).intervalStep = u.intervalStep := by
    intro u; unfold poClampMin; split_ifs <;> rfl
  have h3 : ∀ u, (poClampMax c u).intervalStep = u.intervalStep := by
    intro u; unfold poClampMax; split_ifs <;> rfl
  have h4 : ∀ u y, (poPerturb fl c u y).intervalStep = u.intervalStep := by
    intro u y; unfold poPerturb; dsimp only; split_ifs <;> rfl
  split_ifs
  · rw [h1, h2, h3, h4, hi]
  · exact hi

/-- Bounds after the three clamps. -/
theorem po_clamped (c : HrvCfg) (s : HrvState) :
    let t := poClampStep c (poClampMin c (poClampMax c s))
    ((c.voltageStep : ℚ) ≤ t.voltageSet ∧ (c.voltageMin : ℚ) ≤ t.voltageSet) ∧
    t.voltageSet ≤ max (c.voltageMax : ℚ) (max (c.voltageMin : ℚ) (c.voltageStep : ℚ)) ∧
    (t.voltStep = s.voltStep ∨ t.voltStep = c.voltageStep) := by
  have h1 : (poClampMax c s).voltageSet ≤ (c.voltageMax : ℚ) ∧
      ((poClampMax c s).voltStep = s.voltStep ∨ (poClampMax c s).voltStep = c.voltageStep) := by
    unfold poClampMax; split_ifs with h
    · exact ⟨le_refl _, Or.inr rfl⟩
    · exact ⟨le_of_lt (not_le.1 h), Or.inl rfl⟩
  generalize poClampMax c s = s1 at h1
  have h2 : (c.voltageMin : ℚ) ≤ (poClampMin c s1).voltageSet ∧
      (poClampMin c s1).voltageSet ≤ max (c.voltageMax : ℚ) (c.voltageMin : ℚ) ∧
      ((poClampMin c s1).voltStep = s.voltStep ∨ (poClampMin c s1).voltStep = c.voltageStep) := by
    unfold poClampMin; split_ifs with h
    · exact ⟨le_refl _, le_max_right _ _, Or.inr rfl⟩
    · exact ⟨le_of_lt (not_le.1 h), le_max_of_le_left h1.1, h1.2⟩
  generalize poClampMin c s1 = s2 at h2
  unfold poClampStep
  dsimp only
  split_ifs with h
  · refine ⟨⟨le_refl _, ?_⟩, le_max_of_le_right (le_max_right _ _), Or.inr rfl⟩
    exact le_trans h2.1 h
  · refine ⟨⟨le_of_lt (not_le.1 h), h2.1⟩, ?_, h2.2.2⟩
    refine le_trans h2.2.1 (max_le_max (le_refl _) (le_max_left _ _))

/-- Relation of set-point, direction and step while the tracker climbs: the step is at most as large as
the way already gone plus one configured step. `U` bounds the set-point from above. -/
def PoWay (c : HrvCfg) (U : ℤ) (s : HrvState) : Prop :=
  ∃ n : ℤ, s.voltageSet = n ∧ c.voltageStep ≤ s.voltStep ∧
    (s.isRising = true → (s.voltStep : ℤ) - c.voltageStep ≤ n ∨ s.voltStep = c.voltageStep) ∧
    (s.isRising = false → n + s.voltStep - c.voltageStep ≤ U)

theorem poWay_perturb {fl : ℚ → ℚ} (hfl : Rounding fl) (c : HrvCfg) (hst : c.voltageStep < 2^32) (U : ℤ) (hU : U ≤ 2^40)
    (s : HrvState) (y : Sample) (h : PoWay c U s) (h0 : 0 ≤ s.voltageSet) (h1 : s.voltageSet ≤ U) :
    PoWay c U (poPerturb fl c s y) := by
  obtain ⟨n, hn, hs, hr, hf⟩ := h
  rw [hn] at h0 h1
  have h0' : 0 ≤ n := by exact_mod_cast h0
  have h1' : n ≤ U := by exact_mod_cast h1
  have hvs : (s.voltStep : ℤ) ≤ 2^41 := by
    cases hb : s.isRising with
    | true => rcases hr hb with h | h <;> omega
    | false => have := hf hb; omega
  have ex : ∀ m : ℤ, |m| ≤ 2^50 → fl m = m := fun m hm =>
    hfl.exactInt m (le_trans hm (by norm_num))
  have eadd : fl (s.voltageSet + (s.voltStep : ℚ)) = ((n + s.voltStep : ℤ) : ℚ) := by
    rw [hn]; have := ex (n + s.voltStep) (by rw [abs_le]; constructor <;> omega)
    push_cast at this ⊢; exact this
  have esub : fl (s.voltageSet - (s.voltStep : ℚ)) = ((n - s.voltStep : ℤ) : ℚ) := by
    rw [hn]; have := ex (n - s.voltStep) (by rw [abs_le]; constructor <;> omega)
    push_cast at this ⊢; exact this
  have eadd' : fl (s.voltageSet + (c.voltageStep : ℚ)) = ((n + c.voltageStep : ℤ) : ℚ) := by
    rw [hn]; have := ex (n + c.voltageStep) (by rw [abs_le]; constructor <;> omega)
    push_cast at this ⊢; exact this
  have esub' : fl (s.voltageSet - (c.voltageStep : ℚ)) = ((n - c.voltageStep : ℤ) : ℚ) := by
    rw [hn]; have := ex (n - c.voltageStep) (by rw [abs_le]; constructor <;> omega)
    push_cast at this ⊢; exact this
  have esub4 : fl (s.voltageSet - (c.voltageStepX4 : ℚ)) = ((n - 4 * c.voltageStep : ℤ) : ℚ) := by
    rw [hn]; have := ex (n - 4 * c.voltageStep) (by rw [abs_le]; constructor <;> omega)
    unfold HrvCfg.voltageStepX4
    push_cast at this ⊢; exact this
  unfold poPerturb
  dsimp only
  split_ifs with g1 g2 g3 g4
  · refine ⟨_, eadd, by dsimp only; omega, fun _ => ?_, fun hb => ?_⟩
    · dsimp only; push_cast
      rcases hr g2 with h | h <;> omega
    · simp [g2] at hb
  · refine ⟨_, esub, by dsimp only; omega, fun hb => ?_, fun hb => ?_⟩
    · simp [g2] at hb
    · have := hf hb
      dsimp only; push_cast; omega
  · exact ⟨_, esub4, le_refl _, fun _ => Or.inr rfl, fun hb => by simp at hb⟩
  · refine ⟨_, eadd', le_refl _, fun _ => Or.inr rfl, fun hb => ?_⟩
    simp at g4 hb; simp [g4] at hb
  · refine ⟨_, esub', le_refl _, fun _ => Or.inr rfl, fun hb => ?_⟩
    dsimp only; omega

theorem poWay_clamps (c : HrvCfg) (U : ℤ) (hU : (c.voltageMax : ℤ) ≤ U) (s : HrvState)
    (h : PoWay c U s) : PoWay c U (poClampStep c (poClampMin c (poClampMax c s))) := by
  have h1 : PoWay c U (poClampMax c s) := by
    unfold poClampMax; split_ifs
    · exact ⟨c.voltageMax, by simp, le_refl _, fun _ => Or.inr rfl, fun _ => by dsimp only; omega⟩
    · exact h
  have h2 : PoWay c U (poClampMin c (poClampMax c s)) := by
    unfold poClampMin; split_ifs
    · exact ⟨c.voltageMin, by simp, le_refl _, fun _ => Or.inr rfl, fun hb => by simp at hb⟩
    · exact h1
  unfold poClampStep; split_ifs
  · exact ⟨c.voltageStep, by simp, le_refl _, fun _ => Or.inr rfl, fun hb => by simp at hb⟩
  · exact h2

/-- Invariant of perturb-and-observe without feedback. -/
structure PoInv (c : HrvCfg) (U : ℤ) (s : HrvState) : Prop where
  way : PoWay c U s
  lo : 0 ≤ s.voltageSet
  hi : s.voltageSet ≤ U

theorem po_inv {fl : ℚ → ℚ} (hfl : Rounding fl) (c : HrvCfg) (hst : c.voltageStep < 2^32) (U : ℤ)
    (hU : U ≤ 2^40) (hmax : (c.voltageMax : ℤ) ≤ U) (hmin : (c.voltageMin : ℤ) ≤ U)
    (hstep : (c.voltageStep : ℤ) ≤ U)
    (s : HrvState) (x : Sample) (h : PoInv c U s) : PoInv c U (ivcurvePo fl c s x).1 := by
  obtain ⟨t, ht, h1, h2, h3, h4, h5⟩ := cv_po_frame fl c s x
  have hway : PoWay c U t := by
    obtain ⟨n, a, b, d, e⟩ := h.way
    exact ⟨n, by rw [h1, a], by omega, by rw [h3, h2]; exact d, by rw [h3, h2]; exact e⟩
  rw [ht]
  split_ifs
  · have hp := poWay_perturb hfl c hst U hU t (ivcurvePo fl c s x).2 hway (h1 ▸ h.lo) (h1 ▸ h.hi)
    have hb := po_clamped c (poPerturb fl c t (ivcurvePo fl c s x).2)
    refine ⟨poWay_clamps c U hmax _ hp, le_trans (by positivity) hb.1.1, le_trans hb.2.1 ?_⟩
    have a1 : (c.voltageMax : ℚ) ≤ (U : ℚ) := by exact_mod_cast hmax
    have a2 : (c.voltageMin : ℚ) ≤ (U : ℚ) := by exact_mod_cast hmin
    have a3 : (c.voltageStep : ℚ) ≤ (U : ℚ) := by exact_mod_cast hstep
    exact max_le a1 (max_le a2 a3)
  · exact ⟨hway, h1 ▸ h.lo, h1 ▸ h.hi⟩

end Verif.Model
