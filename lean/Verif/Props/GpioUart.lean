import Verif.Model.GpioUart
import Verif.Props.Baud
import Verif.Props.Reports
import Verif.Props.Experiment

/-!
# C80: text that was sent by UART is recovered from a trace of the pins
-/

namespace Verif.Props
open Verif.Py Verif.Model

/-! ## Specification -/

/-- What a trace tells of a pin: times (in ns) and levels, one row for each change of any pin. -/
def GpioLog.seen (g : GpioLog) (pin : ℕ) : List (ℚ × Bool) := (g.time.zip g.value).map (fun r => ((r.1 : ℚ), r.2.toNat.testBit pin))

/-- A line of text: its characters, and if it is ended by `\r\n` or only by `\n`. -/
structure TextLine where
  chars : List ℕ
  cr : Bool

/-- The bytes of a line, with its end. -/
def TextLine.bytes (l : TextLine) : List ℕ := l.chars ++ if l.cr then [13, 10] else [10]

/-- Characters in ASCII, without zero and ends of lines. -/
def TextLine.Ascii (l : TextLine) : Prop := ∀ c ∈ l.chars, 1 ≤ c ∧ c ≤ 127 ∧ c ≠ 10 ∧ c ≠ 13

/-- The time of a line is that of its first byte; a line without characters that is ended by `\n` has none. -/
def lineStarts : List TextLine → List (Option ℚ) → List (Option ℚ)
  | [], _ => []
  | l :: ls, ts => (if l.chars = [] ∧ l.cr = false then none else ts.head?.join) :: lineStarts ls (ts.drop l.bytes.length)

/-- A phase with its time in seconds instead of nanoseconds, as floats. -/
def Phase.seconds (fl : ℚ → ℚ) (p : Phase) : Phase := ⟨fl (fl p.time / 10 ^ 9), p.level, []⟩

/-! ## Lemmas -/

theorem keepChanges_mask (d : Bool) (pin : ℕ) : ∀ ts vs : List ℤ,
    ((maskBy ts (changed (if d then 1 else 0) (vs.map (fun v => if v.toNat.testBit pin then 1 else 0)))).zip
      (maskBy (vs.map (fun v : ℤ => if v.toNat.testBit pin then (1 : ℤ) else 0)) (changed (if d then 1 else 0) (vs.map (fun v => if v.toNat.testBit pin then 1 else 0))))).map (fun r => ((r.1 : ℚ), (r.2 : ℚ))) =
      (keepChanges d ((ts.zip vs).map (fun r => ((r.1 : ℚ), r.2.toNat.testBit pin)))).map (fun r => (r.1, ofBool r.2)) := by
  intro ts
  induction ts generalizing d with
  | nil => intro vs; simp [maskBy, keepChanges]
  | cons t ts ih =>
    intro vs
    cases vs with
    | nil => simp [maskBy, keepChanges]
    | cons v vs =>
      rw [List.map_cons, changed, maskBy_cons, maskBy_cons, List.zip_cons_cons, List.map_cons, keepChanges]
      have ih' := ih (v.toNat.testBit pin) vs
      cases hb : v.toNat.testBit pin <;> cases d <;> simp [hb] at ih' ⊢ <;> simp [ih', ofBool]

/-- The waveform of a pin consists of the edges. -/
theorem waveform_phases (g : GpioLog) (pin : ℕ) (ns : List Phase) (hne : ns ≠ []) (hlen : g.time.length = g.value.length) (hseen : GpioLog.seen g pin = ns.flatMap Phase.brows)
    (hal : ∃ prev, Alternates prev ns ∧ ∀ p ∈ ns.head?, p.level = !prev) :
    ∃ wf, pinWaveform g.time g.value pin = .ok wf ∧ wf.map (fun r => ((r.1 : ℚ), (r.2 : ℚ))) = ns.map (fun p => (p.time, ofBool p.level)) := by
  obtain ⟨prev, ha, hh⟩ := hal
  have hk := keepChanges_phases ns prev ha
  rw [← hseen] at hk
  unfold GpioLog.seen at hk hseen
  cases hv : g.value with
  | nil =>
    rw [hv, List.zip_nil_right, List.map_nil] at hseen
    cases ns with
    | nil => exact absurd rfl hne
    | cons p ns => simp [Phase.brows] at hseen
  | cons v vs =>
    cases ht : g.time with
    | nil => rw [ht, hv] at hlen; simp at hlen
    | cons t ts =>
      rw [ht, hv] at hk hseen
      refine ⟨_, by unfold pinWaveform; dsimp only; rw [List.map_cons, redundantFilter_eq], ?_⟩
      have hp : v.toNat.testBit pin ≠ prev := by
        cases ns with
        | nil => exact absurd rfl hne
        | cons p ns =>
          have h1 : v.toNat.testBit pin = p.level := by
            simp only [List.zip_cons_cons, List.map_cons, List.flatMap_cons, Phase.brows, List.cons_append, List.cons.injEq, Prod.mk.injEq] at hseen
            exact hseen.1.2
          rw [h1, hh p (by simp)]
          cases prev <;> simp
      have h2 := keepChanges_mask (v.toNat.testBit pin) pin ts vs
      rw [List.zip_cons_cons, List.map_cons, keepChanges, if_pos (by simpa using hp)] at hk
      have h3 := congrArg (List.map (fun r : ℚ × Bool => (r.1, ofBool r.2))) hk
      rw [List.map_cons, ← h2, List.map_map] at h3
      rw [maskBy_cons, maskBy_cons, if_pos rfl, if_pos rfl, List.zip_cons_cons, List.map_cons]
      have h4 : (fun p : Phase => (p.time, ofBool p.level)) = (fun r : ℚ × Bool => (r.1, ofBool r.2)) ∘ fun p : Phase => (p.time, p.level) := rfl
      rw [h4, ← h3]
      congr 1
      cases v.toNat.testBit pin <;> simp [ofBool]

theorem table_seconds {fl : ℚ → ℚ} (hf : Rounding fl) (wf : List (ℤ × ℤ)) (ns : List Phase) (h : wf.map (fun r => ((r.1 : ℚ), (r.2 : ℚ))) = ns.map (fun p => (p.time, ofBool p.level))) :
    uartTable fl wf = (ns.map (Phase.seconds fl)).flatMap Phase.rows := by
  have h1 : uartTable fl wf = (wf.map (fun r => ((r.1 : ℚ), (r.2 : ℚ)))).map (fun r => (fl (fl r.1 / 10 ^ 9), fl r.2)) := by
    unfold uartTable
    rw [List.map_map]
    rfl
  rw [h1, h, List.map_map]
  have h2 : ∀ b, fl (ofBool b) = ofBool b := by
    intro b
    cases b
    · simpa [ofBool] using hf.exact 0 0 (by norm_num) (by norm_num)
    · simpa [ofBool] using hf.exact 1 0 (by norm_num) (by norm_num)
  clear h h1
  induction ns with
  | nil => rfl
  | cons p ns ih =>
    rw [List.map_cons, List.map_cons, List.flatMap_cons, ← ih]
    simp [Phase.rows, Phase.seconds, h2]

/-- Error of a time in seconds. -/
theorem seconds_error {fl : ℚ → ℚ} (hf : AccRounding fl) {t T : ℚ} (h0 : 0 ≤ t) (hT : t ≤ T) : |fl (fl t / 10 ^ 9) - t / 10 ^ 9| ≤ (T + 1) / (44 * 10 ^ 23) := by
  have e1 := hf.err t
  have e2 := hf.err (fl t / 10 ^ 9)
  have hp : 0 ≤ fl t := hf.toRounding.nonneg h0
  rw [abs_of_nonneg h0] at e1
  rw [abs_of_nonneg (div_nonneg hp (by norm_num))] at e2
  have hz : (2 : ℚ) ^ (-1075 : ℤ) ≤ 1 / 10 ^ 30 := by
    refine (zpow_le_zpow_right₀ (by norm_num) (by norm_num : (-1075 : ℤ) ≤ -100)).trans (by norm_num)
  generalize (2 : ℚ) ^ (-1075 : ℤ) = z at *
  generalize fl (fl t / 10 ^ 9) = y at *
  generalize fl t = x at *
  rw [abs_le] at *
  norm_num at *
  constructor <;> linarith

/-- The errors of both ends of a part. -/
theorem within_seconds {fl : ℚ → ℚ} (hf : AccRounding fl) {T τ ν : ℚ} (hν : 0 < ν) {ns : List Phase} {segs : List Seg} (h : PhasesWithin τ (ν / 10 ^ 9) ns segs)
    (ht : ∀ p ∈ ns, 0 ≤ p.time ∧ p.time ≤ T) : PhasesWithin (τ + 2 * ((T + 1) / (44 * 10 ^ 23)) * ν) ν (ns.map (Phase.seconds fl)) segs := by
  induction h with
  | last p s h1 h2 => exact .last _ _ h1 h2
  | cons p q ps s segs h1 h2 h3 ih =>
    refine .cons _ _ _ _ _ h1 ?_ (ih (fun x hx => ht x (List.mem_cons_of_mem _ hx)))
    rcases h2 with h2 | h2
    · exact .inl h2
    · right
      have ep := seconds_error hf (ht p (by simp)).1 (ht p (by simp)).2
      have eq := seconds_error hf (ht q (by simp)).1 (ht q (by simp)).2
      simp only [Phase.seconds]
      generalize (T + 1) / (44 * 10 ^ 23) = E at *
      generalize fl (fl p.time / 10 ^ 9) = a at *
      generalize fl (fl q.time / 10 ^ 9) = b at *
      have h4 : (b - a) * ν - s.dur = ((q.time - p.time) * (ν / 10 ^ 9) - s.dur) + ((b - q.time / 10 ^ 9) - (a - p.time / 10 ^ 9)) * ν := by ring
      have h5 : |((b - q.time / 10 ^ 9) - (a - p.time / 10 ^ 9)) * ν| ≤ 2 * E * ν := by
        rw [abs_mul, abs_of_pos hν]
        exact mul_le_mul_of_nonneg_right ((abs_sub _ _).trans (by linarith)) hν.le
      rw [h4]
      exact (abs_add_le _ _).trans (by linarith)

/-- Distances of edges, in bit times, before and after the conversion. -/
theorem distances_seconds {fl : ℚ → ℚ} (hf : AccRounding fl) {T ν : ℚ} (hν : 0 < ν) : ∀ (ns : List Phase), (∀ p ∈ ns, 0 ≤ p.time ∧ p.time ≤ T) →
    List.Forall₂ (fun d' d => |d' * ν - d * (ν / 10 ^ 9)| ≤ 2 * ((T + 1) / (44 * 10 ^ 23)) * ν)
      (distances ((ns.map (Phase.seconds fl)).map (fun p => (p.time, p.level)))) (distances (ns.map (fun p => (p.time, p.level))))
  | [], _ => .nil
  | [_], _ => .nil
  | p :: q :: ns, ht => by
    have ih := distances_seconds hf hν (q :: ns) (fun x hx => ht x (List.mem_cons_of_mem _ hx))
    have ep := seconds_error hf (ht p (by simp)).1 (ht p (by simp)).2
    have eq := seconds_error hf (ht q (by simp)).1 (ht q (by simp)).2
    unfold distances at ih ⊢
    refine .cons ?_ ih
    simp only [Phase.seconds]
    generalize (T + 1) / (44 * 10 ^ 23) = E at *
    generalize fl (fl p.time / 10 ^ 9) = a at *
    generalize fl (fl q.time / 10 ^ 9) = b at *
    have h4 : (b - a) * ν - (q.time - p.time) * (ν / 10 ^ 9) = ((b - q.time / 10 ^ 9) - (a - p.time / 10 ^ 9)) * ν := by ring
    rw [h4, abs_mul, abs_of_pos hν]
    exact mul_le_mul_of_nonneg_right ((abs_sub _ _).trans (by linarith)) hν.le

/-- Lists of distances that are close to each other, with clear single bit times. -/
theorem ticks_close {ν ν' δ : ℚ} {ds' ds : List ℚ} (h : List.Forall₂ (fun d' d => |d' * ν - d * ν'| ≤ δ) ds' ds) :
    (∀ d ∈ ds, |d * ν' - 1| ≤ 9 / 100 - δ ∨ 19 / 10 + δ ≤ d * ν') →
    Ticks ν ds' ∧ ds'.length = ds.length ∧ (singles ν ds').length = (singles ν' ds).length ∧ |(singles ν ds').sum * ν - (singles ν' ds).sum * ν'| ≤ (singles ν' ds).length * δ := by
  induction h with
  | nil => intro _; simp [Ticks, singles]
  | @cons d' d ds' ds h1 h2 ih =>
    intro ht
    obtain ⟨i1, i2, i3, i4⟩ := ih (fun x hx => ht x (List.mem_cons_of_mem _ hx))
    have hd := ht d (by simp)
    have hδ : 0 ≤ δ := (abs_nonneg _).trans h1
    obtain ⟨a1, a2⟩ := abs_le.mp h1
    refine ⟨?_, by simp [i2], ?_⟩
    · intro x hx
      rcases List.mem_cons.mp hx with rfl | hx
      · rcases hd with hd | hd
        · left
          obtain ⟨b1, b2⟩ := abs_le.mp hd
          rw [abs_le]
          constructor <;> linarith
        · right; linarith
      · exact i1 x hx
    · unfold singles at i3 i4 ⊢
      rcases hd with hd | hd
      · obtain ⟨b1, b2⟩ := abs_le.mp hd
        rw [List.filter_cons_of_pos (by rw [decide_eq_true_eq]; linarith), List.filter_cons_of_pos (by rw [decide_eq_true_eq]; linarith)]
        refine ⟨by simp [i3], ?_⟩
        rw [List.sum_cons, List.sum_cons, List.length_cons]
        obtain ⟨c1, c2⟩ := abs_le.mp i4
        push_cast
        rw [abs_le]
        constructor <;> linarith
      · rw [List.filter_cons_of_neg (by rw [decide_eq_true_eq]; intro; linarith), List.filter_cons_of_neg (by rw [decide_eq_true_eq]; intro; linarith)]
        exact ⟨i3, i4⟩

theorem brows_times (ns : List Phase) : (ns.map (·.time)).Sublist ((ns.flatMap Phase.brows).map (·.1)) := by
  induction ns with
  | nil => simp
  | cons p ns ih =>
    rw [List.flatMap_cons, List.map_append, List.map_cons, Phase.brows, List.map_cons, List.cons_append]
    exact List.Sublist.cons_cons _ (ih.trans (List.sublist_append_right _ _))

/-- Symbols of text are made of lines. -/
theorem split_lines : ∀ (ls : List TextLine) (out : List (Option ℚ × List ℕ)), (∀ l ∈ ls, l.Ascii) → out.map (·.2) = (ls.flatMap TextLine.bytes).map (fun b => [b]) → (∀ s ∈ out, s.1 ≠ none) →
    ∃ sl : List SentLine, out = sl.flatMap (fun l => l.body ++ l.term) ∧ sl.map (fun l => Verif.Props.text (l.body ++ l.term)) = ls.map TextLine.bytes ∧ sl.map SentLine.start = lineStarts ls (out.map (·.1))
  | [], out, _, ho, _ => by
    simp only [List.flatMap_nil, List.map_nil, List.map_eq_nil_iff] at ho
    subst ho
    exact ⟨[], rfl, rfl, rfl⟩
  | l :: ls, out, ha, ho, hs => by
    rw [List.flatMap_cons, List.map_append] at ho
    obtain ⟨a, b, rfl, h1, h2⟩ := List.map_eq_append_iff.mp ho
    obtain ⟨sl, e1, e2, e3⟩ := split_lines ls b (fun x hx => ha x (List.mem_cons_of_mem _ hx)) h2 (fun s hx => hs s (List.mem_append_right _ hx))
    have h1' := h1
    unfold TextLine.bytes at h1
    rw [List.map_append] at h1
    obtain ⟨body, term, rfl, h3, h4⟩ := List.map_eq_append_iff.mp h1
    have hpl : Plain body := by
      intro s hx
      have : s.2 ∈ body.map (·.2) := List.mem_map_of_mem hx
      rw [h3] at this
      obtain ⟨c, hc, e⟩ := List.mem_map.mp this
      have := ha l (by simp) c hc
      rw [← e]
      simp [this.2.2.1, this.2.2.2]
    have hti : ∀ s ∈ body ++ term, s.1 ≠ none := fun s hx => hs s (List.mem_append_left _ hx)
    have hte : term.map (·.2) = [[10]] ∨ term.map (·.2) = [[13], [10]] := by
      rw [h4]; cases l.cr <;> simp
    have hlen : l.bytes.length = (body ++ term).length := by
      have := congrArg List.length h1'
      simpa using this.symm
    refine ⟨⟨body, term, hpl, hti, hte⟩ :: sl, ?_, ?_, ?_⟩
    · rw [List.flatMap_cons, ← e1]
    · rw [List.map_cons, List.map_cons, e2]
      congr 1
      unfold Verif.Props.text
      rw [List.flatMap_def, h1', ← List.flatMap_def]
      simp
    · rw [List.map_cons, lineStarts, e3, hlen]
      congr 1
      · unfold SentLine.start
        cases body with
        | cons x body =>
          have : l.chars ≠ [] := by intro h; rw [h] at h3; simp at h3
          simp [this]
        | nil =>
          have : l.chars = [] := by
            cases hc : l.chars with
            | nil => rfl
            | cons c cs => rw [hc] at h3; simp at h3
          cases hcr : l.cr with
          | false =>
            rw [hcr] at h4
            cases term with
            | nil => simp at h4
            | cons x term =>
              have : term = [] := by simpa using congrArg List.tail h4
              subst this
              simp [*]
          | true =>
            rw [hcr] at h4
            cases term with
            | nil => simp at h4
            | cons x term =>
              cases term with
              | nil => simp at h4
              | cons y term => simp
      · rw [List.map_append, List.drop_left' (by simp)]

/-- Lines with a time are those that do not consist of `\n` only. -/
theorem logged_lines (fl : ℚ → ℚ) : ∀ (ls : List TextLine) (r : List (Option ℚ × List ℕ)) (ts : List (Option ℚ)), (∀ t ∈ ts, t ≠ none) → ts.length = (ls.flatMap TextLine.bytes).length →
    r.map (·.2) = ls.map TextLine.bytes → r.map (·.1) = lineStarts ls ts → (uartLog fl r).map (·.2) = (ls.map TextLine.bytes).filter (fun l => l ≠ [10])
  | [], r, _, _, _, h1, _ => by
    simp only [List.map_nil, List.map_eq_nil_iff] at h1
    subst h1
    rfl
  | l :: ls, [], _, _, _, h1, _ => by simp at h1
  | l :: ls, x :: r, ts, hs, hl, h1, h2 => by
    simp only [List.map_cons, List.cons.injEq, lineStarts] at h1 h2
    rw [List.flatMap_cons, List.length_append] at hl
    have ih := logged_lines fl ls r (ts.drop l.bytes.length) (fun t ht => hs t (List.mem_of_mem_drop ht)) (by rw [List.length_drop]; omega) h1.2 h2.2
    unfold uartLog at ih ⊢
    by_cases he : l.chars = [] ∧ l.cr = false
    · rw [if_pos he] at h2
      have : l.bytes = [10] := by unfold TextLine.bytes; rw [he.1, he.2]; rfl
      rw [List.filterMap_cons, h2.1, List.map_cons, List.filter_cons, this]
      simpa using ih
    · rw [if_neg he] at h2
      have hb : l.bytes ≠ [10] := by
        unfold TextLine.bytes
        intro h
        cases hc : l.chars with
        | nil =>
          cases hr : l.cr with
          | false => exact he ⟨hc, hr⟩
          | true => rw [hc, hr] at h; simp at h
        | cons c cs =>
          rw [hc] at h
          have := congrArg List.length h
          simp only [List.length_append, List.length_cons, List.length_nil] at this
          split_ifs at this <;> simp only [List.length_cons, List.length_nil] at this <;> omega
      have hb0 : 0 < l.bytes.length := by
        unfold TextLine.bytes
        rw [List.length_append]
        split_ifs <;> simp
      cases ts with
      | nil => simp at hl; omega
      | cons t ts =>
        cases t with
        | none => exact absurd rfl (hs none (by simp))
        | some t =>
          simp only [List.head?_cons, Option.join_some] at h2
          rw [List.filterMap_cons, h2.1, List.map_cons, List.filter_cons, if_pos (by simpa using hb)]
          simp only [Option.map_some, List.map_cons]
          rw [ih, h1.1]

/-! ## Theorems -/

/-- **C80, text (partial: ASCII without zero, lines ended by `\n` or `\r\n`, at least 8 edges, enough single bit times).**  A trace holds, among other pins, one whose name contains "uart"; its edges
show lines of text at `ν` bits per second.  Then exactly these lines are returned, each with the time of its first byte (in seconds, as float).  `T` bounds the time stamps (in ns), whose conversion
costs `2 (T+1) / 4.4e24` seconds for each distance of edges.  The log of the command holds the same lines, except those that are empty and ended by `\n`. -/
theorem C80_text_partial {fl : ℚ → ℚ} (hf : AccRounding fl) {npMean : List ℚ → ℚ} (hmean : MeanOf fl npMean) (hclose : MeanClose npMean) (g : GpioLog) (pin : ℕ)
    (hpin : (g.pins.filter (fun d => "uart".toList <:+: d.2.toList)).head?.map (·.1) = some pin) (hlen : g.time.length = g.value.length) (hsorted : g.time.IsChain (· ≤ ·))
    (T : ℚ) (hT : ∀ t ∈ g.time, 0 ≤ t ∧ (t : ℚ) ≤ T) (ν τ μ δ : ℚ) (hδ : δ = 2 * ((T + 1) / (44 * 10 ^ 23)) * ν) (hτ : 0 ≤ τ) (hν : 1 ≤ ν ∧ ν ≤ 10 ^ 9)
    (ls : List TextLine) (hls : ls ≠ []) (hascii : ∀ l ∈ ls, l.Ascii) (msg : List (ℕ × ℚ)) (hmsg : msg.map (·.1) = ls.flatMap TextLine.bytes)
    (lead : List Seg) (hlead : lead = [] ∨ ∃ d, lead = [⟨true, d, true, none⟩])
    (ns : List Phase) (hseen : GpioLog.seen g pin = ns.flatMap Phase.brows) (hns : PhasesWithin τ (ν / 10 ^ 9) ns (lead ++ line 8 msg)) (hedges : 8 ≤ ns.length ∧ ns.length ≤ 2 ^ 53)
    (hticks : ∀ d ∈ distances ((ns.map (fun p => (p.time, p.level))).take 1000), |d * (ν / 10 ^ 9) - 1| ≤ 9 / 100 - δ ∨ 19 / 10 + δ ≤ d * (ν / 10 ^ 9))
    (hmany : (distances ((ns.map (fun p => (p.time, p.level))).take 1000)).length + 9 < 10 * (singles (ν / 10 ^ 9) (distances ((ns.map (fun p => (p.time, p.level))).take 1000))).length)
    (hμ : |(singles (ν / 10 ^ 9) (distances ((ns.map (fun p => (p.time, p.level))).take 1000))).sum / (singles (ν / 10 ^ 9) (distances ((ns.map (fun p => (p.time, p.level))).take 1000))).length * (ν / 10 ^ 9) - 1| ≤ μ)
    (htol : τ + δ + (9 + (τ + δ)) * (1 / (2 * ν) + (11 / 10 * (μ + δ) + 1 / 2 ^ 30)) ≤ 99 / 1000) :
    ∃ r, gpioToUart fl npMean (some g) = .ok (some r) ∧ r.map (·.2) = ls.map TextLine.bytes ∧
      r.map (·.1) = lineStarts ls ((stamped (ns.map (Phase.seconds fl)) (lead ++ line 8 msg)).map (·.1)) ∧
      (uartLog fl r).map (·.2) = (ls.map TextLine.bytes).filter (fun l => l ≠ [10]) := by
  have hν0 : 0 < ν := by linarith [hν.1]
  have hμ0 : 0 ≤ μ := (abs_nonneg _).trans hμ
  have hmem : ∀ p ∈ ns, p.time ∈ (GpioLog.seen g pin).map (·.1) := by
    intro p hp
    rw [hseen]
    exact (brows_times ns).subset (List.mem_map_of_mem hp)
  have htimes : (GpioLog.seen g pin).map (·.1) = g.time.map (fun t : ℤ => (t : ℚ)) := by
    unfold GpioLog.seen
    rw [List.map_map]
    have : ((fun x : ℚ × Bool => x.1) ∘ fun r : ℤ × ℤ => ((r.1 : ℚ), r.2.toNat.testBit pin)) = (fun t : ℤ => (t : ℚ)) ∘ Prod.fst := rfl
    rw [this, ← List.map_map, List.map_fst_zip (le_of_eq hlen)]
  have ht : ∀ p ∈ ns, 0 ≤ p.time ∧ p.time ≤ T := by
    intro p hp
    have := hmem p hp
    rw [htimes] at this
    obtain ⟨t, h1, h2⟩ := List.mem_map.mp this
    rw [← h2]
    exact ⟨by exact_mod_cast (hT t h1).1, (hT t h1).2⟩
  have hT0 : 0 ≤ T := by
    cases ns with
    | nil => simp at hedges
    | cons p ns => exact (ht p (by simp)).1.trans (ht p (by simp)).2
  have hδ0 : 0 ≤ δ := by rw [hδ]; positivity
  have hw := within_seconds hf hν0 hns ht
  rw [← hδ] at hw
  have hne : msg ≠ [] := by
    intro h
    rw [h] at hmsg
    cases ls with
    | nil => exact hls rfl
    | cons l ls =>
      have := congrArg List.length hmsg
      simp only [List.map_nil, List.length_nil, List.flatMap_cons, List.length_append, TextLine.bytes] at this
      split_ifs at this <;> simp only [List.length_cons, List.length_nil] at this <;> omega
  have hm : ∀ m ∈ msg, 1 ≤ m.1 ∧ m.1 < 2 ^ (8 - 1) ∧ m.1 < 0x110000 := by
    intro m h
    have h1 : m.1 ∈ msg.map (·.1) := List.mem_map_of_mem h
    rw [hmsg] at h1
    obtain ⟨l, hl, h2⟩ := List.mem_flatMap.mp h1
    unfold TextLine.bytes at h2
    rcases List.mem_append.mp h2 with h3 | h3
    · have := hascii l hl _ h3
      omega
    · split_ifs at h3 <;> simp at h3 <;> omega
  -- alternation
  have hal : ∃ prev, Alternates prev ns ∧ ∀ p ∈ ns.head?, p.level = !prev := by
    have hb : |((round ν : ℤ) : ℚ) - ν| ≤ 1 / (2 * ν) * ν := by
      rw [abs_sub_comm]
      refine (abs_sub_round ν).trans (le_of_eq ?_)
      field_simp
    have hdur : ∀ s ∈ lead ++ line 8 msg, s.idle = true ∨ (1 ≤ s.dur ∧ s.dur ≤ (9 : ℚ)) := by
      intro s hs
      rcases List.mem_append.mp hs with h | h
      · rcases hlead with rfl | ⟨g, rfl⟩
        · cases h
        · rw [List.mem_singleton] at h; left; rw [h]
      · rcases line_dur (by norm_num) (fun m h => (hm m h).2.1) s h with h | h
        · exact .inl h.1
        · refine .inr ⟨h.1, h.2.trans (by norm_num)⟩
    have htol' : τ + δ + (9 + (τ + δ)) * (1 / (2 * ν)) ≤ 99 / 1000 := by
      have h0 : 0 ≤ (9 + (τ + δ)) * (11 / 10 * (μ + δ) + 1 / 2 ^ 30) := by positivity
      rw [mul_add] at htol
      linarith
    have hph := within_phases hν0 hb 9 htol' hw hdur
    obtain ⟨_, prev, h1, h2⟩ := table_phases _ 8 msg hne lead hlead _ hph
    refine ⟨prev, ?_, ?_⟩
    · clear * - h1
      induction ns generalizing prev with
      | nil => trivial
      | cons p ns ih => exact ⟨h1.1, ih _ h1.2⟩
    · intro p hp
      cases ns with
      | nil => cases hp
      | cons q ns =>
        simp only [List.head?_cons, Option.mem_def, Option.some.injEq] at hp
        subst hp
        exact h2 (Phase.seconds fl q) (by simp)
  obtain ⟨wf, hwf, hwf'⟩ := waveform_phases g pin ns (by rintro rfl; simp at hedges) hlen hseen hal
  have htab := table_seconds hf.toRounding wf ns hwf'
  have hrl : ∀ l : List Phase, (∀ p ∈ l, p.more = []) → l.flatMap Phase.rows = l.map (fun p => (p.time, ofBool p.level)) := by
    intro l
    induction l with
    | nil => intro _; rfl
    | cons p l ih =>
      intro h
      rw [List.flatMap_cons, ih (fun x hx => h x (List.mem_cons_of_mem _ hx)), Phase.rows, h p (by simp)]
      rfl
  have hrows : (ns.map (Phase.seconds fl)).flatMap Phase.rows = (ns.map (Phase.seconds fl)).map (fun p => (p.time, ofBool p.level)) := by
    refine hrl _ ?_
    intro p hp
    obtain ⟨q, _, rfl⟩ := List.mem_map.mp hp
    rfl
  have hd := distances_seconds hf hν0 (ns.take 1000) (fun p hp => ht p (List.mem_of_mem_take hp))
  rw [← hδ] at hd
  rw [← List.map_take] at hticks hmany hμ
  obtain ⟨t1, t2, t3, t4⟩ := ticks_close hd hticks
  have hpos : 0 < (singles (ν / 10 ^ 9) (distances ((ns.take 1000).map (fun p => (p.time, p.level))))).length := by omega
  obtain ⟨out, ho, hb, hst⟩ := C79_decode_partial hf hmean hclose ν (τ + δ) (μ + δ) (by linarith) hν 8 (by norm_num) msg hne hm lead hlead (ns.map (Phase.seconds fl)) hw
    (by rw [hrows]; simpa using hedges) (by
      rw [hrows, List.map_map, List.map_map]
      have h1 : (g.time.map (fun t : ℤ => (t : ℚ))).Pairwise (· ≤ ·) := by
        rw [List.pairwise_map]
        exact (List.isChain_iff_pairwise.mp hsorted).imp (fun h => by exact_mod_cast h)
      rw [← htimes, hseen] at h1
      have h2 := h1.sublist (brows_times ns)
      rw [List.pairwise_map] at h2
      refine List.isChain_iff_pairwise.mpr ?_
      rw [List.pairwise_map]
      refine h2.imp (fun {a b} h => ?_)
      exact hf.toRounding.mono (div_le_div_of_nonneg_right (hf.toRounding.mono h) (by norm_num))) none (by simp)
    (by rw [← List.map_take, ← List.map_take]; exact t1) (by rw [← List.map_take, ← List.map_take, t2, t3]; exact hmany) (by
      rw [← List.map_take, ← List.map_take, t3]
      generalize (singles (ν / 10 ^ 9) (distances ((ns.take 1000).map (fun p => (p.time, p.level))))).sum = s at *
      generalize (singles ν (distances (((ns.take 1000).map (Phase.seconds fl)).map (fun p => (p.time, p.level))))).sum = s' at *
      generalize (singles (ν / 10 ^ 9) (distances ((ns.take 1000).map (fun p => (p.time, p.level))))).length = n at *
      have hn : (0 : ℚ) < n := by exact_mod_cast hpos
      have h1 : s' / n * ν - 1 = (s / n * (ν / 10 ^ 9) - 1) + (s' * ν - s * (ν / 10 ^ 9)) / n := by field_simp; ring
      have h2 : |(s' * ν - s * (ν / 10 ^ 9)) / n| ≤ δ := by
        rw [abs_div, abs_of_pos hn, div_le_iff₀ hn]
        linarith
      rw [h1]
      exact (abs_add_le _ _).trans (by linarith)) (by norm_num at htol ⊢; linarith)
  have hsome : ∀ s ∈ out, s.1 ≠ none := by
    intro s hs
    rw [hst] at hs
    unfold stamped at hs
    obtain ⟨x, _, hx⟩ := List.mem_filterMap.mp hs
    cases hbyte : x.2.byte with
    | none => rw [hbyte] at hx; cases hx
    | some b => rw [hbyte] at hx; simp at hx; rw [← hx]; simp
  obtain ⟨sl, e1, e2, e3⟩ := split_lines ls out hascii (by rw [hb, ← hmsg, List.map_map]; rfl) hsome
  have hsl : sl ≠ [] := by
    rintro rfl
    simp only [List.map_nil] at e2
    exact hls (List.map_eq_nil_iff.mp e2.symm)
  obtain ⟨⟨r, hr, hr1, hr2⟩, _⟩ := C48_lines_partial sl hsl
  refine ⟨r, ?_, by rw [hr1, e2], by rw [hr2, e3, hst], ?_⟩
  swap
  · refine logged_lines fl ls r (out.map (·.1)) ?_ ?_ (by rw [hr1, e2]) (by rw [hr2, e3])
    · intro t ht
      obtain ⟨s, hs, rfl⟩ := List.mem_map.mp ht
      exact hsome s hs
    · have := congrArg List.length hb
      rw [List.length_map, List.length_map] at this
      rw [List.length_map, this, ← hmsg, List.length_map]
  unfold gpioToUart GpioLog.waveformOf GpioLog.pinNum
  have hp : g.pins.find? (fun d => inText "uart" d.2) = (g.pins.filter (fun d => "uart".toList <:+: d.2.toList)).head? := by
    rw [List.head?_filter]
    rfl
  simp only [hp, hpin, hwf, decodeLines, htab]
  rw [show ((8 : ℕ) : ℤ) = 8 by rfl] at ho
  rw [ho, e1]
  simp only [hr]

/-- **C80, violated: short messages.**  With less than 8 edges (a single character, say) nothing is decoded. -/
theorem C80_short_violated (fl : ℚ → ℚ) (npMean : List ℚ → ℚ) (g : GpioLog) (pin : ℕ) (hpin : (g.pins.filter (fun d => "uart".toList <:+: d.2.toList)).head?.map (·.1) = some pin)
    (hlen : g.time.length = g.value.length) (ns : List Phase) (hne : ns ≠ []) (hseen : GpioLog.seen g pin = ns.flatMap Phase.brows)
    (hal : ∃ prev, Alternates prev ns ∧ ∀ p ∈ ns.head?, p.level = !prev) (hshort : ns.length < 8) : gpioToUart fl npMean (some g) = .ok none := by
  obtain ⟨wf, hwf, hwf'⟩ := waveform_phases g pin ns hne hlen hseen hal
  have hl : wf.length = ns.length := by simpa using congrArg List.length hwf'
  unfold gpioToUart GpioLog.waveformOf GpioLog.pinNum
  have hp : g.pins.find? (fun d => inText "uart" d.2) = (g.pins.filter (fun d => "uart".toList <:+: d.2.toList)).head? := by
    rw [List.head?_filter]
    rfl
  have hd : uartDecodeAuto fl npMean 8 none (uartTable fl wf) = .error .typeError := by
    unfold uartDecodeAuto uartInitAuto
    rw [if_pos (by rw [uartTable, List.length_map]; omega)]
  simp only [hp, hpin, hwf, decodeLines, hd]

/-- **C80, no UART.**  Without a GPIO trace nothing is returned; if no pin is named after the UART a TypeError is raised. -/
theorem C80_missing (fl : ℚ → ℚ) (npMean : List ℚ → ℚ) : gpioToUart fl npMean none = .ok none ∧
    ∀ g : GpioLog, (∀ d ∈ g.pins, ¬ "uart".toList <:+: d.2.toList) → gpioToUart fl npMean (some g) = .error .typeError := by
  refine ⟨rfl, fun g h => ?_⟩
  unfold gpioToUart GpioLog.waveformOf GpioLog.pinNum
  have : g.pins.find? (fun d => inText "uart" d.2) = none := by
    rw [List.find?_eq_none]
    intro d hd
    unfold inText
    simpa using h d hd
  simp only [this, Option.map_none]

/-! ## Commands -/

/-- **C80, command: existing files.**  `extract-uart` changes no existing log, whatever happens. -/
theorem C80_kept (fl : ℚ → ℚ) (npMean : List ℚ → ℚ) : ∀ (files : List (String × GpioFile)) (logs : String → Option UartLog) (p : String) (x : UartLog), logs p = some x →
    (extractUart fl npMean files logs).1 p = some x
  | [], _, _, _, h => h
  | (_, .unreadable) :: t, logs, p, x, h => by rw [extractUart]; exact C80_kept fl npMean t logs p x h
  | (stem, .recording g) :: t, logs, p, x, h => by
    have ih := C80_kept fl npMean t
    rw [extractUart]
    cases gpioToUart fl npMean g with
    | error e =>
      cases e with
      | typeError => exact ih logs p x h
      | _ => exact h
    | ok o =>
      cases o with
      | none => exact ih logs p x h
      | some l =>
        dsimp only
        split_ifs with hx
        · exact ih logs p x h
        · refine ih _ p x ?_
          have : p ≠ stem ++ ".uart_from_wf.log" := by
            rintro rfl
            rw [h] at hx
            exact hx rfl
          simp [this, h]

/-- **C80, command: one log for each recording.**  If `extract-uart` comes to its end, the lines found in each recording are in its log, unless there was one before; nothing else is written. -/
theorem C80_logs (fl : ℚ → ℚ) (npMean : List ℚ → ℚ) : ∀ (files : List (String × GpioFile)) (logs : String → Option UartLog), (files.map (·.1)).Nodup → (extractUart fl npMean files logs).2 = .ok () →
    ∀ p, logs p = none → ∀ x, (extractUart fl npMean files logs).1 p = some x ↔ ∃ stem g lines, (stem, .recording g) ∈ files ∧ p = stem ++ ".uart_from_wf.log" ∧ gpioToUart fl npMean g = .ok (some lines) ∧ x = uartLog fl lines
  | [], logs, _, _, p, h, x => by
    simp [extractUart, h]
  | (stem, f) :: t, logs, hnd, hok, p, h, x => by
    rw [List.map_cons, List.nodup_cons] at hnd
    have ih := C80_logs fl npMean t
    -- a file that adds no log
    have skip : (∀ g lines, f = .recording g → gpioToUart fl npMean g ≠ .ok (some lines)) → extractUart fl npMean ((stem, f) :: t) logs = extractUart fl npMean t logs →
        ((extractUart fl npMean ((stem, f) :: t) logs).1 p = some x ↔
          ∃ stem' g lines, (stem', .recording g) ∈ (stem, f) :: t ∧ p = stem' ++ ".uart_from_wf.log" ∧ gpioToUart fl npMean g = .ok (some lines) ∧ x = uartLog fl lines) := by
      intro h1 h2
      rw [h2] at hok ⊢
      rw [ih logs hnd.2 hok p h x]
      constructor
      · rintro ⟨s', g, l, hm, h3⟩
        exact ⟨s', g, l, List.mem_cons_of_mem _ hm, h3⟩
      · rintro ⟨s', g, l, hm, h3, h4, h5⟩
        rcases List.mem_cons.mp hm with h6 | h6
        · simp only [Prod.mk.injEq] at h6
          exact absurd h4 (h1 g l h6.2.symm)
        · exact ⟨s', g, l, h6, h3, h4, h5⟩
    cases f with
    | unreadable => exact skip (by intro g l hf; cases hf) (by rw [extractUart])
    | recording g =>
      cases hg : gpioToUart fl npMean g with
      | error e =>
        by_cases he : e = .typeError
        · subst he
          exact skip (by rintro g' l hf; cases hf; rw [hg]; simp) (by rw [extractUart, hg])
        · exfalso
          rw [extractUart, hg] at hok
          cases e <;> first | exact he rfl | cases hok
      | ok o =>
        cases o with
        | none => exact skip (by rintro g' l hf; cases hf; rw [hg]; simp) (by rw [extractUart, hg])
        | some lines =>
          rw [extractUart, hg] at hok ⊢
          dsimp only at hok ⊢
          have hnew : ∀ s' g', (s', GpioFile.recording g') ∈ t → s' ≠ stem := by
            rintro s' g' hm rfl
            exact hnd.1 (List.mem_map.mpr ⟨_, hm, rfl⟩)
          by_cases hp : p = stem ++ ".uart_from_wf.log"
          · rw [if_neg (by rw [← hp, h]; simp)] at hok ⊢
            rw [C80_kept fl npMean t _ p (uartLog fl lines) (by simp [hp])]
            constructor
            · intro hx
              cases hx
              exact ⟨stem, g, lines, by simp, hp, hg, rfl⟩
            · rintro ⟨s', g', l', hm, h3, h4, h5⟩
              have hs : s' = stem := by
                rw [hp] at h3
                have := congrArg String.toList h3
                rw [String.toList_append, String.toList_append] at this
                exact (String.toList_inj.mp (List.append_cancel_right this)).symm
              rcases List.mem_cons.mp hm with h6 | h6
              · simp only [Prod.mk.injEq, GpioFile.recording.injEq] at h6
                rw [h6.2, hg] at h4
                cases h4
                rw [h5]
              · exact absurd hs (hnew _ _ h6)
          · have rest : ∀ logs', (extractUart fl npMean t logs').2 = .ok () → logs' p = none → ((extractUart fl npMean t logs').1 p = some x ↔
                ∃ stem' g' lines', (stem', .recording g') ∈ (stem, GpioFile.recording g) :: t ∧ p = stem' ++ ".uart_from_wf.log" ∧ gpioToUart fl npMean g' = .ok (some lines') ∧ x = uartLog fl lines') := by
              intro logs' hok' h'
              rw [ih logs' hnd.2 hok' p h' x]
              constructor
              · rintro ⟨s', g, l, hm, h3⟩
                exact ⟨s', g, l, List.mem_cons_of_mem _ hm, h3⟩
              · rintro ⟨s', g, l, hm, h3, h4, h5⟩
                rcases List.mem_cons.mp hm with h6 | h6
                · simp only [Prod.mk.injEq] at h6
                  rw [h6.1] at h3
                  exact absurd h3 hp
                · exact ⟨s', g, l, h6, h3, h4, h5⟩
            split_ifs at hok ⊢ with hx
            · exact rest logs hok h
            · exact rest _ hok (by simp [hp, h])

/-- **C80, violated: an empty trace ends the command.**  A recording whose trace of the pins holds no sample raises an IndexError; the files behind it are not handled. -/
theorem C80_abort_violated (fl : ℚ → ℚ) (npMean : List ℚ → ℚ) (pins : List (ℕ × String)) (h : ∃ d ∈ pins, "uart".toList <:+: d.2.toList) (stem : String) (rest : List (String × GpioFile))
    (logs : String → Option UartLog) : extractUart fl npMean ((stem, .recording (some ⟨[], [], pins⟩)) :: rest) logs = (logs, .error .indexError) := by
  have hp : ∃ d, pins.find? (fun d => inText "uart" d.2) = some d := by
    obtain ⟨d, hd, h⟩ := h
    have : (pins.find? (fun d => inText "uart" d.2)).isSome := by
      rw [List.find?_isSome]
      exact ⟨d, hd, by unfold inText; simpa using h⟩
    exact Option.isSome_iff_exists.mp this
  obtain ⟨d, hd⟩ := hp
  have : gpioToUart fl npMean (some ⟨[], [], pins⟩) = .error .indexError := by
    unfold gpioToUart GpioLog.waveformOf GpioLog.pinNum
    simp only [hd, Option.map_some]
    rfl
  rw [extractUart, this]

/-! ## C81: waveforms of all pins -/

theorem pinDict_eq (g : GpioLog) (h : (g.pins.map (·.2)).Nodup) : g.pinDict = g.pins.map (fun d => (d.2, d.1)) := by
  unfold GpioLog.pinDict
  have key : ∀ (l : List (ℕ × String)) (d : List (String × ℕ)), (d.map (·.1) ++ l.map (·.2)).Nodup → l.foldl (fun d p => dictSet d p.2 p.1) d = d ++ l.map (fun d => (d.2, d.1)) := by
    intro l
    induction l with
    | nil => intro d _; simp
    | cons p l ih =>
      intro d hd
      rw [List.map_cons] at hd
      have hn : p.2 ∉ d.map (·.1) := fun hm => (List.nodup_append.mp hd).2.2 _ hm _ (by simp) rfl
      rw [List.foldl_cons, dictSet_new hn, ih]
      · simp
      · rw [List.map_append, List.append_assoc]
        exact hd
  simpa using key g.pins [] (by simpa using h)

/-- **C81, waveforms.**  For samples in the order of time and pins with different names there is a waveform for each pin, under its name and in the order of the description: it gives for every time the state
of the pin at the last sample before it, and each entry is a change. -/
theorem C81_waveforms (g : GpioLog) (hn : (g.pins.map (·.2)).Nodup) (hne : g.value ≠ []) (hlen : g.time.length = g.value.length) (hs : g.time.IsChain (· ≤ ·)) :
    ∃ wfs, gpioToWaveforms (some g) = .ok wfs ∧ List.Forall₂ (fun (d : ℕ × String) (w : String × List (ℤ × ℤ)) => w.1 = d.2 ∧
      (∀ t, stateAt w.2 t = stateAt (g.time.zip (g.value.map (fun v => if v.toNat.testBit d.1 then 1 else 0))) t) ∧ w.2.IsChain (fun a b => a.2 ≠ b.2)) g.pins wfs := by
  unfold gpioToWaveforms
  dsimp only
  rw [pinDict_eq g hn]
  generalize g.pins = pins
  clear hn
  induction pins with
  | nil => exact ⟨[], rfl, .nil⟩
  | cons d pins ih =>
    obtain ⟨wfs, h1, h2⟩ := ih
    obtain ⟨wf, e, h3, h4, _⟩ := C44_waveform g.time g.value d.1 hne hlen hs
    refine ⟨(d.2, wf) :: wfs, ?_, .cons ⟨rfl, h3, h4⟩ h2⟩
    rw [List.map_cons, allWaveforms, e, h1]

/-- **C81, violated: names used twice.**  Of two pins with the same name only the second is returned. -/
theorem C81_names_violated (ts vs : List ℤ) (i j : ℕ) (n : String) (wfs : List (String × List (ℤ × ℤ))) (h : gpioToWaveforms (some ⟨ts, vs, [(i, n), (j, n)]⟩) = .ok wfs) :
    ∃ wf, wfs = [(n, wf)] ∧ pinWaveform ts vs j = .ok wf := by
  have hd : GpioLog.pinDict ⟨ts, vs, [(i, n), (j, n)]⟩ = [(n, j)] := by simp [GpioLog.pinDict, dictSet]
  unfold gpioToWaveforms at h
  simp only [hd, allWaveforms] at h
  cases hw : pinWaveform ts vs j with
  | error e => rw [hw] at h; cases h
  | ok w =>
    rw [hw] at h
    simp only [Except.ok.injEq] at h
    exact ⟨w, h.symm, rfl⟩

/-- **C81, numbers of pins.**  The number for a name is that of the first pin whose name contains it. -/
theorem C81_pin (g : GpioLog) (name : String) : (∀ pin, g.pinNum name = some pin ↔ ∃ a b n, g.pins = a ++ (pin, n) :: b ∧ name.toList <:+: n.toList ∧ ∀ d ∈ a, ¬ name.toList <:+: d.2.toList) ∧
    (g.pinNum name = none ↔ ∀ d ∈ g.pins, ¬ name.toList <:+: d.2.toList) := by
  unfold GpioLog.pinNum inText
  constructor
  · intro pin
    rw [Option.map_eq_some_iff]
    constructor
    · rintro ⟨d, h1, rfl⟩
      rw [List.find?_eq_some_iff_append] at h1
      obtain ⟨h2, a, b, h3, h4⟩ := h1
      exact ⟨a, b, d.2, h3, by simpa using h2, fun d hd => by simpa using h4 d hd⟩
    · rintro ⟨a, b, n, h1, h2, h3⟩
      refine ⟨(pin, n), ?_, rfl⟩
      rw [List.find?_eq_some_iff_append]
      exact ⟨by simpa using h2, a, b, h1, fun d hd => by simpa using h3 d hd⟩
  · rw [Option.map_eq_none_iff, List.find?_eq_none]
    simp

/-- **C81, violated: a longer name hides a pin.**  If the name of an earlier pin contains that of another, the other is never found: "gpio1" gives pin 10. -/
theorem C81_pin_violated (ts vs : List ℤ) (pins : List (ℕ × String)) (i j : ℕ) (n name : String) (h : name.toList <:+: n.toList) : GpioLog.pinNum ⟨ts, vs, (i, n) :: (j, name) :: pins⟩ name = some i := by
  rw [(C81_pin _ _).1]
  exact ⟨[], (j, name) :: pins, n, rfl, h, by simp⟩

example (ts vs : List ℤ) : GpioLog.pinNum ⟨ts, vs, [(10, "gpio10"), (1, "gpio1")]⟩ "gpio1" = some 10 := C81_pin_violated _ _ _ _ _ _ _ (by decide +kernel)

theorem toCsv_kept (fl : ℚ → ℚ) (sep stem : String) (wfs : List (String × List (ℤ × ℤ))) (files : String → Option PinCsv) (p : String) (x : PinCsv) (h : files p = some x) :
    wfs.foldl (fun fs w => waveformToCsv fl sep fs stem w.1 w.2) files p = some x := by
  induction wfs generalizing files with
  | nil => exact h
  | cons w wfs ih =>
    rw [List.foldl_cons]
    refine ih _ ?_
    unfold waveformToCsv
    split_ifs with hx
    · exact h
    · have : p ≠ stem ++ ".waveform." ++ w.1 ++ ".csv" := by
        rintro rfl
        rw [h] at hx
        exact hx rfl
      simp [this, h]

/-- **C81, command: existing files.**  `extract-gpio` changes no existing file, whatever happens. -/
theorem C81_kept (fl : ℚ → ℚ) (sep : String) : ∀ (fs : List (String × GpioFile)) (files : String → Option PinCsv) (p : String) (x : PinCsv), files p = some x → (extractGpio fl sep fs files).1 p = some x
  | [], _, _, _, h => h
  | (_, .unreadable) :: t, files, p, x, h => by rw [extractGpio]; exact C81_kept fl sep t files p x h
  | (stem, .recording g) :: t, files, p, x, h => by
    have ih := C81_kept fl sep t
    rw [extractGpio]
    cases gpioToWaveforms g with
    | error e =>
      cases e with
      | typeError => exact ih files p x h
      | _ => exact h
    | ok wfs => exact ih _ p x (toCsv_kept fl sep stem wfs files p x h)

theorem waveforms_names (g : GpioLog) (wfs : List (String × List (ℤ × ℤ))) (hw : gpioToWaveforms (some g) = .ok wfs) : wfs.map (·.1) = g.pinDict.map (·.1) := by
  have key : ∀ (l : List (String × ℕ)) (w : List (String × List (ℤ × ℤ))), allWaveforms g.time g.value l = .ok w → w.map (·.1) = l.map (·.1) := by
    intro l
    induction l with
    | nil => intro w h; simp only [allWaveforms, Except.ok.injEq] at h; rw [← h]; rfl
    | cons d l ih =>
      intro w h
      rw [allWaveforms] at h
      cases h1 : pinWaveform g.time g.value d.2 with
      | error e => rw [h1] at h; cases h
      | ok x =>
        cases h2 : allWaveforms g.time g.value l with
        | error e => rw [h1, h2] at h; cases h
        | ok r =>
          rw [h1, h2] at h
          simp only [Except.ok.injEq] at h
          rw [← h, List.map_cons, List.map_cons, ih r h2]
  exact key _ _ hw

theorem pinDict_names (g : GpioLog) : ∀ n ∈ g.pinDict.map (·.1), ∃ d ∈ g.pins, d.2 = n := by
  unfold GpioLog.pinDict
  have key : ∀ (l : List (ℕ × String)) (d : List (String × ℕ)) (n : String), n ∈ (l.foldl (fun d p => dictSet d p.2 p.1) d).map (·.1) → n ∈ d.map (·.1) ∨ ∃ x ∈ l, x.2 = n := by
    intro l
    induction l with
    | nil => intro d n h; exact .inl h
    | cons p l ih =>
      intro d n h
      rw [List.foldl_cons] at h
      rcases ih _ _ h with h | ⟨x, hx, h⟩
      · have : ∀ d : List (String × ℕ), n ∈ (dictSet d p.2 p.1).map (·.1) → n ∈ d.map (·.1) ∨ p.2 = n := by
          intro d
          induction d with
          | nil => intro h; right; simpa [dictSet, eq_comm] using h
          | cons y d ih2 =>
            intro h
            rw [dictSet] at h
            split_ifs at h with he
            · left; simpa using h
            · rw [List.map_cons, List.mem_cons] at h
              rcases h with h | h
              · left; simp [h]
              · rcases ih2 h with h | h
                · left; rw [List.map_cons]; exact List.mem_cons_of_mem _ h
                · exact .inr h
        rcases this d h with h | h
        · exact .inl h
        · exact .inr ⟨p, by simp, h⟩
      · exact .inr ⟨x, List.mem_cons_of_mem _ hx, h⟩
  intro n hn
  rcases key g.pins [] n hn with h | h
  · cases h
  · exact h

theorem toCsv_untouched (fl : ℚ → ℚ) (sep stem : String) (wfs : List (String × List (ℤ × ℤ))) (files : String → Option PinCsv) (p : String)
    (h : ∀ n ∈ wfs.map (·.1), stem ++ ".waveform." ++ n ++ ".csv" ≠ p) : wfs.foldl (fun fs w => waveformToCsv fl sep fs stem w.1 w.2) files p = files p := by
  induction wfs generalizing files with
  | nil => rfl
  | cons w wfs ih =>
    rw [List.foldl_cons, ih _ (fun n hn => h n (by rw [List.map_cons]; exact List.mem_cons_of_mem _ hn))]
    have := h w.1 (by simp)
    unfold waveformToCsv
    split_ifs
    · rfl
    · exact if_neg (Ne.symm this)

/-- **C81, command: nothing else is written.** -/
theorem C81_untouched (fl : ℚ → ℚ) (sep : String) (p : String) : ∀ (fs : List (String × GpioFile)) (files : String → Option PinCsv),
    (∀ stem g d, (stem, .recording (some g)) ∈ fs → d ∈ g.pins → stem ++ ".waveform." ++ d.2 ++ ".csv" ≠ p) → (extractGpio fl sep fs files).1 p = files p
  | [], _, _ => rfl
  | (_, .unreadable) :: t, files, h => by
    rw [extractGpio]
    exact C81_untouched fl sep p t files (fun s g d hm => h s g d (List.mem_cons_of_mem _ hm))
  | (stem, .recording g) :: t, files, h => by
    have ih := fun files => C81_untouched fl sep p t files (fun s g d hm => h s g d (List.mem_cons_of_mem _ hm))
    rw [extractGpio]
    cases hg : gpioToWaveforms g with
    | error e =>
      cases e with
      | typeError => exact ih files
      | _ => rfl
    | ok wfs =>
      dsimp only
      rw [ih]
      cases g with
      | none =>
        simp only [gpioToWaveforms, Except.ok.injEq] at hg
        rw [← hg]
        rfl
      | some g =>
        refine toCsv_untouched fl sep stem wfs files p ?_
        intro n hn
        rw [waveforms_names g wfs hg] at hn
        obtain ⟨d, hd, rfl⟩ := pinDict_names g n hn
        exact h stem g d (by simp) hd

theorem allWaveforms_ok (ts vs : List ℤ) : ∀ l : List (String × ℕ), (vs ≠ [] ∨ l = [] → ∃ w, allWaveforms ts vs l = .ok w) ∧ (¬ (vs ≠ [] ∨ l = []) → allWaveforms ts vs l = .error .indexError)
  | [] => ⟨fun _ => ⟨[], rfl⟩, fun h => absurd (.inr rfl) h⟩
  | d :: l => by
    cases vs with
    | nil =>
      refine ⟨fun h => ?_, fun _ => rfl⟩
      rcases h with h | h
      · exact absurd rfl h
      · cases h
    | cons v vs =>
      refine ⟨fun _ => ?_, fun h => absurd (.inl (by simp)) h⟩
      obtain ⟨w, hw⟩ := (allWaveforms_ok ts (v :: vs) l).1 (.inl (by simp))
      rw [allWaveforms, pinWaveform]
      rw [List.map_cons, redundantFilter_eq, hw]
      exact ⟨_, rfl⟩

theorem pinDict_nil (g : GpioLog) : g.pinDict = [] ↔ g.pins = [] := by
  constructor
  · intro h
    cases hp : g.pins with
    | nil => rfl
    | cons d pins =>
      exfalso
      unfold GpioLog.pinDict at h
      rw [hp, List.foldl_cons] at h
      have key : ∀ (l : List (ℕ × String)) (x : String × ℕ) (t : List (String × ℕ)), l.foldl (fun d p => dictSet d p.2 p.1) (x :: t) ≠ [] := by
        intro l
        induction l with
        | nil => intro x t; simp
        | cons p l ih =>
          intro x t
          rw [List.foldl_cons, dictSet]
          split_ifs
          · exact ih _ _
          · exact ih _ _
      exact key _ _ _ h
  · intro h
    unfold GpioLog.pinDict
    rw [h]
    rfl

/-- **C81, command: when all files are handled.**  `extract-gpio` comes to its end if and only if no trace is empty; otherwise it ends with an IndexError. -/
theorem C81_complete (fl : ℚ → ℚ) (sep : String) : ∀ (fs : List (String × GpioFile)) (files : String → Option PinCsv),
    ((extractGpio fl sep fs files).2 = .ok () ↔ ∀ stem g, (stem, .recording (some g)) ∈ fs → g.value ≠ [] ∨ g.pins = []) ∧
      ((extractGpio fl sep fs files).2 = .ok () ∨ (extractGpio fl sep fs files).2 = .error .indexError)
  | [], _ => by simp [extractGpio]
  | (s, .unreadable) :: t, files => by
    rw [extractGpio]
    have ih := C81_complete fl sep t files
    refine ⟨ih.1.trans ⟨fun h stem g hm => ?_, fun h stem g hm => h stem g (List.mem_cons_of_mem _ hm)⟩, ih.2⟩
    rcases List.mem_cons.mp hm with h1 | h1
    · simp at h1
    · exact h stem g h1
  | (s, .recording none) :: t, files => by
    rw [extractGpio]
    simp only [gpioToWaveforms]
    have ih := C81_complete fl sep t files
    refine ⟨ih.1.trans ⟨fun h stem g hm => ?_, fun h stem g hm => h stem g (List.mem_cons_of_mem _ hm)⟩, ih.2⟩
    rcases List.mem_cons.mp hm with h1 | h1
    · simp at h1
    · exact h stem g h1
  | (s, .recording (some g)) :: t, files => by
    rw [extractGpio]
    simp only [gpioToWaveforms]
    by_cases hc : g.value ≠ [] ∨ g.pinDict = []
    · obtain ⟨w, hw⟩ := (allWaveforms_ok g.time g.value g.pinDict).1 hc
      rw [hw]
      dsimp only
      have ih := C81_complete fl sep t (w.foldl (fun fs w => waveformToCsv fl sep fs s w.1 w.2) files)
      refine ⟨ih.1.trans ⟨fun h stem g' hm => ?_, fun h stem g' hm => h stem g' (List.mem_cons_of_mem _ hm)⟩, ih.2⟩
      rcases List.mem_cons.mp hm with h1 | h1
      · simp only [Prod.mk.injEq, GpioFile.recording.injEq, Option.some.injEq] at h1
        rw [h1.2, ← pinDict_nil]
        exact hc
      · exact h stem g' h1
    · rw [(allWaveforms_ok g.time g.value g.pinDict).2 hc]
      dsimp only
      refine ⟨⟨fun h => (by cases h), fun h => ?_⟩, .inr rfl⟩
      exfalso
      rw [pinDict_nil] at hc
      exact hc (h s g (by simp))

theorem extractGpio_append (fl : ℚ → ℚ) (sep : String) (post : List (String × GpioFile)) : ∀ (pre : List (String × GpioFile)) (files : String → Option PinCsv), (extractGpio fl sep pre files).2 = .ok () →
    extractGpio fl sep (pre ++ post) files = extractGpio fl sep post (extractGpio fl sep pre files).1
  | [], _, _ => rfl
  | (_, .unreadable) :: t, files, h => by
    rw [extractGpio] at h
    rw [List.cons_append, extractGpio, extractGpio]
    exact extractGpio_append fl sep post t files h
  | (stem, .recording g) :: t, files, h => by
    rw [extractGpio] at h
    rw [List.cons_append, extractGpio, extractGpio]
    cases hg : gpioToWaveforms g with
    | error e =>
      rw [hg] at h
      cases e <;> first | cases h | exact extractGpio_append fl sep post t files h
    | ok wfs =>
      rw [hg] at h
      exact extractGpio_append fl sep post t _ h

/-- **C81, command: one file for each pin.**  If no earlier file of the list holds an empty trace (or leads to the same path), `extract-gpio` writes for each pin of a recording the times (in seconds) and states of
its waveform, unless there was a file of that name. -/
theorem C81_files (fl : ℚ → ℚ) (sep stem : String) (g : GpioLog) (wfs : List (String × List (ℤ × ℤ))) (hw : gpioToWaveforms (some g) = .ok wfs) (hn : (g.pins.map (·.2)).Nodup)
    (files : String → Option PinCsv) (pre rest : List (String × GpioFile)) (name : String) (wf : List (ℤ × ℤ)) (h : (name, wf) ∈ wfs)
    (hpre : ∀ stem g, (stem, .recording (some g)) ∈ pre → g.value ≠ [] ∨ g.pins = [])
    (hdist : ∀ stem' g d, (stem', .recording (some g)) ∈ pre → d ∈ g.pins → stem' ++ ".waveform." ++ d.2 ++ ".csv" ≠ stem ++ ".waveform." ++ name ++ ".csv")
    (hnew : files (stem ++ ".waveform." ++ name ++ ".csv") = none) :
    ∃ f, (extractGpio fl sep (pre ++ (stem, .recording (some g)) :: rest) files).1 (stem ++ ".waveform." ++ name ++ ".csv") = some f ∧ f.rows = wf.map (fun r => (fl (fl r.1 / 10 ^ 9), r.2)) ∧
      f.separator = sep := by
  rw [extractGpio_append fl sep _ pre files ((C81_complete fl sep pre files).1.mpr hpre)]
  rw [← C81_untouched fl sep _ pre files hdist] at hnew
  generalize (extractGpio fl sep pre files).1 = files at hnew ⊢
  have hnames : (wfs.map (·.1)).Nodup := by
    rw [waveforms_names g wfs hw, pinDict_eq g hn, List.map_map]
    exact hn
  rw [extractGpio, hw]
  dsimp only
  refine ⟨⟨"timestamp [s]," ++ name, sep, wf.map (fun r => (fl (fl r.1 / 10 ^ 9), r.2))⟩, C81_kept fl sep rest _ _ _ ?_, rfl, rfl⟩
  clear hw
  induction wfs generalizing files with
  | nil => cases h
  | cons w wfs ih =>
    rw [List.map_cons, List.nodup_cons] at hnames
    rw [List.foldl_cons]
    rcases List.mem_cons.mp h with rfl | h
    · refine toCsv_kept fl sep stem wfs _ _ _ ?_
      unfold waveformToCsv
      simp [hnew]
    · refine ih h _ ?_ hnames.2
      unfold waveformToCsv
      split_ifs with hx
      · exact hnew
      · have : stem ++ ".waveform." ++ name ++ ".csv" ≠ stem ++ ".waveform." ++ w.1 ++ ".csv" := by
          intro he
          have h1 := congrArg String.toList he
          simp only [String.toList_append] at h1
          have h2 := List.append_cancel_left (List.append_cancel_right h1)
          rw [String.toList_inj] at h2
          rw [← h2] at hnames
          exact hnames.1 (List.mem_map.mpr ⟨_, h, rfl⟩)
        exact (if_neg this).trans hnew

/-- **C81, violated: the header ignores the separator.**  The names of the columns are separated by a comma, also if the user asks for another separator (";" is the default of the command). -/
theorem C81_header_violated (fl : ℚ → ℚ) (sep stem name : String) (wf : List (ℤ × ℤ)) (f : PinCsv) (h : waveformToCsv fl sep (fun _ => none) stem name wf (stem ++ ".waveform." ++ name ++ ".csv") = some f) :
    f.header = "timestamp [s]" ++ f.separator ++ name ↔ sep = "," := by
  unfold waveformToCsv at h
  simp only [Option.isSome_none, Bool.false_eq_true, if_false, if_true, Option.some.injEq] at h
  rw [← h]
  dsimp only
  constructor
  · intro he
    have h1 := congrArg String.toList he
    simp only [String.toList_append] at h1
    have h2 := List.append_cancel_right h1
    have h3 : ("timestamp [s],").toList = ("timestamp [s]").toList ++ (",").toList := by decide +kernel
    rw [h3] at h2
    exact (String.toList_inj.mp (List.append_cancel_left h2)).symm
  · rintro rfl
    rw [← String.toList_inj]
    simp only [String.toList_append]
    congr 1

/-- **C81, violated: an empty trace ends the command.** -/
theorem C81_abort_violated (fl : ℚ → ℚ) (sep stem : String) (d : ℕ × String) (pins : List (ℕ × String)) (rest : List (String × GpioFile)) (files : String → Option PinCsv) :
    extractGpio fl sep ((stem, .recording (some ⟨[], [], d :: pins⟩)) :: rest) files = (files, .error .indexError) := by
  have : gpioToWaveforms (some ⟨[], [], d :: pins⟩) = .error .indexError := by
    refine (allWaveforms_ok [] [] _).2 ?_
    rw [pinDict_nil]
    simp
  rw [extractGpio, this]

/-- `C81_waveforms` and `C81_files` apply to two pins: both files are written. -/
example : ∃ f f', (extractGpio b64 ";" [("rec", .recording (some ⟨[10, 20, 30], [1, 3, 2], [(0, "a"), (1, "b")]⟩))] (fun _ => none)).1 "rec.waveform.a.csv" = some f ∧
    (extractGpio b64 ";" [("rec", .recording (some ⟨[10, 20, 30], [1, 3, 2], [(0, "a"), (1, "b")]⟩))] (fun _ => none)).1 "rec.waveform.b.csv" = some f' ∧ f.rows.map (·.2) = [1, 0] ∧ f'.rows.map (·.2) = [0, 1] := by
  have hw : gpioToWaveforms (some ⟨[10, 20, 30], [1, 3, 2], [(0, "a"), (1, "b")]⟩) = .ok [("a", [(10, 1), (30, 0)]), ("b", [(10, 0), (20, 1)])] := by decide +kernel
  obtain ⟨f, h1, h2, _⟩ := C81_files b64 ";" "rec" _ _ hw (by decide +kernel) (fun _ => none) [] [] "a" [(10, 1), (30, 0)] (by simp) (by simp) (by simp) rfl
  obtain ⟨f', h3, h4, _⟩ := C81_files b64 ";" "rec" _ _ hw (by decide +kernel) (fun _ => none) [] [] "b" [(10, 0), (20, 1)] (by simp) (by simp) (by simp) rfl
  exact ⟨f, f', h1, h3, by rw [h2]; rfl, by rw [h4]; rfl⟩

/-! ## Loss of precision -/

/-- Checks `PhasesWithin`. -/
def withinB (τ ν : ℚ) : List Phase → List Seg → Bool
  | [p], [s] => decide (p.level = s.level) && s.idle
  | p :: q :: ps, s :: segs => decide (p.level = s.level) && (s.idle || decide (|(q.time - p.time) * ν - s.dur| ≤ τ)) && withinB τ ν (q :: ps) segs
  | _, _ => false

theorem withinB_spec (τ ν : ℚ) : ∀ (ps : List Phase) (segs : List Seg), withinB τ ν ps segs = true → PhasesWithin τ ν ps segs
  | [], _, h => by simp [withinB] at h
  | [p], [], h => by simp [withinB] at h
  | [p], [s], h => by
    simp only [withinB, Bool.and_eq_true, decide_eq_true_eq] at h
    exact .last p s h.1 h.2
  | [p], _ :: _ :: _, h => by simp [withinB] at h
  | p :: q :: ps, [], h => by simp [withinB] at h
  | p :: q :: ps, s :: segs, h => by
    simp only [withinB, Bool.and_eq_true, Bool.or_eq_true, decide_eq_true_eq] at h
    exact .cons p q ps s segs h.1.1 h.1.2 (withinB_spec τ ν (q :: ps) segs h.2)

/-- Edges while "Hi\n" is sent at 460800 baud after a pause, in ns from the start. -/
def edgesFast : List (ℤ × Bool) :=
  [(0, true), (217014, false), (225694, true), (227865, false), (232205, true), (234375, false), (236545, true), (238715, false), (240885, true), (243056, false), (247396, true), (249566, false), (251736, true), (256076, false), (258247, true), (260417, false), (264757, true), (266927, false), (269097, true), (271267, false), (279948, true)]

/-- Edges while "Hi\n" is sent at 9600 baud. -/
def edgesSlow : List (ℤ × Bool) :=
  [(0, true), (10416667, false), (10833333, true), (10937500, false), (11145833, true), (11250000, false), (11354167, true), (11458333, false), (11562500, true), (11666667, false), (11875000, true), (11979167, false), (12083333, true), (12291667, false), (12395833, true), (12500000, false), (12708333, true), (12812500, false), (12916667, true), (13020833, false), (13437500, true)]

/-- A trace that starts at `t0`; the UART is pin 3 and another pin is always high. -/
def traceOf (t0 : ℤ) (edges : List (ℤ × Bool)) : GpioLog := ⟨edges.map (fun e => t0 + e.1), edges.map (fun e => if e.2 then 9 else 1), [(0, "gpio0"), (3, "uart_rx")]⟩

def phasesOfEdges (t0 : ℤ) (edges : List (ℤ × Bool)) : List Phase := edges.map (fun e => ⟨(t0 : ℚ) + e.1, e.2, []⟩)

/-- "Hi\n" -/
def textHi : List TextLine := [⟨[72, 105], false⟩]

def msgHi : List (ℕ × ℚ) := [(72, 0), (105, 0), (10, 3)]

def leadHi : List Seg := [⟨true, 100, true, none⟩]

/-- November 2023 -/
def unixNs : ℤ := 1700000000000000000

/-- **C80, violated: high baud rates.**  A trace with exact time stamps (in ns since 1970) shows "Hi\n" at 460800 baud, which the observer supports: the distances of the edges are off by less than
0.001 bit times.  Nothing is decoded.  The same trace with times from its start is decoded: the time stamps are converted to doubles in seconds since 1970, which have a resolution of 0.24 μs. -/
theorem C80_precision_violated :
    GpioLog.seen (traceOf unixNs edgesFast) 3 = (phasesOfEdges unixNs edgesFast).flatMap Phase.brows ∧ PhasesWithin (1 / 1000) (460800 / 10 ^ 9) (phasesOfEdges unixNs edgesFast) (leadHi ++ line 8 msgHi) ∧
      gpioToUart b64 (plainMean b64) (some (traceOf unixNs edgesFast)) = .ok none ∧
      ∃ r, gpioToUart b64 (plainMean b64) (some (traceOf 0 edgesFast)) = .ok (some r) ∧ r.map (·.2) = textHi.map TextLine.bytes := by
  refine ⟨by decide +kernel, withinB_spec _ _ _ _ (by decide +kernel), by decide +kernel, ?_⟩
  obtain ⟨r, h1, h2, _⟩ := C80_text_partial b64_accRounding (plainMean_of b64_rounding) (plainMean_close b64_accRounding) (traceOf 0 edgesFast) 3 (by decide +kernel) (by decide +kernel) (by decide +kernel)
    (10 ^ 9) (by decide +kernel) 460800 (1 / 1000) (1 / 1000) (2 * ((10 ^ 9 + 1) / (44 * 10 ^ 23)) * 460800) rfl (by norm_num) (by norm_num) textHi (by simp [textHi]) (by unfold TextLine.Ascii; decide +kernel)
    msgHi (by decide +kernel) leadHi (.inr ⟨100, rfl⟩) (phasesOfEdges 0 edgesFast) (by decide +kernel) (withinB_spec _ _ _ _ (by decide +kernel)) (by decide +kernel)
    (by decide +kernel) (by decide +kernel) (by decide +kernel) (by norm_num)
  exact ⟨r, h1, h2⟩

/-- `C80_text_partial` applies to "Hi\n" at 9600 baud in November 2023. -/
example : ∃ r, gpioToUart b64 (plainMean b64) (some (traceOf unixNs edgesSlow)) = .ok (some r) ∧ r.map (·.2) = [[72, 105, 10]] ∧ (uartLog b64 r).map (·.2) = [[72, 105, 10]] := by
  obtain ⟨r, h1, h2, _, h3⟩ := C80_text_partial b64_accRounding (plainMean_of b64_rounding) (plainMean_close b64_accRounding) (traceOf unixNs edgesSlow) 3 (by decide +kernel) (by decide +kernel) (by decide +kernel)
    (18 * 10 ^ 17) (by decide +kernel) 9600 (1 / 1000) (1 / 1000) (2 * ((18 * 10 ^ 17 + 1) / (44 * 10 ^ 23)) * 9600) rfl (by norm_num) (by norm_num) textHi (by simp [textHi]) (by unfold TextLine.Ascii; decide +kernel)
    msgHi (by decide +kernel) leadHi (.inr ⟨100, rfl⟩) (phasesOfEdges unixNs edgesSlow) (by decide +kernel) (withinB_spec _ _ _ _ (by decide +kernel)) (by decide +kernel)
    (by decide +kernel) (by decide +kernel) (by decide +kernel) (by norm_num)
  exact ⟨r, h1, h2, h3⟩

/-- `C80_short_violated` applies to the character "H" (7 edges). -/
example : gpioToUart b64 (plainMean b64) (some (traceOf unixNs (edgesSlow.take 7))) = .ok none :=
  C80_short_violated _ _ _ 3 (by decide +kernel) (by decide +kernel) (phasesOfEdges unixNs (edgesSlow.take 7)) (by decide +kernel) (by decide +kernel)
    ⟨false, by simp [phasesOfEdges, edgesSlow, Alternates], by simp [phasesOfEdges, edgesSlow]⟩ (by decide +kernel)

end Verif.Props
