import Verif.Model.Features
import Verif.Props.Tasks

/-!
# C88, C90: features of observers, metadata of contents
-/

namespace Verif.Props
open Verif.Py Verif.Model

/-! ## Specification -/

/-- A period of time that is not negative, or none. -/
def SpanOk (d : Option ℤ) : Prop := ∀ x, d = some x → 0 ≤ x

/-- A trace of power: rate between 10 and 100000 per second, no negative times, at least one of current and voltage is kept, and nothing is asked for that does not exist. -/
def PowerOk (p : PowerTracing) : Prop :=
  10 ≤ p.samplerate ∧ p.samplerate ≤ 100000 ∧ 0 ≤ p.delay ∧ SpanOk p.duration ∧ (p.discardCurrent = false ∨ p.discardVoltage = false) ∧ p.calculatePower = false

/-- A pin is reached by the real-time unit or by the operating system. -/
def PinOk (p : Pin) : Prop := (p.regPru ≠ none ∧ p.pinPru ≠ none) ∨ (p.regSys ≠ none ∧ p.pinSys ≠ none)

/-- A pin users may switch: it can be an output and has GPIO in its name. -/
def Switchable (p : Pin) : Prop := p.direction ≠ .input ∧ ∃ a b c, p.name.toList = a ++ b ++ c ∧ b.map Char.toLower = "gpio".toList

/-- Pin `i` is recorded. -/
def Traced (g : GpioTracing) (i : ℕ) : Prop := g.mask.toNat.testBit i = true

/-- A trace of pins. -/
def GpioOk (g : GpioTracing) : Prop :=
  0 ≤ g.mask ∧ (∀ i, Traced g i → i < 10) ∧ (∃ i, Traced g i) ∧ 0 ≤ g.delay ∧ SpanOk g.duration ∧ 2400 ≤ g.uartBaudrate ∧ g.uartBaudrate ≤ 921600 ∧ PinOk g.uartPin ∧
    ∀ l, g.gpios = some l → 1 ≤ l.length ∧ l.length ≤ 10 ∧ ∀ p ∈ l, PinOk p

/-- The second voltage: 0 to 4.5 V, or that of the target or the capacitor. -/
def AuxOk (a : AuxVoltage) : Prop := (∃ v, a = .volt v ∧ 0 ≤ v ∧ v ≤ 4.5) ∨ a = .text "main" ∨ a = .text "buffer"

/-! ## Traces of power -/

theorem spanOk_iff (d : Option ℤ) : (d.map (fun x => decide (x < 0))).getD false = false ↔ SpanOk d := by
  unfold SpanOk
  cases d with
  | none => simp
  | some x => simp

/-- **C88, power.**  A trace of power is accepted exactly if it is one. -/
theorem C88_power (p : PowerTracing) : p.validate = .ok () ↔ PowerOk p := by
  unfold PowerTracing.validate PowerOk
  rw [← spanOk_iff]
  constructor
  · intro h
    split_ifs at h with h1 h2 h3 h4 h5
    refine ⟨by omega, by omega, by omega, by simpa using h3, ?_, by simpa using h5⟩
    simp only [Bool.not_eq_true] at h5
    rw [h5] at h4
    cases hc : p.discardCurrent
    · exact .inl rfl
    · cases hv : p.discardVoltage
      · exact .inr rfl
      · rw [hc, hv] at h4; simp at h4
  · rintro ⟨h1, h2, h3, h4, h5, h6⟩
    rw [if_neg (by omega), if_neg (by omega), h4, h6]
    rcases h5 with h5 | h5 <;> rw [h5] <;> simp

/-- **C88, power, refusals.**  Everything else is refused; with a ValueError, or with a NotImplementedError if it is fine but power is to be calculated. -/
theorem C88_power_errors (p : PowerTracing) (e : PyErr) (h : p.validate = .error e) :
    (e = .valueError ∨ e = .notImplementedError) ∧ (e = .notImplementedError → p.calculatePower = true) := by
  unfold PowerTracing.validate at h
  split_ifs at h with h1 h2 h3 h4 h5
  all_goals first
    | (cases h; exact ⟨.inl rfl, fun h => by cases h⟩)
    | (cases h; exact ⟨.inr rfl, fun _ => h5⟩)

/-! ## Pins -/

/-- **C88, pins.**  A pin is accepted exactly if it can be reached. -/
theorem C88_pin (p : Pin) : p.validate = .ok () ↔ PinOk p := by
  unfold Pin.validate PinOk
  cases p.regPru <;> cases p.pinPru <;> cases p.regSys <;> cases p.pinSys <;> simp

theorem namedGpio_iff (l : List Char) : namedGpio l = true ↔ ∃ a b c, l = a ++ b ++ c ∧ b.map Char.toLower = "gpio".toList := by
  have e : "gpio".toList = ['g', 'p', 'i', 'o'] := by decide
  rw [e]
  induction l with
  | nil =>
    simp only [namedGpio, Bool.false_eq_true, false_iff]
    rintro ⟨a, b, c, h1, h2⟩
    have h3 := congrArg List.length h1
    have h4 := congrArg List.length h2
    simp at h3 h4
    omega
  | cons x l ih =>
    rw [namedGpio, Bool.or_eq_true, List.isPrefixOf_iff_prefix]
    refine (or_congr Iff.rfl ih).trans ?_
    constructor
    · rintro (⟨t, ht⟩ | ⟨a, b, c, rfl, h⟩)
      · refine ⟨[], (x :: l).take 4, (x :: l).drop 4, by simp, ?_⟩
        rw [List.map_take, ← ht]
        rfl
      · exact ⟨x :: a, b, c, rfl, h⟩
    · rintro ⟨a, b, c, h1, h2⟩
      cases a with
      | nil =>
        left
        rw [h1, List.nil_append, List.map_append, h2]
        exact List.prefix_append _ _
      | cons y a =>
        right
        simp only [List.cons_append, List.cons.injEq] at h1
        exact ⟨a, b, c, h1.2, h2⟩

/-- **C88, pins of users.** -/
theorem C88_switchable (p : Pin) : p.userControllable = true ↔ Switchable p := by
  unfold Pin.userControllable Switchable
  rw [Bool.and_eq_true, namedGpio_iff, and_comm]
  cases p.direction <;> simp

/-! ## Traces of pins -/

theorem mask_iff (m : ℤ) (h : 0 ≤ m) : (m < 2 ^ 10 ↔ ∀ i, m.toNat.testBit i = true → i < 10) ∧ (m ≠ 0 ↔ ∃ i, m.toNat.testBit i = true) := by
  obtain ⟨n, rfl⟩ := Int.eq_ofNat_of_zero_le h
  simp only [Int.toNat_natCast]
  constructor
  · constructor
    · intro hm i hi
      by_contra hc
      have h1 : n < 2 ^ i := lt_of_lt_of_le (by exact_mod_cast hm) (Nat.pow_le_pow_right (by norm_num) (by omega : 10 ≤ i))
      rw [Nat.testBit_lt_two_pow h1] at hi
      cases hi
    · intro hi
      have : n < 2 ^ 10 := by
        apply Nat.lt_pow_two_of_testBit
        intro i h10
        by_contra hc
        have := hi i (by simpa using hc)
        omega
      exact_mod_cast this
  · constructor
    · intro hn
      obtain ⟨i, hi⟩ := Nat.exists_testBit_of_ne_zero (show n ≠ 0 by exact_mod_cast hn)
      exact ⟨i, hi⟩
    · rintro ⟨i, hi⟩ h0
      have : n = 0 := by exact_mod_cast h0
      rw [this, Nat.zero_testBit] at hi
      cases hi

/-- **C88, traces of pins.**  They are accepted exactly if at least one of the ten pins is recorded and everything else is in its limits. -/
theorem C88_gpio (g : GpioTracing) : g.validate = .ok () ↔ GpioOk g := by
  unfold GpioTracing.validate GpioOk Traced
  rw [← spanOk_iff, ← C88_pin]
  have hg : (g.gpios.map (fun l => decide (l.length < 1 ∨ 10 < l.length) || l.any (fun p => p.validate ≠ .ok ()))).getD false = false ↔
      ∀ l, g.gpios = some l → 1 ≤ l.length ∧ l.length ≤ 10 ∧ ∀ p ∈ l, PinOk p := by
    cases g.gpios with
    | none => simp
    | some l =>
      simp only [Option.map_some, Option.getD_some, Bool.or_eq_false_iff, decide_eq_false_iff_not, List.any_eq_false, decide_eq_true_eq, not_not, Option.some.injEq, C88_pin,
        ne_eq, forall_eq']
      constructor
      · rintro ⟨h1, h2⟩; exact ⟨by omega, by omega, h2⟩
      · rintro ⟨h1, h2, h3⟩; exact ⟨by omega, h3⟩
  rw [← hg]
  constructor
  · intro h
    split_ifs at h with h1 h2 h3 h4 h5 h6 h7
    have hm := mask_iff g.mask (by omega)
    exact ⟨by omega, hm.1.mp (by omega), hm.2.mp h5, by omega, by simpa using h7, by omega, by omega, not_not.mp h3, by simpa using h2⟩
  · rintro ⟨h1, h2, h3, h4, h5, h6, h7, h8, h9⟩
    have hm := mask_iff g.mask h1
    have h2' := hm.1.mpr h2
    rw [if_neg (by omega), h9, h8, h5, if_neg (by simp), if_neg (by simp), if_neg (by omega), if_neg (hm.2.mpr h3), if_neg (by omega)]
    rfl

/-! ## Actuation -/

/-- **C88, actuation.**  It is accepted exactly if there are 1 to 1024 events, each in its limits and on a pin that can be reached and switched. -/
theorem C88_actuation (events : List PinEvent) : validateActuation events = .ok () ↔
    1 ≤ events.length ∧ events.length ≤ 1024 ∧ ∀ e ∈ events, (0 < e.event.delay ∧ 10 / 10 ^ 6 ≤ e.event.period ∧ 1 ≤ e.event.count ∧ e.event.count ≤ 4096) ∧ PinOk e.pin ∧
      Switchable e.pin := by
  have he : ∀ e : PinEvent, e.validate = .ok () ↔
      (0 < e.event.delay ∧ 10 / 10 ^ 6 ≤ e.event.period ∧ 1 ≤ e.event.count ∧ e.event.count ≤ 4096) ∧ PinOk e.pin ∧ Switchable e.pin := by
    intro e
    have hv : e.event.valid = true ↔ 0 < e.event.delay ∧ 10 / 10 ^ 6 ≤ e.event.period ∧ 1 ≤ e.event.count ∧ e.event.count ≤ 4096 := by
      unfold GpioEvent.valid
      simp only [Bool.and_eq_true, decide_eq_true_eq, and_assoc]
      rw [show (10 / 10 ^ 6 : ℚ) = 1 / 100000 by norm_num]
    rw [← hv, ← C88_pin, ← C88_switchable]
    unfold PinEvent.validate
    constructor
    · intro h
      split_ifs at h with h1 h2 h3
      exact ⟨h1, not_not.mp h2, h3⟩
    · rintro ⟨h1, h2, h3⟩
      rw [if_neg (not_not.mpr h1), if_neg (not_not.mpr h2), if_neg (not_not.mpr h3)]
  unfold validateActuation
  constructor
  · intro h
    split_ifs at h with h1 h2
    refine ⟨by omega, by omega, fun e hm => (he e).mp ?_⟩
    simp only [List.any_eq_true, decide_eq_true_eq, not_exists, not_and, not_not] at h2
    exact h2 e hm
  · rintro ⟨h1, h2, h3⟩
    rw [if_neg (by omega), if_neg]
    simp only [List.any_eq_true, decide_eq_true_eq, not_exists, not_and, not_not]
    exact fun e hm => (he e).mpr (h3 e hm)

/-- **C88, pins in use.**  The pins of an actuation are exactly those of its events, each once. -/
theorem C88_actuation_pins (events : List PinEvent) : (actuationPins events).Nodup ∧ ∀ p, p ∈ actuationPins events ↔ ∃ e ∈ events, e.pin = p := by
  unfold actuationPins
  exact ⟨List.nodup_dedup _, fun p => by rw [List.mem_dedup, List.mem_map]⟩

/-! ## Emulation -/

/-- **C88, emulation (partial: without actuation).**  An emulation is accepted exactly if it does not start in the past, its duration is not negative, its second voltage exists, its
traces are fine and no actuation is asked for. -/
theorem C88_emulation_partial (now : ℤ) (t : EmuSettings) : t.validate now = .ok () ↔
    (∀ s, t.timeStart = some s → now ≤ s) ∧ SpanOk t.duration ∧ AuxOk t.voltageAux ∧ (∀ p, t.powerTracing = some p → PowerOk p) ∧ (∀ g, t.gpioTracing = some g → GpioOk g) ∧
      t.gpioActuation = none ∧ 0 ≤ t.verbose ∧ t.verbose ≤ 4 := by
  have h1 := optLoad_iff C88_power t.powerTracing
  have h2 := optLoad_iff C88_gpio t.gpioTracing
  have h3 : (t.timeStart.map (fun s => decide (s < now))).getD false = false ↔ ∀ s, t.timeStart = some s → now ≤ s := by
    cases t.timeStart with
    | none => simp
    | some s => simp
  have h4 : (t.voltageAux.inRange = true ∧ t.voltageAux.known = true) ↔ AuxOk t.voltageAux := by
    unfold AuxOk
    cases t.voltageAux with
    | volt v =>
      simp only [AuxVoltage.inRange, AuxVoltage.known, Bool.and_eq_true, decide_eq_true_eq, and_true, AuxVoltage.volt.injEq, reduceCtorEq, or_false, exists_eq_left']
      rw [show (4.5 : ℚ) = 9 / 2 by norm_num]
    | text s => simp [AuxVoltage.inRange, AuxVoltage.known]
  rw [← h1, ← h2, ← h3, ← h4, ← spanOk_iff]
  unfold EmuSettings.validate
  constructor
  · intro h
    split_ifs at h with a1 a2 a3 a4 a5 a6 a7 a8 a9 a10
    refine ⟨by simpa using a7, by simpa using a8, ⟨a2, a9⟩, not_not.mp a3, not_not.mp a4, ?_, by omega, by omega⟩
    cases hg : t.gpioActuation with
    | none => rfl
    | some l => rw [hg] at a10; simp at a10
  · rintro ⟨a7, a8, ⟨a2, a9⟩, a3, a4, a10, a6, a6'⟩
    rw [a3, a4, a7, a8, a2, a9, a10, if_neg (by simp), if_neg (by simp), if_neg (by simp), if_neg (by simp), if_neg (by simp [optLoad]), if_neg (by omega)]
    rfl

/-- **C88, the second voltage.**  What is accepted is one of the documented values; everything else is refused in every emulation. -/
theorem C88_aux (now : ℤ) (t : EmuSettings) (h : ¬AuxOk t.voltageAux) : t.validate now ≠ .ok () := fun hv => h ((C88_emulation_partial now t).mp hv).2.2.1

/-! ## Where it fails -/

/-- A pin as in the shipped data base. -/
def pinOf (name : String) (d : Direction) : Pin := ⟨name, d, some "r31_00", some "P8_45", some 26, some "P8_14"⟩

/-- The default trace of pins. -/
def gpioDefault : GpioTracing := ⟨1023, none, 0, none, false, pinOf "GPIO8" .bidirectional, 115200⟩

/-- The default trace of power. -/
def powerDefault : PowerTracing := ⟨0, none, false, 100000, false, false⟩

/-- The default emulation. -/
def emuDefault : EmuSettings := ⟨none, none, .volt 0, some powerDefault, some gpioDefault, none, 2⟩

theorem emuDefault_ok (now : ℤ) (d : Option ℤ) (hd : SpanOk d) : EmuSettings.validate now { emuDefault with duration := d } = .ok () := by
  rw [C88_emulation_partial]
  refine ⟨fun s hs => (by cases hs), hd, .inl ⟨0, rfl, le_refl _, by norm_num⟩, ?_, ?_, rfl, (by decide : (0:ℤ) ≤ 2), (by decide : (2:ℤ) ≤ 4)⟩
  · intro p hp; cases hp; exact (C88_power _).mp (by decide +kernel)
  · intro p hp; cases hp; exact (C88_gpio _).mp (by decide +kernel)

/-- **C88 violated: actuation.**  No emulation with an actuation is accepted, however correct it is. -/
theorem C88_actuation_violated : (∃ events, validateActuation events = .ok ()) ∧ ∀ now t, t.gpioActuation ≠ none → EmuSettings.validate now t ≠ .ok () := by
  refine ⟨⟨[⟨⟨1, 1, 1⟩, pinOf "GPIO0" .bidirectional⟩], by decide +kernel⟩, fun now t ht hv => ht ((C88_emulation_partial now t).mp hv).2.2.2.2.2.1⟩

/-- **C88 violated: the list of pins.**  The list of pins to record is not used: pins that are not listed are recorded, the one to decode need not be. -/
theorem C88_pins_violated : (∃ g : GpioTracing, g.validate = .ok () ∧ g.gpios = some [pinOf "GPIO0" .bidirectional] ∧ ∀ i < 10, Traced g i) ∧
    ∃ g : GpioTracing, g.validate = .ok () ∧ g.uartDecode = true ∧ g.uartPin.name = "GPIO8" ∧ ∀ i, Traced g i ↔ i = 0 := by
  refine ⟨⟨{ gpioDefault with gpios := some [pinOf "GPIO0" .bidirectional] }, by decide +kernel, rfl, by unfold Traced; decide⟩,
    { gpioDefault with mask := 1, uartDecode := true }, by decide +kernel, rfl, rfl, fun i => ?_⟩
  unfold Traced
  cases i with
  | zero => simp
  | succ i => simp [Nat.testBit_succ]

/-- **C88 violated: nothing recorded.**  A trace with a duration of zero is accepted. -/
theorem C88_empty_violated : (∃ p : PowerTracing, p.validate = .ok () ∧ p.duration = some 0) ∧ (∃ g : GpioTracing, g.validate = .ok () ∧ g.duration = some 0) ∧
    ∀ now, ∃ t : EmuSettings, t.validate now = .ok () ∧ t.duration = some 0 := by
  refine ⟨⟨{ powerDefault with duration := some 0 }, by decide +kernel, rfl⟩, ⟨{ gpioDefault with duration := some 0 }, by decide +kernel, rfl⟩, fun now => ?_⟩
  exact ⟨{ emuDefault with duration := some 0 }, emuDefault_ok now _ (fun x hx => by cases hx; exact le_refl _), rfl⟩

/-- **C88 violated: kind of refusal.**  Not all invalid settings are refused with a ValueError. -/
theorem C88_refusal_violated : ∃ p : PowerTracing, p.validate = .error .notImplementedError ∧ ∀ now t, t.powerTracing = some p → EmuSettings.validate now t = .error .notImplementedError := by
  refine ⟨{ powerDefault with calculatePower := true }, by decide +kernel, fun now t ht => ?_⟩
  unfold EmuSettings.validate
  rw [ht]
  rfl

/-- The defaults are accepted at any time; the pins of the board that users may switch are found. -/
example : (∀ now, emuDefault.validate now = .ok ()) ∧ (pinOf "GPIO0" .bidirectional).userControllable = true ∧ (pinOf "GPIO4" .input).userControllable = false ∧
    (pinOf "BAT_OK" .output).userControllable = false ∧ (pinOf "myGpIo" .output).userControllable = true := by
  refine ⟨fun now => emuDefault_ok now none (fun x hx => by cases hx), ?_⟩
  decide +kernel

/-! ## C90: metadata of contents -/

/-- **C90, contents (partial: names).**  Contents are accepted exactly if names and texts are in their limits, and everything that can be seen by others has a description. -/
theorem C90_content_partial (c : Content) : c.validate = .ok () ↔
    NameOk c.name ∧ NameOk c.owner ∧ NameOk c.group ∧ (∀ d, c.description = some d → TextOk d) ∧ (∀ d, c.comment = some d → TextOk d) ∧
      ((c.visible2group = true ∨ c.visible2all = true) → ∃ d, c.description = some d) := by
  have ho : ∀ o : Option String, (o.map isSafeStr).getD true = true ↔ ∀ d, o = some d → TextOk d := by
    intro o
    cases o with
    | none => simp
    | some d => simp [isSafeStr_iff]
  rw [← ho, ← ho, ← isNameStr_iff, ← isNameStr_iff, ← isNameStr_iff]
  unfold Content.validate
  constructor
  · intro h
    split_ifs at h with h1 h2 h3 h4 h5 h6
    refine ⟨h1, h4, h5, h2, h3, fun hv => ?_⟩
    cases hd : c.description with
    | some d => exact ⟨d, rfl⟩
    | none => rw [hd] at h6; simp only [Bool.and_eq_true, Bool.or_eq_true, decide_true, and_true] at h6; exact absurd hv h6
  · rintro ⟨h1, h2, h3, h4, h5, h6⟩
    rw [h1, h2, h3, h4, h5]
    simp only [not_true_eq_false, if_false]
    rw [if_neg]
    intro hc
    simp only [Bool.and_eq_true, Bool.or_eq_true, decide_eq_true_eq] at hc
    obtain ⟨d, hd⟩ := h6 hc.1
    rw [hd] at hc
    exact absurd hc.2 (by simp)

/-- **C90, names stay in their directory.**  A name that is accepted has no separator of paths, on any system. -/
theorem C90_names (c : Content) (h : c.validate = .ok ()) : '/' ∉ c.name.toList ∧ '\\' ∉ c.name.toList ∧ ':' ∉ c.name.toList ∧ c.name ≠ "" := by
  obtain ⟨⟨h1, -, h2⟩, -⟩ := (C90_content_partial c).mp h
  refine ⟨fun hc => h2 _ hc (by decide), fun hc => h2 _ hc (by decide), fun hc => h2 _ hc (by decide), ?_⟩
  intro hn
  rw [hn] at h1
  exact absurd h1 (by decide)

/-- **C90 violated: names.**  Names that cannot be used for files are accepted: the directory above, and a zero byte. -/
theorem C90_names_violated : (∃ c : Content, c.validate = .ok () ∧ c.name = "..") ∧ ∃ c : Content, c.validate = .ok () ∧ Char.ofNat 0 ∈ c.name.toList := by
  exact ⟨⟨⟨"..", none, none, "me", "us", false, false⟩, by decide +kernel, rfl⟩, ⟨"a\x00b", none, none, "me", "us", false, false⟩, by decide +kernel, by decide +kernel⟩

/-- A content that others see. -/
example : (Content.mk "name" (some "what it is") none "me" "us" true true).validate = .ok () ∧ (Content.mk "name" none none "me" "us" true false).validate = .error .valueError ∧
    (Content.mk "a/b" none none "me" "us" false false).validate = .error .valueError := by decide +kernel

end Verif.Props
