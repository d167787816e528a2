import Verif.Props.ShippedTables
import Verif.Props.Registers

/-!
# C96: the virtual sources and harvesters that come with the library
-/

namespace Verif.Props
open Verif.Py Verif.Model

variable {fl : ℚ → ℚ} {sqrt : ℚ → ℚ}

/-! ## Names and numbers -/

theorem ok_of_toOption {α : Type} {x : Except PyErr α} {a : α} (h : x.toOption = some a) : x = .ok a := by
  cases x with
  | error e => cases h
  | ok b => cases h; rfl

theorem dictGet_none {κ α : Type} [DecidableEq κ] : ∀ (d : List (κ × α)) (k : κ), k ∉ d.map Prod.fst → dictGet d k = none
  | [], _, _ => rfl
  | (a, b) :: t, k, h => by
    rw [dictGet, if_neg (fun e => h (by simp [e])), dictGet_none t k (fun hm => h (List.mem_cons_of_mem _ hm))]

theorem load_dbKind {model : String} (h : (loadAll model .empty contentFiles).isOk = true) : loadAll model .empty contentFiles = .ok (dbKind model) := by
  unfold dbKind
  cases hl : loadAll model .empty contentFiles with
  | error e => rw [hl] at h; cases h
  | ok db => rfl

theorem byName_unknown {model : String} (h : (loadAll model .empty contentFiles).isOk = true) {s : String} (hs : asciiOps.lower s ∉ (dbKind model).byName.map Prod.fst) :
    byNameIn model contentFiles s = .error .valueError := by
  unfold byNameIn
  rw [load_dbKind h]
  simp only
  unfold FixtureDb.completeName FixtureDb.queryItem FixtureDb.queryName
  simp only
  rw [dictGet_none _ _ hs]

theorem byId_unknown {model : String} (h : (loadAll model .empty contentFiles).isOk = true) {n : ℤ} (hs : Val.int n ∉ (dbKind model).byId.map Prod.fst) :
    byIdIn model contentFiles n = .error .valueError := by
  unfold byIdIn
  rw [load_dbKind h]
  simp only
  unfold FixtureDb.completeId FixtureDb.queryItem FixtureDb.queryId
  simp only
  rw [dictGet_none _ _ hs]

theorem byName_lower (model : String) (files : List (String × Rec)) {a b : String} (h : asciiOps.lower a = asciiOps.lower b) : byNameIn model files a = byNameIn model files b := by
  unfold byNameIn FixtureDb.completeName FixtureDb.queryItem FixtureDb.queryName
  simp only [h]

/-- **C96, names.**  Only the listed names give a harvester or a source, whatever text is given; capital letters do not matter. -/
theorem C96_names (adc dac : CalPair) (s : String) :
    (asciiOps.lower s ∉ harvesters.map (·.name) → loadVhrv fl adc dac contentFiles s = .error .valueError) ∧
    (asciiOps.lower s ∉ sources.map (fun x => asciiOps.lower x.1) → loadVsrc fl adc dac contentFiles s = .error .valueError) ∧
    ∀ t, asciiOps.lower s = asciiOps.lower t → loadVhrv fl adc dac contentFiles s = loadVhrv fl adc dac contentFiles t ∧ loadVsrc fl adc dac contentFiles s = loadVsrc fl adc dac contentFiles t := by
  refine ⟨fun h => ?_, fun h => ?_, fun t h => ⟨?_, ?_⟩⟩
  · unfold loadVhrv
    by_cases hn : asciiOps.lower s = "neutral"
    · rw [byName_lower _ _ (show asciiOps.lower s = asciiOps.lower "neutral" by rw [hn]; decide +kernel)]
      have := eval_neutral.2
      unfold makeVhrv
      cases hb : byNameIn "VirtualHarvesterConfig" contentFiles "neutral" with
      | error e => rw [hb] at this; simpa [bind, Except.bind] using this
      | ok r =>
        rw [hb] at this
        simp only [bind, Except.bind] at this ⊢
        cases hp : parseVhrv r with
        | error e => rw [hp] at this; simpa using this
        | ok v => rw [hp] at this; cases this
    · rw [byName_unknown load_kind.1 (by rw [eval_keys.1]; simp only [List.mem_cons, not_or]; exact ⟨hn, h⟩)]
      rfl
  · unfold loadVsrc
    rw [byName_unknown load_kind.2 (by rw [eval_keys.2.2.1]; exact h)]
    rfl
  · unfold loadVhrv; rw [byName_lower _ _ h]
  · unfold loadVsrc; rw [byName_lower _ _ h]

theorem vhrv_id (adc dac : CalPair) {n : ℤ} {s : String}
    (h : (byIdIn "VirtualHarvesterConfig" contentFiles n >>= parseVhrv).toOption = (byNameIn "VirtualHarvesterConfig" contentFiles s >>= parseVhrv).toOption)
    {v : VhrvRaw} (hv : (byNameIn "VirtualHarvesterConfig" contentFiles s >>= parseVhrv).toOption = some v) :
    loadVhrvId fl adc dac contentFiles n = loadVhrv fl adc dac contentFiles s := by
  have e1 := ok_of_toOption (h.trans hv)
  have e2 := ok_of_toOption hv
  unfold loadVhrvId loadVhrv makeVhrv
  rw [← bind_assoc, ← bind_assoc, e1, e2]

theorem vsrc_id (adc dac : CalPair) {n : ℤ} {s : String}
    (h : (byIdIn "VirtualSourceConfig" contentFiles n >>= parseVsrc).toOption = (byNameIn "VirtualSourceConfig" contentFiles s >>= parseVsrc).toOption)
    {v : VsrcRaw} (hv : (byNameIn "VirtualSourceConfig" contentFiles s >>= parseVsrc).toOption = some v) :
    loadVsrcId fl adc dac contentFiles n = loadVsrc fl adc dac contentFiles s := by
  have e1 := ok_of_toOption (h.trans hv)
  have e2 := ok_of_toOption hv
  unfold loadVsrcId loadVsrc makeVsrc
  rw [← bind_assoc, ← bind_assoc, e1, e2]

/-- **C96, numbers.**  The number of a source or harvester gives the same as its name, other numbers raise a `ValueError`.
Missing: the harvester "cv33", see `C96_ids_violated`. -/
theorem C96_ids_partial (adc dac : CalPair) :
    (∀ x ∈ sourceIds, loadVsrcId fl adc dac contentFiles x.1 = loadVsrc fl adc dac contentFiles x.2) ∧
    (∀ n, n ∉ sourceIds.map Prod.fst → loadVsrcId fl adc dac contentFiles n = .error .valueError) ∧
    (∀ x ∈ harvesterIds, x.2 ≠ "cv33" → loadVhrvId fl adc dac contentFiles x.1 = loadVhrv fl adc dac contentFiles x.2) ∧
    ∀ n, n ∉ harvesterIds.map Prod.fst → loadVhrvId fl adc dac contentFiles n = .error .valueError := by
  refine ⟨?_, ?_, ?_, ?_⟩
  · intro x hx
    have hm : x.2 ∈ sources.map Prod.fst := by
      revert x
      decide +kernel
    obtain ⟨r, hr, hn⟩ := List.mem_map.mp hm
    exact vsrc_id adc dac (eval_source_ids x hx) (hn ▸ eval_sources r hr)
  · intro n hn
    unfold loadVsrcId
    rw [byId_unknown load_kind.2 (by
      rw [eval_keys.2.2.2]
      intro hm
      obtain ⟨x, hx, he⟩ := List.mem_map.mp hm
      injection he with he
      exact hn (he ▸ List.mem_map_of_mem hx))]
    rfl
  · intro x hx hne
    have hm : x.2 ∈ harvesters.map (·.name) := by
      revert x
      decide +kernel
    obtain ⟨r, hr, hn⟩ := List.mem_map.mp hm
    exact vhrv_id adc dac (eval_harvester_ids x hx (fun e => hne (by rw [e]))) (hn ▸ eval_harvesters r hr)
  · intro n hn
    by_cases h0 : n = 1000
    · subst h0
      have := eval_neutral_id
      unfold loadVhrvId makeVhrv
      cases hb : byIdIn "VirtualHarvesterConfig" contentFiles 1000 with
      | error e => rw [hb] at this; simpa [bind, Except.bind] using this
      | ok r =>
        rw [hb] at this
        simp only [bind, Except.bind] at this ⊢
        cases hp : parseVhrv r with
        | error e => rw [hp] at this; simpa using this
        | ok v => rw [hp] at this; cases this
    · unfold loadVhrvId
      rw [byId_unknown load_kind.1 (by
        intro hm
        rcases List.mem_cons.mp (eval_keys.2.1 _ hm) with he | hm
        · injection he with he; exact h0 he
        · obtain ⟨x, hx, he⟩ := List.mem_map.mp hm
          injection he with he
          exact hn (he ▸ List.mem_map_of_mem hx))]
      rfl

/-- The number of "cv33" belongs to another harvester too: it gives 1.0 V in place of 3.3 V. -/
theorem C96_ids_violated (adc dac : CalPair) : (2102, "cv33") ∈ harvesterIds ∧ loadVhrvId fl adc dac contentFiles 2102 = loadVhrv fl adc dac contentFiles "cv10" := by
  refine ⟨by decide, vhrv_id adc dac (eval_harvester_ids (2102, "cv10") (by decide) (by decide)) (v := { name := "cv10", algorithm := .cv, voltage := 1000 })
    (eval_harvesters { name := "cv10", algorithm := .cv, voltage := 1000 } (by decide +kernel))⟩

/-! ## Harvesters -/

theorem rnd_int (h : Rounding fl) {x : ℚ} (hd : x.den = 1) (hx : |x.num| ≤ 2^53) : fl x = x := by
  have := h.exact x.num 0 hx (by norm_num)
  rw [zpow_zero, mul_one] at this
  have e : (x.num : ℚ) = x := by conv_rhs => rw [← Rat.num_div_den x, hd]; simp
  rwa [e] at this

/-- What the written numbers of a harvester fulfil. -/
def WrittenOk (r : VhrvRaw) : Prop :=
  r.name ≠ "neutral" ∧ (8 ≤ r.samplesN ∧ r.samplesN ≤ 2000) ∧ (r.voltage.den = 1 ∧ 0 ≤ r.voltage ∧ r.voltage ≤ 5000) ∧ r.voltageMin = 0 ∧ r.voltageMax = 5000 ∧
  (r.currentLimit.den = 1 ∧ 1 ≤ r.currentLimit ∧ r.currentLimit ≤ 50000) ∧ (∀ s ∈ r.voltageStep, s.den = 1 ∧ 1 ≤ s ∧ s ≤ 1000000) ∧ (0 ≤ r.setpointN ∧ r.setpointN ≤ 1) ∧
  (1/100 ≤ r.interval ∧ r.interval ≤ 1000000) ∧ (1/100 ≤ r.duration ∧ r.duration ≤ 1000000) ∧ (0 ≤ r.waitCycles ∧ r.waitCycles ≤ 100)

instance (r : VhrvRaw) : Decidable (WrittenOk r) := by unfold WrittenOk; infer_instance

theorem harvesters_written : ∀ r ∈ harvesters, WrittenOk r := by decide +kernel

theorem validate_written (h : Rounding fl) (adc dac : CalPair) (ha : minCurrentLimit fl adc < 1) (hd : minVoltageStep fl dac < 1) (r : VhrvRaw) (hr : WrittenOk r) :
    (r.toFloats fl).validate fl adc dac = .ok { name := r.name, algorithm := r.algorithm, samplesN := r.samplesN, voltage := r.voltage, voltageMin := 0, voltageMax := 5000
                                                currentLimit := r.currentLimit, voltageStep := r.voltageStep.getD (fl (5000 / ((r.samplesN - 1 : ℤ) : ℚ)))
                                                setpointN := fl r.setpointN, interval := fl r.interval, duration := fl r.duration
                                                rising := r.rising, linExtrapolation := r.linExtrapolation, waitCycles := r.waitCycles } := by
  obtain ⟨hn, hs, ⟨v0, v1, v2⟩, m0, m1, ⟨c0, c1, c2⟩, hst, hsp, hi, hdu, hw⟩ := hr
  have num : ∀ {x : ℚ}, x.den = 1 → 0 ≤ x → x ≤ 2^53 → fl x = x := by
    intro x hx h0 h1
    refine rnd_int h hx ?_
    have e : (x.num : ℚ) = x := by conv_rhs => rw [← Rat.num_div_den x, hx]; simp
    rw [← e] at h0 h1
    rw [abs_of_nonneg (by exact_mod_cast h0)]
    exact_mod_cast h1
  have ev : fl r.voltage = r.voltage := num v0 v1 (by linarith)
  have e0 : fl 0 = 0 := num (by decide) le_rfl (by norm_num)
  have e5 : fl 5000 = 5000 := num (by decide) (by norm_num) (by norm_num)
  have ec : fl r.currentLimit = r.currentLimit := num c0 (by linarith) (by linarith)
  have es : r.voltageStep.map fl = r.voltageStep := by
    cases hq : r.voltageStep with
    | none => rfl
    | some s =>
      obtain ⟨s0, s1, s2⟩ := hst s (by rw [hq]; rfl)
      rw [Option.map_some, num s0 (by linarith) (by linarith)]
  have hq0 : (7:ℚ) ≤ ((r.samplesN - 1 : ℤ) : ℚ) ∧ ((r.samplesN - 1 : ℤ) : ℚ) ≤ 1999 := by
    constructor
    · exact_mod_cast (by omega : (7:ℤ) ≤ r.samplesN - 1)
    · exact_mod_cast (by omega : r.samplesN - 1 ≤ 1999)
  have hstep : stepOf fl (r.toFloats fl) = r.voltageStep.getD (fl (5000 / ((r.samplesN - 1 : ℤ) : ℚ))) := by
    unfold stepOf VhrvRaw.toFloats
    simp only [es, m0, m1, e0, e5, sub_zero]
    cases r.voltageStep <;> simp
  have hstep1 : 1 ≤ stepOf fl (r.toFloats fl) ∧ stepOf fl (r.toFloats fl) ≤ 1000000 := by
    rw [hstep]
    cases hq : r.voltageStep with
    | some s => exact (hst s (by rw [hq]; rfl)).2
    | none =>
      simp only [Option.getD_none]
      constructor
      · have := h.int_le (n := 1) (x := 5000 / ((r.samplesN - 1 : ℤ) : ℚ)) (by norm_num) (by rw [le_div_iff₀ (by linarith)]; push_cast at hq0 ⊢; linarith)
        exact_mod_cast this
      · have := h.le_int (n := 1000000) (x := 5000 / ((r.samplesN - 1 : ℤ) : ℚ)) (by norm_num) (by rw [div_le_iff₀ (by linarith)]; push_cast at hq0 ⊢; linarith)
        exact_mod_cast this
  have top : ∀ {x : ℚ} {n : ℤ}, |n| ≤ 2^53 → x ≤ n → fl x ≤ n := fun hn hx => h.le_int hn hx
  have hdr : DeclaredRanges fl (r.toFloats fl) := by
    unfold VhrvRaw.toFloats
    refine ⟨hs, ?_, ?_, ?_, ?_, ?_, ?_, ?_, hw⟩ <;> simp only [ev, m0, m1, e0, e5, ec]
    · exact ⟨v1, v2⟩
    · norm_num
    · norm_num
    · exact ⟨c1, c2⟩
    · exact ⟨h.nonneg hsp.1, by have := top (x := r.setpointN) (n := 1) (by norm_num) (by exact_mod_cast hsp.2); exact_mod_cast this⟩
    · exact ⟨h.mono hi.1, by have := top (x := r.interval) (n := 1000000) (by norm_num) (by exact_mod_cast hi.2); exact_mod_cast this⟩
    · exact ⟨h.mono hdu.1, by have := top (x := r.duration) (n := 1000000) (by norm_num) (by exact_mod_cast hdu.2); exact_mod_cast this⟩
  have hname : (r.toFloats fl).name = r.name := rfl
  obtain ⟨c, hc⟩ := (C30_accepted_iff adc dac ha hd (r.toFloats fl)).2 ⟨hname ▸ hn, hdr, hstep1, by simp only [VhrvRaw.toFloats, ev, m0, e0]; exact v1, by simp only [VhrvRaw.toFloats, ev, m1, e5]; exact v2⟩
  have hc' := hc
  unfold VhrvRaw.validate at hc'
  rw [query_ok (hname ▸ hn) (by have := hs.1; simp only [VhrvRaw.toFloats]; omega)] at hc'
  dsimp only at hc'
  split_ifs at hc' with hf
  unfold VhrvCfg.postValidation at hc'
  split_ifs at hc'
  injection hc' with hc'
  have hmx : max (minVoltageStep fl dac) (stepOf fl (r.toFloats fl)) = stepOf fl (r.toFloats fl) := max_eq_right (by linarith [hstep1.1])
  have hmc : max (minCurrentLimit fl adc) r.currentLimit = r.currentLimit := max_eq_right (by linarith)
  rw [hc, ← hc', hmx, hstep]
  simp only [VhrvRaw.toFloats, ev, m0, m1, e0, e5, ec, hmc]

/-- **C96, harvesters.**  Every listed harvester can be made and is valid; it has the listed settings, decimal numbers as nearest floats.  Without a listed step the range of 5 V is split by
the samples. -/
theorem C96_harvesters (h : Rounding fl) (adc dac : CalPair) (ha : minCurrentLimit fl adc < 1) (hd : minVoltageStep fl dac < 1) (r : VhrvRaw) (hr : r ∈ harvesters) :
    ∃ c, loadVhrv fl adc dac contentFiles r.name = .ok c ∧ c.Valid fl ∧ c.name = r.name ∧ c.algorithm = r.algorithm ∧ c.samplesN = r.samplesN ∧ c.waitCycles = r.waitCycles ∧
      c.rising = r.rising ∧ c.linExtrapolation = r.linExtrapolation ∧ c.voltage = r.voltage ∧ c.voltageMin = r.voltageMin ∧ c.voltageMax = r.voltageMax ∧
      c.currentLimit = r.currentLimit ∧ c.setpointN = fl r.setpointN ∧ c.interval = fl r.interval ∧ c.duration = fl r.duration ∧
      (∀ s, r.voltageStep = some s → c.voltageStep = s) ∧ (r.voltageStep = none → c.voltageStep = fl (5000 / ((r.samplesN - 1 : ℤ) : ℚ))) := by
  have hw := harvesters_written r hr
  have hv := validate_written h adc dac ha hd r hw
  have he := ok_of_toOption (eval_harvesters r hr)
  have hl : loadVhrv fl adc dac contentFiles r.name = (r.toFloats fl).validate fl adc dac := by
    unfold loadVhrv makeVhrv
    rw [← bind_assoc, he]
    rfl
  have hval := (C30_rejected_partial (fl := fl) adc dac (r.toFloats fl) hw.2.1.1).1
  rw [hv] at hval hl
  refine ⟨_, hl, hval.1, rfl, rfl, rfl, rfl, rfl, rfl, rfl, hw.2.2.2.1.symm, hw.2.2.2.2.1.symm, rfl, rfl, rfl, rfl, ?_, ?_⟩
  · intro s hs; simp only [hs, Option.getD_some]
  · intro hs; simp only [hs, Option.getD_none]

/-- The harvesters for recording only. -/
def recordOnly : List String := ["ivcurve", "ivcurves", "iv110", "iv1000", "isc_voc"]

/-- **C96, use of harvesters.**  Those that record curves and "isc_voc" cannot be used in a virtual source, "direct" cannot be used for recording; all others can be used for both. -/
theorem C96_harvester_use (h : AccRounding fl) (adc dac : CalPair) (ha : minCurrentLimit fl adc < 1) (hd : minVoltageStep fl dac < 1) (name : String) (hn : name ∈ harvesters.map (·.name))
    (c : VhrvCfg) (hc : loadVhrv fl adc dac contentFiles name = .ok c) :
    (if name ∈ recordOnly then fromVhrv fl c (some .ivsample) none none true = .error .valueError else ∃ p, fromVhrv fl c (some .ivsample) none none true = .ok p) ∧
    (if name = "direct" then fromVhrv fl c none none none false = .error .valueError else ∃ p, fromVhrv fl c none none none false = .ok p) := by
  obtain ⟨r, hr, rfl⟩ := List.mem_map.mp hn
  obtain ⟨c', h1, h2, -, h4, -⟩ := C96_harvesters h.toRounding adc dac ha hd r hr
  rw [hc] at h1
  cases h1
  have key : ∀ r ∈ harvesters, (r.name ∈ recordOnly ↔ r.algorithm.dtype ≠ .ivsample) ∧ (r.name = "direct" ↔ r.algorithm = .neutral) := by decide +kernel
  obtain ⟨k1, k2⟩ := key r hr
  have hw : ∀ n ∈ (none : Option ℤ), 0 ≤ n ∧ n < 2^32 := fun n hn => by cases hn
  have hv : ∀ x ∈ (none : Option ℚ), 0 ≤ x ∧ x ≤ 4290 := fun n hn => by cases hn
  constructor
  · split_ifs with hm
    · exact C30_algorithm_rejected c (some .ivsample) none none true (fun _ => Or.inl rfl) (by rw [if_pos rfl, h4]; exact k1.1 hm)
    · refine C29_total h c h2 (some .ivsample) none none true (fun _ => Or.inl rfl) ?_ hw hv
      rw [if_pos rfl, h4]
      by_contra hcon
      exact hm (k1.2 hcon)
  · split_ifs with hm
    · exact C30_algorithm_rejected c none none none false (fun hh => by cases hh) (by rw [if_neg (by decide), h4]; exact k2.1 hm)
    · refine C29_total h c h2 none none none false (fun hh => by cases hh) ?_ hw hv
      rw [if_neg (by decide), h4]
      exact fun hcon => hm (k2.2 hcon)

/-! ## Sources -/

/-- An integer between two numbers. -/
def IntIn (lo hi x : ℚ) : Prop := x.den = 1 ∧ lo ≤ x ∧ x ≤ hi

instance (lo hi x : ℚ) : Decidable (IntIn lo hi x) := by unfold IntIn; infer_instance

/-- What the written numbers of a source fulfil. -/
def SourceOk (r : VsrcRaw) : Prop :=
  (∃ h ∈ harvesters, h.name = r.harvester ∧ h.algorithm.dtype = .ivsample) ∧ IntIn 0 10000 r.intervalStartupDelayDrain ∧ IntIn 0 10000 r.vInputMax ∧ IntIn 0 4290 r.iInputMax ∧
  IntIn 0 4290000 r.vInputDrop ∧ IntIn 0 4290000 r.rInput ∧ IntIn 0 100000 r.cIntermediate ∧ IntIn 0 10000 r.vIntermediateInit ∧ IntIn 0 4290000000 r.iIntermediateLeak ∧
  IntIn 0 10000 r.vEnable ∧ IntIn 0 10000 r.vDisable ∧ IntIn 0 4290 r.intervalCheckThresholds ∧ IntIn 0 10000 r.vPwrGoodEnable ∧ IntIn 0 10000 r.vPwrGoodDisable ∧
  IntIn 0 4290000 r.cOutput ∧ IntIn 0 4290000 r.vOutputLogGpio ∧ IntIn 0 10000 r.vInputBoost ∧ IntIn 0 10000 r.vIntermediateMax ∧
  (r.lutInput.length = 12 ∧ ∀ l ∈ r.lutInput, l.length = 12 ∧ ∀ x ∈ l, 0 ≤ x ∧ x ≤ 1) ∧ (0 ≤ r.lutInputVMin ∧ r.lutInputVMin ≤ 20) ∧ (1 ≤ r.lutInputIMin ∧ r.lutInputIMin ≤ 20) ∧
  IntIn 0 5000 r.vOutput ∧ IntIn 0 5000 r.vBuckDrop ∧ (r.lutOutput.length = 12 ∧ ∀ x ∈ r.lutOutput, 1/4 ≤ x ∧ x ≤ 1) ∧ (1 ≤ r.lutOutputIMin ∧ r.lutOutputIMin ≤ 20)

instance (r : VsrcRaw) : Decidable (SourceOk r) := by unfold SourceOk; infer_instance

theorem sources_written : ∀ s ∈ sources, SourceOk s.2 := by decide +kernel

theorem IntIn.eq (h : Rounding fl) {lo hi x : ℚ} (hx : IntIn lo hi x) (h0 : 0 ≤ lo) (h1 : hi ≤ 2^53) : fl x = x := by
  refine rnd_int h hx.1 ?_
  have e : (x.num : ℚ) = x := by conv_rhs => rw [← Rat.num_div_den x, hx.1]; simp
  have g0 : 0 ≤ x := le_trans h0 hx.2.1
  have g1 : x ≤ 2^53 := le_trans hx.2.2 h1
  rw [← e] at g0 g1
  rw [abs_of_nonneg (by exact_mod_cast g0)]
  exact_mod_cast g1

/-- A source with exactly the listed numbers; the efficiencies are the nearest floats. -/
def asListed (fl : ℚ → ℚ) (r : VsrcRaw) (h : VhrvCfg) : VsrcCfg :=
  { r.toCfg (fun x => x) h with lutInput := r.lutInput.map fun l => l.map fl, lutOutput := r.lutOutput.map fl }

theorem toCfg_listed (h : Rounding fl) (r : VsrcRaw) (hv : VhrvCfg) (hr : SourceOk r) : r.toCfg fl hv = asListed fl r hv := by
  obtain ⟨-, a1, a2, a3, a4, a5, a6, a7, a8, a9, a10, a11, a12, a13, a14, a15, a16, a17, -, -, -, a18, a19, -⟩ := hr
  unfold asListed VsrcRaw.toCfg
  rw [a1.eq h le_rfl (by norm_num), a2.eq h le_rfl (by norm_num), a3.eq h le_rfl (by norm_num), a4.eq h le_rfl (by norm_num), a5.eq h le_rfl (by norm_num), a6.eq h le_rfl (by norm_num),
    a7.eq h le_rfl (by norm_num), a8.eq h le_rfl (by norm_num), a9.eq h le_rfl (by norm_num), a10.eq h le_rfl (by norm_num), a11.eq h le_rfl (by norm_num), a12.eq h le_rfl (by norm_num),
    a13.eq h le_rfl (by norm_num), a14.eq h le_rfl (by norm_num), a15.eq h le_rfl (by norm_num), a16.eq h le_rfl (by norm_num), a17.eq h le_rfl (by norm_num), a18.eq h le_rfl (by norm_num),
    a19.eq h le_rfl (by norm_num)]

theorem listed_valid (h : AccRounding fl) (r : VsrcRaw) (hv : VhrvCfg) (hr : SourceOk r) (hh : hv.Valid fl) (halg : hv.algorithm.dtype = .ivsample) : (asListed fl r hv).Valid fl := by
  obtain ⟨-, a1, a2, a3, a4, a5, a6, a7, a8, a9, a10, a11, a12, a13, a14, a15, a16, a17, l1, l2, l3, a18, a19, l4, l5⟩ := hr
  have one : ∀ {x : ℚ}, 0 ≤ x → x ≤ 1 → inRange 0 1 (fl x) = true := fun h0 h1 =>
    inRange_iff.2 ⟨h.nonneg h0, by have := h.toRounding.le_int (n := 1) (by norm_num) (by exact_mod_cast h1); exact_mod_cast this⟩
  refine { intervalStartupDelayDrain := inRange_iff.2 a1.2, vInputMax := inRange_iff.2 a2.2, iInputMax := inRange_iff.2 a3.2, vInputDrop := inRange_iff.2 a4.2, rInput := inRange_iff.2 a5.2
           cIntermediate := inRange_iff.2 a6.2, vIntermediateInit := inRange_iff.2 a7.2, iIntermediateLeak := inRange_iff.2 a8.2, vEnable := inRange_iff.2 a9.2, vDisable := inRange_iff.2 a10.2
           intervalCheckThresholds := inRange_iff.2 a11.2, vPwrGoodEnable := inRange_iff.2 a12.2, vPwrGoodDisable := inRange_iff.2 a13.2, cOutput := inRange_iff.2 a14.2
           vOutputLogGpio := inRange_iff.2 a15.2, vInputBoost := inRange_iff.2 a16.2, vIntermediateMax := inRange_iff.2 a17.2, lutInput := ⟨?_, ?_⟩, lutInputVMin := l2, lutInputIMin := l3
           vOutput := inRange_iff.2 a18.2, vBuckDrop := inRange_iff.2 a19.2, lutOutput := ⟨?_, ?_⟩, lutOutputIMin := l5, harvester := hh, post := ?_ }
  · rw [asListed, List.length_map]; exact l1.1
  · intro l hl
    obtain ⟨l', hl', rfl⟩ := List.mem_map.mp hl
    refine ⟨by rw [List.length_map]; exact (l1.2 l' hl').1, fun x hx => ?_⟩
    obtain ⟨x', hx', rfl⟩ := List.mem_map.mp hx
    obtain ⟨g0, g1⟩ := (l1.2 l' hl').2 x' hx'
    exact one g0 g1
  · rw [asListed, List.length_map]; exact l4.1
  · intro x hx
    obtain ⟨x', hx', rfl⟩ := List.mem_map.mp hx
    obtain ⟨g0, g1⟩ := l4.2 x' hx'
    exact one (by linarith) g1
  · exact C29_total h hv hh (some .ivsample) none none true (fun _ => Or.inl rfl) (by rw [if_pos rfl]; exact halg) (fun n hn => by cases hn) (fun n hn => by cases hn)

/-- **C96, sources.**  Every listed source can be made, with exactly the listed settings and the listed harvester, and is valid. -/
theorem C96_sources (h : AccRounding fl) (adc dac : CalPair) (ha : minCurrentLimit fl adc < 1) (hd : minVoltageStep fl dac < 1) (s : String × VsrcRaw) (hs : s ∈ sources) :
    ∃ hv, loadVhrv fl adc dac contentFiles s.2.harvester = .ok hv ∧ loadVsrc fl adc dac contentFiles s.1 = .ok (asListed fl s.2 hv) ∧ (asListed fl s.2 hv).Valid fl := by
  have hw := sources_written s hs
  obtain ⟨r, hr, hn, halg⟩ := hw.1
  obtain ⟨hv, h1, h2, -, h4, -⟩ := C96_harvesters h.toRounding adc dac ha hd r hr
  rw [hn] at h1
  have hval := listed_valid h s.2 hv hw h2 (by rw [h4]; exact halg)
  refine ⟨hv, h1, ?_, hval⟩
  unfold loadVsrc makeVsrc
  rw [← bind_assoc, ok_of_toOption (eval_sources s hs)]
  simp only [bind, Except.bind]
  rw [h1]
  simp only
  rw [toCfg_listed h.toRounding s.2 hv hw, if_pos hval]
  rfl

/-! ## Runs of the sources -/

/-- What makes the listed sources work: with a storage it is much larger than the output capacitor, the output is enabled above the voltage of the buck converter, and power good falls not below
the thresholds of the output. -/
def WorksOk (r : VsrcRaw) : Prop :=
  (r.cIntermediate = 0 ∨ r.cOutput = 1 ∧ 32 ≤ r.cIntermediate ∧ r.vOutput^2 / 32 + 1 ≤ r.vEnable^2 ∧ 1 ≤ r.vEnable) ∧ (r.enableBuck = true → r.vOutput + r.vBuckDrop < r.vEnable) ∧
  r.vDisable ≤ r.vPwrGoodDisable ∧ (r.enableBuck = true → r.vOutput + r.vBuckDrop ≤ r.vPwrGoodDisable ∧ r.vEnable = 3000 ∧ r.vPwrGoodDisable = 2500) ∧
  (r.enableBuck = false → r.vEnable ≤ r.vPwrGoodDisable) ∧ r.intervalCheckThresholds ≤ 64

instance (r : VsrcRaw) : Decidable (WorksOk r) := by unfold WorksOk; infer_instance

theorem sources_work : ∀ s ∈ sources, WorksOk s.2 := by decide +kernel

theorem reg_listed (h : Rounding fl) {x : ℚ} (hx : IntIn 0 10000 x) {m : ℕ} (hm : u32 (pyRound (fl (x * 1000))) = .ok m) : (m : ℚ) = x * 1000 := by
  have e : (x.num : ℚ) = x := by conv_rhs => rw [← Rat.num_div_den x, hx.1]; simp
  have hr : fl (x * 1000) = x * 1000 := by
    have := h.exact (x.num * 1000) 0 (by
      have h0 : (0:ℚ) ≤ x.num := by rw [e]; exact hx.2.1
      have h1 : (x.num:ℚ) ≤ 10000 := by rw [e]; exact hx.2.2
      have h0' : 0 ≤ x.num := by exact_mod_cast h0
      have h1' : x.num ≤ 10000 := by exact_mod_cast h1
      rw [abs_of_nonneg (by omega)]
      omega) (by norm_num)
    rw [zpow_zero, mul_one] at this
    push_cast at this
    rwa [e] at this
  rw [hr, show x * 1000 = ((x.num * 1000 : ℤ) : ℚ) by push_cast; rw [e], pyRound_intCast] at hm
  have := (u32_ok_iff.1 hm).1
  have e2 : ((m : ℤ) : ℚ) = ((x.num * 1000 : ℤ) : ℚ) := by rw [this]
  push_cast at e2
  rw [e] at e2
  exact e2

/-- The registers of a listed source. -/
theorem listed_regs (h : AccRounding fl) (hs1 : ∀ y, 1 ≤ y → 1 ≤ sqrt y) (r : VsrcRaw) (hv : VhrvCfg) (hr : SourceOk r) (hw : WorksOk r)
    (dtypeIn : EnergyDType) (logMid : Bool) (p : CnvCfg) (hp : fromVsrc fl sqrt (asListed fl r hv) dtypeIn logMid = .ok p) :
    (p.vEnableOutputThreshold : ℚ) = r.vEnable * 1000 ∧ (p.dVEnableOutput = 0 ∨ p.dVEnableOutput < p.vEnableOutputThreshold) := by
  have regs := fromVsrc_regs hp
  obtain ⟨-, a1, a2, a3, a4, a5, a6, a7, a8, a9, a10, a11, a12, a13, a14, a15, a16, a17, l1, l2, l3, a18, a19, l4, l5⟩ := hr
  have hpre : r.enableBuck = true → fl (r.vOutput + r.vBuckDrop) < r.vEnable := by
    intro hb
    have hlt := hw.2.1 hb
    have e1 : (r.vOutput.num : ℚ) = r.vOutput := by conv_rhs => rw [← Rat.num_div_den r.vOutput, a18.1]; simp
    have e2 : (r.vBuckDrop.num : ℚ) = r.vBuckDrop := by conv_rhs => rw [← Rat.num_div_den r.vBuckDrop, a19.1]; simp
    have h1 : (0:ℚ) ≤ r.vOutput.num + r.vBuckDrop.num ∧ (r.vOutput.num : ℚ) + r.vBuckDrop.num ≤ 10000 := by
      rw [e1, e2]
      exact ⟨by linarith [a18.2.1, a19.2.1], by linarith [a18.2.2, a19.2.2]⟩
    have := h.exact (r.vOutput.num + r.vBuckDrop.num) 0 (by
      have g0 : 0 ≤ r.vOutput.num + r.vBuckDrop.num := by exact_mod_cast h1.1
      have g1 : r.vOutput.num + r.vBuckDrop.num ≤ 10000 := by exact_mod_cast h1.2
      rw [abs_of_nonneg g0]
      omega) (by norm_num)
    rw [zpow_zero, mul_one] at this
    push_cast at this
    rw [e1, e2] at this
    rw [this]
    exact hlt
  have hst : ((asListed fl r hv).internalStates fl sqrt).vEnable = r.vEnable ∧ ((asListed fl r hv).internalStates fl sqrt).dVEnable = (dVCandidates fl sqrt (asListed fl r hv)).1 := by
    unfold VsrcCfg.internalStates
    by_cases hb : r.enableBuck = true
    · rw [if_pos (show (asListed fl r hv).enableBuck = true from hb)]
      dsimp only
      rw [if_pos (show (asListed fl r hv).vEnable > fl ((asListed fl r hv).vOutput + (asListed fl r hv).vBuckDrop) from hpre hb)]
      exact ⟨rfl, rfl⟩
    · rw [if_neg (show ¬ (asListed fl r hv).enableBuck = true from hb)]
      exact ⟨rfl, rfl⟩
  have g1 := regs.vEnableOutputThreshold
  have g2 := regs.dVEnableOutput
  rw [hst.1] at g1
  rw [hst.2] at g2
  have hE := reg_listed h.toRounding a9 g1
  refine ⟨hE, ?_⟩
  rcases hw.1 with h0 | ⟨c1, c2, c3, c4⟩
  · left
    have : dVCandidates fl sqrt (asListed fl r hv) = (0, 0) := by
      unfold dVCandidates
      exact if_neg (fun hh => absurd hh.1 (by show ¬ r.cIntermediate > 0; rw [h0]; norm_num))
    rw [this] at g2
    have z : fl (0 * 1000) = 0 := by
      have := h.exact 0 0 (by norm_num) (by norm_num)
      simpa using this
    simp only [z, pyRound_zero] at g2
    have := (u32_ok_iff.1 g2).1
    exact_mod_cast this
  · right
    have hO : fl (r.vOutput^2) ≤ 25000000 ∧ fl (r.vOutput ^ 2) = r.vOutput^2 ∧ fl (r.vEnable^2) = r.vEnable^2 := by
      have e1 : (r.vOutput.num : ℚ) = r.vOutput := by conv_rhs => rw [← Rat.num_div_den r.vOutput, a18.1]; simp
      have e2 : (r.vEnable.num : ℚ) = r.vEnable := by conv_rhs => rw [← Rat.num_div_den r.vEnable, a9.1]; simp
      have sq : ∀ n : ℤ, 0 ≤ n → n ≤ 10000 → fl ((n:ℚ)^2) = (n:ℚ)^2 := by
        intro n n0 n1
        have := h.exact (n^2) 0 (by rw [abs_of_nonneg (by positivity)]; nlinarith) (by norm_num)
        rw [zpow_zero, mul_one] at this
        push_cast at this
        exact this
      have o0 : (0:ℚ) ≤ r.vOutput.num := by rw [e1]; exact a18.2.1
      have o1 : (r.vOutput.num:ℚ) ≤ 10000 := by rw [e1]; linarith [a18.2.2]
      have v0 : (0:ℚ) ≤ r.vEnable.num := by rw [e2]; exact a9.2.1
      have v1 : (r.vEnable.num:ℚ) ≤ 10000 := by rw [e2]; exact a9.2.2
      have s1 := sq r.vOutput.num (by exact_mod_cast o0) (by exact_mod_cast o1)
      have s2 := sq r.vEnable.num (by exact_mod_cast v0) (by exact_mod_cast v1)
      rw [e1] at s1
      rw [e2] at s2
      exact ⟨by rw [s1]; nlinarith [a18.2.1, a18.2.2], s1, s2⟩
    have hR : fl (r.cOutput / r.cIntermediate) ≤ 1/32 := by
      have e32 : fl (1/32) = 1/32 := by
        have := h.exact 1 (-5) (by norm_num) (by norm_num)
        rw [zpow_neg] at this
        norm_num at this ⊢
        exact this
      rw [← e32]
      apply h.mono
      rw [c1]
      exact one_div_le_one_div_of_le (by norm_num) c2
    have hR0 : 0 ≤ fl (r.cOutput / r.cIntermediate) := h.nonneg (by rw [c1]; exact div_nonneg (by norm_num) (by linarith))
    have hX : 1 ≤ fl (fl (r.vEnable^2) - fl (fl (r.cOutput / r.cIntermediate) * fl (r.vOutput^2))) := by
      have e32 : fl (r.vOutput^2 / 32) = r.vOutput^2 / 32 := by
        have e1 : (r.vOutput.num : ℚ) = r.vOutput := by conv_rhs => rw [← Rat.num_div_den r.vOutput, a18.1]; simp
        have o0 : (0:ℚ) ≤ r.vOutput.num := by rw [e1]; exact a18.2.1
        have o1 : (r.vOutput.num:ℚ) ≤ 10000 := by rw [e1]; linarith [a18.2.2]
        have o0' : 0 ≤ r.vOutput.num := by exact_mod_cast o0
        have o1' : r.vOutput.num ≤ 10000 := by exact_mod_cast o1
        have := h.exact (r.vOutput.num^2) (-5) (by rw [abs_of_nonneg (by positivity)]; nlinarith) (by norm_num)
        rw [zpow_neg] at this
        push_cast at this
        rw [e1] at this
        norm_num at this ⊢
        rw [div_eq_mul_one_div]
        exact this
      have hB : fl (fl (r.cOutput / r.cIntermediate) * fl (r.vOutput^2)) ≤ r.vOutput^2 / 32 := by
        rw [← e32]
        apply h.mono
        rw [hO.2.1]
        have : 0 ≤ r.vOutput^2 := by positivity
        nlinarith
      have := h.toRounding.int_le (n := 1) (x := fl (r.vEnable^2) - fl (fl (r.cOutput / r.cIntermediate) * fl (r.vOutput^2))) (by norm_num) (by
        rw [hO.2.2]
        push_cast
        linarith)
      exact_mod_cast this
    have hd : (dVCandidates fl sqrt (asListed fl r hv)).1 ≤ r.vEnable - 1 := by
      have hval : (dVCandidates fl sqrt (asListed fl r hv)).1 = protect ((powHalf sqrt (fl (fl (r.vEnable^2) - fl (fl (r.cOutput / r.cIntermediate) * fl (r.vOutput^2))))).map (fun q => fl (r.vEnable - q))) := by
        unfold dVCandidates
        rw [if_pos ⟨(by show r.cIntermediate > 0; linarith), (by show r.cOutput > 0; rw [c1]; norm_num)⟩]
        rfl
      rw [hval]
      unfold powHalf
      rw [if_neg (not_lt.2 (by linarith))]
      simp only [Option.map_some, protect]
      have e2 : (r.vEnable.num : ℚ) = r.vEnable := by conv_rhs => rw [← Rat.num_div_den r.vEnable, a9.1]; simp
      have hq : fl (r.vEnable - sqrt (fl (fl (r.vEnable^2) - fl (fl (r.cOutput / r.cIntermediate) * fl (r.vOutput^2))))) ≤ r.vEnable - 1 := by
        have v0 : (0:ℚ) ≤ r.vEnable.num := by rw [e2]; exact a9.2.1
        have v1 : (r.vEnable.num:ℚ) ≤ 10000 := by rw [e2]; exact a9.2.2
        have v0' : 0 ≤ r.vEnable.num := by exact_mod_cast v0
        have v1' : r.vEnable.num ≤ 10000 := by exact_mod_cast v1
        have := h.toRounding.le_int (n := r.vEnable.num - 1) (x := r.vEnable - sqrt (fl (fl (r.vEnable^2) - fl (fl (r.cOutput / r.cIntermediate) * fl (r.vOutput^2))))) (by
          rw [abs_le]; constructor <;> omega) (by push_cast; rw [e2]; linarith [hs1 _ hX])
        push_cast at this
        rwa [e2] at this
      split_ifs
      · exact hq
      · linarith
    have hle : (p.dVEnableOutput : ℤ) ≤ pyRound (fl ((r.vEnable - 1) * 1000)) := by
      rw [(u32_ok_iff.1 g2).1]
      exact pyRound_mono (h.mono (by linarith))
    have e2 : (r.vEnable.num : ℚ) = r.vEnable := by conv_rhs => rw [← Rat.num_div_den r.vEnable, a9.1]; simp
    have v0 : (0:ℚ) ≤ r.vEnable.num := by rw [e2]; exact a9.2.1
    have v1 : (r.vEnable.num:ℚ) ≤ 10000 := by rw [e2]; exact a9.2.2
    have v0' : 0 ≤ r.vEnable.num := by exact_mod_cast v0
    have v1' : r.vEnable.num ≤ 10000 := by exact_mod_cast v1
    have hf := h.exact ((r.vEnable.num - 1) * 1000) 0 (by rw [abs_le]; constructor <;> omega) (by norm_num)
    rw [zpow_zero, mul_one] at hf
    have hcast : (((r.vEnable.num - 1) * 1000 : ℤ) : ℚ) = (r.vEnable - 1) * 1000 := by push_cast; rw [e2]
    rw [← hcast, hf, pyRound_intCast] at hle
    have hE' : (p.vEnableOutputThreshold : ℤ) = r.vEnable.num * 1000 := by
      have : ((p.vEnableOutputThreshold : ℤ) : ℚ) = ((r.vEnable.num * 1000 : ℤ) : ℚ) := by push_cast; rw [e2]; exact hE
      exact_mod_cast this
    omega

theorem translated (h : AccRounding fl) (hs1 : ∀ y, 1 ≤ y → 1 ≤ sqrt y) (hs0 : ∀ y, 0 ≤ y → 0 ≤ sqrt y) (r : VsrcRaw) (hv : VhrvCfg) (hr : SourceOk r) (hval : (asListed fl r hv).Valid fl)
    (dtypeIn : EnergyDType) (logMid : Bool) : ∃ p, fromVsrc fl sqrt (asListed fl r hv) dtypeIn logMid = .ok p ∧ p.Valid := by
  have _ := hs1
  refine C26_translation_partial h.toRounding hs0 _ hval ?_ dtypeIn logMid
  intro x hx
  obtain ⟨x', hx', rfl⟩ := List.mem_map.mp hx
  right
  have hq : fl (1/4) = 1/4 := by
    have := h.exact 1 (-2) (by norm_num) (by norm_num)
    rw [zpow_neg] at this
    norm_num at this ⊢
    exact this
  have h1 : (1/4 : ℚ) ≤ fl x' := by
    rw [← hq]
    exact h.mono (hr.2.2.2.2.2.2.2.2.2.2.2.2.2.2.2.2.2.2.2.2.2.2.2.1.2 x' hx').1
  refine le_trans ?_ h1
  have : (2:ℚ)^(-1000:ℤ) ≤ 2^(-2:ℤ) := zpow_le_zpow_right₀ (by norm_num) (by norm_num)
  refine this.trans ?_
  norm_num

/-- **C96, runs.**  Every listed source works: for every kind of input and calibration and every sequence of inputs and readings it runs without exception, the voltage of the storage stays
between 0 and its maximum, the output between 0 and the voltage of the storage, with a buck converter below its output voltage, and the current from the storage can be read. -/
theorem C96_runs (h : AccRounding fl) (hs0 : ∀ y, 0 ≤ y → 0 ≤ sqrt y) (hs1 : ∀ y, 1 ≤ y → 1 ≤ sqrt y) (adc dac : CalPair) (ha : minCurrentLimit fl adc < 1)
    (hd : minVoltageStep fl dac < 1) (s : String × VsrcRaw) (hs : s ∈ sources) (dtypeIn : EnergyDType) (logMid : Bool) :
    ∃ c p, loadVsrc fl adc dac contentFiles s.1 = .ok c ∧ fromVsrc fl sqrt c dtypeIn logMid = .ok p ∧
      ∀ (cal : CalEmulator) (xs : List CnvIn), xs ≠ [] → ∃ t os, cnvRun fl p cal (CnvState.init fl p cal) xs = .ok (t, os) ∧ os.length = xs.length ∧
        (0 ≤ t.vMid ∧ t.vMid ≤ s.2.vIntermediateMax * 1000) ∧ (0 ≤ t.vOut ∧ t.vOut ≤ t.vMid ∧ (s.2.enableBuck = true → t.vOut ≤ s.2.vOutput * 1000)) ∧
        getIMidOut fl t = .ok (fl (t.pOut / t.vMid)) := by
  obtain ⟨hv, -, h2, h3⟩ := C96_sources h adc dac ha hd s hs
  have hw := sources_written s hs
  have hk := sources_work s hs
  obtain ⟨p, hp, hpv⟩ := translated h hs1 hs0 s.2 hv hw h3 dtypeIn logMid
  refine ⟨_, p, h2, hp, ?_⟩
  intro cal xs hne
  obtain ⟨t, os, hrun, hlen⟩ := C17_no_exception (fl := fl) p hpv cal xs
  have regs := fromVsrc_regs hp
  have hI := (listed_regs h hs1 s.2 hv hw hk dtypeIn logMid p hp).2
  obtain ⟨-, a1, a2, a3, a4, a5, a6, a7, a8, a9, a10, a11, a12, a13, a14, a15, a16, a17, l1, l2, l3, a18, a19, l4, l5⟩ := hw
  have hM := reg_listed h.toRounding a17 regs.vIntermediateMax
  have hO := reg_listed h.toRounding ⟨a18.1, a18.2.1, by linarith [a18.2.2]⟩ regs.vOutput
  have hmode := (C27_converter_mode _ dtypeIn logMid p hp).2.2.1
  have hone : ∀ s ∈ sources, 1 ≤ s.2.vIntermediateMax := by decide +kernel
  have b := (C08_storage_bounds h.toRounding p hpv cal xs hne t os hrun).1
  rw [hM, max_eq_right (by linarith [hone s hs])] at b
  have o := C09_output_voltage h.toRounding p hpv cal xs hne t os hrun
  refine ⟨t, os, hrun, hlen, b, ⟨o.1, o.2.1, ?_⟩, C69_I_mid_out_partial h.toRounding p hpv cal hI.symm xs hne t os hrun⟩
  intro hb
  rw [← hO]
  exact o.2.2.2 (by rw [hmode]; exact hb)

/-- Power good implies output if the storage of a source with buck converter is not between 2.5 V and 3 V after the first sample. -/
theorem good_from_first (h : AccRounding fl) (hs1 : ∀ y, 1 ≤ y → 1 ≤ sqrt y) (s : String × VsrcRaw) (hs : s ∈ sources) (adc dac : CalPair)
    (ha : minCurrentLimit fl adc < 1) (hd : minVoltageStep fl dac < 1) (c : VsrcCfg) (hc : loadVsrc fl adc dac contentFiles s.1 = .ok c) (dtypeIn : EnergyDType) (logMid : Bool) (p : CnvCfg)
    (hp : fromVsrc fl sqrt c dtypeIn logMid = .ok p) (cal : CalEmulator) (x : CnvIn) (xs : List CnvIn) (t : CnvState) (o : CnvOut) (os : List CnvOut)
    (hrun : cnvRun fl p cal (CnvState.init fl p cal) (x :: xs) = .ok (t, o :: os))
    (hfirst : s.2.enableBuck = true → o.vCap ≤ 2500000 ∨ 3000000 ≤ o.vCap) : t.powerGood = true → t.isOutputting = true := by
  obtain ⟨hv, -, h2, h3⟩ := C96_sources h adc dac ha hd s hs
  rw [h2] at hc
  obtain rfl := Except.ok.inj hc
  have hw := sources_written s hs
  have hk := sources_work s hs
  have hreg := listed_regs h hs1 s.2 hv hw hk dtypeIn logMid p hp
  have hn := (C26_registers_fit h.toRounding _ h3 dtypeIn logMid p hp).2.2
  have regs := fromVsrc_regs hp
  obtain ⟨-, a1, a2, a3, a4, a5, a6, a7, a8, a9, a10, a11, a12, a13, a14, a15, a16, a17, l1, l2, l3, a18, a19, l4, l5⟩ := hw
  have hG := reg_listed h.toRounding a13 regs.vPwrGoodDisableThreshold
  have hthr := C15_configuration h.toRounding _ dtypeIn logMid p hp (a13.eq h.toRounding le_rfl (by norm_num)) hk.2.2.1 (fun hb => (hk.2.2.2.1 hb).1)
  refine C15_from_start_partial p (by omega) cal hthr x xs t o os hrun ?_
  have hmax : max (p.dVEnableOutput : ℚ) p.vEnableOutputThreshold = s.2.vEnable * 1000 := by
    rw [← hreg.1]
    apply max_eq_right
    rcases hreg.2 with h0 | h0
    · rw [h0]; simp
    · exact_mod_cast h0.le
  rw [hmax, hG]
  cases hb : s.2.enableBuck with
  | true =>
    have := hk.2.2.2.1 hb
    rw [this.2.1, this.2.2]
    rcases hfirst hb with h0 | h0
    · left; linarith
    · right; linarith
  | false =>
    have := hk.2.2.2.2.1 hb
    rcases le_total (o.vCap : ℚ) (s.2.vPwrGoodDisable * 1000) with h0 | h0
    · exact Or.inl h0
    · right; linarith

/-- The first sample takes less than 0.4 V from the storage of the sources with buck converter, if no reading is above 0.2 A. -/
theorem first_sample (h : AccRounding fl) (r : VsrcRaw) (hv : VhrvCfg) (hr : SourceOk r) (hval : (asListed fl r hv).Valid fl) (hb : r.enableBuck = true)
    (h1 : r.vIntermediateInit = 3400 ∧ r.cIntermediate = 33 ∧ r.vOutput = 2200 ∧ r.iIntermediateLeak = 0 ∧ r.vIntermediateMax = 5500)
    (dtypeIn : EnergyDType) (logMid : Bool) (p : CnvCfg) (hp : fromVsrc fl sqrt (asListed fl r hv) dtypeIn logMid = .ok p) (cal : CalEmulator)
    (hcal : ∀ raw : ℤ, 0 ≤ raw → raw < 2^18 → cal.adcCA.rawToSi fl raw ≤ 1/5) (x : CnvIn) (t : CnvState) (o : CnvOut) (hstep : cnvStep fl p cal (CnvState.init fl p cal) x = .ok (t, o)) :
    3000000 ≤ o.vCap := by
  have regs := fromVsrc_regs hp
  have hpv := (C26_registers_fit h.toRounding _ hval dtypeIn logMid p hp).1
  have hmode := C27_converter_mode _ dtypeIn logMid p hp
  have hbuck : p.enableBuck = true := by rw [hmode.2.2.1]; exact hb
  have hsto : p.enableStorage = true := hmode.1.2 (by show (0:ℚ) < r.cIntermediate; rw [h1.2.1]; norm_num)
  obtain ⟨-, a1, a2, a3, a4, a5, a6, a7, a8, a9, a10, a11, a12, a13, a14, a15, a16, a17, l1, l2, l3, a18, a19, l4, l5⟩ := hr
  have hInit : (p.vIntermediateInit : ℚ) = 3400000 := by
    have := reg_listed h.toRounding a7 regs.vIntermediateInit
    rw [this, h1.1]; norm_num
  have hMax : (p.vIntermediateMax : ℚ) = 5500000 := by
    have := reg_listed h.toRounding a17 regs.vIntermediateMax
    rw [this, h1.2.2.2.2]; norm_num
  have hOut : (p.vOutput : ℚ) = 2200000 := by
    have := reg_listed h.toRounding ⟨a18.1, a18.2.1, by linarith [a18.2.2]⟩ regs.vOutput
    rw [this, h1.2.2.1]; norm_num
  have hLeak : p.iIntermediateLeak = 0 := by
    have := regs.iIntermediateLeak
    rw [show (asListed fl r hv).iIntermediateLeak = 0 from h1.2.2.2.1, pyRound_zero] at this
    exact_mod_cast (u32_ok_iff.1 this).1
  have hCap : p.capConstant fl ≤ 1/2500 ∧ 0 ≤ p.capConstant fl := by
    constructor
    · have := (C70_in_use h _ hval dtypeIn logMid p hp).2
      rw [show (asListed fl r hv).cIntermediate = 33 from h1.2.1, abs_le] at this
      have h2 := this.2
      norm_num at h2
      linarith
    · exact h.nonneg (by positivity)
  have z : fl 0 = 0 := by
    have := h.exact 0 0 (by norm_num) (by norm_num)
    simpa using this
  unfold cnvStep at hstep
  obtain ⟨⟨s1, pi⟩, e1, hstep⟩ := bind_ok_iff.1 hstep
  obtain ⟨⟨s2, po⟩, e2, hstep⟩ := bind_ok_iff.1 hstep
  dsimp only at e2 hstep
  have hrep : fl (CnvState.init fl p cal).vMid = (CnvState.init fl p cal).vMid := vMid_rep h.toRounding p hpv cal [] _ [] rfl
  have hvm : (CnvState.init fl p cal).vMid = 3400000 := hInit
  have hpi := inp_power_nonneg h.toRounding p hpv _ (by rw [hvm]; norm_num) hrep x.v x.i e1
  obtain ⟨f1, f2, f3, f4, f5, f6, f7, f8, -⟩ := calcInpPower_frame p _ x.v x.i e1
  rw [if_neg (by rw [hsto]; simp), hvm] at f8
  have f3' : s1.vOut = 2200000 := by rw [f3]; exact hOut
  have f7' : s1.residue = 0 := f7
  obtain ⟨eta, e3, e4, -⟩ := calcOutPower_eq p cal s1 x.adc e2
  rw [if_pos hbuck] at e3
  have heta : 0 ≤ eta ∧ eta ≤ 4 := by
    obtain ⟨m, hm, hm'⟩ := getOutputInvEfficiency_ok (fl := fl) p hpv (convAdcRawToNA fl cal.adcCA s1.residue (min (2^18-1) (max 0 x.adc))).1
    rw [e3] at hm'
    injection hm' with hm'
    rw [hm']
    obtain ⟨y, hy, hy'⟩ := mapM_ok_mem _ regs.lutOutInvEfficiencyN4 m hm
    obtain ⟨y', hy0, rfl⟩ := List.mem_map.mp hy
    have hq : fl (1/4) = 1/4 := by
      have := h.exact 1 (-2) (by norm_num) (by norm_num)
      rw [zpow_neg] at this
      norm_num at this ⊢
      exact this
    have hge : (1/4 : ℚ) ≤ fl y' := by
      rw [← hq]
      exact h.mono (l4.2 y' hy0).1
    unfold lutOutEntry at hy'
    rw [if_pos (by linarith : fl y' > 0)] at hy'
    split_ifs at hy' with hov
    have hm64 : (m : ℤ) ≤ 64 := by
      rw [(u32_ok_iff.1 hy').1]
      refine (min_le_right _ _).trans ?_
      refine pyRound_le_intCast ?_
      refine h.toRounding.le_int (by norm_num) ?_
      rw [div_le_iff₀ (by linarith)]
      push_cast
      linarith
    have hmq : (m : ℚ) ≤ 64 := by exact_mod_cast hm64
    refine ⟨h.nonneg (by positivity), ?_⟩
    have := h.toRounding.le_int (n := 4) (x := (m:ℚ)/2^4) (by norm_num) (by push_cast; linarith)
    exact_mod_cast this
  have hraw : (convAdcRawToNA fl cal.adcCA s1.residue (min (2^18-1) (max 0 x.adc))).1 ≤ 200000000 := by
    have hc := hcal (min (2^18-1) (max 0 x.adc)) (le_min (by norm_num) (le_max_left _ _)) (lt_of_le_of_lt (min_le_left _ _) (by norm_num))
    generalize min (2^18-1) (max 0 x.adc) = raw at *
    have hi : fl (cal.adcCA.rawToSi fl raw * 10^9) ≤ 200000000 := by
      have := h.toRounding.le_int (n := 200000000) (x := cal.adcCA.rawToSi fl raw * 10^9) (by norm_num) (by push_cast; linarith)
      exact_mod_cast this
    unfold convAdcRawToNA
    dsimp only
    rw [f7']
    split_ifs
    · rw [sub_zero, h.idem]; exact hi
    · norm_num
    · exact hi
  generalize (convAdcRawToNA fl cal.adcCA s1.residue (min (2^18-1) (max 0 x.adc))).1 = iOut at *
  have hpo : s2.pOut ≤ 1760000000000000 := by
    rw [e4]
    dsimp only
    split_ifs
    · norm_num
    · rw [hLeak]
      simp only [Nat.cast_zero, mul_zero, z, add_zero]
      rw [h.idem, f3']
      have g1 : fl (eta * 2200000) ≤ 8800000 := by
        have := h.toRounding.le_int (n := 8800000) (x := eta * 2200000) (by norm_num) (by push_cast; linarith)
        exact_mod_cast this
      have g0 : 0 ≤ fl (eta * 2200000) := h.nonneg (by linarith)
      have := h.toRounding.le_int (n := 1760000000000000) (x := fl (eta * 2200000) * iOut) (by norm_num) (by
        have m1 := mul_le_mul_of_nonneg_left hraw g0
        push_cast
        linarith)
      exact_mod_cast this
  have hs2 : s2.vMid = 3400000 ∧ s2.pInp = s1.pInp := by rw [e4]; exact ⟨f8, rfl⟩
  have hcap : o.vCap = (updateCapStorage fl p s2).1.vMid := by
    simp only [pure, Except.pure] at hstep
    have ho := (Prod.mk.inj (Except.ok.inj hstep)).2
    rw [← ho]
  rw [hcap, updateCapStorage_eq]
  dsimp only
  rw [if_pos hsto, hs2.1, hs2.2, hMax]
  refine le_max_of_le_left (le_min ?_ (by norm_num))
  have g1 : -1760000000000000 ≤ fl (s1.pInp - s2.pOut) := by
    have := h.toRounding.int_le (n := -1760000000000000) (x := s1.pInp - s2.pOut) (by norm_num) (by push_cast; linarith)
    exact_mod_cast this
  have g2 : -600000000 ≤ fl (fl (s1.pInp - s2.pOut) / max 1 3400000) := by
    have := h.toRounding.int_le (n := -600000000) (x := fl (s1.pInp - s2.pOut) / max 1 3400000) (by norm_num) (by
      rw [max_eq_right (by norm_num), le_div_iff₀ (by norm_num)]
      push_cast
      linarith)
    exact_mod_cast this
  have g3 : -240000 ≤ fl (fl (fl (s1.pInp - s2.pOut) / max 1 3400000) * p.capConstant fl) := by
    have := h.toRounding.int_le (n := -240000) (x := fl (fl (s1.pInp - s2.pOut) / max 1 3400000) * p.capConstant fl) (by norm_num) (by
      have m1 := mul_le_mul_of_nonneg_right g2 hCap.2
      push_cast
      linarith [hCap.1])
    exact_mod_cast this
  have := h.toRounding.int_le (n := 3000000) (x := 3400000 + fl (fl (fl (s1.pInp - s2.pOut) / max 1 3400000) * p.capConstant fl)) (by norm_num) (by push_cast; linarith)
  exact_mod_cast this

/-- **C96, power good.**  In every non-empty run of a listed source power good implies that the output is on.  For sources with a buck converter readings of the current are at most 0.2 A. -/
theorem C96_power_good (h : AccRounding fl) (hs1 : ∀ y, 1 ≤ y → 1 ≤ sqrt y) (s : String × VsrcRaw) (hs : s ∈ sources) (adc dac : CalPair)
    (ha : minCurrentLimit fl adc < 1) (hd : minVoltageStep fl dac < 1) (c : VsrcCfg) (hc : loadVsrc fl adc dac contentFiles s.1 = .ok c) (dtypeIn : EnergyDType) (logMid : Bool) (p : CnvCfg)
    (hp : fromVsrc fl sqrt c dtypeIn logMid = .ok p) (cal : CalEmulator) (hcal : s.2.enableBuck = true → ∀ raw : ℤ, 0 ≤ raw → raw < 2^18 → cal.adcCA.rawToSi fl raw ≤ 1/5)
    (xs : List CnvIn) (hne : xs ≠ []) (t : CnvState) (os : List CnvOut)
    (hrun : cnvRun fl p cal (CnvState.init fl p cal) xs = .ok (t, os)) : t.powerGood = true → t.isOutputting = true := by
  obtain ⟨x, xs, rfl⟩ := List.exists_cons_of_ne_nil hne
  obtain ⟨s1, o1, os1, ha', hb', rfl⟩ := cnvRun_cons p cal _ x xs hrun
  refine good_from_first h hs1 s hs adc dac ha hd c hc dtypeIn logMid p hp cal x xs t o1 os1 hrun ?_
  intro hb
  right
  obtain ⟨hv, -, h2, h3⟩ := C96_sources h adc dac ha hd s hs
  rw [h2] at hc
  obtain rfl := Except.ok.inj hc
  have key : ∀ s ∈ sources, s.2.enableBuck = true → s.2.vIntermediateInit = 3400 ∧ s.2.cIntermediate = 33 ∧ s.2.vOutput = 2200 ∧ s.2.iIntermediateLeak = 0 ∧ s.2.vIntermediateMax = 5500 := by
    decide +kernel
  exact first_sample h s.2 hv (sources_written s hs) h3 hb (key s hs hb) dtypeIn logMid p hp cal (hcal hb) x s1 o1 ha'

/-- **C96, energy of the input.**  Every listed source without a resistor at the input is never credited more than the power that was offered, in every state it reaches. -/
theorem C96_input_partial (h : AccRounding fl) (hs1 : ∀ y, 1 ≤ y → 1 ≤ sqrt y) (hs0 : ∀ y, 0 ≤ y → 0 ≤ sqrt y) (s : String × VsrcRaw) (hs : s ∈ sources)
    (hn : s.1 ≠ "diode+resistor+capacitor" ∧ s.1 ≠ "dio_res_cap") (adc dac : CalPair)
    (ha : minCurrentLimit fl adc < 1) (hd : minVoltageStep fl dac < 1) (c : VsrcCfg) (hc : loadVsrc fl adc dac contentFiles s.1 = .ok c) (dtypeIn : EnergyDType) (logMid : Bool) (p : CnvCfg)
    (hp : fromVsrc fl sqrt c dtypeIn logMid = .ok p) (cal : CalEmulator) (xs : List CnvIn) (t : CnvState) (os : List CnvOut)
    (hrun : cnvRun fl p cal (CnvState.init fl p cal) xs = .ok (t, os)) (v i : ℚ) (hv : fl v = v) :
    ∃ t' r, calcInpPower fl p t v i = .ok (t', r) ∧ 0 ≤ t'.pInp ∧ t'.pInp ≤ fl (max 0 v * max 0 i) := by
  obtain ⟨hv', -, h2, h3⟩ := C96_sources h adc dac ha hd s hs
  rw [h2] at hc
  obtain rfl := Except.ok.inj hc
  have hw := sources_written s hs
  obtain ⟨p', hp', hpv⟩ := translated h hs1 hs0 s.2 hv' hw h3 dtypeIn logMid
  rw [hp] at hp'
  cases hp'
  have hm : 0 ≤ t.vMid := by
    cases xs with
    | nil =>
      simp only [cnvRun] at hrun
      cases hrun
      exact Nat.cast_nonneg _
    | cons x xs => exact (C08_storage_bounds h.toRounding p hpv cal _ (by simp) t os hrun).1.1
  obtain ⟨t', r, e⟩ := calcInpPower_total (fl := fl) p hpv t v i
  have key : ∀ s ∈ sources, s.2.rInput = 0 ∨ s.1 = "diode+resistor+capacitor" ∨ s.1 = "dio_res_cap" := by decide +kernel
  have hr0 : p.rInputN22 = 0 := by
    have := (fromVsrc_regs hp).rInputN22
    rw [show (asListed fl s.2 hv').rInput = 0 from (key s hs).resolve_right (fun hx => hx.elim hn.1 hn.2), zero_mul] at this
    have z : fl 0 = 0 := by
      have := h.exact 0 0 (by norm_num) (by norm_num)
      simpa using this
    rw [z, pyRound_zero] at this
    exact_mod_cast (u32_ok_iff.1 this).1
  have := C13_input_power_partial h.toRounding p hpv t t' hm (vMid_rep h.toRounding p hpv cal xs t os hrun) v i hv r e (Or.inr (Or.inr (Or.inr hr0)))
  exact ⟨t', r, e, this.1, this.2.1⟩

/-- **C96, energy with a resistor.**  At the start the storage of the two sources with diode, resistor and capacitor is credited 3 mW from a current of 1 mA at 0 V. -/
theorem C96_energy_violated (h : AccRounding fl) (hs1 : ∀ y, 1 ≤ y → 1 ≤ sqrt y) (hs0 : ∀ y, 0 ≤ y → 0 ≤ sqrt y) (adc dac : CalPair) (ha : minCurrentLimit fl adc < 1)
    (hd : minVoltageStep fl dac < 1) (name : String) (hn : name = "diode+resistor+capacitor" ∨ name = "dio_res_cap") (dtypeIn : EnergyDType) (logMid : Bool) :
    ∃ c p, loadVsrc fl adc dac contentFiles name = .ok c ∧ fromVsrc fl sqrt c dtypeIn logMid = .ok p ∧
      ∀ cal, ∃ t r, calcInpPower fl p (CnvState.init fl p cal) 0 1000000 = .ok (t, r) ∧ t.pInp = 3000000 * 1000000 := by
  obtain ⟨s, hs, rfl, hr⟩ : ∃ s ∈ sources, s.1 = name ∧ s.2 = { diodeCap with rInput := 10000 } := by
    rcases hn with rfl | rfl
    · exact ⟨("diode+resistor+capacitor", { diodeCap with rInput := 10000 }), by simp [sources], rfl, rfl⟩
    · exact ⟨("dio_res_cap", { diodeCap with rInput := 10000 }), by simp [sources], rfl, rfl⟩
  obtain ⟨hv, -, h2, h3⟩ := C96_sources h adc dac ha hd s hs
  have hw := sources_written s hs
  obtain ⟨p, hp, hpv⟩ := translated h hs1 hs0 s.2 hv hw h3 dtypeIn logMid
  refine ⟨_, p, h2, hp, fun cal => ?_⟩
  obtain ⟨t, r, e⟩ := calcInpPower_total (fl := fl) p hpv (CnvState.init fl p cal) 0 1000000
  refine ⟨t, r, e, ?_⟩
  have regs := fromVsrc_regs hp
  have hmode := C27_converter_mode _ dtypeIn logMid p hp
  have hsto : p.enableStorage = true := hmode.1.2 (by show (0:ℚ) < s.2.cIntermediate; rw [hr]; norm_num [diodeCap])
  have hboost : p.enableBoost = false := by
    cases hb : p.enableBoost with
    | false => rfl
    | true =>
      have := (hmode.2.1.1 hb).1
      rw [show (asListed fl s.2 hv).enableBoost = s.2.enableBoost from rfl, hr] at this
      cases this
  have hInit : (p.vIntermediateInit : ℚ) = 3000000 := by
    have := reg_listed h.toRounding hw.2.2.2.2.2.2.2.1 regs.vIntermediateInit
    rw [this, hr]; norm_num [diodeCap]
  have hDrop : (0:ℚ) ≤ p.vInputDrop := Nat.cast_nonneg _
  have hMax : (1000000:ℚ) ≤ p.iInputMax := by
    have e1 := regs.iInputMax
    rw [show (asListed fl s.2 hv).iInputMax = 4200 by show s.2.iInputMax = 4200; rw [hr]; rfl] at e1
    have hf := h.exact 4200000000 0 (by norm_num) (by norm_num)
    rw [zpow_zero, mul_one] at hf
    rw [show (4200:ℚ) * 10^6 = ((4200000000 : ℤ) : ℚ) by norm_num, hf, pyRound_intCast] at e1
    have := (u32_ok_iff.1 e1).1
    have : (1000000:ℤ) ≤ p.iInputMax := by omega
    exact_mod_cast this
  have hRes : 1/1000 ≤ p.rInput fl := by
    have := (C70_in_use h _ h3 dtypeIn logMid p hp).1
    rw [show (asListed fl s.2 hv).rInput = 10000 by show s.2.rInput = 10000; rw [hr], abs_le] at this
    have h2 := this.1
    norm_num at h2
    linarith
  have z : fl 0 = 0 := by
    have := h.exact 0 0 (by norm_num) (by norm_num)
    simpa using this
  have hI : clampI p 1000000 = 1000000 := by
    unfold clampI
    rw [max_eq_right (by norm_num), min_eq_left hMax]
  have hV : clampV fl p 0 = 0 := by
    unfold clampV
    rw [max_self, if_neg (by linarith), min_eq_left (Nat.cast_nonneg _)]
  have hvm : (CnvState.init fl p cal).vMid = 3000000 := hInit
  have hst := (calcInpPower_store p hboost hsto _ 0 1000000 e).1
  have hres1 : 1 ≤ fl (1000000 * p.rInput fl) := by
    have := h.toRounding.int_le (n := 1) (x := 1000000 * p.rInput fl) (by norm_num) (by push_cast; linarith)
    exact_mod_cast this
  rw [hI, hV, hvm, if_neg (by norm_num : ¬ (0:ℚ) ≥ 3000000), if_pos (by linarith : fl (1000000 * p.rInput fl) > 0), if_neg (lt_irrefl (3000000:ℚ))] at hst
  have hx : fl (fl (1 * 3000000) * 1000000) = 3000000 * 1000000 := by
    have h1 := h.exact 3000000 0 (by norm_num) (by norm_num)
    have h2 := h.exact 3000000000000 0 (by norm_num) (by norm_num)
    rw [zpow_zero, mul_one] at h1 h2
    norm_num at h1 h2 ⊢
    rw [h1]
    norm_num
    exact h2
  rw [hst]
  split_ifs <;> exact hx

/-- The conditions are met: the calibration of the defaults in double precision. -/
example : ∃ adc dac, defaultAdcC b64 = some adc ∧ defaultDac b64 = some dac ∧ AccRounding b64 ∧ minCurrentLimit b64 adc < 1 ∧ minVoltageStep b64 dac < 1 := by
  obtain ⟨adc, dac, h1, h2, h3, h4⟩ := C30_default_floors
  exact ⟨adc, dac, h1, h2, b64_accRounding, h3, h4⟩

/-- A usable root: not exact, but with the two bounds. -/
example : (∀ y : ℚ, 0 ≤ y → 0 ≤ max 0 (min y ((y + 1) / 2))) ∧ (∀ y : ℚ, 1 ≤ y → 1 ≤ max 0 (min y ((y + 1) / 2))) :=
  ⟨fun _ _ => le_max_left _ _, fun y hy => le_max_of_le_right (le_min hy (by linarith))⟩

/-- The condition on the readings holds for the calibration of the defaults (at most 53.4 mA). -/
example : defaultAdcC b64 = some ⟨7686143364045647/37778931862957161709568, 0⟩ ∧
    ∀ raw : ℤ, 0 ≤ raw → raw < 2^18 → CalPair.rawToSi b64 ⟨7686143364045647/37778931862957161709568, 0⟩ raw ≤ 1/5 := by
  refine ⟨by decide +kernel, fun raw h0 h1 => ?_⟩
  have hq : b64 (1/16) = 1/16 := by decide +kernel
  have hr : b64 (raw : ℚ) ≤ 2^18 := by
    have := b64_rounding.le_int (n := 2^18) (x := (raw:ℚ)) (by norm_num) (by exact_mod_cast h1.le)
    exact_mod_cast this
  have hm : b64 (b64 (raw : ℚ) * (7686143364045647/37778931862957161709568)) ≤ 1/16 := by
    rw [← hq]
    apply b64_rounding.mono
    have := mul_le_mul_of_nonneg_right hr (by norm_num : (0:ℚ) ≤ 7686143364045647/37778931862957161709568)
    refine this.trans ?_
    norm_num
  have h2 : b64 (b64 (b64 (raw : ℚ) * (7686143364045647/37778931862957161709568)) + 0) ≤ 1/16 := by
    rw [add_zero, ← hq]
    exact b64_rounding.mono hm
  simp only [CalPair.rawToSi]
  exact h2.trans (by norm_num)

end Verif.Props
