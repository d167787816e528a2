import Verif.Model.SimFile
import Verif.Props.Recorder
import Verif.Props.CutFile
import Verif.Props.Source
import Verif.Props.Commands

/-!
# C106, C107 — simulations from file to file, and the monitoring of internals
-/

namespace Verif.Props
open Verif.Py Verif.Model

/-! ## Specification -/

/-- The samples of a recording that lie in full buffers of 10000. -/
def fullSamples (inp : Session) : List RawSample :=
  let k := (inp.get .voltage).length / 10000 * 10000
  ((inp.get .voltage).take k).zipWith (fun v i => ⟨v.toNat, i.toNat⟩) ((inp.get .current).take k)

/-- Their time stamps. -/
def fullTimes (inp : Session) : List ℤ := (inp.get .time).take ((inp.get .voltage).length / 10000 * 10000)

/-- The time stamps are unsigned 64 bit numbers (as they are in a file). -/
def TimesFit (inp : Session) : Prop := ∀ t ∈ inp.get .time, 0 ≤ t ∧ t < 2^64

/-! ## Appending one buffer -/

theorem append_buffer (w : Session) (h0 : EqualLengths w) (ts vs cs : List ℤ) (h1 : vs.length = ts.length) (h2 : cs.length = ts.length) :
    ∃ w', w.appendRaw (.array ts) vs cs = .ok w' ∧ w'.Same w ∧ EqualLengths w' ∧ w'.get .time = w.get .time ++ ts.map DsName.time.clamp ∧
      w'.get .voltage = w.get .voltage ++ vs.map DsName.voltage.clamp ∧ w'.get .current = w.get .current ++ cs.map DsName.current.clamp := by
  obtain ⟨w', hw⟩ : ∃ w', w.appendRaw (.array ts) vs cs = .ok w' := by
    unfold Session.appendRaw Session.appendPlan stampList
    exact ⟨_, rfl⟩
  obtain ⟨hs, hg⟩ := raw_step exact hw
  have hsh : shortest (.raw (.array ts) vs cs) = ts.length := by simp [shortest, h1, h2]
  have key : ∀ n, w'.get n = w.get n ++ (offered exact w.cal w.stats.intervalNs (.raw (.array ts) vs cs) n).map n.clamp := by
    intro n
    rw [hg n, ← h0 n, resizeList_self, hsh, List.take_of_length_le]
    cases n <;> simp [offered, h1, h2]
  have kt := key .time
  have kv := key .voltage
  have kc := key .current
  simp only [offered] at kt kv kc
  refine ⟨w', hw, hs, fun n => ?_, kt, kv, kc⟩
  cases n with
  | time => rw [kt, kv, List.length_append, List.length_append, h0 .time]; simp [h1]
  | voltage => rfl
  | current => rw [kc, kv, List.length_append, List.length_append, h0 .current]; simp [h1, h2]

/-! ## The buffers of a recording -/

theorem rawSamples_append (a b c d : List ℤ) (h : a.length = c.length) : rawSamples (a ++ b) (c ++ d) = rawSamples a c ++ rawSamples b d := by
  unfold rawSamples
  exact List.zipWith_append h

theorem rawSamples_flatten (bs : List (List ℤ × List ℤ × List ℤ)) (h : ∀ b ∈ bs, b.2.1.length = b.1.length ∧ b.2.2.length = b.1.length) :
    rawSamples (bs.map (·.2.1)).flatten (bs.map (·.2.2)).flatten = (bs.map (fun b => rawSamples b.2.1 b.2.2)).flatten := by
  induction bs with
  | nil => rfl
  | cons b bs ih =>
    simp only [List.map_cons, List.flatten_cons]
    rw [rawSamples_append _ _ _ _ (by rw [(h b (by simp)).1, (h b (by simp)).2]), ih (fun x hx => h x (by simp [hx]))]

theorem zip_flatten (bs : List (List ℤ × List ℤ × List ℤ)) (h : ∀ b ∈ bs, b.2.1.length = b.1.length ∧ b.2.2.length = b.1.length) :
    (bs.map (fun b => b.1.zip (rawSamples b.2.1 b.2.2))).flatten = (bs.map (·.1)).flatten.zip (bs.map (fun b => rawSamples b.2.1 b.2.2)).flatten := by
  induction bs with
  | nil => rfl
  | cons b bs ih =>
    simp only [List.map_cons, List.flatten_cons]
    have h1 := (h b (by simp)).1
    have h2 := (h b (by simp)).2
    rw [List.zip_append (by simp [rawSamples, h1, h2]), ih (fun x hx => h x (by simp [hx]))]

theorem buffers_facts (inp : Session) (h0 : EqualLengths inp) :
    (∀ b ∈ inp.readRaw 0 none 10000, b.2.1.length = b.1.length ∧ b.2.2.length = b.1.length) ∧
    ((inp.readRaw 0 none 10000).map (·.1)).flatten = fullTimes inp ∧
    ((inp.readRaw 0 none 10000).map (fun b => rawSamples b.2.1 b.2.2)).flatten = fullSamples inp := by
  obtain ⟨h1, -⟩ := C34_read_buffers inp 0 none 10000 h0
  obtain ⟨h2, h3, h4, -⟩ := C34_read_all inp 10000 h0
  have hb : ∀ b ∈ inp.readRaw 0 none 10000, b.2.1.length = b.1.length ∧ b.2.2.length = b.1.length := by
    intro b hb
    obtain ⟨e1, e2, e3⟩ := h1 b hb
    exact ⟨by rw [e1, e2], by rw [e1, e3]⟩
  refine ⟨hb, h4, ?_⟩
  rw [← rawSamples_flatten _ hb, h2, h3]
  rfl

theorem fullTimes_length (inp : Session) (h0 : EqualLengths inp) : (fullTimes inp).length = (inp.get .voltage).length / 10000 * 10000 := by
  unfold fullTimes
  rw [List.length_take, h0 .time]
  omega

theorem fullSamples_length (inp : Session) (h0 : EqualLengths inp) : (fullSamples inp).length = (inp.get .voltage).length / 10000 * 10000 := by
  unfold fullSamples
  dsimp only
  rw [List.length_zipWith, List.length_take, List.length_take, h0 .current]
  omega

theorem clamp_times {l : List ℤ} (h : ∀ t ∈ l, 0 ≤ t ∧ t < 2^64) : l.map DsName.time.clamp = l := by
  conv_rhs => rw [← List.map_id l]
  refine List.map_congr_left (fun t ht => ?_)
  obtain ⟨h1, h2⟩ := h t ht
  simp only [DsName.clamp, DsName.max, id]
  omega

/-! ## The writer -/

theorem simWriter_ok {fl : ℚ → ℚ} {mode : String} {cal : CalArg} {host : String} {cfg : Option Config} {w : Session} (h : simWriter fl mode cal host cfg = .ok w) :
    ∃ f s0, writerOpen fl none { mode := some mode, cal := some (cal.toSeries fl) } = (f, .ok s0) ∧
      stores fl s0 (.hostname host :: cfg.toList.map .config) = .ok w ∧ ∀ n, w.get n = [] := by
  unfold simWriter at h
  match ho : writerOpen fl none { mode := some mode, cal := some (cal.toSeries fl) } with
  | (f, .error e) => rw [ho] at h; cases h
  | (f, .ok s0) =>
    rw [ho] at h
    have hg := new_get ho
    cases cfg with
    | none => cases h; exact ⟨f, s0, rfl, rfl, hg⟩
    | some cfg => cases h; exact ⟨f, s0, rfl, rfl, hg⟩

/-- The group of a new file before the calibration is stored. -/
def newGroup : DataGroup where
  attrs := putWindow (putDatatype (Attrs.set (fun _ => none) "window_samples" (.num 0)) none) none
  dset := (skeleton.data.getD ⟨fun _ => none, fun _ => none⟩).dset

/-- With a valid calibration the writer can be opened. -/
theorem simWriter_total {fl : ℚ → ℚ} (mode : String) (hm : mode = "harvester" ∨ mode = "emulator") (cal : CalArg)
    (hv : (cal.toSeries fl).voltage.Valid) (hc : (cal.toSeries fl).current.Valid) (ht : (cal.toSeries fl).time.Valid) (host : String) (cfg : Option Config) :
    ∃ w, simWriter fl mode cal host cfg = .ok w := by
  have hp : ∀ n a d e, pairOf (putPair a (some ((cal.toSeries fl).get n)) d) e = (cal.toSeries fl).get n := fun n a d e => pairOf_put _ _ _ _
  have h1 : ((cal.toSeries fl).get .voltage).Valid := hv
  have h2 : ((cal.toSeries fl).get .current).Valid := hc
  have h3 : ((cal.toSeries fl).get .time).Valid := ht
  have hd : ∀ A : Attrs, ∃ x, openSession fl ⟨A, some (putCal fl newGroup (some (cal.toSeries fl))), none⟩ = .ok x := by
    intro A
    simp only [openSession, putCal, newGroup, skeleton, Option.getD_some, Option.map_some, hp]
    rw [if_pos ⟨h1, h2, h3⟩]
    simp only [refreshStats, List.length_nil, gt_iff_lt, lt_irrefl, false_and, if_false]
    exact ⟨_, rfl⟩
  have ho : ∃ f s0, writerOpen fl none { mode := some mode, cal := some (cal.toSeries fl) } = (f, .ok s0) := by
    obtain ⟨x, hx⟩ := hd (putMode (fun _ => none) (some mode))
    refine ⟨⟨putMode (fun _ => none) (some mode), some (putCal fl newGroup (some (cal.toSeries fl))), none⟩, x, ?_⟩
    rw [← hx]
    rcases hm with rfl | rfl <;> rfl
  obtain ⟨f, s0, ho⟩ := ho
  unfold simWriter
  rw [ho]
  cases cfg <;> exact ⟨_, rfl⟩

theorem stores_calls (fl : ℚ → ℚ) {s w w' : Session} {os : List StoreOp} {l : List Call} (h1 : stores fl s os = .ok w) (h2 : calls fl w l = .ok w') :
    stores fl s (os ++ l.map .append) = .ok w' := by
  induction os generalizing s with
  | nil =>
    cases h1
    induction l generalizing w with
    | nil => cases h2; rfl
    | cons c l ih =>
      simp only [calls] at h2
      simp only [List.nil_append, List.map_cons, stores, store]
      cases hc : call fl w c with
      | error e => rw [hc] at h2; cases h2
      | ok t => rw [hc] at h2; exact ih h2
  | cons o os ih =>
    simp only [stores, List.cons_append] at h1 ⊢
    cases ho : store fl s o with
    | error e => rw [ho] at h1; cases h1
    | ok t => rw [ho] at h1; exact ih h1

theorem lastStored_append (k : String) (os : List StoreOp) (l : List Call) : lastStored k (os ++ l.map .append) = lastStored k os := by
  induction os with
  | nil =>
    induction l with
    | nil => rfl
    | cons c l ih => simp only [List.nil_append, List.map_cons, lastStored] at ih ⊢; rw [ih]
  | cons o os ih => simp only [List.cons_append, lastStored, ih]

/-- Closing a file of full buffers keeps all. -/
theorem close_full {fl : ℚ → ℚ} (hf : Rounding fl) (w : Session) (h0 : EqualLengths w) (hl : (w.get .voltage).length % 10000 = 0)
    (hm : (w.get .voltage).length < 10000 * 2^39) (f : H5File) (hc : w.close fl = .ok f) (n : DsName) : contents f n = some (w.get n) := by
  obtain ⟨k, hk, hk2, -⟩ := C33_close fl hf w f h0 hm hc
  have : k = (w.get .voltage).length := by
    rcases hk with hk | ⟨a, b, c⟩
    · exact hk
    · omega
  rw [hk2 n, this, ← h0 n, List.take_length]

theorem time_pos {fl : ℚ → ℚ} (h : Rounding fl) (d : ℤ) (hd : 0 < d) : (CalSeries.default fl).time.rawToSi fl d ≠ 0 := by
  have h1 : (1 : ℚ) ≤ fl (d : ℚ) := by
    have := h.mono (show (1 : ℚ) ≤ d by exact_mod_cast hd)
    have h2 := h.exactInt 1 (by norm_num)
    push_cast at h2
    linarith
  have a := fl_pos h (1 / 10 ^ 9) (by norm_num)
  have b := fl_pos h (fl d * fl (1 / 10 ^ 9)) (by nlinarith)
  have c := fl_pos h (fl (fl d * fl (1 / 10 ^ 9)) + 0) (by linarith)
  have e : (0 : ℚ) < 1 / 2 ^ 40 := by norm_num
  have : (CalSeries.default fl).time.rawToSi fl d = fl (fl (fl d * fl (1 / 10 ^ 9)) + 0) := by
    simp only [CalPair.rawToSi, Bool.not_true, Bool.false_eq_true, if_false]; rfl
  rw [this]
  linarith

/-- The validity of a file needs the mode, and the attributes of group and datasets. -/
theorem isValid_mode {s t : Session} (h1 : s.attrs "mode" = t.attrs "mode") (h2 : s.dattrs = t.dattrs) (h3 : ∀ n, (s.ds n).attrs = (t.ds n).attrs) :
    s.file.isValid = t.file.isValid := by
  simp only [H5File.isValid, Session.file, getMode, h1, h2, h3]

/-- What a reader of the output finds besides the samples. -/
structure OutMeta (fl : ℚ → ℚ) (r : Session) (mode host : String) (cal : CalSeries) : Prop where
  mode : getMode r.attrs = mode
  dtype : getDatatype r.dattrs = some .ivsample
  window : getWindow r.dattrs = 0
  host : getHostname r.attrs = host
  volt : r.cal.voltage = cal.voltage
  curr : r.cal.current = cal.current
  time : r.cal.time = cal.time

/-- The output, from the opened writer on. -/
theorem out_file {fl : ℚ → ℚ} (hf : Rounding fl) {mode : String} {cal : CalArg} {host : String} {cfg : Option Config} {w w1 : Session} {l : List Call}
    (hcal : (cal.toSeries fl).time = (CalSeries.default fl).time)
    (h : simWriter fl mode cal host cfg = .ok w) (hl : calls fl w l = .ok w1) (h0 : EqualLengths w1) (hlen : (w1.get .voltage).length % 10000 = 0)
    (hm : (w1.get .voltage).length < 10000 * 2^39) :
    ∃ f, w1.close fl = .ok f ∧ (∀ n, contents f n = some (w1.get n)) ∧ f.isValid = true ∧
      (∀ cf, cfg = some cf → f.attrs "config" = some (.cfg cf)) ∧
      ∃ r, openSession fl f = .ok r ∧ OutMeta fl r mode host (cal.toSeries fl) := by
  obtain ⟨f0, s0, ho, hs, -⟩ := simWriter_ok h
  have hst := stores_calls fl hs hl
  obtain ⟨e1, e2, e3, e4⟩ := stores_attrs fl hst
  obtain ⟨g, dt, dl, t, hg, hp, h1, h2, hdl, ht, htm, ht', hd, -, hc0⟩ := open_session_facts ho
  have hx : ∀ n e, pairOf (s0.ds n).attrs e = (cal.toSeries fl).get n := by
    intro n e
    obtain ⟨d, -, hd2⟩ := hd n
    rw [hd2]
    dsimp only
    exact pairOf_put d.attrs ((cal.toSeries fl).get n) _ e
  have hcal0 : s0.cal = cal.toSeries fl := by
    rw [hc0]
    unfold calOf
    rw [CalSeries.mk.injEq]
    exact ⟨hx .voltage _, hx .current _, hx .time _⟩
  have htime : w1.cal.time = (CalSeries.default fl).time := by rw [e2, hcal0, hcal]
  obtain ⟨f, hf1⟩ := close_total w1 (fun d hd => by rw [htime]; exact time_pos hf d hd)
  have hcont := close_full hf w1 h0 hlen hm f hf1
  obtain ⟨st, u, -, hu, rfl, -⟩ := close_ok hf hf1 hm
  have hmode : u.attrs "mode" = s0.attrs "mode" := by
    rw [hu.1, e4 "mode", lastStored_append]
    cases cfg <;> rfl
  have hv0 : s0.file.isValid = true := by
    obtain ⟨hv, -⟩ := C36_new_file_valid fl hf _ _ _ s0 [] (((close_total s0 (fun d hd => by rw [hcal0, hcal]; exact time_pos hf d hd))).choose) ho rfl
      (by rw [new_get ho]; norm_num) (close_total s0 (fun d hd => by rw [hcal0, hcal]; exact time_pos hf d hd)).choose_spec
    obtain ⟨_, _, _, _, _, _, _, _, _, _, _, _, hfe, hos⟩ := writerOpen_ok ho
    rw [(openSession_ok hos).1]
    exact hv
  have hval : u.file.isValid = true := by
    rw [isValid_mode hmode (by rw [hu.2.1, e1]) (fun n => by rw [hu.2.2.2.2 n, e3 n])]
    exact hv0
  have hopen : ∃ r, openSession fl u.file = .ok r := by
    obtain ⟨_, _, _, _, _, _, _, _, _, _, _, _, -, hos⟩ := writerOpen_ok ho
    obtain ⟨-, -, hok, -⟩ := openSession_ok hos
    rw [hcal0] at hok
    obtain ⟨r, hr, -⟩ := reopen u (cal.toSeries fl) (fun n e => by rw [hu.2.2.2.2 n, e3 n]; exact hx n e) hok (fun d hd => by rw [hcal]; exact time_pos hf d hd)
    exact ⟨r, hr⟩
  obtain ⟨r, hr⟩ := hopen
  obtain ⟨k1, k2, k3, k4, k5, -, -⟩ := C37_read_back fl hf _ _ _ _ _ r _ ho hst hm hf1 hr
  refine ⟨u.file, hf1, hcont, hval, ?_, r, hr, ?_⟩
  · rintro cf rfl
    change u.attrs "config" = _
    rw [hu.1, e4 "config", lastStored_append]
    rfl
  · refine ⟨?_, ?_, ?_, ?_, ?_, ?_, ?_⟩
    · rw [k1 (by rw [lastStored_append]; cases cfg <;> rfl)]; rfl
    · rw [k2]; rfl
    · rw [k3]; rfl
    · exact k5 host (by rw [lastStored_append]; cases cfg <;> rfl)
    · rw [k4]; rfl
    · rw [k4]; rfl
    · rw [k4]; rfl

/-! ## The loop of the source -/

section source
variable {fl : ℚ → ℚ} {m : MathFns} {c : SrcCfg} {cal : CalSeries} {t : Target}

theorem mon_cons (s : SimState) (st : SimStats) (x : ℤ × RawSample) (xs : List (ℤ × RawSample)) :
    monSrcBuffer fl m c cal t s st (x :: xs) =
      (match simSrcStep fl m c cal t s x.2 with
      | .error e => .error e
      | .ok p => match addRow (simRow fl x.1 p.1) st with
        | .error e => .error e
        | .ok st => match monSrcBuffer fl m c cal t p.1 st xs with
          | .error e => .error e
          | .ok q => .ok (q.1, q.2.1, p.2 :: q.2.2)) := by
  rw [monSrcBuffer]
  rcases h1 : simSrcStep fl m c cal t s x.2 with e | p
  · rfl
  · rcases h2 : addRow (simRow fl x.1 p.1) st with e | st1
    · simp only [bind, Except.bind, h2]
    · rcases h3 : monSrcBuffer fl m c cal t p.1 st1 xs with e | q
      · simp only [bind, Except.bind, h2, h3]
      · simp only [bind, Except.bind, pure, Except.pure, h2, h3]

theorem sim_cons (s : SimState) (x : RawSample) (xs : List RawSample) :
    simSrcBuffer fl m c cal t s (x :: xs) =
      (match simSrcStep fl m c cal t s x with
      | .error e => .error e
      | .ok p => match simSrcBuffer fl m c cal t p.1 xs with
        | .error e => .error e
        | .ok q => .ok (q.1, p.2 :: q.2)) := by
  rw [simSrcBuffer]
  rcases h1 : simSrcStep fl m c cal t s x with e | p
  · rfl
  · rcases h3 : simSrcBuffer fl m c cal t p.1 xs with e | q
    · simp only [bind, Except.bind, h3]
    · simp only [bind, Except.bind, pure, Except.pure, h3]

theorem mon_append (xs ys : List (ℤ × RawSample)) (s : SimState) (st : SimStats) :
    monSrcBuffer fl m c cal t s st (xs ++ ys) =
      (match monSrcBuffer fl m c cal t s st xs with
      | .error e => .error e
      | .ok p => match monSrcBuffer fl m c cal t p.1 p.2.1 ys with
        | .error e => .error e
        | .ok q => .ok (q.1, q.2.1, p.2.2 ++ q.2.2)) := by
  induction xs generalizing s st with
  | nil =>
    rw [List.nil_append, monSrcBuffer]
    dsimp only
    match monSrcBuffer fl m c cal t s st ys with
    | .error e => rfl
    | .ok q => rfl
  | cons x xs ih =>
    rw [List.cons_append, mon_cons, mon_cons]
    match simSrcStep fl m c cal t s x.2 with
    | .error e => rfl
    | .ok p =>
      dsimp only
      match addRow (simRow fl x.1 p.1) st with
      | .error e => rfl
      | .ok st =>
        dsimp only
        rw [ih]
        match monSrcBuffer fl m c cal t p.1 st xs with
        | .error e => rfl
        | .ok q =>
          dsimp only
          match monSrcBuffer fl m c cal t q.1 q.2.1 ys with
          | .error e => rfl
          | .ok q => rfl

theorem mon_length {xs : List (ℤ × RawSample)} {s s' : SimState} {st st' : SimStats} {ys : List (ℚ × ℚ)}
    (h : monSrcBuffer fl m c cal t s st xs = .ok (s', st', ys)) : ys.length = xs.length := by
  induction xs generalizing s st s' st' ys with
  | nil => rw [monSrcBuffer] at h; cases h; rfl
  | cons x xs ih =>
    rw [mon_cons] at h
    match hp : simSrcStep fl m c cal t s x.2 with
    | .error e => rw [hp] at h; cases h
    | .ok p =>
      rw [hp] at h
      dsimp only at h
      match ha : addRow (simRow fl x.1 p.1) st with
      | .error e => rw [ha] at h; cases h
      | .ok st1 =>
        rw [ha] at h
        dsimp only at h
        match hq : monSrcBuffer fl m c cal t p.1 st1 xs with
        | .error e => rw [hq] at h; cases h
        | .ok (a, b, d) =>
          rw [hq] at h
          cases h
          rw [List.length_cons, List.length_cons, ih hq]

/-- Without monitoring it is the loop of `Model/Source`. -/
theorem mon_none (xs : List (ℤ × RawSample)) (s : SimState) :
    monSrcBuffer fl m c cal t s none xs = (simSrcBuffer fl m c cal t s (xs.map (·.2))).map (fun p => (p.1, none, p.2)) := by
  induction xs generalizing s with
  | nil => rfl
  | cons x xs ih =>
    rw [mon_cons, List.map_cons, sim_cons]
    match simSrcStep fl m c cal t s x.2 with
    | .error e => rfl
    | .ok p =>
      simp only [addRow]
      rw [ih]
      rcases h3 : simSrcBuffer fl m c cal t p.1 (xs.map (·.2)) with e | q
      · simp only [h3, Except.map]
      · simp only [h3, Except.map]

/-- With enough rows the result is the same, and there is a row for every sample: its time stamp and the state after it. -/
theorem mon_rows (xs : List (ℤ × RawSample)) (s s' : SimState) (ys : List (ℚ × ℚ)) (n : ℤ) (rows : List SimRow)
    (h : simSrcBuffer fl m c cal t s (xs.map (·.2)) = .ok (s', ys)) (hn : (rows.length : ℤ) + xs.length ≤ n) :
    ∃ new, monSrcBuffer fl m c cal t s (some (n, rows)) xs = .ok (s', some (n, rows ++ new), ys) ∧ new.length = xs.length ∧
      ∀ k x, xs[k]? = some x → ∃ sk yk, simSrcBuffer fl m c cal t s ((xs.map (·.2)).take (k + 1)) = .ok (sk, yk) ∧ new[k]? = some (simRow fl x.1 sk) := by
  induction xs generalizing s s' ys rows with
  | nil =>
    rw [List.map_nil, simSrcBuffer] at h
    cases h
    exact ⟨[], by rw [monSrcBuffer, List.append_nil], rfl, by simp⟩
  | cons x xs ih =>
    rw [List.map_cons, sim_cons] at h
    rw [mon_cons]
    match hp : simSrcStep fl m c cal t s x.2 with
    | .error e => rw [hp] at h; cases h
    | .ok p =>
      rw [hp] at h
      dsimp only at h
      match hq : simSrcBuffer fl m c cal t p.1 (xs.map (·.2)) with
      | .error e => rw [hq] at h; cases h
      | .ok (a, b) =>
        rw [hq] at h
        cases h
        rw [List.length_cons] at hn
        have ha : addRow (simRow fl x.1 p.1) (some (n, rows)) = .ok (some (n, rows ++ [simRow fl x.1 p.1])) := by
          simp only [addRow]
          rw [if_pos (by push_cast at hn; omega)]
        obtain ⟨new, e1, e2, e3⟩ := ih p.1 a b (rows ++ [simRow fl x.1 p.1]) hq (by simp only [List.length_append, List.length_singleton]; push_cast at hn ⊢; omega)
        refine ⟨simRow fl x.1 p.1 :: new, ?_, by simp [e2], ?_⟩
        · dsimp only
          rw [ha]
          dsimp only
          rw [e1]
          simp
        · intro k y hk
          cases k with
          | zero =>
            simp only [List.getElem?_cons_zero, Option.some.injEq] at hk
            subst hk
            refine ⟨p.1, [p.2], ?_, by simp⟩
            rw [List.map_cons, List.take_succ_cons, List.take_zero, sim_cons, hp]
            rfl
          | succ k =>
            simp only [List.getElem?_cons_succ] at hk
            obtain ⟨sk, yk, f1, f2⟩ := e3 k y hk
            refine ⟨sk, p.2 :: yk, ?_, by simpa using f2⟩
            rw [List.map_cons, List.take_succ_cons, sim_cons, hp]
            dsimp only
            rw [f1]

/-- With too few rows the simulation fails. -/
theorem mon_short (xs : List (ℤ × RawSample)) (s s' : SimState) (ys : List (ℚ × ℚ)) (n : ℤ) (rows : List SimRow)
    (h : simSrcBuffer fl m c cal t s (xs.map (·.2)) = .ok (s', ys)) (h1 : (rows.length : ℤ) ≤ n) (hn : n < (rows.length : ℤ) + xs.length) :
    monSrcBuffer fl m c cal t s (some (n, rows)) xs = .error .indexError := by
  induction xs generalizing s s' ys rows with
  | nil => simp at hn; omega
  | cons x xs ih =>
    rw [List.map_cons, sim_cons] at h
    rw [mon_cons]
    match hp : simSrcStep fl m c cal t s x.2 with
    | .error e => rw [hp] at h; cases h
    | .ok p =>
      rw [hp] at h
      dsimp only at h
      match hq : simSrcBuffer fl m c cal t p.1 (xs.map (·.2)) with
      | .error e => rw [hq] at h; cases h
      | .ok (a, b) =>
        rw [List.length_cons] at hn
        dsimp only
        by_cases hlt : (rows.length : ℤ) < n
        · have ha : addRow (simRow fl x.1 p.1) (some (n, rows)) = .ok (some (n, rows ++ [simRow fl x.1 p.1])) := by
            simp only [addRow]
            rw [if_pos hlt]
          rw [ha]
          dsimp only
          rw [ih p.1 a b _ hq (by simp; omega) (by simp only [List.length_append, List.length_singleton]; push_cast at hn ⊢; omega)]
        · have ha : addRow (simRow fl x.1 p.1) (some (n, rows)) = .error .indexError := by
            simp only [addRow]
            rw [if_neg hlt]
          rw [ha]

/-- The loop of the source, in terms of all samples at once. -/
theorem srcLoop_ok (dt : ℚ) (bs : List (List ℤ × List ℤ × List ℤ)) (hb : ∀ b ∈ bs, b.2.1.length = b.1.length ∧ b.2.2.length = b.1.length)
    (s s' : SimState) (e : ℚ) (r r' : SimStats) (ys : List (ℚ × ℚ)) (w : Option Session)
    (h : monSrcBuffer fl m c cal t s r (bs.map (fun b => b.1.zip (rawSamples b.2.1 b.2.2))).flatten = .ok (s', r', ys)) :
    ∃ w', simSrcLoop fl m c cal t dt (s, e) r w bs = .ok ((s', e + bufferEnergy dt ys), r', w') ∧ (w = none → w' = none) ∧
      ∀ w0, w = some w0 → EqualLengths w0 → ∃ w1 l, w' = some w1 ∧ EqualLengths w1 ∧ calls fl w0 l = .ok w1 ∧
        w1.get .time = w0.get .time ++ (bs.map (·.1)).flatten.map DsName.time.clamp ∧
        w1.get .voltage = w0.get .voltage ++ ys.map (fun y => DsName.voltage.clamp (w0.cal.voltage.siToRaw fl (fl (fl (1 / 10^6) * y.1)))) ∧
        w1.get .current = w0.get .current ++ ys.map (fun y => DsName.current.clamp (w0.cal.current.siToRaw fl (fl (fl (1 / 10^9) * y.2)))) := by
  induction bs generalizing s e r ys w with
  | nil =>
    rw [List.map_nil, List.flatten_nil, monSrcBuffer] at h
    cases h
    refine ⟨w, by simp [simSrcLoop, bufferEnergy], fun h => h, fun w0 hw h0 => ⟨w0, [], hw, h0, rfl, by simp, by simp, by simp⟩⟩
  | cons b bs ih =>
    rw [List.map_cons, List.flatten_cons, mon_append] at h
    rcases hp : monSrcBuffer fl m c cal t s r (b.1.zip (rawSamples b.2.1 b.2.2)) with er | ⟨s1, r1, y1⟩
    · rw [hp] at h; cases h
    rw [hp] at h
    dsimp only at h
    rcases hq : monSrcBuffer fl m c cal t s1 r1 (bs.map (fun b => b.1.zip (rawSamples b.2.1 b.2.2))).flatten with er | ⟨s2, r2, y2⟩
    · rw [hq] at h; cases h
    rw [hq] at h
    cases h
    have hlen : y1.length = b.1.length := by
      rw [mon_length hp]
      simp [rawSamples, (hb b (by simp)).1, (hb b (by simp)).2]
    have hb' : ∀ b ∈ bs, b.2.1.length = b.1.length ∧ b.2.2.length = b.1.length := fun x hx => hb x (by simp [hx])
    cases w with
    | none =>
      obtain ⟨w', e1, e2, -⟩ := ih hb' s1 (e + bufferEnergy dt y1) r1 y2 none hq
      refine ⟨w', ?_, e2, by simp⟩
      rw [simSrcLoop]
      simp only [bind, Except.bind, hp]
      rw [e1, bufferEnergy_append, add_assoc]
    | some w0 =>
      by_cases h0 : EqualLengths w0
      · obtain ⟨w1, a1, a2, a3, a4, a5, a6⟩ := append_buffer w0 h0 b.1 (srcRawV fl w0.cal (y1.map (·.1))) (srcRawI fl w0.cal (y1.map (·.2)))
          (by simp [srcRawV, CalPair.siToRawArr, hlen]) (by simp [srcRawI, CalPair.siToRawArr, hlen])
        obtain ⟨w', e1, -, e3⟩ := ih hb' s1 (e + bufferEnergy dt y1) r1 y2 (some w1) hq
        obtain ⟨w2, l, f1, f2, f3, f4, f5, f6⟩ := e3 w1 rfl a3
        refine ⟨w', ?_, by simp, ?_⟩
        · rw [simSrcLoop]
          simp only [bind, Except.bind, hp, a1, Except.map]
          rw [e1, bufferEnergy_append, add_assoc]
        · intro w3 hw3 _
          cases hw3
          have hcal : w1.cal = w0.cal := a2.2.2.2.1
          refine ⟨w2, .raw (.array b.1) (srcRawV fl w0.cal (y1.map (·.1))) (srcRawI fl w0.cal (y1.map (·.2))) :: l, f1, f2, ?_, ?_, ?_, ?_⟩
          · simp only [calls, call, a1]; exact f3
          · rw [f4, a4]; simp
          · rw [f5, a5, hcal, srcRawV, siToRawArr_codes]; simp [Function.comp_def]
          · rw [f6, a6, hcal, srcRawI, siToRawArr_codes]; simp [Function.comp_def]
      · obtain ⟨w1, a1⟩ : ∃ w1, w0.appendRaw (.array b.1) (srcRawV fl w0.cal (y1.map (·.1))) (srcRawI fl w0.cal (y1.map (·.2))) = .ok w1 := by
          unfold Session.appendRaw Session.appendPlan stampList
          exact ⟨_, rfl⟩
        obtain ⟨w', e1, -, -⟩ := ih hb' s1 (e + bufferEnergy dt y1) r1 y2 (some w1) hq
        refine ⟨w', ?_, by simp, ?_⟩
        · rw [simSrcLoop]
          simp only [bind, Except.bind, hp, a1, Except.map]
          rw [e1, bufferEnergy_append, add_assoc]
        · intro w3 hw3 h1
          cases hw3
          exact absurd h1 h0

theorem srcLoop_error (dt : ℚ) (bs : List (List ℤ × List ℤ × List ℤ)) (s : SimState) (e : ℚ) (r : SimStats) (w : Option Session) (er : PyErr)
    (h : monSrcBuffer fl m c cal t s r (bs.map (fun b => b.1.zip (rawSamples b.2.1 b.2.2))).flatten = .error er) :
    simSrcLoop fl m c cal t dt (s, e) r w bs = .error er := by
  induction bs generalizing s e r w with
  | nil =>
    rw [List.map_nil, List.flatten_nil, monSrcBuffer] at h
    cases h
  | cons b bs ih =>
    rw [List.map_cons, List.flatten_cons, mon_append] at h
    rcases hp : monSrcBuffer fl m c cal t s r (b.1.zip (rawSamples b.2.1 b.2.2)) with er' | ⟨s1, r1, y1⟩
    · rw [hp] at h
      cases h
      rw [simSrcLoop]
      simp only [bind, Except.bind, hp]
    · rw [hp] at h
      dsimp only at h
      rcases hq : monSrcBuffer fl m c cal t s1 r1 (bs.map (fun b => b.1.zip (rawSamples b.2.1 b.2.2))).flatten with er' | q
      · rw [hq] at h
        cases h
        rw [simSrcLoop]
        cases w with
        | none =>
          simp only [bind, Except.bind, hp]
          exact ih _ _ _ _ hq
        | some w0 =>
          obtain ⟨w1, a1⟩ : ∃ w1, w0.appendRaw (.array b.1) (srcRawV fl w0.cal (y1.map (·.1))) (srcRawI fl w0.cal (y1.map (·.2))) = .ok w1 := by
            unfold Session.appendRaw Session.appendPlan stampList
            exact ⟨_, rfl⟩
          simp only [bind, Except.bind, hp, a1, Except.map]
          exact ih _ _ _ _ hq
      · rw [hq] at h
        cases h

end source

/-! ## C106 source -/

/-- The state a simulation of a source starts with: nothing is drawn. -/
def simStart (fl : ℚ → ℚ) (c : SrcCfg) : SimState := { src := SrcState.init fl c, iOut := 0 }

/-- The file written for the simulated pairs `ys` (micro-volt, nano-ampere): one sample per sample in the full buffers of the input, with its time stamp, the voltage
and current as codes of the calibration of the emulator (as far as a dataset can hold them); a valid recording of an emulator, with name and configuration of the source. -/
structure SourceOutput (fl : ℚ → ℚ) (c : SrcCfg) (name : String) (cfg : Config) (inp : Session) (ys : List (ℚ × ℚ)) (f : H5File) : Prop where
  times : contents f .time = some (fullTimes inp)
  volts : contents f .voltage = some (ys.map fun y => max 0 (min (c.cal.dacVA.siToRaw fl (fl (fl (1 / 10^6) * y.1))) (2^32 - 1)))
  currs : contents f .current = some (ys.map fun y => max 0 (min (c.cal.adcCA.siToRaw fl (fl (fl (1 / 10^9) * y.2))) (2^32 - 1)))
  valid : f.isValid = true
  config : f.attrs "config" = some (.cfg cfg)
  labels : ∃ r, openSession fl f = .ok r ∧ OutMeta fl r "emulator" ("emu_sim_" ++ name) ⟨c.cal.dacVA, c.cal.adcCA, (CalSeries.default fl).time⟩

theorem zip_map_snd (inp : Session) (h0 : EqualLengths inp) : ((fullTimes inp).zip (fullSamples inp)).map (·.2) = fullSamples inp := by
  apply List.map_snd_zip
  rw [fullTimes_length inp h0, fullSamples_length inp h0]

theorem source_core {fl : ℚ → ℚ} (hf : Rounding fl) (m : MathFns) (c : SrcCfg) (t : Target) (name : String) (cfg : Config) (inp : Session)
    (h0 : EqualLengths inp) (ht : TimesFit inp) (hN : (inp.get .voltage).length < 10000 * 2^39) (hv : c.cal.dacVA.Valid) (hc : c.cal.adcCA.Valid)
    (monitor : Bool) (s' : SimState) (r' : SimStats) (ys : List (ℚ × ℚ))
    (h : monSrcBuffer fl m c inp.cal t (simStart fl c) (if monitor then some (inp.monitorRows fl, []) else none) ((fullTimes inp).zip (fullSamples inp)) = .ok (s', r', ys)) :
    ∃ f, simulateSource fl m c t name cfg inp true monitor = .ok ⟨streamEnergy inp.stats.intervalS ys, some f, r'.map (·.2)⟩ ∧
      SourceOutput fl c name cfg inp ys f := by
  obtain ⟨hb, hbt, hbs⟩ := buffers_facts inp h0
  rw [← hbt, ← hbs, ← zip_flatten _ hb] at h
  obtain ⟨w, hw⟩ := simWriter_total (fl := fl) "emulator" (.inr rfl) (.emu c.cal) hv hc (demo_cal hf).2.2 ("emu_sim_" ++ name) (some cfg)
  obtain ⟨f0, s0, ho, hst, hg⟩ := simWriter_ok hw
  have hcal : w.cal = (CalArg.emu c.cal).toSeries fl := by
    obtain ⟨-, e2, -⟩ := stores_attrs fl hst
    obtain ⟨g, dt, dl, t, -, -, -, -, -, -, -, -, hd, -, hc0⟩ := open_session_facts ho
    have hx : ∀ n e, pairOf (s0.ds n).attrs e = ((CalArg.emu c.cal).toSeries fl).get n := by
      intro n e
      obtain ⟨d, -, hd2⟩ := hd n
      rw [hd2]
      dsimp only
      exact pairOf_put d.attrs (((CalArg.emu c.cal).toSeries fl).get n) _ e
    rw [e2, hc0]
    unfold calOf
    rw [CalSeries.mk.injEq]
    exact ⟨hx .voltage _, hx .current _, hx .time _⟩
  obtain ⟨w', e1, -, e3⟩ := srcLoop_ok inp.stats.intervalS _ hb (simStart fl c) s' 0 _ r' ys (some w) h
  obtain ⟨w1, l, rfl, f2, f3, f4, f5, f6⟩ := e3 w rfl (fun n => by rw [hg, hg])
  rw [hg, List.nil_append, hbt] at f4
  rw [hg, List.nil_append, hcal] at f5 f6
  have htimes : (fullTimes inp).map DsName.time.clamp = fullTimes inp := clamp_times (fun x hx => ht x (List.mem_of_mem_take hx))
  rw [htimes] at f4
  have hlen : (w1.get .voltage).length = (inp.get .voltage).length / 10000 * 10000 := by
    rw [← f2 .time, f4, fullTimes_length inp h0]
  obtain ⟨f, g1, g2, g3, g4, g5⟩ := out_file hf (cal := .emu c.cal) rfl hw f3 f2 (by rw [hlen]; omega) (by rw [hlen]; omega)
  refine ⟨f, ?_, ⟨?_, ?_, ?_, g3, g4 cfg rfl, g5⟩⟩
  · unfold simulateSource
    simp only [bind, Except.bind, if_true, hw, Except.map, Bool.and_true]
    rw [show ({ src := SrcState.init fl c, iOut := 0 } : SimState) = simStart fl c from rfl, e1]
    simp only [simClose, g1, Except.map, pure, Except.pure, zero_add, bufferEnergy_eq]
  · rw [g2, f4]
  · rw [g2, f5]; rfl
  · rw [g2, f6]; rfl

/-- **C106, simulating a source into a file** (partial: the samples after the last full buffer are left out, see `C106_short_violated`).  If simulating the samples in the full buffers of a recording one after the other succeeds, so does the simulation of the file: it returns
their energy, and writes the file described by `SourceOutput`. -/
theorem C106_source_partial {fl : ℚ → ℚ} (hf : Rounding fl) (m : MathFns) (c : SrcCfg) (t : Target) (name : String) (cfg : Config) (inp : Session)
    (h0 : EqualLengths inp) (ht : TimesFit inp) (hN : (inp.get .voltage).length < 10000 * 2^39) (hv : c.cal.dacVA.Valid) (hc : c.cal.adcCA.Valid)
    (s' : SimState) (ys : List (ℚ × ℚ)) (h : simSrcBuffer fl m c inp.cal t (simStart fl c) (fullSamples inp) = .ok (s', ys)) :
    ∃ f, simulateSource fl m c t name cfg inp true false = .ok ⟨streamEnergy inp.stats.intervalS ys, some f, none⟩ ∧ SourceOutput fl c name cfg inp ys f := by
  refine source_core hf m c t name cfg inp h0 ht hN hv hc false s' none ys ?_
  rw [if_neg (by decide), mon_none, zip_map_snd inp h0, h]
  rfl

/-- **C106, without an output.**  The energy is the same, nothing is written (and nothing is monitored). -/
theorem C106_source_energy {fl : ℚ → ℚ} (m : MathFns) (c : SrcCfg) (t : Target) (name : String) (cfg : Config) (inp : Session) (h0 : EqualLengths inp) (monitor : Bool)
    (s' : SimState) (ys : List (ℚ × ℚ)) (h : simSrcBuffer fl m c inp.cal t (simStart fl c) (fullSamples inp) = .ok (s', ys)) :
    simulateSource fl m c t name cfg inp false monitor = .ok ⟨streamEnergy inp.stats.intervalS ys, none, none⟩ := by
  obtain ⟨hb, hbt, hbs⟩ := buffers_facts inp h0
  have h1 : monSrcBuffer fl m c inp.cal t (simStart fl c) none ((fullTimes inp).zip (fullSamples inp)) = .ok (s', none, ys) := by
    rw [mon_none, zip_map_snd inp h0, h]
    rfl
  rw [← hbt, ← hbs, ← zip_flatten _ hb] at h1
  obtain ⟨w', e1, e2, -⟩ := srcLoop_ok inp.stats.intervalS _ hb (simStart fl c) s' 0 _ none ys none h1
  cases e2 rfl
  unfold simulateSource
  simp only [bind, Except.bind, Bool.false_eq_true, if_false, Bool.and_false]
  rw [show ({ src := SrcState.init fl c, iOut := 0 } : SimState) = simStart fl c from rfl, e1]
  simp only [simClose, pure, Except.pure, zero_add, bufferEnergy_eq, Option.map_none]

/-- **C106, exceptions.**  If one of the samples raises, the simulation of the file raises the same. -/
theorem C106_source_error {fl : ℚ → ℚ} (hf : Rounding fl) (m : MathFns) (c : SrcCfg) (t : Target) (name : String) (cfg : Config) (inp : Session)
    (h0 : EqualLengths inp) (hv : c.cal.dacVA.Valid) (hc : c.cal.adcCA.Valid) (out : Bool) (e : PyErr)
    (h : simSrcBuffer fl m c inp.cal t (simStart fl c) (fullSamples inp) = .error e) : simulateSource fl m c t name cfg inp out false = .error e := by
  obtain ⟨hb, hbt, hbs⟩ := buffers_facts inp h0
  have h1 : monSrcBuffer fl m c inp.cal t (simStart fl c) none ((fullTimes inp).zip (fullSamples inp)) = .error e := by
    rw [mon_none, zip_map_snd inp h0, h]
    rfl
  rw [← hbt, ← hbs, ← zip_flatten _ hb] at h1
  obtain ⟨w, hw⟩ := simWriter_total (fl := fl) "emulator" (.inr rfl) (.emu c.cal) hv hc (demo_cal hf).2.2 ("emu_sim_" ++ name) (some cfg)
  unfold simulateSource
  cases out
  · simp only [bind, Except.bind, Bool.false_eq_true, if_false, Bool.and_false]
    rw [show ({ src := SrcState.init fl c, iOut := 0 } : SimState) = simStart fl c from rfl, srcLoop_error _ _ _ _ _ _ e h1]
  · simp only [bind, Except.bind, if_true, hw, Except.map, Bool.false_and, Bool.false_eq_true, if_false]
    rw [show ({ src := SrcState.init fl c, iOut := 0 } : SimState) = simStart fl c from rfl, srcLoop_error _ _ _ _ _ _ e h1]

/-- **C106 violated, short recordings.**  A recording of less than one buffer (10000 samples) is not simulated at all: whatever is in it, no energy is reported and the file
written is empty. -/
theorem C106_short_violated {fl : ℚ → ℚ} (hf : Rounding fl) (m : MathFns) (c : SrcCfg) (t : Target) (name : String) (cfg : Config) (inp : Session)
    (h0 : EqualLengths inp) (ht : TimesFit inp) (hN : (inp.get .voltage).length < 10000) (hv : c.cal.dacVA.Valid) (hc : c.cal.adcCA.Valid) :
    ∃ f, simulateSource fl m c t name cfg inp true false = .ok ⟨0, some f, none⟩ ∧ ∀ n, contents f n = some [] := by
  have h1 : (inp.get .voltage).length / 10000 = 0 := Nat.div_eq_of_lt hN
  have h2 : fullSamples inp = [] := by simp [fullSamples, h1]
  obtain ⟨f, e1, e2⟩ := C106_source_partial hf m c t name cfg inp h0 ht (by omega) hv hc (simStart fl c) [] (by rw [h2]; rfl)
  refine ⟨f, ?_, fun n => ?_⟩
  · rw [e1]; simp [streamEnergy]
  · cases n with
    | time => rw [e2.times]; simp [fullTimes, h1]
    | voltage => rw [e2.volts]; rfl
    | current => rw [e2.currs]; rfl

/-! ## C107 monitoring -/

/-- The rows of a monitored simulation: one per simulated sample, in order, each with the time stamp of the sample and the state after it. -/
def RowsOf (fl : ℚ → ℚ) (m : MathFns) (c : SrcCfg) (t : Target) (inp : Session) (rows : List SimRow) : Prop :=
  rows.length = (fullSamples inp).length ∧
  ∀ k τ, (fullTimes inp)[k]? = some τ → ∃ s ys, simSrcBuffer fl m c inp.cal t (simStart fl c) ((fullSamples inp).take (k + 1)) = .ok (s, ys) ∧ rows[k]? = some (simRow fl τ s)

/-- **C107, enough rows.**  If there are rows for all samples, monitoring changes neither the energy nor the file, and gives one row per sample: its time stamp and the state
of the source after it. -/
theorem C107_rows {fl : ℚ → ℚ} (hf : Rounding fl) (m : MathFns) (c : SrcCfg) (t : Target) (name : String) (cfg : Config) (inp : Session)
    (h0 : EqualLengths inp) (ht : TimesFit inp) (hN : (inp.get .voltage).length < 10000 * 2^39) (hv : c.cal.dacVA.Valid) (hc : c.cal.adcCA.Valid)
    (s' : SimState) (ys : List (ℚ × ℚ)) (h : simSrcBuffer fl m c inp.cal t (simStart fl c) (fullSamples inp) = .ok (s', ys))
    (hrows : ((fullSamples inp).length : ℤ) ≤ inp.monitorRows fl) :
    ∃ f rows, simulateSource fl m c t name cfg inp true true = .ok ⟨streamEnergy inp.stats.intervalS ys, some f, some rows⟩ ∧
      SourceOutput fl c name cfg inp ys f ∧ RowsOf fl m c t inp rows := by
  have hz := zip_map_snd inp h0
  have hzl : ((fullTimes inp).zip (fullSamples inp)).length = (fullSamples inp).length := by
    rw [List.length_zip, fullTimes_length inp h0, fullSamples_length inp h0, Nat.min_self]
  obtain ⟨rows, e1, e2, e3⟩ := mon_rows (fl := fl) (m := m) (c := c) (cal := inp.cal) (t := t) ((fullTimes inp).zip (fullSamples inp)) (simStart fl c) s' ys (inp.monitorRows fl) []
    (by rw [hz]; exact h) (by rw [hzl]; simpa using hrows)
  obtain ⟨f, g1, g2⟩ := source_core hf m c t name cfg inp h0 ht hN hv hc true s' _ ys e1
  refine ⟨f, rows, g1, g2, by rw [e2, hzl], fun k τ hk => ?_⟩
  have hk2 : k < (fullTimes inp).length := (List.getElem?_eq_some_iff.mp hk).1
  have hk3 : k < (fullSamples inp).length := by rw [fullSamples_length inp h0, ← fullTimes_length inp h0]; exact hk2
  obtain ⟨x, hx⟩ : ∃ x, (fullSamples inp)[k]? = some x := ⟨_, List.getElem?_eq_getElem hk3⟩
  have := e3 k (τ, x) (by rw [List.getElem?_zip_eq_some]; exact ⟨hk, hx⟩)
  rw [hz] at this
  exact this

theorem rows_short {fl : ℚ → ℚ} (hf : Rounding fl) (m : MathFns) (c : SrcCfg) (t : Target) (name : String) (cfg : Config) (inp : Session)
    (h0 : EqualLengths inp) (hv : c.cal.dacVA.Valid) (hc : c.cal.adcCA.Valid)
    (s' : SimState) (ys : List (ℚ × ℚ)) (h : simSrcBuffer fl m c inp.cal t (simStart fl c) (fullSamples inp) = .ok (s', ys))
    (hr0 : 0 ≤ inp.monitorRows fl) (hrows : inp.monitorRows fl < ((fullSamples inp).length : ℤ)) :
    simulateSource fl m c t name cfg inp true true = .error .indexError := by
  have hz := zip_map_snd inp h0
  have hzl : ((fullTimes inp).zip (fullSamples inp)).length = (fullSamples inp).length := by
    rw [List.length_zip, fullTimes_length inp h0, fullSamples_length inp h0, Nat.min_self]
  have e1 := mon_short (fl := fl) (m := m) (c := c) (cal := inp.cal) (t := t) ((fullTimes inp).zip (fullSamples inp)) (simStart fl c) s' ys (inp.monitorRows fl) []
    (by rw [hz]; exact h) hr0 (by rw [hzl]; simpa using hrows)
  obtain ⟨hb, hbt, hbs⟩ := buffers_facts inp h0
  rw [← hbt, ← hbs, ← zip_flatten _ hb] at e1
  obtain ⟨w, hw⟩ := simWriter_total (fl := fl) "emulator" (.inr rfl) (.emu c.cal) hv hc (demo_cal hf).2.2 ("emu_sim_" ++ name) (some cfg)
  unfold simulateSource
  simp only [bind, Except.bind, if_true, hw, Except.map, Bool.and_self]
  rw [show ({ src := SrcState.init fl c, iOut := 0 } : SimState) = simStart fl c from rfl, srcLoop_error _ _ _ _ _ _ _ e1]

/-- The number of rows at 100 kHz: at least one per sample in full buffers. -/
theorem rows_100kHz {fl : ℚ → ℚ} (h : AccRounding fl) (inp : Session) (hrate : inp.stats.samplerate = 100000) (hN : (inp.get .voltage).length < 10000 * 2^29) :
    (((inp.get .voltage).length / 10000 * 10000 : ℕ) : ℤ) ≤ inp.monitorRows fl := by
  set N := (inp.get .voltage).length with hNdef
  have hNq : (N : ℚ) ≤ 10000 * 2^29 := by exact_mod_cast hN.le
  have hN0 : (0 : ℚ) ≤ N := by positivity
  set x : ℚ := (N : ℚ) / 100000 with hx
  have hx0 : 0 ≤ x := by positivity
  have hxu : x ≤ 2^29 := by rw [hx, div_le_iff₀ (by norm_num)]; linarith
  have e := abs_le.mp (err_small h x (2 ^ 29) hx0 hxu)
  have hfx : 0 ≤ fl x := h.toRounding.nonneg hx0
  have hr := abs_le.mp (abs_pyRound_sub_le (10 * fl x))
  have hj0 : 0 ≤ pyRound (10 * fl x) := pyRound_nonneg (by linarith)
  obtain ⟨j, hj⟩ : ∃ j : ℕ, pyRound (10 * fl x) = (j : ℤ) := ⟨_, (Int.toNat_of_nonneg hj0).symm⟩
  rw [hj] at hr
  push_cast at hr
  have hk : (((N / 10000 : ℕ) : ℚ)) ≤ 10 * x := by
    have h1 : N / 10000 * 10000 ≤ N := Nat.div_mul_le_self _ _
    have h2 : (((N / 10000 : ℕ) : ℚ)) * 10000 ≤ N := by exact_mod_cast h1
    rw [hx]
    linarith
  norm_num at e
  have hkj : N / 10000 ≤ j := by
    have h1 : (((N / 10000 : ℕ) : ℚ)) < (j : ℚ) + 1 := by linarith [e.1, hr.1]
    have h2 : N / 10000 < j + 1 := by exact_mod_cast h1
    omega
  have hj30 : j ≤ 2^34 := by
    have h1 : (j : ℚ) ≤ 2^34 := by linarith [e.2, hr.2]
    exact_mod_cast h1
  have hjq : (j : ℚ) ≤ 2^34 := by exact_mod_cast hj30
  have hj0q : (0 : ℚ) ≤ j := by positivity
  have e1 := abs_le.mp (err_small h ((j : ℚ) / 10) (2 ^ 34 / 10) (by positivity) (by linarith))
  have h0 : 0 ≤ fl ((j : ℚ) / 10) := h.toRounding.nonneg (by positivity)
  norm_num at e1
  have e2 := abs_le.mp (err_small h (fl ((j : ℚ) / 10) * 100000) (2 ^ 48) (by positivity) (by norm_num; linarith [e1.2]))
  have hrow : inp.monitorRows fl = 10000 * j := by
    unfold Session.monitorRows Session.runtimeS
    rw [hrate, ← hNdef]
    push_cast
    rw [← hx, hj]
    push_cast
    apply pyRound_eq_of_lt
    rw [abs_lt]
    norm_num at e2
    push_cast
    constructor <;> linarith [e1.1, e1.2, e2.1, e2.2]
  rw [hrow]
  push_cast
  have : ((N / 10000 : ℕ) : ℤ) ≤ j := by exact_mod_cast hkj
  push_cast at this
  omega

/-- **C107, monitoring at 100 kHz** (partial: at other rates the rows may not suffice, see `C107_rate_violated`).  A monitored simulation of a recording at the usual rate gives the same energy and the same file, and one row per sample. -/
theorem C107_100kHz_partial {fl : ℚ → ℚ} (h : AccRounding fl) (m : MathFns) (c : SrcCfg) (t : Target) (name : String) (cfg : Config) (inp : Session)
    (h0 : EqualLengths inp) (ht : TimesFit inp) (hN : (inp.get .voltage).length < 10000 * 2^29) (hv : c.cal.dacVA.Valid) (hc : c.cal.adcCA.Valid)
    (hrate : inp.stats.samplerate = 100000)
    (s' : SimState) (ys : List (ℚ × ℚ)) (hs : simSrcBuffer fl m c inp.cal t (simStart fl c) (fullSamples inp) = .ok (s', ys)) :
    ∃ f rows, simulateSource fl m c t name cfg inp true true = .ok ⟨streamEnergy inp.stats.intervalS ys, some f, some rows⟩ ∧
      SourceOutput fl c name cfg inp ys f ∧ RowsOf fl m c t inp rows :=
  C107_rows h.toRounding m c t name cfg inp h0 ht (by norm_num at hN ⊢; omega) hv hc s' ys hs (by rw [fullSamples_length inp h0]; exact rows_100kHz h inp hrate hN)

/-- The number of rows at 33333 Hz: too few. -/
theorem rows_33kHz {fl : ℚ → ℚ} (h : AccRounding fl) (inp : Session) (hrate : inp.stats.samplerate = 33333) (k : ℕ) (h6 : 6 ≤ k) (hk : k ≤ 16000)
    (hN : (inp.get .voltage).length = 10000 * k) : 0 ≤ inp.monitorRows fl ∧ inp.monitorRows fl < 10000 * (k : ℤ) := by
  have hk0 : (6 : ℚ) ≤ k := by exact_mod_cast h6
  have hku : (k : ℚ) ≤ 16000 := by exact_mod_cast hk
  have hx : (((inp.get .voltage).length : ℚ)) / inp.stats.samplerate = 10000 * k / 33333 := by rw [hN, hrate]; push_cast; rfl
  have e := abs_le.mp (err_small h (10000 * (k : ℚ) / 33333) (2 ^ 13) (by positivity) (by rw [div_le_iff₀ (by norm_num)]; linarith))
  norm_num at e
  have hp : pyRound (10 * fl (10000 * (k : ℚ) / 33333)) = ((3 * k : ℕ) : ℤ) := by
    apply pyRound_eq_of_lt
    rw [abs_lt]
    push_cast
    have h1 : 10000 * (k : ℚ) / 33333 = 3 * k / 10 + k / 333330 := by ring
    rw [h1] at e
    rw [h1]
    constructor <;> linarith [e.1, e.2]
  have e1 := abs_le.mp (err_small h ((3 * (k : ℚ)) / 10) (2 ^ 13) (by positivity) (by linarith))
  norm_num at e1
  have hf0 : 0 ≤ fl ((3 * (k : ℚ)) / 10) := h.toRounding.nonneg (by positivity)
  have e2 := abs_le.mp (err_small h (fl ((3 * (k : ℚ)) / 10) * 33333) (2 ^ 29) (by positivity) (by norm_num; linarith [e1.2]))
  norm_num at e2
  have hrow : inp.monitorRows fl = pyRound (fl (fl ((3 * (k : ℚ)) / 10) * 33333)) := by
    unfold Session.monitorRows Session.runtimeS
    rw [hx, hp, hrate]
    push_cast
    rfl
  have hfn : 0 ≤ fl (fl ((3 * (k : ℚ)) / 10) * 33333) := h.toRounding.nonneg (by positivity)
  have hr := abs_le.mp (abs_pyRound_sub_le (fl (fl ((3 * (k : ℚ)) / 10) * 33333)))
  rw [hrow]
  refine ⟨pyRound_nonneg hfn, ?_⟩
  have h2 : (pyRound (fl (fl ((3 * (k : ℚ)) / 10) * 33333)) : ℚ) < 10000 * k := by linarith [e1.2, e2.2, hr.2]
  exact_mod_cast h2

/-- With a target that works at all voltages the samples can be simulated. -/
theorem total_samples {fl : ℚ → ℚ} (h : Rounding fl) (m : MathFns) (c : SrcCfg) (cal : CalSeries) (hcn : c.cnv.Valid) (hv : c.cal.dacVA.Valid) (ho : 0 ≤ c.cal.dacVA.offset)
    (t : Target) (htt : Target.Total fl m t) (xs : List RawSample) : ∃ s' ys, simSrcBuffer fl m c cal t (simStart fl c) xs = .ok (s', ys) := by
  obtain ⟨s', e, yss, h1, -⟩ := C25_simulation_partial h m c cal hcn hv ho t htt 0 [xs]
  have h2 := simSrc_flat (fl := fl) m c cal t 0 [xs] ⟨SrcState.init fl c, 0⟩ 0
  rw [h1, List.flatten_cons, List.flatten_nil, List.append_nil] at h2
  rcases hs : simSrcBuffer fl m c cal t ⟨SrcState.init fl c, 0⟩ xs with er | ⟨s1, ys⟩
  · rw [hs] at h2; cases h2
  exact ⟨s1, ys, hs⟩

/-- **C107 violated at other rates.**  A recording at 33333 Hz (one sample every 30 µs) of 6 to 16000 full buffers: the simulation works, but not if its internals are monitored, the rows
do not suffice. -/
theorem C107_rate_violated {fl : ℚ → ℚ} (h : AccRounding fl) (m : MathFns) (c : SrcCfg) (t : Target) (name : String) (cfg : Config) (inp : Session)
    (h0 : EqualLengths inp) (ht : TimesFit inp) (k : ℕ) (h6 : 6 ≤ k) (hk : k ≤ 16000) (hN : (inp.get .voltage).length = 10000 * k)
    (hcn : c.cnv.Valid) (hv : c.cal.dacVA.Valid) (ho : 0 ≤ c.cal.dacVA.offset) (hc : c.cal.adcCA.Valid) (htt : Target.Total fl m t)
    (hrate : inp.stats.samplerate = 33333) :
    (∃ e f, simulateSource fl m c t name cfg inp true false = .ok ⟨e, some f, none⟩) ∧
    simulateSource fl m c t name cfg inp true true = .error .indexError := by
  obtain ⟨s1, ys, hs⟩ := total_samples h.toRounding m c inp.cal hcn hv ho t htt (fullSamples inp)
  obtain ⟨r1, r2⟩ := rows_33kHz h inp hrate k h6 hk hN
  obtain ⟨f, g1, -⟩ := C106_source_partial h.toRounding m c t name cfg inp h0 ht (by rw [hN]; norm_num; omega) hv hc s1 ys hs
  refine ⟨⟨_, f, g1⟩, rows_short h.toRounding m c t name cfg inp h0 hv hc s1 ys hs r1 ?_⟩
  rw [fullSamples_length inp h0, hN]
  push_cast
  omega

/-! ## A recording with one sample every 30 µs -/

/-- Time stamps 30 µs apart. -/
def sparse (m : ℕ) : List ℤ := (List.range m).map (fun i : ℕ => 30000 * (i : ℤ))

theorem sparse_getD (m i : ℕ) (h : i < m) : (sparse m).getD i 0 = 30000 * (i : ℤ) := by
  simp [sparse, List.getD, List.getElem?_map, List.getElem?_range h]

theorem refresh_sparse {fl : ℚ → ℚ} (hf : AccRounding fl) (m : ℕ) (h2 : 2 ≤ m) (hm : m ≤ 2^37) (st : Stats) :
    ∃ st', refreshStats fl (CalSeries.default fl) (sparse m) st = .ok st' ∧ st'.samplerate = 33333 := by
  obtain ⟨k, rfl⟩ : ∃ k, m = k + 1 := ⟨m - 1, by omega⟩
  have hk1 : 1 ≤ k := by omega
  have hkq : (1:ℚ) ≤ k := by exact_mod_cast hk1
  have hlen : (sparse (k + 1)).length = k + 1 := by simp [sparse]
  have hdur : (sparse (k + 1)).getD (k + 1 - 1) 0 - (sparse (k + 1)).getD 0 0 = 30000 * (k : ℤ) := by
    rw [sparse_getD _ _ (by omega), sparse_getD _ _ (by omega)]; push_cast; ring
  have hfd : fl ((30000 * (k : ℤ) : ℤ) : ℚ) = 30000 * k := by
    rw [hf.exactInt _ (by rw [abs_of_nonneg (by positivity)]; norm_num at hm ⊢; omega)]; push_cast; ring
  obtain ⟨a1, a2⟩ := Verif.Model.acc_rel hf (x := 1/10^9) (by norm_num)
  set a := fl (1/10^9) with ha
  have ha0 : 0 < a := lt_of_lt_of_le (by norm_num) a1
  have hx30 : (1:ℚ)/10^30 ≤ 30000 * k * a := by
    calc (1:ℚ)/10^30 ≤ 30000 * 1 * (1/10^9 * (1 - 1/2^52)) := by norm_num
      _ ≤ 30000 * k * a := by gcongr
  obtain ⟨b1, b2⟩ := Verif.Model.acc_rel hf hx30
  set x := fl (30000 * k * a) with hx
  have hx2 : fl (x + 0) = x := by rw [add_zero, hx, hf.idem]
  have hraw : (CalSeries.default fl).time.rawToSi fl ((30000 * (k : ℤ) : ℤ) : ℚ) = x := by
    rw [show (CalSeries.default fl).time = ⟨a, 0⟩ from rfl]
    simp only [CalPair.rawToSi, Bool.not_true, Bool.false_eq_true, if_false]
    rw [hfd, ← hx, hx2]
  have hxl : (k : ℚ) * (3/10^5) * (1 - 1/2^50) ≤ x := by
    refine le_trans ?_ b1
    have h3 : (30000 * (k:ℚ)) * (1/10^9 * (1 - 1/2^52)) ≤ 30000 * k * a := mul_le_mul_of_nonneg_left a1 (by positivity)
    have h4 := mul_le_mul_of_nonneg_right h3 (show (0:ℚ) ≤ 1 - 1/2^52 by norm_num)
    refine le_trans ?_ h4
    have h5 : 30000 * (k:ℚ) * (1/10^9 * (1 - 1/2^52)) * (1 - 1/2^52) = k * (3/10^5) * ((1 - 1/2^52) * (1 - 1/2^52)) := by ring
    rw [h5]
    exact mul_le_mul_of_nonneg_left (by norm_num) (by positivity)
  have hxu : x ≤ (k : ℚ) * (3/10^5) * (1 + 1/2^50) := by
    refine le_trans b2 ?_
    have h3 : 30000 * k * a ≤ (30000 * (k:ℚ)) * (1/10^9 * (1 + 1/2^52)) := mul_le_mul_of_nonneg_left a2 (by positivity)
    have h4 := mul_le_mul_of_nonneg_right h3 (show (0:ℚ) ≤ 1 + 1/2^52 by norm_num)
    refine le_trans h4 ?_
    have h5 : 30000 * (k:ℚ) * (1/10^9 * (1 + 1/2^52)) * (1 + 1/2^52) = k * (3/10^5) * ((1 + 1/2^52) * (1 + 1/2^52)) := by ring
    rw [h5]
    exact mul_le_mul_of_nonneg_left (by norm_num) (by positivity)
  have hx0 : 0 < x := lt_of_lt_of_le (mul_pos (mul_pos (by linarith) (by norm_num)) (by norm_num)) hxl
  have hr1 : (33333.3 : ℚ) ≤ k / x := by
    rw [le_div_iff₀ hx0]
    calc (33333.3 : ℚ) * x ≤ 33333.3 * (k * (3/10^5) * (1 + 1/2^50)) := by gcongr
      _ = k * (33333.3 * (3/10^5) * (1 + 1/2^50)) := by ring
      _ ≤ k * 1 := by gcongr; norm_num
      _ = k := mul_one _
  have hr2 : k / x ≤ (33333.4 : ℚ) := by
    rw [div_le_iff₀ hx0]
    calc (k : ℚ) = k * 1 := (mul_one _).symm
      _ ≤ k * (33333.4 * (3/10^5) * (1 - 1/2^50)) := by gcongr; norm_num
      _ = 33333.4 * (k * (3/10^5) * (1 - 1/2^50)) := by ring
      _ ≤ 33333.4 * x := by gcongr
  obtain ⟨c1, c2⟩ := Verif.Model.acc_rel hf (x := k / x) (le_trans (by norm_num) hr1)
  have hrate : pyRound (fl ((k : ℚ) / x)) = 33333 := by
    apply pyRound_eq_of_lt
    rw [abs_lt]
    push_cast
    have h3 := mul_le_mul_of_nonneg_right hr1 (show (0:ℚ) ≤ 1 - 1/2^52 by norm_num)
    have h4 := mul_le_mul_of_nonneg_right hr2 (show (0:ℚ) ≤ 1 + 1/2^52 by norm_num)
    norm_num at h3 h4 c1 c2
    constructor <;> linarith
  unfold refreshStats
  dsimp only
  rw [hlen, if_pos (Nat.succ_pos k), hdur, if_pos ⟨Nat.succ_pos k, by omega⟩, hraw, if_neg hx0.ne']
  refine ⟨_, rfl, ?_⟩
  dsimp only
  rw [Nat.add_sub_cancel, hrate]
  decide

/-- A recording of that kind. -/
def sparseSession (fl : ℚ → ℚ) (m : ℕ) (st : Stats) : Session :=
  { demoSession fl m st with ds := fun n => match n with
      | .time => { (demoDset fl m .time) with data := sparse m }
      | n => demoDset fl m n }

theorem sparse_facts {fl : ℚ → ℚ} (h : AccRounding fl) (m : ℕ) (h2 : 2 ≤ m) (hm : m ≤ 2^37) :
    ∃ inp, openSession fl (sparseSession fl m (Stats.init fl)).file = .ok inp ∧ EqualLengths inp ∧ TimesFit inp ∧
    (inp.get .voltage).length = m ∧ inp.stats.samplerate = 33333 := by
  obtain ⟨st, hst, hrate⟩ := refresh_sparse h m h2 hm (Stats.init fl)
  refine ⟨sparseSession fl m st, ?_, ?_, ?_, ?_, hrate⟩
  · have hp : ∀ n, pairOf (demoDset fl m n).attrs ((CalSeries.default fl).get n) = (CalSeries.default fl).get n := by
      intro n
      have h0 : ((CalSeries.default fl).get n).offset = 0 := by cases n <;> rfl
      unfold pairOf demoDset
      simp only [String.reduceEq, if_true, if_false]
      rw [← h0]
    unfold openSession sparseSession Session.file
    dsimp only [demoSession]
    rw [show pairOf (demoDset fl m .voltage).attrs (CalSeries.default fl).voltage = (CalSeries.default fl).voltage from hp .voltage,
      show pairOf (demoDset fl m .current).attrs (CalSeries.default fl).current = (CalSeries.default fl).current from hp .current,
      show pairOf (demoDset fl m .time).attrs (CalSeries.default fl).time = (CalSeries.default fl).time from hp .time, if_pos (demo_cal h.toRounding)]
    rw [hst]
    dsimp only
    congr 2
    funext n
    cases n <;> rfl
  · intro n
    cases n <;> simp [Session.get, sparseSession, demoDset, sparse]
  · intro t ht
    have ht : t ∈ sparse m := ht
    unfold sparse at ht
    obtain ⟨i, hi, rfl⟩ := List.mem_map.mp ht
    have := List.mem_range.mp hi
    norm_num at hm
    omega
  · simp [Session.get, sparseSession, demoDset]

/-- The hypotheses of `C107_rate_violated` are met: a file that can be opened, of 6 buffers, a source and a resistor as target. -/
example (m : MathFns) : ∃ t inp, openSession b64 (sparseSession b64 60000 (Stats.init b64)).file = .ok inp ∧ EqualLengths inp ∧ TimesFit inp ∧
    (inp.get .voltage).length = 10000 * 6 ∧ inp.stats.samplerate = 33333 ∧
    demoSrc.cnv.Valid ∧ demoSrc.cal.dacVA.Valid ∧ 0 ≤ demoSrc.cal.dacVA.offset ∧ demoSrc.cal.adcCA.Valid ∧ Target.Total b64 m t := by
  obtain ⟨inp, h1, h2, h3, h4, h5⟩ := sparse_facts b64_accRounding 60000 (by norm_num) (by norm_num)
  have h : Target.mkResistive b64 1000 true = .ok (.resistive (b64 (b64 (1/1000) * 1000)) true) := by decide +kernel
  exact ⟨_, inp, h1, h2, h3, h4, h5, demoCfg_valid, by decide +kernel, by decide +kernel, by decide +kernel,
    fun v pg hv => C25_resistive b64_rounding m 1000 true _ h v hv pg⟩

theorem demo_times (fl : ℚ → ℚ) (m : ℕ) (hm : m ≤ 2^39) (st : Stats) : TimesFit (demoSession fl m st) := by
  intro t ht
  have ht : t ∈ regular 0 m := ht
  unfold regular at ht
  obtain ⟨i, hi, rfl⟩ := List.mem_map.mp ht
  have := List.mem_range.mp hi
  norm_num at hm
  omega

/-- The hypotheses of `C106_source_partial` and `C107_100kHz_partial` are met: 1.2 s at 100 kHz. -/
example (m : MathFns) : ∃ t inp s' ys, openSession b64 (demoFile b64 120000) = .ok inp ∧ EqualLengths inp ∧ TimesFit inp ∧
    (inp.get .voltage).length = 120000 ∧ inp.stats.samplerate = 100000 ∧ demoSrc.cal.dacVA.Valid ∧ demoSrc.cal.adcCA.Valid ∧
    simSrcBuffer b64 m demoSrc inp.cal t (simStart b64 demoSrc) (fullSamples inp) = .ok (s', ys) := by
  have h : Target.mkResistive b64 1000 true = .ok (.resistive (b64 (b64 (1/1000) * 1000)) true) := by decide +kernel
  obtain ⟨st, h1, h2⟩ := demo_open b64_accRounding 120000 (by norm_num) (by norm_num)
  obtain ⟨a, b, -⟩ := demo_facts b64_accRounding 120000 st
  obtain ⟨s', ys, hs⟩ := total_samples b64_rounding m demoSrc (demoSession b64 120000 st).cal demoCfg_valid (by decide +kernel) (by decide +kernel) _
    (fun v pg hv => C25_resistive b64_rounding m 1000 true _ h v hv pg) (fullSamples (demoSession b64 120000 st))
  exact ⟨_, _, s', ys, h1, a, demo_times b64 120000 (by norm_num) st, b, h2, by decide +kernel, by decide +kernel, hs⟩

/-- The hypotheses of `C106_short_violated` are met: 0.05 s at 100 kHz. -/
example : ∃ inp, openSession b64 (demoFile b64 5000) = .ok inp ∧ EqualLengths inp ∧ TimesFit inp ∧ (inp.get .voltage).length = 5000 ∧
    demoSrc.cal.dacVA.Valid ∧ demoSrc.cal.adcCA.Valid := by
  obtain ⟨st, h1, -⟩ := demo_open b64_accRounding 5000 (by norm_num) (by norm_num)
  obtain ⟨a, b, -⟩ := demo_facts b64_accRounding 5000 st
  exact ⟨_, h1, a, demo_times b64 5000 (by norm_num) st, b, by decide +kernel, by decide +kernel⟩

/-! ## C107, the values in the rows -/

/-- `x` is `y` but for the rounding of three operations. -/
def Near (x y : ℚ) : Prop := |x - y| ≤ |y| / 2^50 + 1 / 2^1000

/-- What a row of the internals says, with the units of the plot: seconds, volt, milli-ampere, milli-watt (the source counts in ns, µV, nA and fW). -/
structure RowShows (r : SimRow) (τ : ℤ) (s : SimState) : Prop where
  time : Near r.time (τ / 10^9)
  vHold : Near r.vHold (s.src.hrv.voltageHold / 10^6)
  vRequest : Near r.vRequest (s.src.cnv.vInputRequest / 10^6)
  vSet : Near r.vSet (s.src.hrv.voltageSet / 10^6)
  vMid : Near r.vMid (s.src.cnv.vMid / 10^6)
  iHold : Near r.iHold (s.src.hrv.currentHold / 10^6)
  iDelta : Near r.iDelta (s.src.hrv.currentDelta / 10^6)
  iOut : Near r.iOut (s.iOut / 10^6)
  pInp : Near r.pInp (s.src.cnv.pInp / 10^12)
  pOut : Near r.pOut (s.src.cnv.pOut / 10^12)
  good : r.powerGood = s.src.cnv.powerGood

theorem near_scaled {fl : ℚ → ℚ} (h : AccRounding fl) (x y d : ℚ) (hd : 1 ≤ d) (hd' : d ≤ 10^12) (hx : |x - y| ≤ |y| / 2^53 + 2^(-1075:ℤ)) : Near (fl (x * fl (1 / d))) (y / d) := by
  have hd0 : 0 < d := by linarith
  have ha : (1:ℚ) / 10^12 ≤ 1 / d := one_div_le_one_div_of_le hd0 hd'
  have ha1 : 1 / d ≤ 1 := by rw [div_le_one hd0]; exact hd
  have ha0 : 0 < 1 / d := by positivity
  have htiny : (2:ℚ)^(-1075:ℤ) = 1 / 2^1075 := by norm_num
  have e1 := h.err (1 / d)
  have e2 := h.err (x * fl (1 / d))
  rw [abs_of_pos ha0] at e1
  have e1' : |fl (1 / d) - 1 / d| ≤ 1 / d / 2^52 := by
    refine e1.trans ?_
    rw [htiny]
    have : (1:ℚ) / 2^1075 ≤ 1 / 10^12 / 2^53 := by decide +kernel
    clear htiny e1 e2 hx
    generalize (1:ℚ) / 2^1075 = τ at *
    norm_num at this ha ⊢
    linarith
  have hxb : |x| ≤ |y| * (1 + 1/2^53) + 1 / 2^1075 := by
    rw [htiny] at hx
    have := abs_sub_abs_le_abs_sub x y
    linarith
  have h3 : |x * fl (1 / d) - y / d| ≤ |y| / d / 2^51 + 2 / 2^1075 := by
    have : x * fl (1 / d) - y / d = x * (fl (1 / d) - 1 / d) + (x - y) * (1 / d) := by ring
    rw [this]
    refine (abs_add_le _ _).trans ?_
    rw [abs_mul, abs_mul, abs_of_pos ha0]
    have q1 : |x| * |fl (1 / d) - 1 / d| ≤ (|y| * (1 + 1/2^53) + 1 / 2^1075) * (1 / d / 2^52) := mul_le_mul hxb e1' (abs_nonneg _) (by positivity)
    have q2 : |x - y| * (1 / d) ≤ (|y| / 2^53 + 1 / 2^1075) * (1 / d) := by rw [htiny] at hx; exact mul_le_mul_of_nonneg_right hx ha0.le
    have q3 : (1:ℚ) / 2^1075 * (1 / d) ≤ 1 / 2^1075 := mul_le_of_le_one_right (by positivity) ha1
    have hyd : 0 ≤ |y| * (1 / d) := by positivity
    have q4 : |y| / d = |y| * (1 / d) := by ring
    rw [q4]
    have r1 : (|y| * (1 + 1/2^53) + 1 / 2^1075) * (1 / d / 2^52) = |y| * (1 / d) * ((1 + 1/2^53) / 2^52) + (1 / 2^1075 * (1 / d)) / 2^52 := by ring
    have r2 : (|y| / 2^53 + 1 / 2^1075) * (1 / d) = |y| * (1 / d) / 2^53 + 1 / 2^1075 * (1 / d) := by ring
    rw [r1] at q1
    rw [r2] at q2
    have q5 : (0:ℚ) ≤ 1 / 2^1075 * (1 / d) := by positivity
    have q6 : (2:ℚ) / 2^1075 = 2 * (1 / 2^1075) := by ring
    rw [q6]
    generalize (1:ℚ) / 2^1075 * (1 / d) = σ at *
    generalize (1:ℚ) / 2^1075 = τ at *
    generalize |y| * (1 / d) = w at *
    norm_num at q1 q2 ⊢
    linarith
  have h4 : |x * fl (1 / d)| ≤ |y| / d * (1 + 1/2^51) + 2 / 2^1075 := by
    have := abs_sub_abs_le_abs_sub (x * fl (1 / d)) (y / d)
    rw [abs_div y d, abs_of_pos hd0] at this
    linarith
  unfold Near
  rw [abs_div, abs_of_pos hd0]
  have h5 := abs_add_le (fl (x * fl (1 / d)) - x * fl (1 / d)) (x * fl (1 / d) - y / d)
  rw [sub_add_sub_cancel] at h5
  refine h5.trans ((add_le_add e2 h3).trans ?_)
  rw [htiny]
  have hw : 0 ≤ |y| / d := by positivity
  have h6 : (4:ℚ) * (1 / 2^1075) ≤ 1 / 2^1000 := by decide +kernel
  have h8 : (0:ℚ) ≤ 1 / 2^1075 := by positivity
  have h7 : (2:ℚ) / 2^1075 = 2 * (1 / 2^1075) := by ring
  rw [h7] at h4 ⊢
  generalize (1:ℚ) / 2^1075 = τ at *
  generalize (1:ℚ) / 2^1000 = ρ at *
  generalize |x * fl (1 / d)| = u at *
  generalize |y| / d = w at *
  norm_num at h4 ⊢
  linarith

theorem near_exact {fl : ℚ → ℚ} (h : AccRounding fl) (y d : ℚ) (hd : 1 ≤ d) (hd' : d ≤ 10^12) : Near (fl (y * fl (1 / d))) (y / d) :=
  near_scaled h y y d hd hd' (by rw [sub_self, abs_zero]; positivity)

/-- **C107, the values.**  Row k shows the time stamp of sample k and the state of the source after the samples up to k, in the units of the plot. -/
theorem C107_values {fl : ℚ → ℚ} (h : AccRounding fl) (m : MathFns) (c : SrcCfg) (t : Target) (inp : Session) (rows : List SimRow) (hr : RowsOf fl m c t inp rows)
    (k : ℕ) (τ : ℤ) (hk : (fullTimes inp)[k]? = some τ) :
    ∃ s ys r, simSrcBuffer fl m c inp.cal t (simStart fl c) ((fullSamples inp).take (k + 1)) = .ok (s, ys) ∧ rows[k]? = some r ∧ RowShows r τ s := by
  obtain ⟨s, ys, h1, h2⟩ := hr.2 k τ hk
  refine ⟨s, ys, _, h1, h2, ?_⟩
  have p : ∀ y : ℚ, Near (fl (y * fl (1 / 10^6))) (y / 10^6) := fun y => near_exact h y _ (by norm_num) (by norm_num)
  have q : ∀ y : ℚ, Near (fl (y * fl (1 / 10^12))) (y / 10^12) := fun y => near_exact h y _ (by norm_num) (by norm_num)
  exact ⟨near_scaled h _ _ _ (by norm_num) (by norm_num) (h.err _), p _, p _, p _, p _, p _, p _, p _, q _, q _, rfl⟩

/-- Milli-seconds to seconds, in binary64: near, but not equal. -/
example : Near (b64 (7 * b64 (1 / 10^6))) (7 / 10^6) ∧ b64 (7 * b64 (1 / 10^6)) ≠ 7 / 10^6 :=
  ⟨near_exact b64_accRounding 7 _ (by norm_num) (by norm_num), by decide +kernel⟩

/-! ## C106 harvester -/

theorem hrvBuffer_run {fl : ℚ → ℚ} (c : HrvCfg) (cal : CalSeries) (xs : List RawSample) (s : HrvState) :
    simHrvBuffer fl c cal s xs = hrvRun fl c s (xs.map fun x => { toSample fl cal x with feedback := none }) := by
  induction xs generalizing s with
  | nil => rfl
  | cons x xs ih => simp [simHrvBuffer, hrvRun, hrvStep, ih]

theorem hrvBuffer_length {fl : ℚ → ℚ} (c : HrvCfg) (cal : CalSeries) (xs : List RawSample) (s : HrvState) : (simHrvBuffer fl c cal s xs).2.length = xs.length := by
  rw [hrvBuffer_run, hrvRun_length, List.length_map]

/-- The loop of the harvester, in terms of all samples at once. -/
theorem hrvLoop_ok {fl : ℚ → ℚ} {c : HrvCfg} {cal : CalSeries} (dt : ℚ) (bs : List (List ℤ × List ℤ × List ℤ))
    (hb : ∀ b ∈ bs, b.2.1.length = b.1.length ∧ b.2.2.length = b.1.length) (s : HrvState) (e : ℚ) (w : Option Session)
    (hw : ∀ w0, w = some w0 → EqualLengths w0) (S : HrvState) (ys : List Sample)
    (hS : simHrvBuffer fl c cal s (bs.map (fun b => rawSamples b.2.1 b.2.2)).flatten = (S, ys)) :
    ∃ w', simHrvLoop fl c cal dt (s, e) w bs = .ok ((S, e + bufferEnergy dt (ys.map fun y => ((y.v : ℚ), (y.i : ℚ)))), w') ∧ (w = none → w' = none) ∧
      ∀ w0, w = some w0 → ∃ w1 l, w' = some w1 ∧ EqualLengths w1 ∧ calls fl w0 l = .ok w1 ∧
        w1.get .time = w0.get .time ++ (bs.map (·.1)).flatten.map DsName.time.clamp ∧
        w1.get .voltage = w0.get .voltage ++ ys.map (fun y => DsName.voltage.clamp (w0.cal.voltage.siToRaw fl (fl ((y.v : ℚ) / 10^6)))) ∧
        w1.get .current = w0.get .current ++ ys.map (fun y => DsName.current.clamp (w0.cal.current.siToRaw fl (fl ((y.i : ℚ) / 10^9)))) := by
  induction bs generalizing s e w ys with
  | nil =>
    simp only [List.map_nil, List.flatten_nil, simHrvBuffer, Prod.mk.injEq] at hS
    obtain ⟨rfl, rfl⟩ := hS
    refine ⟨w, by simp [simHrvLoop, bufferEnergy], fun h => h, fun w0 h => ⟨w0, [], h, hw w0 h, rfl, by simp, by simp, by simp⟩⟩
  | cons b bs ih =>
    rw [List.map_cons, List.flatten_cons, simHrvBuffer_append] at hS
    rcases hp : simHrvBuffer fl c cal s (rawSamples b.2.1 b.2.2) with ⟨s1, y1⟩
    rw [hp] at hS
    dsimp only at hS
    rcases hq : simHrvBuffer fl c cal s1 (bs.map (fun b => rawSamples b.2.1 b.2.2)).flatten with ⟨s2, y2⟩
    rw [hq] at hS
    cases hS
    have hlen : y1.length = b.1.length := by
      have := hrvBuffer_length (fl := fl) c cal (rawSamples b.2.1 b.2.2) s
      rw [hp] at this
      rw [this]
      simp [rawSamples, (hb b (by simp)).1, (hb b (by simp)).2]
    have hb' : ∀ b ∈ bs, b.2.1.length = b.1.length ∧ b.2.2.length = b.1.length := fun x hx => hb x (by simp [hx])
    cases w with
    | none =>
      obtain ⟨w', e1, e2, -⟩ := ih hb' s1 (e + bufferEnergy dt (y1.map fun y => ((y.v : ℚ), (y.i : ℚ)))) none (by simp) y2 hq
      refine ⟨w', ?_, e2, by simp⟩
      rw [simHrvLoop]
      simp only [bind, Except.bind, hp]
      rw [e1, List.map_append, bufferEnergy_append, add_assoc]
    | some w0 =>
      obtain ⟨w1, a1, a2, a3, a4, a5, a6⟩ := append_buffer w0 (hw w0 rfl) b.1 (hrvRawV fl w0.cal (y1.map fun y => (y.v : ℚ))) (hrvRawI fl w0.cal (y1.map fun y => (y.i : ℚ)))
        (by simp [hrvRawV, CalPair.siToRawArr, hlen]) (by simp [hrvRawI, CalPair.siToRawArr, hlen])
      obtain ⟨w', e1, -, e3⟩ := ih hb' s1 (e + bufferEnergy dt (y1.map fun y => ((y.v : ℚ), (y.i : ℚ)))) (some w1) (by rintro _ h; cases h; exact a3) y2 hq
      obtain ⟨w2, l, f1, f2, f3, f4, f5, f6⟩ := e3 w1 rfl
      refine ⟨w', ?_, by simp, ?_⟩
      · rw [simHrvLoop]
        simp only [bind, Except.bind, hp, a1, Except.map]
        rw [e1, List.map_append, bufferEnergy_append, add_assoc]
      · intro w3 hw3
        cases hw3
        have hcal : w1.cal = w0.cal := a2.2.2.2.1
        refine ⟨w2, .raw (.array b.1) (hrvRawV fl w0.cal (y1.map fun y => (y.v : ℚ))) (hrvRawI fl w0.cal (y1.map fun y => (y.i : ℚ))) :: l, f1, f2, ?_, ?_, ?_, ?_⟩
        · simp only [calls, call, a1]; exact f3
        · rw [f4, a4]; simp
        · rw [f5, a5, hcal, hrvRawV, siToRawArr_codes]; simp [Function.comp_def]
        · rw [f6, a6, hcal, hrvRawI, siToRawArr_codes]; simp [Function.comp_def]

/-- What the harvester returns for the samples in the full buffers of a recording. -/
def harvested (fl : ℚ → ℚ) (c : HrvCfg) (inp : Session) : List Sample := outputs fl c ((fullSamples inp).map fun x => { toSample fl inp.cal x with feedback := none })

/-- The file written for it: one sample per sample in the full buffers of the input, with its time stamp, voltage and current as codes of the calibration of the harvester;
a valid recording of a harvester, with the name of its configuration. -/
structure HarvesterOutput (fl : ℚ → ℚ) (c : HrvCfg) (cal : CalHarvester) (name : String) (inp : Session) (f : H5File) : Prop where
  times : contents f .time = some (fullTimes inp)
  volts : contents f .voltage = some ((harvested fl c inp).map fun y => max 0 (min (cal.adcVSense.siToRaw fl (fl ((y.v : ℚ) / 10^6))) (2^32 - 1)))
  currs : contents f .current = some ((harvested fl c inp).map fun y => max 0 (min (cal.adcCHrv.siToRaw fl (fl ((y.i : ℚ) / 10^9))) (2^32 - 1)))
  valid : f.isValid = true
  labels : ∃ r, openSession fl f = .ok r ∧ OutMeta fl r "harvester" ("hrv_sim_" ++ name) ⟨cal.adcVSense, cal.adcCHrv, (CalSeries.default fl).time⟩

/-- **C106, simulating a harvester into a file** (partial for the same reason).  The simulation never raises, returns the energy of what the harvester returns for the samples in full buffers, the same with and
without an output, and writes the file described by `HarvesterOutput`. -/
theorem C106_harvester_partial {fl : ℚ → ℚ} (hf : Rounding fl) (c : HrvCfg) (cal : CalHarvester) (name : String) (inp : Session)
    (h0 : EqualLengths inp) (ht : TimesFit inp) (hN : (inp.get .voltage).length < 10000 * 2^39) (hv : cal.adcVSense.Valid) (hc : cal.adcCHrv.Valid) :
    simulateHarvester fl c cal name inp false = .ok (streamEnergy inp.stats.intervalS ((harvested fl c inp).map fun y => ((y.v : ℚ), (y.i : ℚ))), none) ∧
    ∃ f, simulateHarvester fl c cal name inp true = .ok (streamEnergy inp.stats.intervalS ((harvested fl c inp).map fun y => ((y.v : ℚ), (y.i : ℚ))), some f) ∧
      HarvesterOutput fl c cal name inp f := by
  obtain ⟨hb, hbt, hbs⟩ := buffers_facts inp h0
  rcases hS : simHrvBuffer fl c inp.cal (HrvState.init c) (fullSamples inp) with ⟨S, ys⟩
  have hys : harvested fl c inp = ys := by
    have := hrvBuffer_run (fl := fl) c inp.cal (fullSamples inp) (HrvState.init c)
    rw [hS] at this
    unfold harvested outputs
    rw [← this]
  rw [hys]
  rw [← hbs] at hS
  constructor
  · obtain ⟨w', e1, e2, -⟩ := hrvLoop_ok inp.stats.intervalS _ hb (HrvState.init c) 0 none (by simp) S ys hS
    cases e2 rfl
    unfold simulateHarvester
    simp only [bind, Except.bind, Bool.false_eq_true, if_false]
    rw [e1]
    simp only [simClose, pure, Except.pure, zero_add, bufferEnergy_eq]
  · obtain ⟨w, hw⟩ := simWriter_total (fl := fl) "harvester" (.inl rfl) (.hrv cal) hv hc (demo_cal hf).2.2 ("hrv_sim_" ++ name) none
    obtain ⟨f0, s0, ho, hst, hg⟩ := simWriter_ok hw
    have hcal : w.cal = (CalArg.hrv cal).toSeries fl := by
      obtain ⟨-, e2, -⟩ := stores_attrs fl hst
      obtain ⟨g, dt, dl, t, -, -, -, -, -, -, -, -, hd, -, hc0⟩ := open_session_facts ho
      have hx : ∀ n e, pairOf (s0.ds n).attrs e = ((CalArg.hrv cal).toSeries fl).get n := by
        intro n e
        obtain ⟨d, -, hd2⟩ := hd n
        rw [hd2]
        dsimp only
        exact pairOf_put d.attrs (((CalArg.hrv cal).toSeries fl).get n) _ e
      rw [e2, hc0]
      unfold calOf
      rw [CalSeries.mk.injEq]
      exact ⟨hx .voltage _, hx .current _, hx .time _⟩
    obtain ⟨w', e1, -, e3⟩ := hrvLoop_ok inp.stats.intervalS _ hb (HrvState.init c) 0 (some w) (by rintro _ h; cases h; exact fun n => by rw [hg, hg]) S ys hS
    obtain ⟨w1, l, rfl, f2, f3, f4, f5, f6⟩ := e3 w rfl
    rw [hg, List.nil_append, hbt] at f4
    rw [hg, List.nil_append, hcal] at f5 f6
    have htimes : (fullTimes inp).map DsName.time.clamp = fullTimes inp := clamp_times (fun x hx => ht x (List.mem_of_mem_take hx))
    rw [htimes] at f4
    have hlen : (w1.get .voltage).length = (inp.get .voltage).length / 10000 * 10000 := by
      rw [← f2 .time, f4, fullTimes_length inp h0]
    obtain ⟨f, g1, g2, g3, g4, g5⟩ := out_file hf (cal := .hrv cal) rfl hw f3 f2 (by rw [hlen]; omega) (by rw [hlen]; omega)
    refine ⟨f, ?_, ⟨?_, ?_, ?_, g3, g5⟩⟩
    · unfold simulateHarvester
      simp only [bind, Except.bind, if_true, hw, Except.map]
      rw [e1]
      simp only [simClose, g1, Except.map, pure, Except.pure, zero_add, bufferEnergy_eq]
    · rw [g2, f4]
    · rw [g2, f5, hys]; rfl
    · rw [g2, f6, hys]; rfl

/-- The hypotheses of `C106_harvester_partial` are met. -/
example : ∃ inp, openSession b64 (demoFile b64 120000) = .ok inp ∧ EqualLengths inp ∧ TimesFit inp ∧ (inp.get .voltage).length = 120000 ∧
    CalPair.Valid ⟨1/51200, 0⟩ ∧ CalPair.Valid ⟨1/4915200, 0⟩ := by
  obtain ⟨st, h1, -⟩ := demo_open b64_accRounding 120000 (by norm_num) (by norm_num)
  obtain ⟨a, b, -⟩ := demo_facts b64_accRounding 120000 st
  exact ⟨_, h1, a, demo_times b64 120000 (by norm_num) st, b, by decide +kernel, by decide +kernel⟩

/-! ## How exactly the values are stored -/

theorem store_error {fl : ℚ → ℚ} (h : AccRounding fl) (c : CalPair) (hg : 1 / 10^100 ≤ c.gain) (ho : |c.offset| ≤ 2^40 * c.gain) (ho' : c.offset ≤ 0)
    (z x : ℚ) (hz : z - c.offset ≤ 2^31 * c.gain) (hx0 : 0 ≤ x) (hx : |x - z| ≤ z / 2^51 + 2^(-1075:ℤ)) (n : DsName) :
    |c.rawToSi fl (n.clamp (c.siToRaw fl x) : ℤ) - z| ≤ c.gain * (1/2 + 1/2^10) := by
  have hg0 : 0 < c.gain := lt_of_lt_of_le (by positivity) hg
  have htiny : (2:ℚ)^(-1075:ℤ) ≤ c.gain / 2^60 := by
    have h1 := tiny_div hg
    rw [div_le_iff₀ hg0] at h1
    linarith
  have hzu : z ≤ 2^31 * c.gain := by linarith
  have hd : |x - z| ≤ c.gain / 2^19 := by
    refine hx.trans ?_
    generalize (2:ℚ)^(-1075:ℤ) = τ at *
    generalize c.gain = g at *
    norm_num at hzu htiny ⊢
    linarith
  have hd' := abs_le.mp hd
  have hr : InRange c x := by
    refine ⟨by linarith, ?_⟩
    have := hd'.2
    generalize c.gain = g at *
    norm_num at hz this ⊢
    linarith
  rw [clamp_code h c hg ho x hr n]
  have hb := abs_le.mp (C02_si_raw_si_float h c hg ho x hr.1 (hr.2.trans (by nlinarith)))
  rw [abs_le]
  generalize c.rawToSi fl (c.siToRaw fl x) = u at *
  generalize c.gain = g at *
  norm_num at hb hd' ⊢
  constructor <;> linarith [hb.1, hb.2, hd'.1, hd'.2]

/-- A product with a rounded constant. -/
theorem scaled_store_error {fl : ℚ → ℚ} (h : AccRounding fl) (a y : ℚ) (ha : 1 / 10^100 ≤ a) (hy : 0 ≤ y) :
    0 ≤ fl (fl a * y) ∧ |fl (fl a * y) - a * y| ≤ a * y / 2^51 + 2^(-1075:ℤ) := by
  have ha0 : 0 < a := lt_of_lt_of_le (by positivity) ha
  have htiny : (2:ℚ)^(-1075:ℤ) ≤ a / 2^60 := by
    have h1 := tiny_div ha
    rw [div_le_iff₀ ha0] at h1
    linarith
  have hp0 : 0 ≤ fl a := h.toRounding.nonneg ha0.le
  have hn : 0 ≤ fl a * y := mul_nonneg hp0 hy
  refine ⟨h.toRounding.nonneg hn, ?_⟩
  have e1 := h.err a
  rw [abs_of_pos ha0] at e1
  have e2 := h.err (fl a * y)
  rw [abs_of_nonneg hn] at e2
  have e1' : |fl a - a| ≤ a / 2^52 := e1.trans (by
    generalize (2:ℚ)^(-1075:ℤ) = τ at *
    norm_num at htiny ⊢
    linarith)
  have e3 : |fl a * y - a * y| ≤ a * y / 2^52 := by
    rw [← sub_mul, abs_mul, abs_of_nonneg hy]
    calc |fl a - a| * y ≤ a / 2^52 * y := mul_le_mul_of_nonneg_right e1' hy
      _ = a * y / 2^52 := by ring
  have hay : 0 ≤ a * y := mul_nonneg ha0.le hy
  generalize (2:ℚ)^(-1075:ℤ) = τ at *
  generalize fl (fl a * y) = w at *
  generalize fl a * y = v at *
  generalize a * y = z at *
  rw [abs_le] at *
  norm_num at e2 e3 ⊢
  constructor <;> linarith [e2.1, e2.2, e3.1, e3.2]

/-- A calibration that resolves the values of its range: its step is no denormal number, and its offset lies below zero by no more than 2^40 steps. -/
structure Resolves (c : CalPair) : Prop where
  gain : 1 / 10^100 ≤ c.gain
  offset : |c.offset| ≤ 2^40 * c.gain
  below : c.offset ≤ 0

theorem readback_opened {fl : ℚ → ℚ} {f : H5File} {r : Session} (h : openSession fl f = .ok r) (n : DsName) (x : List ℤ) (hx : contents f n = some x) :
    readback fl r n = x.map fun k : ℤ => (r.cal.get n).rawToSi fl k := by
  have h1 := (openSession_ok h).1
  rw [← h1, contents_file] at hx
  cases hx
  rfl

/-- **C106, what a reader of the output sees.**  Voltage and current read from the output in SI units are those of the simulated source, sample by sample, to little more than
half a step of the calibration of the emulator, as long as they lie in the lower half of its range. -/
theorem C106_source_read {fl : ℚ → ℚ} (h : AccRounding fl) (c : SrcCfg) (name : String) (cfg : Config) (inp : Session) (ys : List (ℚ × ℚ)) (f : H5File)
    (ho : SourceOutput fl c name cfg inp ys f) (hv : Resolves c.cal.dacVA) (hc : Resolves c.cal.adcCA)
    (hys : ∀ y ∈ ys, 0 ≤ y.1 ∧ 0 ≤ y.2 ∧ 1 / 10^6 * y.1 - c.cal.dacVA.offset ≤ 2^31 * c.cal.dacVA.gain ∧ 1 / 10^9 * y.2 - c.cal.adcCA.offset ≤ 2^31 * c.cal.adcCA.gain) :
    ∃ r, openSession fl f = .ok r ∧
      List.Forall₂ (fun u (y : ℚ × ℚ) => |u - 1 / 10^6 * y.1| ≤ c.cal.dacVA.gain * (1/2 + 1/2^10)) (readback fl r .voltage) ys ∧
      List.Forall₂ (fun u (y : ℚ × ℚ) => |u - 1 / 10^9 * y.2| ≤ c.cal.adcCA.gain * (1/2 + 1/2^10)) (readback fl r .current) ys := by
  obtain ⟨r, hr, hm⟩ := ho.labels
  refine ⟨r, hr, ?_, ?_⟩
  · rw [readback_opened hr .voltage _ ho.volts, List.map_map, List.forall₂_map_left_iff, List.forall₂_same]
    intro y hy
    obtain ⟨a, -, b, -⟩ := hys y hy
    obtain ⟨p, q⟩ := scaled_store_error h (1 / 10^6) y.1 (by norm_num) a
    have := store_error h c.cal.dacVA hv.gain hv.offset hv.below (1 / 10^6 * y.1) _ b p q .voltage
    have e : r.cal.get .voltage = c.cal.dacVA := hm.volt
    rw [Function.comp_apply, e]
    exact this
  · rw [readback_opened hr .current _ ho.currs, List.map_map, List.forall₂_map_left_iff, List.forall₂_same]
    intro y hy
    obtain ⟨-, a, -, b⟩ := hys y hy
    obtain ⟨p, q⟩ := scaled_store_error h (1 / 10^9) y.2 (by norm_num) a
    have := store_error h c.cal.adcCA hc.gain hc.offset hc.below (1 / 10^9 * y.2) _ b p q .current
    have e : r.cal.get .current = c.cal.adcCA := hm.curr
    rw [Function.comp_apply, e]
    exact this

/-- The same for a harvester. -/
theorem C106_harvester_read {fl : ℚ → ℚ} (h : AccRounding fl) (c : HrvCfg) (cal : CalHarvester) (name : String) (inp : Session) (f : H5File)
    (ho : HarvesterOutput fl c cal name inp f) (hv : Resolves cal.adcVSense) (hc : Resolves cal.adcCHrv)
    (hys : ∀ y ∈ harvested fl c inp, 0 ≤ y.v ∧ 0 ≤ y.i ∧ (y.v : ℚ) / 10^6 - cal.adcVSense.offset ≤ 2^31 * cal.adcVSense.gain ∧ (y.i : ℚ) / 10^9 - cal.adcCHrv.offset ≤ 2^31 * cal.adcCHrv.gain) :
    ∃ r, openSession fl f = .ok r ∧
      List.Forall₂ (fun u (y : Sample) => |u - (y.v : ℚ) / 10^6| ≤ cal.adcVSense.gain * (1/2 + 1/2^10)) (readback fl r .voltage) (harvested fl c inp) ∧
      List.Forall₂ (fun u (y : Sample) => |u - (y.i : ℚ) / 10^9| ≤ cal.adcCHrv.gain * (1/2 + 1/2^10)) (readback fl r .current) (harvested fl c inp) := by
  obtain ⟨r, hr, hm⟩ := ho.labels
  have err : ∀ z : ℚ, 0 ≤ z → |fl z - z| ≤ z / 2^51 + 2^(-1075:ℤ) := by
    intro z hz
    have := h.err z
    rw [abs_of_nonneg hz] at this
    refine this.trans ?_
    have : z / 2^53 ≤ z / 2^51 := div_le_div_of_nonneg_left hz (by positivity) (by norm_num)
    linarith
  refine ⟨r, hr, ?_, ?_⟩
  · rw [readback_opened hr .voltage _ ho.volts, List.map_map, List.forall₂_map_left_iff, List.forall₂_same]
    intro y hy
    obtain ⟨a, -, b, -⟩ := hys y hy
    have a : (0:ℚ) ≤ (y.v : ℚ) := by exact_mod_cast a
    have h0 : (0:ℚ) ≤ (y.v : ℚ) / 10^6 := by positivity
    have := store_error h cal.adcVSense hv.gain hv.offset hv.below _ _ b (h.toRounding.nonneg h0) (err _ h0) .voltage
    have e : r.cal.get .voltage = cal.adcVSense := hm.volt
    rw [Function.comp_apply, e]
    exact this
  · rw [readback_opened hr .current _ ho.currs, List.map_map, List.forall₂_map_left_iff, List.forall₂_same]
    intro y hy
    obtain ⟨-, a, -, b⟩ := hys y hy
    have a : (0:ℚ) ≤ (y.i : ℚ) := by exact_mod_cast a
    have h0 : (0:ℚ) ≤ (y.i : ℚ) / 10^9 := by positivity
    have := store_error h cal.adcCHrv hc.gain hc.offset hc.below _ _ b (h.toRounding.nonneg h0) (err _ h0) .current
    have e : r.cal.get .current = cal.adcCHrv := hm.curr
    rw [Function.comp_apply, e]
    exact this

/-- The default calibration resolves 3 V and 10 mA. -/
example : Resolves demoSrc.cal.dacVA ∧ Resolves demoSrc.cal.adcCA ∧ 1 / 10^6 * 3000000 - demoSrc.cal.dacVA.offset ≤ 2^31 * demoSrc.cal.dacVA.gain ∧
    1 / 10^9 * 10000000 - demoSrc.cal.adcCA.offset ≤ 2^31 * demoSrc.cal.adcCA.gain := by
  refine ⟨⟨?_, ?_, ?_⟩, ⟨?_, ?_, ?_⟩, ?_, ?_⟩ <;> decide +kernel

end Verif.Props
