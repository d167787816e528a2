import Verif.Lemmas.Recorder
import Verif.Lemmas.Except
import Verif.Props.Calibration

/-!
# Properties of recording files (C31–C37, C71)
-/

namespace Verif.Props
open Verif.Py Verif.Model

/-! ## Histories of appends -/

/-- A call of `append_iv_data_raw` resp. `append_iv_data_si`. -/
inductive Call
  | raw (ts : Stamp) (vs cs : List ℤ)
  | si (ts : StampSi) (vs cs : List ℚ)

/-- One call on an open writer. -/
def call (fl : ℚ → ℚ) (s : Session) : Call → Except PyErr Session
  | .raw ts vs cs => s.appendRaw ts vs cs
  | .si ts vs cs => s.appendSi fl ts vs cs

/-- All calls in order. -/
def calls (fl : ℚ → ℚ) : Session → List Call → Except PyErr Session
  | s, [] => .ok s
  | s, c :: cs => match call fl s c with
    | .error e => .error e
    | .ok s' => calls fl s' cs

/-- Length of the shortest array of a call. -/
def shortest : Call → ℕ
  | .raw (.array ts) vs cs => min (min vs.length cs.length) ts.length
  | .raw _ vs cs => min vs.length cs.length
  | .si (.array ts) vs cs => min (min vs.length cs.length) ts.length
  | .si (.float _) vs cs => min vs.length cs.length

/-- `n` timestamps in steps of `iv` from `t` on, as unsigned 64 bit numbers. -/
def ticks (iv t : ℤ) (n : ℕ) : List ℤ := (List.range n).map (fun i : ℕ => (t + iv * (i : ℤ)) % 2^64)

/-- The integers handed to dataset `n` by a call, before they are cut: the arrays themselves, for SI values their raw codes, for a scalar
timestamp the ticks from there. -/
def offered (fl : ℚ → ℚ) (cal : CalSeries) (iv : ℤ) (c : Call) (n : DsName) : List ℤ :=
  match n, c with
  | .voltage, .raw _ vs _ => vs
  | .current, .raw _ _ cs => cs
  | .time, .raw (.array ts) _ _ => ts
  | .time, .raw (.int t) vs cs => ticks iv t (min vs.length cs.length)
  | .time, .raw (.float t) vs cs => ticks iv (pyInt t) (min vs.length cs.length)
  | .time, .raw .other _ _ => []
  | .voltage, .si _ vs _ => vs.map (fun x => cal.voltage.siToRaw fl x)
  | .current, .si _ _ cs => cs.map (fun x => cal.current.siToRaw fl x)
  | .time, .si (.array ts) _ _ => ts.map (fun x => cal.time.siToRaw fl x)
  | .time, .si (.float t) vs cs => ticks iv (cal.time.siToRaw fl t) (min vs.length cs.length)

theorem siToRawArr_codes (fl : ℚ → ℚ) (c : CalPair) (l : List ℚ) :
    (c.siToRawArr fl l).map (fun x => pyInt x) = l.map (fun x => c.siToRaw fl x) := by
  simp only [CalPair.siToRawArr, List.map_map]
  refine List.map_congr_left (fun x _ => ?_)
  simp only [Function.comp, CalPair.siToRaw, pyInt_intCast]
  congr 1
  split
  · rename_i h; rw [max_eq_right h.le]
  · rename_i h; rw [max_eq_left (not_lt.1 h)]

/-- The timestamps meant by an argument. -/
def stampSpec (iv : ℤ) (k : ℕ) : Stamp → List ℤ
  | .int t => ticks iv t k
  | .float t => ticks iv (pyInt t) k
  | .array l => l
  | .other => []

theorem stampList_scalar {st : Stats} {ts : Stamp} {k : ℕ} {tl : List ℤ} (h : stampList st ts k = .ok tl) :
    tl = stampSpec st.intervalNs k ts := by
  cases ts with
  | int t => simp only [stampList] at h; split at h <;> cases h; rfl
  | float t => simp only [stampList] at h; split at h <;> cases h; rfl
  | array l => simp only [stampList] at h; cases h; rfl
  | other => simp only [stampList] at h; cases h

theorem raw_step (fl : ℚ → ℚ) {s s' : Session} {ts : Stamp} {vs cs : List ℤ} (h : s.appendRaw ts vs cs = .ok s') :
    s'.Same s ∧ ∀ n, s'.get n = resizeList (s.get n) (s.get .voltage).length ++
      ((offered fl s.cal s.stats.intervalNs (.raw ts vs cs) n).take (shortest (.raw ts vs cs))).map n.clamp := by
  obtain ⟨tl, ht, hs, hg⟩ := appendRaw_get h
  refine ⟨hs, fun n => ?_⟩
  rw [hg n]
  have e := stampList_scalar ht
  have hsh : min (min vs.length cs.length) tl.length = shortest (.raw ts vs cs) := by
    cases ts with
    | int t => subst e; simp [shortest, stampSpec, ticks]
    | float t => subst e; simp [shortest, stampSpec, ticks]
    | array l => subst e; rfl
    | other => simp only [stampList] at ht; cases ht
  rw [hsh]
  congr 3
  cases n with
  | voltage => rfl
  | current => rfl
  | time =>
    cases ts with
    | int t => exact e
    | float t => exact e
    | array l => exact e
    | other => exact e

/-- One append: the datasets are cut or filled to the length of the voltage, then the offered data is added. -/
theorem call_step (fl : ℚ → ℚ) {s s' : Session} {c : Call} (h : call fl s c = .ok s') :
    s'.Same s ∧ ∀ n, s'.get n = resizeList (s.get n) (s.get .voltage).length ++
      ((offered fl s.cal s.stats.intervalNs c n).take (shortest c)).map n.clamp := by
  cases c with
  | raw ts vs cs => exact raw_step fl h
  | si ts vs cs =>
    simp only [call, Session.appendSi, siToRawArr_codes] at h
    cases ts with
    | float t =>
      obtain ⟨h1, h2⟩ := raw_step fl h
      refine ⟨h1, fun n => (h2 n).trans ?_⟩
      cases n <;> simp [offered, shortest]
    | array l =>
      obtain ⟨h1, h2⟩ := raw_step fl h
      refine ⟨h1, fun n => (h2 n).trans ?_⟩
      cases n <;> simp [offered, shortest]

theorem offered_ge (fl : ℚ → ℚ) {s s' : Session} {c : Call} (h : call fl s c = .ok s') (n : DsName) :
    shortest c ≤ (offered fl s.cal s.stats.intervalNs c n).length := by
  cases c with
  | raw ts vs cs =>
    cases ts with
    | other =>
      simp only [call, Session.appendRaw, Session.appendPlan, stampList] at h
      cases h
    | _ => cases n <;> simp [shortest, offered, ticks] <;> omega
  | si ts vs cs => cases ts <;> cases n <;> simp [shortest, offered, ticks]

/-- The three datasets have the same length. -/
def EqualLengths (s : Session) : Prop := ∀ n, (s.get n).length = (s.get .voltage).length

/-- **C31.** From equally long datasets on, any sequence of accepted appends leaves equally long datasets: every dataset is its old content
followed by the data of the calls in order, each cut to the shortest array of its call. -/
theorem C31_concatenation (fl : ℚ → ℚ) (s s' : Session) (l : List Call) (h0 : EqualLengths s) (h : calls fl s l = .ok s') :
    EqualLengths s' ∧ (s'.get .voltage).length = (s.get .voltage).length + (l.map shortest).sum ∧
      ∀ n, s'.get n = s.get n ++
        (l.map (fun c => ((offered fl s.cal s.stats.intervalNs c n).take (shortest c)).map n.clamp)).flatten := by
  induction l generalizing s with
  | nil => cases h; exact ⟨h0, by simp, by simp⟩
  | cons c l ih =>
    simp only [calls] at h
    cases hc : call fl s c with
    | error e => rw [hc] at h; cases h
    | ok t =>
      rw [hc] at h
      obtain ⟨hs, hg⟩ := call_step fl hc
      have hg' : ∀ n, t.get n = s.get n ++ ((offered fl s.cal s.stats.intervalNs c n).take (shortest c)).map n.clamp := by
        intro n; rw [hg n, ← h0 n, resizeList_self]
      have hlen : ∀ n, (t.get n).length = (s.get .voltage).length + shortest c := by
        intro n
        rw [hg' n, List.length_append, List.length_map, List.length_take, Nat.min_eq_left (offered_ge fl hc n), h0 n]
      obtain ⟨e1, e2, e3⟩ := ih t (fun n => by rw [hlen, hlen]) h
      refine ⟨e1, ?_, fun n => ?_⟩
      · rw [e2, hlen, List.map_cons, List.sum_cons]; omega
      · rw [e3 n, hg' n, hs.2.2.2.1, hs.2.2.1, List.map_cons, List.flatten_cons, List.append_assoc]

/-! ### New files -/

theorem skeleton_get : ∀ n, ∃ d, (skeleton.data.bind (fun g => g.dset n)) = some d ∧ d.data = [] := fun n => ⟨_, rfl, rfl⟩

/-- Contents of the file a writer was opened on. -/
theorem open_get {fl : ℚ → ℚ} {old : Option H5File} {args : WriterArgs} {f : H5File} {s : Session}
    (h : writerOpen fl old args = (f, .ok s)) (n : DsName) :
    ∃ g d, (old.getD skeleton).data = some g ∧ g.dset n = some d ∧ s.get n = d.data := by
  obtain ⟨dtypes, g, dt, t, -, -, hg, -, -, -, -, -, hf, hs⟩ := writerOpen_ok h
  obtain ⟨hsf, -⟩ := openSession_ok hs
  have hd : s.file.data = f.data := by rw [hsf]
  rw [hf] at hd
  simp only [Session.file, Option.some.injEq, putCal] at hd
  have := congrFun (congrArg DataGroup.dset hd) n
  simp only at this
  cases hgn : g.dset n with
  | none => rw [hgn] at this; simp at this
  | some d =>
    rw [hgn] at this
    simp only [Option.map_some, Option.some.injEq] at this
    refine ⟨g, d, hg, hgn, ?_⟩
    unfold Session.get
    rw [this]

theorem new_get {fl : ℚ → ℚ} {args : WriterArgs} {f : H5File} {s : Session} (h : writerOpen fl none args = (f, .ok s)) (n : DsName) :
    s.get n = [] := by
  obtain ⟨g, d, hg, hd, e⟩ := open_get h n
  simp only [Option.getD_none, skeleton, Option.some.injEq] at hg
  subst hg
  simp only [Option.some.injEq] at hd
  subst hd
  exact e

theorem new_equal {fl : ℚ → ℚ} {args : WriterArgs} {f : H5File} {s : Session} (h : writerOpen fl none args = (f, .ok s)) :
    EqualLengths s := fun n => by rw [new_get h, new_get h]

theorem new_stats {fl : ℚ → ℚ} {args : WriterArgs} {f : H5File} {s : Session} (h : writerOpen fl none args = (f, .ok s)) :
    s.stats = Stats.init fl := by
  obtain ⟨dtypes, g, dt, t, -, -, hg, -, -, -, -, -, hf, hs⟩ := writerOpen_ok h
  obtain ⟨-, -, -, hst⟩ := openSession_ok hs
  rw [new_get h] at hst
  simp only [refreshStats, List.length_nil, gt_iff_lt, lt_irrefl, false_and, if_false] at hst
  exact (Except.ok.inj hst).symm

/-- **C31 for a new file**: the file holds exactly what was appended. -/
theorem C31_new_file (fl : ℚ → ℚ) (args : WriterArgs) (f : H5File) (s s' : Session) (l : List Call)
    (ho : writerOpen fl none args = (f, .ok s)) (h : calls fl s l = .ok s') :
    (∀ n, (s'.get n).length = (l.map shortest).sum) ∧
      ∀ n, s'.get n = (l.map (fun c => ((offered fl s.cal 10000 c n).take (shortest c)).map n.clamp)).flatten := by
  obtain ⟨h1, h2, h3⟩ := C31_concatenation fl s s' l (new_equal ho) h
  have hiv : s.stats.intervalNs = 10000 := by rw [new_stats ho]; rfl
  rw [hiv] at h3
  refine ⟨fun n => ?_, fun n => ?_⟩
  · rw [h1 n, h2, new_get ho]; simp
  · rw [h3 n, new_get ho, List.nil_append]

/-- Appends with arrays as timestamps or a start within the 64 bit range are always accepted by a new writer. -/
theorem C31_total (fl : ℚ → ℚ) (args : WriterArgs) (f : H5File) (s : Session) (ho : writerOpen fl none args = (f, .ok s))
    (l : List Call)
    (hl : ∀ c ∈ l, match c with
      | .raw (.array _) _ _ => True
      | .raw (.int t) _ _ => 0 ≤ t ∧ t < 2^64
      | _ => False) : ∃ s', calls fl s l = .ok s' := by
  have hiv : s.stats.intervalNs = 10000 := by rw [new_stats ho]; rfl
  clear ho
  induction l generalizing s with
  | nil => exact ⟨s, rfl⟩
  | cons c l ih =>
    have hc := hl c (by simp)
    have : ∃ t, call fl s c = .ok t := by
      cases c with
      | si ts vs cs => exact absurd hc (by simp)
      | raw ts vs cs =>
        cases ts with
        | array ts => exact ⟨_, rfl⟩
        | int t =>
          simp only at hc
          simp only [call, Session.appendRaw, Session.appendPlan, stampList]
          rw [if_pos ⟨hc.1, hc.2, by rw [hiv]; norm_num⟩]
          exact ⟨_, rfl⟩
        | float t => exact absurd hc (by simp)
        | other => exact absurd hc (by simp)
    obtain ⟨t, ht⟩ := this
    obtain ⟨hs, -⟩ := call_step fl ht
    obtain ⟨s', h'⟩ := ih t (fun c hc => hl c (by simp [hc])) (by rw [hs.2.2.1, hiv])
    exact ⟨s', by simp only [calls, ht, h']⟩

/-! ## C32: interrupted appends -/

/-- What may happen to a recording: a complete append, an append interrupted after `j` operations on the datasets followed by re-opening for
modification, or just re-opening. -/
inductive Event
  | append (c : Call)
  | crash (ts : Stamp) (vs cs : List ℤ) (j : ℕ) (args : WriterArgs)
  | reopen (args : WriterArgs)

/-- The datasets after the first `j` operations of an append. -/
def interrupted (s : Session) (ts : Stamp) (vs cs : List ℤ) (j : ℕ) : Session :=
  match s.appendPlan ts vs cs with
  | .error _ => s
  | .ok ops => (ops.take j).foldl Session.prim s

/-- One event. -/
def event (fl : ℚ → ℚ) (s : Session) : Event → Except PyErr Session
  | .append c => call fl s c
  | .crash ts vs cs j args => (writerOpen fl (some (interrupted s ts vs cs j).file) args).2
  | .reopen args => (writerOpen fl (some s.file) args).2

/-- All events in order. -/
def events (fl : ℚ → ℚ) : Session → List Event → Except PyErr Session
  | s, [] => .ok s
  | s, e :: es => match event fl s e with
    | .error e => .error e
    | .ok s' => events fl s' es

theorem interrupted_prefix (s : Session) (ts : Stamp) (vs cs : List ℤ) (j : ℕ) (p : DsName → List ℤ) (hp : ∀ n, p n <+: s.get n)
    (hl : ∀ n, (p n).length ≤ (s.get .voltage).length) : ∀ n, p n <+: (interrupted s ts vs cs j).get n := by
  intro n
  unfold interrupted
  cases h : s.appendPlan ts vs cs with
  | error e => exact hp n
  | ok ops => exact crash_prefix h j p hp hl n

theorem reopen_get {fl : ℚ → ℚ} {s s' : Session} {args : WriterArgs} (h : (writerOpen fl (some s.file) args).2 = .ok s') (n : DsName) :
    s'.get n = s.get n := by
  obtain ⟨g, d, hg, hd, e⟩ := open_get (f := (writerOpen fl (some s.file) args).1) (s := s') (by rw [← h]) n
  simp only [Option.getD_some, Session.file, Option.some.injEq] at hg
  subst hg
  simp only [Option.some.injEq] at hd
  subst hd
  exact e

/-- **C32, one append.**  Stopping an append after any number of its operations leaves every earlier sample in place. -/
theorem C32_interrupted_append (s : Session) (h0 : EqualLengths s) (ts : Stamp) (vs cs : List ℤ) (j : ℕ) (n : DsName) :
    s.get n <+: (interrupted s ts vs cs j).get n :=
  interrupted_prefix s ts vs cs j s.get (fun _ => List.prefix_rfl) (fun n => (h0 n).le) n

/-- **C32, histories.**  Whatever happens later - further appends, interrupted ones, re-opening - the samples stored once are there,
unchanged and in place. -/
theorem C32_history (fl : ℚ → ℚ) (s s' : Session) (h0 : EqualLengths s) (es : List Event) (h : events fl s es = .ok s') (n : DsName) :
    s.get n <+: s'.get n := by
  have key : ∀ (p : DsName → List ℤ) (m : ℕ) (es : List Event) (t : Session), (∀ n, (p n).length = m) → (∀ n, p n <+: t.get n) →
      events fl t es = .ok s' → ∀ n, p n <+: s'.get n := by
    intro p m es
    induction es with
    | nil => intro t _ ht h; cases h; exact ht
    | cons e es ih =>
      intro t hm ht h
      simp only [events] at h
      cases he : event fl t e with
      | error e => rw [he] at h; cases h
      | ok u =>
        rw [he] at h
        refine ih u hm (fun n => ?_) h
        have hl : ∀ n, (p n).length ≤ (t.get .voltage).length := fun n => by
          rw [hm n, ← hm .voltage]; exact (ht .voltage).length_le
        cases e with
        | append c =>
          rw [(call_step fl he).2 n]
          exact (prefix_resizeList (ht n) _ (hl n)).trans (List.prefix_append _ _)
        | crash ts vs cs j args =>
          rw [reopen_get he n]
          exact interrupted_prefix t ts vs cs j p ht hl n
        | reopen args =>
          rw [reopen_get he n]
          exact ht n
  exact key s.get _ es s h0 (fun _ => List.prefix_rfl) h n

/-! ## C33: closing -/

/-- The samples stored in a file. -/
def contents (f : H5File) (n : DsName) : Option (List ℤ) := (f.data.bind (fun g => g.dset n)).map Dset.data

theorem refresh_ok {fl : ℚ → ℚ} {s s' : Session} (h : s.refresh fl = .ok s') :
    ∃ st, refreshStats fl s.cal (s.get .time) s.stats = .ok st ∧ s' = { s with stats := st } := by
  unfold Session.refresh at h
  cases hr : refreshStats fl s.cal (s.get .time) s.stats with
  | error e => rw [hr] at h; cases h
  | ok st => rw [hr] at h; cases h; exact ⟨st, rfl, rfl⟩

/-- Everything of two open files agrees, but the samples and the statistics. -/
def SameMeta (s t : Session) : Prop :=
  s.attrs = t.attrs ∧ s.dattrs = t.dattrs ∧ s.cal = t.cal ∧ s.logLevels = t.logLevels ∧ ∀ n, (s.ds n).attrs = (t.ds n).attrs

theorem align_ok {fl : ℚ → ℚ} (hf : Rounding fl) {s s' : Session} (h : s.align fl = .ok s') (hm : (s.get .voltage).length < 10000 * 2^39) :
    ∃ st, refreshStats fl s.cal (s.get .time) s.stats = .ok st ∧ s'.stats = st ∧ SameMeta s' s ∧
      ∀ n, s'.get n = if st.samplerate = 100000 ∧ (s.get .voltage).length % 10000 ≠ 0
        then resizeList (s.get n) ((s.get .voltage).length / 10000 * 10000) else s.get n := by
  unfold Session.align at h
  cases hr : s.refresh fl with
  | error e => rw [hr] at h; cases h
  | ok t =>
    rw [hr] at h
    obtain ⟨st, hst, rfl⟩ := refresh_ok hr
    refine ⟨st, hst, ?_⟩
    dsimp only at h
    have hv : (({ s with stats := st } : Session).get .voltage).length = (s.get .voltage).length := rfl
    rw [hv, floor_buffers hf _ hm, pyInt_intCast] at h
    set m := (s.get .voltage).length with hmdef
    by_cases h1 : ((m / 10000 : ℕ) : ℤ) * 10000 < (m : ℤ)
    · rw [if_pos h1] at h
      have h1' : m % 10000 ≠ 0 := by omega
      by_cases h2 : st.samplerate ≠ 100000
      · rw [if_pos h2] at h
        cases h
        refine ⟨rfl, ⟨rfl, rfl, rfl, rfl, fun _ => rfl⟩, fun n => ?_⟩
        rw [if_neg (fun h => h2 h.1)]; rfl
      · rw [if_neg h2] at h
        push Not at h2
        have hn : (((m / 10000 : ℕ) : ℤ) * 10000).toNat = m / 10000 * 10000 := by omega
        rw [hn] at h
        have e := Except.ok.inj h
        have hsame := foldl_prim_same [.resize .time (m / 10000 * 10000), .resize .voltage (m / 10000 * 10000), .resize .current (m / 10000 * 10000)] { s with stats := st }
        rw [e] at hsame
        refine ⟨hsame.2.2.1, ⟨hsame.1, hsame.2.1, hsame.2.2.2.1, hsame.2.2.2.2.1, hsame.2.2.2.2.2⟩, fun n => ?_⟩
        rw [if_pos ⟨h2, h1'⟩, ← e]
        simp only [List.foldl_cons, List.foldl_nil, prim_get]
        cases n <;> simp <;> rfl
    · rw [if_neg h1] at h
      have h1' : m % 10000 = 0 := by omega
      cases h
      refine ⟨rfl, ⟨rfl, rfl, rfl, rfl, fun _ => rfl⟩, fun n => ?_⟩
      rw [if_neg (fun h => h.2 h1')]; rfl

theorem close_ok {fl : ℚ → ℚ} (hf : Rounding fl) {s : Session} {f : H5File} (h : s.close fl = .ok f)
    (hm : (s.get .voltage).length < 10000 * 2^39) :
    ∃ st s', refreshStats fl s.cal (s.get .time) s.stats = .ok st ∧ SameMeta s' s ∧ f = s'.file ∧
      ∀ n, s'.get n = if st.samplerate = 100000 ∧ (s.get .voltage).length % 10000 ≠ 0
        then resizeList (s.get n) ((s.get .voltage).length / 10000 * 10000) else s.get n := by
  unfold Session.close at h
  cases ha : s.align fl with
  | error e => rw [ha] at h; cases h
  | ok t =>
    rw [ha] at h
    dsimp only at h
    cases hr : t.refresh fl with
    | error e => rw [hr] at h; cases h
    | ok u =>
      rw [hr] at h
      cases h
      obtain ⟨st, h1, h2, h3, h4⟩ := align_ok hf ha hm
      obtain ⟨st2, -, rfl⟩ := refresh_ok hr
      exact ⟨st, { t with stats := st2 }, h1, h3, rfl, h4⟩

theorem contents_file (s : Session) (n : DsName) : contents s.file n = some (s.get n) := rfl

/-- The kept length: the longest multiple of the buffer size. -/
def Kept (m k : ℕ) : Prop := k ≤ m ∧ k % 10000 = 0 ∧ m < k + 10000

theorem kept_div (m : ℕ) : Kept m (m / 10000 * 10000) := ⟨by omega, by omega, by omega⟩

/-- **C33.**  Closing a recording of equally long datasets either keeps all samples or, for all three datasets alike, the longest prefix that
is a multiple of the buffer size (less than one buffer is lost); nothing else in the file changes. -/
theorem C33_close (fl : ℚ → ℚ) (hf : Rounding fl) (s : Session) (f : H5File) (h0 : EqualLengths s)
    (hm : (s.get .voltage).length < 10000 * 2^39) (h : s.close fl = .ok f) :
    ∃ k, (k = (s.get .voltage).length ∨ Kept (s.get .voltage).length k) ∧ (∀ n, contents f n = some ((s.get n).take k)) ∧
      f.attrs = s.attrs ∧ (f.data.map (·.attrs)) = some s.dattrs ∧ f.logLevels = s.logLevels := by
  obtain ⟨st, s', -, hs, rfl, hg⟩ := close_ok hf h hm
  by_cases hc : st.samplerate = 100000 ∧ (s.get .voltage).length % 10000 ≠ 0
  · refine ⟨(s.get .voltage).length / 10000 * 10000, Or.inr (kept_div _), fun n => ?_, hs.1, by simp [Session.file, hs.2.1], hs.2.2.2.1⟩
    rw [contents_file, hg n, if_pos hc, resizeList_le _ _ (by rw [h0 n]; omega)]
  · refine ⟨(s.get .voltage).length, Or.inl rfl, fun n => ?_, hs.1, by simp [Session.file, hs.2.1], hs.2.2.2.1⟩
    rw [contents_file, hg n, if_neg hc, List.take_of_length_le (h0 n).le]

/-- **C33 for 100 kHz.**  A recording with timestamps 10 µs apart is closed without error and keeps the longest multiple of the buffer size. -/
theorem C33_close_100kHz (fl : ℚ → ℚ) (hf : AccRounding fl) (s : Session) (t0 : ℤ) (m : ℕ) (hm : m ≤ 2^39)
    (h0 : EqualLengths s) (ht : s.get .time = regular t0 m) (hcal : s.cal.time = (CalSeries.default fl).time)
    (hrate : s.stats.samplerate = 100000) :
    ∃ f k, s.close fl = .ok f ∧ Kept m k ∧ ∀ n, contents f n = some ((s.get n).take k) := by
  have hlen : (s.get .voltage).length = m := by rw [← h0 .time, ht, length_regular]
  -- refreshing never fails on regular time stamps
  have hre : ∀ (k : ℕ) (st : Stats), k ≤ 2^39 → st.samplerate = 100000 →
      ∃ st', refreshStats fl s.cal (regular t0 k) st = .ok st' ∧ st'.samplerate = 100000 := by
    intro k st hk hst
    by_cases h2 : 2 ≤ k
    · obtain ⟨st', e1, e2, -⟩ := refresh_regular hf s.cal hcal t0 k h2 hk st
      exact ⟨st', e1, e2⟩
    · refine ⟨st, ?_, hst⟩
      unfold refreshStats
      dsimp only
      rw [length_regular]
      have : ¬ (k > 0 ∧ (if k > 0 then (regular t0 k).getD (k - 1) 0 - (regular t0 k).getD 0 0 else 0) > 0) := by
        rintro ⟨h3, h4⟩
        have : k = 1 := by omega
        subst this
        simp at h4
      rw [if_neg this]
  obtain ⟨st, hst, hst2⟩ := hre m s.stats hm hrate
  -- the alignment succeeds
  have hal : ∃ s', s.align fl = .ok s' := by
    have hr : s.refresh fl = .ok { s with stats := st } := by unfold Session.refresh; rw [ht, hst]
    unfold Session.align
    rw [hr]
    dsimp only
    split
    · split <;> exact ⟨_, rfl⟩
    · exact ⟨_, rfl⟩
  obtain ⟨s', hs'⟩ := hal
  obtain ⟨st2, e1, e2, e3, e4⟩ := align_ok hf.toRounding hs' (by rw [hlen]; norm_num at hm ⊢; omega)
  rw [ht, hst] at e1
  cases e1
  have hk : ∀ n, s'.get n = (s.get n).take (m / 10000 * 10000) := by
    intro n
    rw [e4 n, hlen]
    have hn : (s.get n).length = m := by rw [h0 n, hlen]
    split
    · exact resizeList_le _ _ (by omega)
    · rename_i hc
      have : m % 10000 = 0 := by by_contra h; exact hc ⟨hst2, h⟩
      rw [List.take_of_length_le (by omega)]
  have hr2 : ∃ u, s'.refresh fl = .ok u ∧ ∀ n, u.get n = s'.get n := by
    unfold Session.refresh
    rw [hk .time, ht, take_regular _ _ _ (by omega), e3.2.2.1]
    obtain ⟨st3, h3, -⟩ := hre (m / 10000 * 10000) s'.stats (by omega) (by rw [e2, hst2])
    rw [h3]
    exact ⟨_, rfl, fun _ => rfl⟩
  obtain ⟨u, hu, hug⟩ := hr2
  refine ⟨u.file, m / 10000 * 10000, ?_, kept_div m, fun n => ?_⟩
  · unfold Session.close; rw [hs']; dsimp only; rw [hu]
  · rw [contents_file, hug, hk]

/-- **C33, closing again.**  A file whose length is a multiple of the buffer size keeps all samples, however it is opened and whatever its rate is. -/
theorem C33_aligned_untouched (fl : ℚ → ℚ) (hf : Rounding fl) (s s' : Session) (f : H5File) (args : WriterArgs)
    (ha : (s.get .voltage).length % 10000 = 0) (hm : (s.get .voltage).length < 10000 * 2^39)
    (ho : (writerOpen fl (some s.file) args).2 = .ok s') (h : s'.close fl = .ok f) :
    ∀ n, contents f n = some (s.get n) := by
  have hg := reopen_get ho
  obtain ⟨st, u, -, -, rfl, hu⟩ := close_ok hf h (by rw [hg]; exact hm)
  intro n
  rw [contents_file, hu n, hg, hg, if_neg (fun h => h.2 ha)]

/-- **C33, other rates.**  If the rate found in the timestamps is not 100 kHz, nothing is cut. -/
theorem C33_other_rate (fl : ℚ → ℚ) (hf : Rounding fl) (s : Session) (f : H5File) (st : Stats)
    (hst : refreshStats fl s.cal (s.get .time) s.stats = .ok st) (hr : st.samplerate ≠ 100000)
    (hm : (s.get .voltage).length < 10000 * 2^39) (h : s.close fl = .ok f) : ∀ n, contents f n = some (s.get n) := by
  obtain ⟨st', u, e, -, rfl, hu⟩ := close_ok hf h hm
  rw [hst] at e
  cases e
  intro n
  rw [contents_file, hu n, if_neg (fun h => hr h.1)]

/-! ## C34: reading buffers -/

theorem slice_length (l : List ℤ) (a n : ℕ) (h : a + n ≤ l.length) : (slice l a (a + n)).length = n := by
  simp [slice]; omega

theorem slice_join (l : List ℤ) (n s k : ℕ) :
    ((List.range' s k).map (fun i => slice l (i * n) (i * n + n))).flatten = slice l (s * n) (s * n + k * n) := by
  induction k generalizing s with
  | zero => simp [slice]
  | succ k ih =>
    rw [List.range'_succ, List.map_cons, List.flatten_cons, ih (s + 1)]
    unfold slice
    have e1 : (s + 1) * n = s * n + n := by ring
    have e2 : (s + 1) * n + k * n = s * n + (k + 1) * n := by ring
    rw [e2, e1, List.drop_take, List.drop_take, List.drop_take]
    have e3 : s * n + n - s * n = n := by omega
    have e4 : s * n + (k + 1) * n - (s * n + n) = k * n := by
      have : (k + 1) * n = k * n + n := by ring
      omega
    have e5 : s * n + (k + 1) * n - s * n = n + k * n := by
      have : (k + 1) * n = k * n + n := by ring
      omega
    rw [e3, e4, e5, List.take_add, List.drop_drop]

/-- Number of the first buffer not read. -/
def endOf (m n : ℕ) : Option ℕ → ℕ
  | none => m / n
  | some e => min e (m / n)

theorem readRaw_eq (s : Session) (startN : ℕ) (endN : Option ℕ) (n : ℕ) :
    s.readRaw startN endN n = (List.range' startN (endOf (s.get .voltage).length n endN - startN)).map (fun i =>
      (slice (s.get .time) (i * n) (i * n + n), slice (s.get .voltage) (i * n) (i * n + n), slice (s.get .current) (i * n) (i * n + n))) := by
  unfold Session.readRaw endOf
  cases endN <;> rfl

/-- **C34.**  Reading the buffers `startN` to `endN` (all by default) of a recording returns buffers of exactly the requested size; joined in order they
are the stored samples from `startN * n` up to the end of the last complete buffer asked for, unchanged. -/
theorem C34_read_buffers (s : Session) (startN : ℕ) (endN : Option ℕ) (n : ℕ) (h0 : EqualLengths s) :
    (∀ b ∈ s.readRaw startN endN n, b.1.length = n ∧ b.2.1.length = n ∧ b.2.2.length = n) ∧
    (s.readRaw startN endN n).length = endOf (s.get .voltage).length n endN - startN ∧
    ((s.readRaw startN endN n).map (·.1)).flatten = slice (s.get .time) (startN * n) (max startN (endOf (s.get .voltage).length n endN) * n) ∧
    ((s.readRaw startN endN n).map (·.2.1)).flatten = slice (s.get .voltage) (startN * n) (max startN (endOf (s.get .voltage).length n endN) * n) ∧
    ((s.readRaw startN endN n).map (·.2.2)).flatten = slice (s.get .current) (startN * n) (max startN (endOf (s.get .voltage).length n endN) * n) := by
  set e := endOf (s.get .voltage).length n endN with he
  have hle : e * n ≤ (s.get .voltage).length := by
    have h1 : e ≤ (s.get .voltage).length / n := by
      rw [he]; cases endN with
      | none => exact le_rfl
      | some e => exact min_le_right _ _
    exact (Nat.mul_le_mul_right n h1).trans (Nat.div_mul_le_self _ _)
  have hsum : startN * n + (e - startN) * n = max startN e * n := by
    rcases le_total startN e with h | h
    · rw [max_eq_right h, ← Nat.add_mul]; congr 1; omega
    · rw [max_eq_left h, Nat.sub_eq_zero_of_le h]; ring
  rw [readRaw_eq, ← he]
  refine ⟨?_, by simp, ?_, ?_, ?_⟩
  · intro b hb
    rw [List.mem_map] at hb
    obtain ⟨i, hi, rfl⟩ := hb
    rw [List.mem_range'] at hi
    obtain ⟨j, hj, rfl⟩ := hi
    have hi2 : (startN + 1 * j) * n + n ≤ (s.get .voltage).length := by
      refine le_trans ?_ hle
      have : startN + 1 * j + 1 ≤ e := by omega
      calc (startN + 1 * j) * n + n = (startN + 1 * j + 1) * n := by ring
        _ ≤ e * n := Nat.mul_le_mul_right n this
    exact ⟨slice_length _ _ _ (by rw [h0 .time]; exact hi2), slice_length _ _ _ hi2, slice_length _ _ _ (by rw [h0 .current]; exact hi2)⟩
  · rw [List.map_map]; exact (slice_join _ _ _ _).trans (by rw [hsum])
  · rw [List.map_map]; exact (slice_join _ _ _ _).trans (by rw [hsum])
  · rw [List.map_map]; exact (slice_join _ _ _ _).trans (by rw [hsum])

/-- **C34, whole recording.**  Without limits all samples up to the last complete buffer come back, without gap or repetition; a recording that is a
multiple of the buffer size comes back completely. -/
theorem C34_read_all (s : Session) (n : ℕ) (h0 : EqualLengths s) :
    ((s.readRaw 0 none n).map (·.2.1)).flatten = (s.get .voltage).take ((s.get .voltage).length / n * n) ∧
    ((s.readRaw 0 none n).map (·.2.2)).flatten = (s.get .current).take ((s.get .voltage).length / n * n) ∧
    ((s.readRaw 0 none n).map (·.1)).flatten = (s.get .time).take ((s.get .voltage).length / n * n) ∧
    (n ∣ (s.get .voltage).length → ((s.readRaw 0 none n).map (·.2.1)).flatten = s.get .voltage) := by
  obtain ⟨-, -, h1, h2, h3⟩ := C34_read_buffers s 0 none n h0
  simp only [endOf, Nat.zero_mul, Nat.zero_max, slice, List.drop_zero] at h1 h2 h3
  exact ⟨h2, h3, h1, fun hd => by rw [h2, Nat.div_mul_cancel hd, List.take_length]⟩

/-- **C34, SI.**  Reading in SI units is the raw reading, converted value by value with the calibration of the file. -/
theorem C34_read_si (fl : ℚ → ℚ) (s : Session) (startN : ℕ) (endN : Option ℕ) (n : ℕ) :
    s.readSi fl startN endN n = (s.readRaw startN endN n).map (fun b =>
      (b.1.map (fun x : ℤ => s.cal.time.rawToSi fl x), b.2.1.map (fun x : ℤ => s.cal.voltage.rawToSi fl x), b.2.2.map (fun x : ℤ => s.cal.current.rawToSi fl x))) := by
  have h : ∀ (c : CalPair) (l : List ℤ), c.rawToSiArr fl (l.map (fun x : ℤ => (x : ℚ))) = l.map (fun x : ℤ => c.rawToSi fl x) := by
    intro c l
    simp [CalPair.rawToSiArr, CalPair.rawToSi, Function.comp_def]
  simp only [Session.readSi, h]

/-! ## C35: scalar timestamps -/

theorem calls_same (fl : ℚ → ℚ) {s s' : Session} {l : List Call} (h : calls fl s l = .ok s') : s'.Same s := by
  induction l generalizing s with
  | nil => cases h; exact Session.Same.refl _
  | cons c l ih =>
    simp only [calls] at h
    cases hc : call fl s c with
    | error e => rw [hc] at h; cases h
    | ok t =>
      rw [hc] at h
      exact (ih h).trans (call_step fl hc).1

theorem calls_equal (fl : ℚ → ℚ) {s s' : Session} {l : List Call} (h0 : EqualLengths s) (h : calls fl s l = .ok s') : EqualLengths s' :=
  (C31_concatenation fl s s' l h0 h).1

theorem ticks_regular (t : ℤ) (k : ℕ) (h0 : 0 ≤ t) (hk : t + 10000 * (k : ℤ) ≤ 2^64) : ticks 10000 t k = regular t k := by
  unfold ticks regular
  refine List.map_congr_left (fun i hi => ?_)
  have : i < k := List.mem_range.1 hi
  exact Int.emod_eq_of_lt (by omega) (by omega)

/-- A scalar start `t` appended by a writer with a sampling interval of 10 µs. -/
theorem scalar_append {s s' : Session} {t : ℤ} {vs cs : List ℤ} (h0 : EqualLengths s) (hiv : s.stats.intervalNs = 10000)
    (h : s.appendRaw (.int t) vs cs = .ok s') (ht : 0 ≤ t) (hk : t + 10000 * ((min vs.length cs.length : ℕ) : ℤ) ≤ 2^64) :
    s'.get .time = s.get .time ++ regular t (min vs.length cs.length) := by
  obtain ⟨-, hg⟩ := raw_step (fun x => x) h
  rw [hg .time, ← h0 .time, resizeList_self]
  simp only [offered, shortest, hiv, ticks_regular t _ ht hk]
  rw [List.take_of_length_le (by simp)]
  congr 1
  conv_rhs => rw [← List.map_id (regular t (min vs.length cs.length))]
  refine List.map_congr_left (fun x hx => ?_)
  unfold regular at hx
  obtain ⟨i, hi, rfl⟩ := List.mem_map.1 hx
  have : i < min vs.length cs.length := List.mem_range.1 hi
  exact clamp_of_mem (by omega) (by show _ ≤ (2:ℤ)^64 - 1; omega)

/-- **C35, new file (partial: no re-opening and no metadata query in between).**  After any appends to a new file, a scalar start adds timestamps from there on,
exactly 10 µs apart. -/
theorem C35_new_file_partial (fl : ℚ → ℚ) (args : WriterArgs) (f : H5File) (s s1 s2 : Session) (l : List Call)
    (ho : writerOpen fl none args = (f, .ok s)) (h : calls fl s l = .ok s1) (t : ℤ) (vs cs : List ℤ)
    (ha : s1.appendRaw (.int t) vs cs = .ok s2) (ht : 0 ≤ t) (hk : t + 10000 * ((min vs.length cs.length : ℕ) : ℤ) ≤ 2^64) :
    s2.get .time = s1.get .time ++ regular t (min vs.length cs.length) :=
  scalar_append (calls_equal fl (new_equal ho) h) (by rw [(calls_same fl h).2.2.1, new_stats ho]; rfl) ha ht hk

/-- **C35, re-opened (partial: more than 20000 regular samples).**  Re-opening a file with more than 20000 samples, 10 µs apart, keeps the interval. -/
theorem C35_reopened_partial (fl : ℚ → ℚ) (hf : AccRounding fl) (s s' s2 : Session) (t0 : ℤ) (m : ℕ) (h1 : 20001 ≤ m) (hm : m ≤ 2^39)
    (h0 : EqualLengths s) (hreg : s.get .time = regular t0 m) (ho : openSession fl s.file = .ok s')
    (hcal : s'.cal.time = (CalSeries.default fl).time) (t : ℤ) (vs cs : List ℤ)
    (ha : s'.appendRaw (.int t) vs cs = .ok s2) (ht : 0 ≤ t) (hk : t + 10000 * ((min vs.length cs.length : ℕ) : ℤ) ≤ 2^64) :
    s2.get .time = s.get .time ++ regular t (min vs.length cs.length) := by
  obtain ⟨hfile, -, -, hst⟩ := openSession_ok ho
  have hget : ∀ n, s'.get n = s.get n := by
    intro n
    have := congrArg (fun f => contents f n) hfile
    simpa [contents_file] using this
  rw [hget, hreg] at hst
  obtain ⟨st', e1, -, x, e2, e3⟩ := refresh_regular hf s'.cal hcal t0 m (by omega) hm (Stats.init fl)
  rw [e1] at hst
  have hst' := Except.ok.inj hst
  have hmq : (20001 : ℚ) ≤ m := by exact_mod_cast h1
  have hiv : s'.stats.intervalNs = 10000 := by
    rw [← hst', e2]
    apply pyRound_eq_of_lt
    have hm0 : (0:ℚ) < m := by linarith
    have : 10000 * ((m:ℚ) - 1) / m = 10000 - 10000 / m := by field_simp
    rw [this] at e3
    have h5 : 10000 / (m:ℚ) ≤ 10000 / 20001 := by gcongr
    have h6 : 0 < 10000 / (m:ℚ) := by positivity
    rw [abs_le] at e3
    rw [abs_lt]
    push_cast
    constructor
    · have : (10000:ℚ)/20001 + 1/10^6 < 1/2 := by norm_num
      linarith [e3.1]
    · have : (1:ℚ)/10^6 < 1/2 := by norm_num
      linarith [e3.2]
  rw [← hget]
  exact scalar_append (fun n => by rw [hget, hget, h0]) hiv ha ht hk

/-- **C35 violated.**  Whenever a file with 2 to 19999 samples, 10 µs apart, is re-opened (or its statistics are refreshed, e.g. by a metadata query), timestamps
of later scalar appends are less than 10 µs apart. -/
theorem C35_reopened_violated (fl : ℚ → ℚ) (hf : AccRounding fl) (s s' : Session) (t0 : ℤ) (m : ℕ) (h1 : 2 ≤ m) (h2 : m ≤ 19999)
    (hreg : s.get .time = regular t0 m) (hcal : s.cal.time = (CalSeries.default fl).time) (h : s.refresh fl = .ok s') :
    s'.stats.intervalNs < 10000 := by
  obtain ⟨st, hst, rfl⟩ := refresh_ok h
  rw [hreg] at hst
  obtain ⟨st', e1, -, x, e2, e3⟩ := refresh_regular hf s.cal hcal t0 m h1 (by norm_num; omega) s.stats
  rw [e1] at hst
  have hst' := Except.ok.inj hst
  show st.intervalNs < 10000
  rw [← hst', e2]
  have hm0 : (0:ℚ) < m := by have : 0 < m := by omega
                             exact_mod_cast this
  have hmq : (m : ℚ) ≤ 19999 := by exact_mod_cast h2
  have : 10000 * ((m:ℚ) - 1) / m = 10000 - 10000 / m := by field_simp
  rw [this, abs_le] at e3
  have h5 : 10000 / 19999 ≤ 10000 / (m:ℚ) := by gcongr
  have h6 := pyRound_sub_le x
  have h7 : (1:ℚ)/2 + 1/10^6 < 10000/19999 := by norm_num
  have : ((pyRound x : ℤ) : ℚ) < ((10000 : ℤ) : ℚ) := by push_cast; linarith [e3.2]
  exact_mod_cast this

/-! ## C36: validity -/

theorem set_same (a : Attrs) (k : String) (v : Attr) : (a.set k v) k = some v := by simp [Attrs.set]
theorem set_other (a : Attrs) {k k' : String} (v : Attr) (h : k' ≠ k) : (a.set k v) k' = a k' := by simp [Attrs.set, h]

theorem setDefault_other (a : Attrs) {k k' : String} (v : Attr) (h : k' ≠ k) : (a.setDefault k v) k' = a k' := by
  unfold Attrs.setDefault; split
  · exact set_other _ _ h
  · rfl
theorem setDefault_some (a : Attrs) (k : String) (v w : Attr) (h : a k = some w) : (a.setDefault k v) k = some w := by
  unfold Attrs.setDefault; rw [if_neg (by rw [h]; simp)]; exact h
theorem setDefault_none (a : Attrs) (k : String) (v : Attr) (h : a k = none) : (a.setDefault k v) k = some v := by
  unfold Attrs.setDefault; rw [if_pos (by rw [h]; rfl)]; exact set_same _ _ _
theorem setDefault_isSome (a : Attrs) (k : String) (v : Attr) : ((a.setDefault k v) k).isSome := by
  cases h : a k with
  | none => rw [setDefault_none _ _ _ h]; rfl
  | some w => rw [setDefault_some _ _ _ _ h]; rfl
theorem setDefault_eq (a : Attrs) (k : String) (v : Attr) (h : (a k).isSome) : a.setDefault k v = a := by
  unfold Attrs.setDefault; rw [if_neg]; rw [Option.isSome_iff_exists] at h; obtain ⟨w, h⟩ := h; rw [h]; simp
theorem setSome_other (a : Attrs) {k k' : String} (v : Option Attr) (h : k' ≠ k) : (a.setSome k v) k' = a k' := by
  cases v with
  | none => rfl
  | some v => exact set_other _ _ h

theorem putWindow_other (d : Attrs) (w : Option ℤ) {k : String} (h : k ≠ "window_samples") : putWindow d w k = d k := by
  unfold putWindow; rw [setDefault_other _ _ h, setSome_other _ _ h]
theorem putWindow_some (d : Attrs) (w : ℤ) : putWindow d (some w) "window_samples" = some (.num w) := by
  unfold putWindow; exact setDefault_some _ _ _ _ (set_same _ _ _)
theorem putWindow_isSome (d : Attrs) (w : Option ℤ) : (putWindow d w "window_samples").isSome := setDefault_isSome _ _ _
theorem putDatatype_other (d : Attrs) (t : Option EnergyDType) {k : String} (h : k ≠ "datatype") : putDatatype d t k = d k := by
  unfold putDatatype; rw [setDefault_other _ _ h, setSome_other _ _ h]
theorem putMode_other (d : Attrs) (m : Option String) {k : String} (h : k ≠ "mode") : putMode d m k = d k := by
  unfold putMode; rw [setDefault_other _ _ h, setSome_other _ _ h]

theorem putPair_isSome (a : Attrs) (c : Option CalPair) (d : CalPair) :
    (putPair a c d "gain").isSome ∧ (putPair a c d "offset").isSome := by
  have h1 : ("gain" : String) ≠ "offset" := by decide
  cases c with
  | some c =>
    simp only [putPair]
    exact ⟨by rw [set_other _ _ h1, set_same]; rfl, by rw [set_same]; rfl⟩
  | none =>
    simp only [putPair]
    exact ⟨by rw [setDefault_other _ _ h1]; exact setDefault_isSome _ _ _, setDefault_isSome _ _ _⟩

theorem modeDtypes_empty : modeDtypes "" = none := by decide

/-- What makes an open file valid. -/
theorem isValid_file (s : Session) (l : List EnergyDType) (t : EnergyDType) (hm : modeDtypes (getMode s.attrs) = some l)
    (hd : getDatatype s.dattrs = some t) (ht : t ∈ l) (hw : (s.dattrs "window_samples").isSome)
    (hp : ∀ n, ((s.ds n).attrs "gain").isSome ∧ ((s.ds n).attrs "offset").isSome)
    (hi : ¬ (t = .ivcurve ∧ getWindow s.dattrs < 1)) : s.file.isValid = true := by
  have h1 : ∃ m, s.attrs "mode" = some (.str m) ∧ modeDtypes m = some l := by
    unfold getMode at hm
    split at hm
    · rename_i m hm'; exact ⟨m, hm', hm⟩
    · rw [modeDtypes_empty] at hm; cases hm
  have h2 : (s.dattrs "datatype").isSome := by
    unfold getDatatype at hd
    split at hd
    · rename_i x hx; rw [hx]; rfl
    · cases hd
  obtain ⟨m, h1, h1'⟩ := h1
  have h3 : (decide (t = EnergyDType.ivcurve) && decide (getWindow s.dattrs < 1)) = false := by
    rw [Bool.and_eq_false_iff, decide_eq_false_iff_not, decide_eq_false_iff_not]
    exact not_and_or.1 hi
  simp only [H5File.isValid, Session.file, h1, h1', hw, h2, hm, hd, List.all_cons, List.all_nil, hp .time, hp .current, hp .voltage,
    Option.some.injEq]
  simp [ht, h3]

theorem open_session_facts {fl : ℚ → ℚ} {old : Option H5File} {args : WriterArgs} {f : H5File} {s : Session}
    (h : writerOpen fl old args = (f, .ok s)) :
    ∃ g dt l t, (old.getD skeleton).data = some g ∧ parseDatatype args.datatype = .ok dt ∧ s.attrs = putMode (old.getD skeleton).attrs args.mode ∧
      s.dattrs = putWindow (putDatatype g.attrs dt) args.window ∧ modeDtypes (getMode s.attrs) = some l ∧
      getDatatype s.dattrs = some t ∧ t ∈ l ∧ getDatatype (putDatatype g.attrs dt) = some t ∧
      (∀ n, ∃ d, g.dset n = some d ∧ s.ds n = { d with attrs := putPair d.attrs (args.cal.map (·.get n)) ((CalSeries.default fl).get n) }) ∧
      ¬ (dt = some .ivcurve ∧ getWindow s.dattrs < 1) ∧ s.cal = calOf fl s.ds := by
  obtain ⟨l, g, dt, t, -, hl, hg, hp, -, ht, htm, hw, hf, hs⟩ := writerOpen_ok h
  obtain ⟨hfile, hcal, -, -⟩ := openSession_ok hs
  rw [hf] at hfile
  simp only [Session.file, H5File.mk.injEq, Option.some.injEq, putCal, DataGroup.mk.injEq] at hfile
  obtain ⟨h1, ⟨h2, h3⟩, -⟩ := hfile
  refine ⟨g, dt, l, t, hg, hp, h1, h2, by rw [h1]; exact hl, ?_, htm, ht, fun n => ?_, by rw [h2]; exact hw, hcal⟩
  · rw [h2]; unfold getDatatype; rw [putWindow_other _ _ (by decide)]; exact ht
  · have := congrFun h3 n
    cases hd : g.dset n with
    | none => rw [hd] at this; cases this
    | some d =>
      rw [hd] at this
      simp only [Option.map_some, Option.some.injEq] at this
      exact ⟨d, rfl, this⟩

theorem dtypeOfName_name (t : EnergyDType) : dtypeOfName t.name = some t := by cases t <;> decide

theorem getDatatype_put (d : Attrs) (t : EnergyDType) : getDatatype (putDatatype d (some t)) = some t := by
  have : putDatatype d (some t) "datatype" = some (.str t.name) := by
    unfold putDatatype; exact setDefault_some _ _ _ _ (set_same _ _ _)
  simp only [getDatatype, this, dtypeOfName_name]

/-- An accepted open is valid, if the window check covers the stored datatype. -/
theorem open_valid {fl : ℚ → ℚ} {old : Option H5File} {args : WriterArgs} {f : H5File} {s : Session}
    (h : writerOpen fl old args = (f, .ok s))
    (hw : args.datatype = none → ¬ (getDatatype s.dattrs = some .ivcurve ∧ getWindow s.dattrs < 1)) : s.file.isValid = true := by
  obtain ⟨g, dt, l, t, hg, hp, h1, h2, hl, ht, htm, ht', hd, hwin, -⟩ := open_session_facts h
  refine isValid_file s l t hl ht htm ?_ (fun n => ?_) ?_
  · rw [h2]; exact putWindow_isSome _ _
  · obtain ⟨d, -, e⟩ := hd n
    rw [e]; exact putPair_isSome _ _ _
  · rintro ⟨rfl, hlt⟩
    cases hdt : args.datatype with
    | none => exact hw hdt ⟨ht, hlt⟩
    | some x =>
      rw [hdt] at hp
      simp only [parseDatatype] at hp
      split at hp
      · cases hp
      · rename_i y hy
        cases hp
        rw [getDatatype_put] at ht'
        exact hwin ⟨ht', hlt⟩

theorem isValid_meta {s t : Session} (h1 : s.attrs = t.attrs) (h2 : s.dattrs = t.dattrs) (h3 : ∀ n, (s.ds n).attrs = (t.ds n).attrs) :
    s.file.isValid = t.file.isValid := by
  simp only [H5File.isValid, Session.file, h1, h2, h3]

/-- **C36 for new files.**  Whatever arguments the writer accepts, whatever is appended, the file left after closing is valid, with equally long datasets. -/
theorem C36_new_file_valid (fl : ℚ → ℚ) (hf : Rounding fl) (args : WriterArgs) (f : H5File) (s s' : Session) (l : List Call) (f' : H5File)
    (ho : writerOpen fl none args = (f, .ok s)) (h : calls fl s l = .ok s') (hm : (s'.get .voltage).length < 10000 * 2^39)
    (hc : s'.close fl = .ok f') :
    f.isValid = true ∧ f'.isValid = true ∧ ∃ k, ∀ n, ∃ x, contents f' n = some x ∧ x.length = k := by
  have hv : s.file.isValid = true := by
    refine open_valid ho (fun hdt => ?_)
    obtain ⟨g, dt, l, t, hg, hp, h1, h2, hl, ht, htm, ht', -⟩ := open_session_facts ho
    rw [hdt] at hp
    cases hp
    simp only [Option.getD_none, skeleton, Option.some.injEq] at hg
    subst hg
    rintro ⟨h3, -⟩
    rw [ht] at h3
    cases h3
    revert ht'
    decide
  obtain ⟨_, _, _, _, _, _, _, _, _, _, _, _, hfe, hos⟩ := writerOpen_ok ho
  have hff : f = s.file := ((openSession_ok hos).1).symm
  obtain ⟨k, -, hk, -⟩ := C33_close fl hf s' f' (calls_equal fl (new_equal ho) h) hm hc
  obtain ⟨st, s2, -, hs2, rfl, -⟩ := close_ok hf hc hm
  have hsame := calls_same fl h
  refine ⟨by rw [hff]; exact hv, ?_, min k (s'.get .voltage).length, fun n => ⟨_, hk n, ?_⟩⟩
  · rw [isValid_meta hs2.1 hs2.2.1 hs2.2.2.2.2, isValid_meta hsame.1 hsame.2.1 hsame.2.2.2.2.2]
    exact hv
  · rw [List.length_take, calls_equal fl (new_equal ho) h n]

/-- **C36 for existing files (partial: a datatype or a positive window is given, or neither touches a valid file).** -/
theorem C36_modify_partial (fl : ℚ → ℚ) (old : H5File) (args : WriterArgs) (f : H5File) (s : Session)
    (ho : writerOpen fl (some old) args = (f, .ok s))
    (hc : args.datatype.isSome ∨ (∃ w, args.window = some w ∧ 1 ≤ w) ∨ (args.window = none ∧ old.isValid = true)) : f.isValid = true := by
  obtain ⟨_, _, _, _, _, _, _, _, _, _, _, _, hfe, hos⟩ := writerOpen_ok ho
  have hff : f = s.file := ((openSession_ok hos).1).symm
  rw [hff]
  refine open_valid ho (fun hdt => ?_)
  obtain ⟨g, dt, l, t, hg, hp, h1, h2, hl, ht, htm, ht', -⟩ := open_session_facts ho
  rw [hdt] at hp hc
  cases hp
  rcases hc with hc | ⟨w, hw, h1w⟩ | ⟨hw, hv⟩
  · cases hc
  · rintro ⟨-, hlt⟩
    rw [h2, hw] at hlt
    have : getWindow (putWindow (putDatatype g.attrs none) (some w)) = w := by
      unfold getWindow
      rw [putWindow_some]
      exact pyInt_intCast w
    rw [this] at hlt
    omega
  · rintro ⟨h3, hlt⟩
    rw [ht] at h3
    cases h3
    simp only [Option.getD_some] at hg
    simp only [H5File.isValid, hg] at hv
    simp only [Bool.and_eq_true, Bool.not_eq_true', Bool.and_eq_false_iff, decide_eq_false_iff_not] at hv
    obtain ⟨⟨⟨⟨⟨-, hws⟩, hds⟩, -⟩, -⟩, hlast⟩ := hv
    have hput : putDatatype g.attrs none = g.attrs := setDefault_eq _ _ _ hds
    have hput2 : putWindow g.attrs none = g.attrs := setDefault_eq _ _ _ hws
    rw [hput] at ht'
    rw [h2, hw, hput, hput2] at hlt
    rcases hlast with h | h
    · exact h ht'
    · exact h hlt

/-! ## C37: metadata -/

/-- Operations on an open writer. -/
inductive StoreOp
  | hostname (name : String)
  | config (c : Config)
  | item (k : String) (v : Attr)
  | append (c : Call)

/-- One operation. -/
def store (fl : ℚ → ℚ) (s : Session) : StoreOp → Except PyErr Session
  | .hostname n => .ok (s.storeHostname n)
  | .config c => .ok (s.storeConfig c)
  | .item k v => .ok (s.setRoot k v)
  | .append c => call fl s c

/-- All operations in order. -/
def stores (fl : ℚ → ℚ) : Session → List StoreOp → Except PyErr Session
  | s, [] => .ok s
  | s, o :: os => match store fl s o with
    | .error e => .error e
    | .ok s' => stores fl s' os

/-- The value last stored under a key of the file. -/
def lastStored (k : String) : List StoreOp → Option Attr
  | [] => none
  | o :: os => match lastStored k os with
    | some v => some v
    | none => match o with
      | .hostname n => if k = "hostname" then some (.str n) else none
      | .config c => if k = "config" then some (.cfg c) else none
      | .item k' v => if k = k' then some v else none
      | .append _ => none

theorem stores_attrs (fl : ℚ → ℚ) {s s' : Session} {os : List StoreOp} (h : stores fl s os = .ok s') :
    s'.dattrs = s.dattrs ∧ s'.cal = s.cal ∧ (∀ n, (s'.ds n).attrs = (s.ds n).attrs) ∧
      ∀ k, s'.attrs k = (lastStored k os).or (s.attrs k) := by
  induction os generalizing s with
  | nil => cases h; exact ⟨rfl, rfl, fun _ => rfl, fun _ => by simp [lastStored]⟩
  | cons o os ih =>
    simp only [stores] at h
    cases ho : store fl s o with
    | error e => rw [ho] at h; cases h
    | ok t =>
      rw [ho] at h
      obtain ⟨h1, h2, h3, h4⟩ := ih h
      cases o with
      | hostname n =>
        cases ho
        refine ⟨h1, h2, h3, fun k => ?_⟩
        rw [h4 k]
        simp only [lastStored, Session.storeHostname, Session.setRoot, Attrs.set]
        cases lastStored k os <;> simp <;> split <;> simp
      | config n =>
        cases ho
        refine ⟨h1, h2, h3, fun k => ?_⟩
        rw [h4 k]
        simp only [lastStored, Session.storeConfig, Session.setRoot, Attrs.set]
        cases lastStored k os <;> simp <;> split <;> simp
      | item k' v =>
        cases ho
        refine ⟨h1, h2, h3, fun k => ?_⟩
        rw [h4 k]
        simp only [lastStored, Session.setRoot, Attrs.set]
        cases lastStored k os <;> simp <;> split <;> simp
      | append c =>
        obtain ⟨hs, -⟩ := call_step fl ho
        refine ⟨h1.trans hs.2.1, h2.trans hs.2.2.2.1, fun n => (h3 n).trans (hs.2.2.2.2.2 n), fun k => ?_⟩
        rw [h4 k, hs.1]
        simp only [lastStored]
        cases lastStored k os <;> rfl

theorem pairOf_put (a : Attrs) (c : CalPair) (d e : CalPair) : pairOf (putPair a (some c) d) e = c := by
  have h1 : ("gain" : String) ≠ "offset" := by decide
  simp only [pairOf, putPair, set_same, set_other _ _ h1]

theorem pairOf_default (a : Attrs) (h1 : a "gain" = none) (h2 : a "offset" = none) (d e : CalPair) : pairOf (putPair a none d) e = d := by
  have h3 : ("gain" : String) ≠ "offset" := by decide
  have e1 : putPair a none d "gain" = some (.num d.gain) := by
    simp only [putPair]; rw [setDefault_other _ _ h3, setDefault_none _ _ _ h1]
  have e2 : putPair a none d "offset" = some (.num d.offset) := by
    simp only [putPair]; rw [setDefault_none]; rw [setDefault_other _ _ h3.symm, h2]
  simp only [pairOf, e1, e2]

/-- **C37 (all but the configuration).**  A reader of a file written by: creating it, any sequence of appends and stores, closing, returns what was given: mode,
datatype, window and calibration given at creation (or their defaults), the last stored host name and the last stored value of every other key. -/
theorem C37_read_back (fl : ℚ → ℚ) (hf : Rounding fl) (args : WriterArgs) (f f' : H5File) (s s' r : Session) (os : List StoreOp)
    (ho : writerOpen fl none args = (f, .ok s)) (h : stores fl s os = .ok s') (hm : (s'.get .voltage).length < 10000 * 2^39)
    (hc : s'.close fl = .ok f') (hr : openSession fl f' = .ok r) :
    (lastStored "mode" os = none → getMode r.attrs = args.mode.getD "harvester") ∧
    getDatatype r.dattrs = some ((args.datatype.bind dtypeOfName).getD .ivsample) ∧
    getWindow r.dattrs = args.window.getD 0 ∧
    r.cal = args.cal.getD (CalSeries.default fl) ∧
    (∀ name, lastStored "hostname" os = some (.str name) → getHostname r.attrs = name) ∧
    (lastStored "hostname" os = none → getHostname r.attrs = "unknown") ∧
    (∀ k v, lastStored k os = some v → r.attrs k = some v) := by
  obtain ⟨g, dt, l, t, hg, hp, h1, h2, hl, ht, htm, ht', hd, -, hcal⟩ := open_session_facts ho
  obtain ⟨e1, e2, e3, e4⟩ := stores_attrs fl h
  obtain ⟨st, u, -, hu, rfl, -⟩ := close_ok hf hc hm
  obtain ⟨hrf, hrc, -, -⟩ := openSession_ok hr
  simp only [Session.file, H5File.mk.injEq, Option.some.injEq, DataGroup.mk.injEq] at hrf
  obtain ⟨r1, ⟨r2, r3⟩, -⟩ := hrf
  simp only [Option.getD_none, skeleton, Option.some.injEq] at hg
  have hattr : ∀ k, r.attrs k = (lastStored k os).or (s.attrs k) := fun k => by rw [r1, hu.1, e4 k]
  have hdattr : r.dattrs = s.dattrs := by rw [r2, hu.2.1, e1]
  have hds : ∀ n, (r.ds n).attrs = (s.ds n).attrs := by
    intro n
    have := congrFun r3 n
    simp only [Option.some.injEq] at this
    rw [this, hu.2.2.2.2 n, e3 n]
  have hrcal : r.cal = s.cal := by
    rw [hrc, hcal]
    unfold calOf
    rw [hds, hds, hds]
  have hsk : (skeleton.attrs) = fun _ => none := rfl
  have hmode : s.attrs "mode" = some (.str (args.mode.getD "harvester")) := by
    rw [h1]
    unfold putMode
    simp only [Option.getD_none, hsk]
    cases args.mode with
    | none => exact setDefault_none _ _ _ rfl
    | some m => exact setDefault_some (Attrs.set (fun _ => none) "mode" (.str m)) "mode" _ (.str m) (set_same _ _ _)
  have hhost : s.attrs "hostname" = none := by
    rw [h1, putMode_other _ _ (by decide)]; rfl
  refine ⟨?_, ?_, ?_, ?_, ?_, ?_, ?_⟩
  · intro hn
    unfold getMode
    rw [hattr, hn, Option.none_or, hmode]
  · rw [hdattr, ht, ← ht']
    cases hdt : args.datatype with
    | none =>
      rw [hdt] at hp
      cases hp
      subst hg
      decide
    | some x =>
      rw [hdt] at hp
      simp only [parseDatatype] at hp
      split at hp
      · cases hp
      · rename_i y hy
        cases hp
        rw [getDatatype_put]
        simp [hy]
  · rw [hdattr, h2]
    cases hw : args.window with
    | some w =>
      unfold getWindow
      rw [putWindow_some]
      exact pyInt_intCast w
    | none =>
      have hgw : putDatatype g.attrs dt "window_samples" = some (.num 0) := by
        subst hg
        rw [putDatatype_other _ _ (by decide)]; rfl
      have : putWindow (putDatatype g.attrs dt) none "window_samples" = some (.num 0) := setDefault_some _ _ _ _ hgw
      unfold getWindow
      rw [this]
      exact pyInt_zero
  · rw [hrcal, hcal]
    have hpair : ∀ n d', pairOf (s.ds n).attrs d' = (args.cal.getD (CalSeries.default fl)).get n := by
      intro n d'
      obtain ⟨d, hdn, e⟩ := hd n
      subst hg
      simp only [Option.some.injEq] at hdn
      rw [e]
      cases args.cal with
      | some c => exact pairOf_put _ _ ((CalSeries.default fl).get n) _
      | none =>
        refine pairOf_default d.attrs ?_ ?_ ((CalSeries.default fl).get n) _
        · rw [← hdn]; simp only [set_other _ _ (show ("gain" : String) ≠ "description" by decide), set_other _ _ (show ("gain" : String) ≠ "unit" by decide)]
        · rw [← hdn]; simp only [set_other _ _ (show ("offset" : String) ≠ "description" by decide), set_other _ _ (show ("offset" : String) ≠ "unit" by decide)]
    unfold calOf
    rw [hpair, hpair, hpair]
    rfl
  · intro name hn
    unfold getHostname
    rw [hattr, hn]
    rfl
  · intro hn
    unfold getHostname
    rw [hattr, hn, Option.none_or, hhost]
  · intro k v hk
    rw [hattr, hk]
    rfl

/-- **C37, calibration of a device.**  A file created with the calibration of a harvester is read with its sense channel and its current channel; with that of an emulator with channel A, and with
channel B if that was asked for.  The time-base is the default one. -/
theorem C37_device (fl : ℚ → ℚ) (hf : Rounding fl) (args : WriterArgs) (dev : CalArg) (f f' : H5File) (s s' r : Session) (os : List StoreOp)
    (hdev : args.cal = some (dev.toSeries fl)) (ho : writerOpen fl none args = (f, .ok s)) (h : stores fl s os = .ok s') (hm : (s'.get .voltage).length < 10000 * 2^39)
    (hc : s'.close fl = .ok f') (hr : openSession fl f' = .ok r) :
    (∀ c, dev = .hrv c → r.cal.voltage = c.adcVSense ∧ r.cal.current = c.adcCHrv ∧ r.cal.time = ⟨fl (1 / 10^9), 0⟩) ∧
    (∀ c, dev = .emu c → r.cal.voltage = c.dacVA ∧ r.cal.current = c.adcCA ∧ r.cal.time = ⟨fl (1 / 10^9), 0⟩) ∧
    (∀ c, dev = .series (CalSeries.fromEmu fl c false) → r.cal.voltage = c.dacVB ∧ r.cal.current = c.adcCB ∧ r.cal.time = ⟨fl (1 / 10^9), 0⟩) ∧
    (∀ c, dev = .series c → r.cal = c) := by
  obtain ⟨-, -, -, hcal, -⟩ := C37_read_back fl hf args f f' s s' r os ho h hm hc hr
  rw [hdev, Option.getD_some] at hcal
  refine ⟨?_, ?_, ?_, ?_⟩ <;> rintro c rfl <;> rw [hcal] <;> first | exact ⟨rfl, rfl, rfl⟩ | rfl


/-- **C37**: the reader reports the configuration that is in the attributes of the data group. -/
theorem C37_config_group (d : Attrs) (c : Config) : d "config" = some (.cfg c) ↔ getConfig d = some c := by
  unfold getConfig
  split
  · rename_i x hx
    simp [hx]
  · rename_i hx
    exact ⟨fun h => absurd h (hx c), fun h => absurd h (by simp)⟩

/-- **C37 violated.**  A stored configuration is never read back: whatever is stored in a new file, the reader reports an empty configuration. -/
theorem C37_config_violated (fl : ℚ → ℚ) (hf : Rounding fl) (args : WriterArgs) (f f' : H5File) (s s' r : Session) (os : List StoreOp)
    (ho : writerOpen fl none args = (f, .ok s)) (h : stores fl s os = .ok s') (hm : (s'.get .voltage).length < 10000 * 2^39)
    (hc : s'.close fl = .ok f') (hr : openSession fl f' = .ok r) : getConfig r.dattrs = none := by
  obtain ⟨g, dt, l, t, hg, hp, h1, h2, -⟩ := open_session_facts ho
  obtain ⟨e1, -⟩ := stores_attrs fl h
  obtain ⟨st, u, -, hu, rfl, -⟩ := close_ok hf hc hm
  obtain ⟨hrf, -⟩ := openSession_ok hr
  simp only [Session.file, H5File.mk.injEq, Option.some.injEq, DataGroup.mk.injEq] at hrf
  obtain ⟨-, ⟨r2, -⟩, -⟩ := hrf
  simp only [Option.getD_none, skeleton, Option.some.injEq] at hg
  have : r.dattrs "config" = none := by
    rw [r2, hu.2.1, e1, h2, putWindow_other _ _ (by decide), putDatatype_other _ _ (by decide)]
    subst hg
    rfl
  unfold getConfig
  rw [this]

/-! ## C71: rejected arguments -/

theorem openSession_contents {fl : ℚ → ℚ} (g : DataGroup) (c : Option CalSeries) (a : Attrs) (n : DsName) :
    ((putCal fl { g with attrs := a } c).dset n).map Dset.data = (g.dset n).map Dset.data := by
  simp only [putCal]
  cases g.dset n <;> rfl

/-- **C71 (partial: the samples).**  Opening an existing file for modification never changes its samples, accepted or not. -/
theorem C71_samples_partial (fl : ℚ → ℚ) (old : H5File) (args : WriterArgs) (n : DsName) :
    contents (writerOpen fl (some old) args).1 n = contents old n := by
  unfold writerOpen
  dsimp only [Option.getD_some]
  split
  · rfl
  split
  · rfl
  unfold openDatatype
  split
  · rfl
  split
  · rfl
  dsimp only
  cases hd : old.data with
  | none => dsimp only; unfold contents; rw [hd]
  | some g =>
    dsimp only
    split
    · simp [contents, hd]
    · unfold openWindow
      dsimp only
      split
      · simp [contents, hd]
      split
      · simp [contents, hd]
      · simp only [contents, hd, Option.bind_some]
        exact openSession_contents g args.cal _ n

/-- **C71 (partial: the mode).**  An unknown mode is rejected without touching the file. -/
theorem C71_mode_partial (fl : ℚ → ℚ) (old : H5File) (args : WriterArgs) (m : String) (hm : args.mode = some m)
    (hu : m ≠ "harvester" ∧ m ≠ "emulator") : writerOpen fl (some old) args = (old, .error .valueError) := by
  have : modeDtypes m = none := by unfold modeDtypes; simp [hu.1, hu.2]
  unfold writerOpen
  simp [modeArgOk, hm, this]

/-! ## Concrete recordings -/

/-- A new ivcurve recording. -/
def curveArgs : WriterArgs := { mode := some "harvester", datatype := some "ivcurve", window := some 5 }

/-- A small history: a scalar start, arrays of different lengths, SI values. -/
def demoCalls : List Call :=
  [.raw (.int 1000) [1, 2, 3] [4, 5], .raw (.array [50, 60, 70]) [7, 8, 2^33] [9, 9, 9, 9], .si (.float 1) [3/10^9] [1/10^9]]

/-- What the history leaves, in binary64. -/
def demoResult : Except PyErr Session :=
  match (writerOpen b64 none curveArgs).2 with
  | .error e => .error e
  | .ok s => calls b64 s demoCalls

/-- The history is accepted and leaves what one expects (C31, C34, C35: hypotheses are met). -/
example : (match demoResult with
    | .ok s => decide (s.get .time = [1000, 11000, 50, 60, 70, 10^9] ∧ s.get .voltage = [1, 2, 7, 8, 2^32 - 1, 1] ∧
        s.get .current = [4, 5, 9, 9, 9, 4]) && s.file.isValid
    | .error _ => false) = true := by decide +kernel

/-- Reading that recording in buffers of four (C34). -/
example : (match demoResult with
    | .ok s => decide (s.readRaw 0 none 4 = [([1000, 11000, 50, 60], [1, 2, 7, 8], [4, 5, 9, 9])])
    | .error _ => false) = true := by decide +kernel

/-- Closing it leaves nothing to keep: it is shorter than a buffer and (`b64`) is not a 100 kHz recording, so it is kept (C33). -/
example : (match demoResult with
    | .ok s => (match s.close b64 with
      | .ok f => decide (contents f .voltage = some [1, 2, 7, 8, 2^32 - 1, 1]) && f.isValid
      | .error _ => false)
    | .error _ => false) = true := by decide +kernel

/-- A 100 kHz recording of three samples is cut to zero buffers on closing (C33, hypotheses of `C33_close_100kHz`). -/
example : (match (writerOpen b64 none {}).2 with
    | .ok s => (match s.appendRaw (.int 5) [1, 2, 3] [1, 2, 3] with
      | .ok s => decide (s.get .time = regular 5 3 ∧ s.stats.samplerate = 100000 ∧ s.cal.time = (CalSeries.default b64).time ∧
            s.get .voltage = [1, 2, 3]) &&
          (match s.close b64 with | .ok f => decide (contents f .voltage = some []) | .error _ => false)
      | .error _ => false)
    | .error _ => false) = true := by decide +kernel

/-- Interrupting after the second resize: time and voltage are filled up, current is not; the earlier samples are there (C32). -/
example : (match demoResult with
    | .ok s => decide ((interrupted s (.int 0) [1] [1] 2).get .time = [1000, 11000, 50, 60, 70, 10^9, 0] ∧
        (interrupted s (.int 0) [1] [1] 2).get .current = [4, 5, 9, 9, 9, 4])
    | .error _ => false) = true := by decide +kernel

/-- **C35 violated, concretely**: three samples, re-opened, a scalar start: 6667 ns instead of 10000 ns. -/
example : (match (writerOpen b64 none {}).2 with
    | .ok s => (match s.appendRaw (.int 0) [1, 2, 3] [1, 2, 3] with
      | .ok s => (match (writerOpen b64 (some s.file) {}).2 with
        | .ok s => (match s.appendRaw (.int 30000) [1, 2] [1, 2] with
          | .ok s => decide (s.get .time = [0, 10000, 20000, 30000, 36667])
          | .error _ => false)
        | .error _ => false)
      | .error _ => false)
    | .error _ => false) = true := by decide +kernel

/-- Is the file left by opening a valid one, was the open accepted? -/
def outcome (r : H5File × Except PyErr Session) : Bool × Bool := (r.1.isValid, match r.2 with | .ok _ => true | .error _ => false)

/-- **C36 violated.**  Re-opening a valid ivcurve recording for modification with a window of 0 is accepted, the file is invalid afterwards. -/
theorem C36_modify_violated : ∃ (old : H5File) (args : WriterArgs), old.isValid = true ∧
    outcome (writerOpen b64 (some old) args) = (false, true) :=
  ⟨(writerOpen b64 none curveArgs).1, { window := some 0 }, by decide +kernel, by decide +kernel⟩

/-- **C71 violated.**  Trying to re-open a valid ivcurve recording as emulator recording is rejected, but the file is invalid afterwards. -/
theorem C71_rejected_violated : ∃ (old : H5File) (args : WriterArgs), old.isValid = true ∧
    outcome (writerOpen b64 (some old) args) = (false, false) :=
  ⟨(writerOpen b64 none curveArgs).1, { mode := some "emulator" }, by decide +kernel, by decide +kernel⟩

/-- A given datatype, a positive window, or no change: the hypotheses of `C36_modify_partial` are met. -/
example : outcome (writerOpen b64 (some (writerOpen b64 none curveArgs).1) { window := some 7 }) = (true, true) ∧
    outcome (writerOpen b64 (some (writerOpen b64 none curveArgs).1) {}) = (true, true) := by
  constructor <;> decide +kernel

/-- Metadata (C37): the stored host name comes back, the stored configuration does not. -/
example : (match (writerOpen b64 none curveArgs).2 with
    | .ok s => (match stores b64 s [.hostname "a", .config ⟨some 3, ""⟩, .append (.raw (.int 0) [1] [2]), .hostname "sheep1", .item "x" (.num 3)] with
      | .ok s => (match s.close b64 with
        | .ok f => (match openSession b64 f with
          | .ok r => decide (getHostname r.attrs = "sheep1" ∧ getMode r.attrs = "harvester" ∧ getWindow r.dattrs = 5 ∧ getConfig r.dattrs = none ∧
              r.attrs "x" = some (.num 3))
          | .error _ => false)
        | .error _ => false)
      | .error _ => false)
    | .error _ => false) = true := by decide +kernel

/-- The calibration of a harvester (C37): a recording made with it is read with its channels. -/
example : (let c : CalHarvester := ⟨⟨2, 0⟩, ⟨3, 0⟩, ⟨5, 1⟩, ⟨7, -1⟩⟩
    match (writerOpen b64 none { cal := some ((CalArg.hrv c).toSeries b64) }).2 with
    | .ok s => (match s.appendRaw (.int 0) [10] [20] with
      | .ok s => (match s.close b64 with
        | .ok f => (match openSession b64 f with
          | .ok r => decide (r.cal.voltage = c.adcVSense ∧ r.cal.current = c.adcCHrv ∧ c.adcVSense ≠ c.adcCHrv ∧ c.adcVSense ≠ c.dacVHrv)
          | .error _ => false)
        | .error _ => false)
      | .error _ => false)
    | .error _ => false) = true := by decide +kernel

/-! ### What a valid file is -/

/-- The names under which a data type may be stored. -/
def NamesDtype (s : String) : EnergyDType → Prop
  | .ivsample => s = "ivsample" ∨ s = "ivsamples"
  | .ivcurve => s = "ivcurve" ∨ s = "ivcurves" ∨ s = "ivsurface"
  | .iscVoc => s = "isc_voc"

/-- A well formed recording: a group "data" whose three datasets carry gain and offset; a known mode; a known data type that fits the mode (an emulator records samples only);
a window size, that is at least one for curves. -/
def WellFormed (f : H5File) : Prop :=
  ∃ g m s t w, f.data = some g ∧ f.attrs "mode" = some (.str m) ∧ g.attrs "datatype" = some (.str s) ∧ g.attrs "window_samples" = some w ∧
    NamesDtype s t ∧ (m = "harvester" ∨ (m = "emulator" ∧ t = .ivsample)) ∧
    (∀ n, ∃ d, g.dset n = some d ∧ d.attrs "gain" ≠ none ∧ d.attrs "offset" ≠ none) ∧
    (t = .ivcurve → ∃ q, w = .num q ∧ 1 ≤ q)

theorem dtypeOfName_iff (s : String) (t : EnergyDType) : dtypeOfName s = some t ↔ NamesDtype s t := by
  unfold dtypeOfName
  constructor
  · intro h
    split_ifs at h with h1 h2 h3
    · cases h; exact h1
    · cases h; exact h2
    · cases h; exact h3
  · intro h
    cases t
    · simp only [NamesDtype] at h
      rw [if_pos h]
    · simp only [NamesDtype] at h
      rw [if_neg (by rcases h with h | h | h <;> subst h <;> decide), if_pos h]
    · simp only [NamesDtype] at h
      subst h
      decide

theorem one_le_pyInt {q : ℚ} : 1 ≤ pyInt q ↔ 1 ≤ q := by
  unfold pyInt
  by_cases h : 0 ≤ q
  · rw [if_pos h, Int.le_floor]; norm_num
  · rw [if_neg h]
    have hq : q < 0 := not_le.mp h
    constructor
    · intro h1
      have : ⌈q⌉ ≤ 0 := Int.ceil_le.mpr (by push_cast; exact hq.le)
      omega
    · intro h1; linarith

/-- **C36, meaning of "valid".**  `is_valid` accepts exactly the well formed recordings. -/
theorem C36_valid_meaning (f : H5File) : f.isValid = true ↔ WellFormed f := by
  obtain ⟨fa, fd, ll⟩ := f
  cases fd with
  | none => simp [H5File.isValid, WellFormed]
  | some g =>
    simp only [H5File.isValid, Bool.and_eq_true, List.all_cons, List.all_nil, Bool.and_true]
    constructor
    · rintro ⟨⟨⟨⟨⟨h1, h2⟩, h3⟩, h4, h5, h6⟩, h7⟩, h8⟩
      obtain ⟨m, hm⟩ : ∃ m, fa "mode" = some (.str m) := by
        cases hh : fa "mode" with
        | none => rw [hh] at h1; cases h1
        | some v =>
          rw [hh] at h1
          cases v <;> first | exact ⟨_, rfl⟩ | cases h1
      obtain ⟨w, hw⟩ := Option.isSome_iff_exists.mp h2
      have hmd : getMode fa = m := by simp [getMode, hm]
      rw [hmd] at h7
      cases hl : modeDtypes m with
      | none => rw [hl] at h7; simp at h7
      | some l =>
        cases ht : getDatatype g.attrs with
        | none => rw [hl, ht] at h7; simp at h7
        | some t =>
          rw [hl, ht] at h7
          obtain ⟨s, hs⟩ : ∃ s, g.attrs "datatype" = some (.str s) := by
            unfold getDatatype at ht
            split at ht
            · exact ⟨_, by assumption⟩
            · cases ht
          have hst : dtypeOfName s = some t := by simpa [getDatatype, hs] using ht
          refine ⟨g, m, s, t, w, rfl, hm, hs, hw, (dtypeOfName_iff s t).mp hst, ?_, ?_, ?_⟩
          · unfold modeDtypes at hl
            split_ifs at hl with ha hb
            · exact .inl ha
            · cases hl
              refine .inr ⟨hb, ?_⟩
              simpa using h7
          · intro n
            have key : ∀ n, (match g.dset n with | none => false | some d => (d.attrs "gain").isSome && (d.attrs "offset").isSome) = true →
                ∃ d, g.dset n = some d ∧ d.attrs "gain" ≠ none ∧ d.attrs "offset" ≠ none := by
              intro n hn
              cases hd : g.dset n with
              | none => rw [hd] at hn; cases hn
              | some d =>
                rw [hd] at hn
                simp only [Bool.and_eq_true, Option.isSome_iff_ne_none] at hn
                exact ⟨d, rfl, hn⟩
            cases n
            · exact key _ h4
            · exact key _ h6
            · exact key _ h5
          · intro htc
            subst htc
            rw [ht] at h8
            simp only [decide_true, Bool.true_and, Bool.not_eq_true', decide_eq_false_iff_not, not_lt] at h8
            unfold getWindow at h8
            rw [hw] at h8
            cases w with
            | num q => exact ⟨q, rfl, one_le_pyInt.mp h8⟩
            | _ => simp at h8
    · rintro ⟨g', m, s, t, w, hg, hm, hs, hw, hst, hmt, hds, hwin⟩
      cases hg
      have ht : getDatatype g.attrs = some t := by simp [getDatatype, hs, (dtypeOfName_iff s t).mpr hst]
      have hd : ∀ n, (match g.dset n with | none => false | some d => (d.attrs "gain").isSome && (d.attrs "offset").isSome) = true := by
        intro n
        obtain ⟨d, h1, h2, h3⟩ := hds n
        rw [h1]
        simp [Option.isSome_iff_ne_none, h2, h3]
      refine ⟨⟨⟨⟨⟨?_, by simp [hw]⟩, by simp [hs]⟩, hd _, hd _, hd _⟩, ?_⟩, ?_⟩
      · rw [show fa "mode" = some (.str m) from hm]
        rcases hmt with rfl | ⟨rfl, -⟩ <;> decide
      · rw [ht, show getMode fa = m by simp [getMode, show fa "mode" = some (.str m) from hm]]
        rcases hmt with rfl | ⟨rfl, rfl⟩
        · cases t <;> decide
        · decide
      · rw [ht]
        by_cases htc : t = .ivcurve
        · obtain ⟨q, rfl, hq⟩ := hwin htc
          have : ¬ getWindow g.attrs < 1 := by simp [getWindow, hw, one_le_pyInt.mpr hq]
          simp [this]
        · simp [htc]

end Verif.Props
