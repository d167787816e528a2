import Verif.Model.Recorder
import Verif.Lemmas.Num
import Mathlib.Tactic.Linarith
import Mathlib.Tactic.FieldSimp
import Mathlib.Tactic.GCongr

namespace Verif.Model
open Verif.Py

/-! ## Lists -/

@[simp] theorem length_resizeList (l : List ℤ) (k : ℕ) : (resizeList l k).length = k := by
  simp [resizeList]; omega

theorem resizeList_self (l : List ℤ) : resizeList l l.length = l := by simp [resizeList]

theorem resizeList_le (l : List ℤ) (k : ℕ) (h : k ≤ l.length) : resizeList l k = l.take k := by
  simp [resizeList, Nat.sub_eq_zero_of_le h]

theorem take_resizeList (l : List ℤ) (k m : ℕ) (h : m ≤ k) : (resizeList l k).take m = resizeList l m := by
  unfold resizeList
  rw [List.take_append, List.take_take, List.take_replicate, Nat.min_eq_left h, List.length_take]
  congr 2
  omega

theorem prefix_resizeList {p l : List ℤ} (h : p <+: l) (k : ℕ) (hk : p.length ≤ k) : p <+: resizeList l k := by
  have hp : p = (resizeList l k).take p.length := by
    rw [take_resizeList _ _ _ hk, resizeList_le _ _ h.length_le]
    exact (List.prefix_iff_eq_take.1 h)
  rw [hp]
  exact List.take_prefix _ _

@[simp] theorem length_writeList (l : List ℤ) (a : ℕ) (v : List ℤ) : (writeList l a v).length = l.length := by
  simp [writeList]; omega

theorem prefix_writeList {p l : List ℤ} (h : p <+: l) (a : ℕ) (v : List ℤ) (ha : p.length ≤ a) : p <+: writeList l a v := by
  obtain ⟨t, rfl⟩ := h
  have h1 : (p ++ t).take a = p ++ t.take (a - p.length) := by
    rw [List.take_append, List.take_of_length_le ha]
  unfold writeList
  rw [h1]
  simp only [List.append_assoc]
  rw [List.take_append, List.take_of_length_le (by simp)]
  exact List.prefix_append _ _

/-- Resizing by the length of the new values and writing them at the old end. -/
theorem write_resize (l v : List ℤ) (m : ℕ) : writeList (resizeList l (m + v.length)) m v = resizeList l m ++ v := by
  unfold writeList
  rw [take_resizeList _ _ _ (by omega), length_resizeList, List.drop_of_length_le (by simp), List.append_nil,
    List.take_of_length_le (by simp)]

/-! ## Appending -/

theorem prim_get (s : Session) (op : PrimOp) (n : DsName) :
    (s.prim op).get n = match op with
      | .resize m k => if n = m then resizeList (s.get n) k else s.get n
      | .write m a v => if n = m then writeList (s.get n) a (v.map n.clamp) else s.get n := by
  cases op with
  | resize m k => simp only [Session.prim, Session.get]; split <;> rfl
  | write m a v =>
    simp only [Session.prim, Session.get]
    split
    · subst_vars; rfl
    · rfl

@[simp] theorem prim_attrs (s : Session) (op : PrimOp) : (s.prim op).attrs = s.attrs := by cases op <;> rfl
@[simp] theorem prim_dattrs (s : Session) (op : PrimOp) : (s.prim op).dattrs = s.dattrs := by cases op <;> rfl
@[simp] theorem prim_stats (s : Session) (op : PrimOp) : (s.prim op).stats = s.stats := by cases op <;> rfl
@[simp] theorem prim_cal (s : Session) (op : PrimOp) : (s.prim op).cal = s.cal := by cases op <;> rfl
@[simp] theorem prim_log (s : Session) (op : PrimOp) : (s.prim op).logLevels = s.logLevels := by cases op <;> rfl
@[simp] theorem prim_dsattrs (s : Session) (op : PrimOp) (n : DsName) : ((s.prim op).ds n).attrs = (s.ds n).attrs := by
  cases op <;> (simp only [Session.prim]; split <;> rfl)

/-- Everything but the contents of the datasets. -/
def Session.Same (s t : Session) : Prop :=
  s.attrs = t.attrs ∧ s.dattrs = t.dattrs ∧ s.stats = t.stats ∧ s.cal = t.cal ∧ s.logLevels = t.logLevels ∧
    ∀ n, (s.ds n).attrs = (t.ds n).attrs

theorem Session.Same.refl (s : Session) : s.Same s := ⟨rfl, rfl, rfl, rfl, rfl, fun _ => rfl⟩
theorem Session.Same.trans {s t u : Session} (h : s.Same t) (k : t.Same u) : s.Same u :=
  ⟨h.1.trans k.1, h.2.1.trans k.2.1, h.2.2.1.trans k.2.2.1, h.2.2.2.1.trans k.2.2.2.1, h.2.2.2.2.1.trans k.2.2.2.2.1,
    fun n => (h.2.2.2.2.2 n).trans (k.2.2.2.2.2 n)⟩

theorem foldl_prim_same (ops : List PrimOp) (s : Session) : (ops.foldl Session.prim s).Same s := by
  induction ops generalizing s with
  | nil => exact Session.Same.refl s
  | cons op ops ih => exact (ih (s.prim op)).trans ⟨by simp, by simp, by simp, by simp, by simp, by simp⟩

theorem appendOps_get (s : Session) (m k : ℕ) (ts vs cs : List ℤ) (n : DsName) :
    ((appendOps m k ts vs cs).foldl Session.prim s).get n =
      writeList (resizeList (s.get n) (m + k)) m
        (((match n with | .time => ts | .voltage => vs | .current => cs).take k).map n.clamp) := by
  simp only [appendOps, List.foldl_cons, List.foldl_nil, prim_get]
  cases n <;> simp

theorem appendPlan_ok {s : Session} {ts : Stamp} {vs cs : List ℤ} {ops : List PrimOp} (h : s.appendPlan ts vs cs = .ok ops) :
    ∃ tl, stampList s.stats ts (min vs.length cs.length) = .ok tl ∧
      ops = appendOps (s.get .voltage).length (min (min vs.length cs.length) tl.length) tl vs cs := by
  unfold Session.appendPlan at h
  dsimp only at h
  cases hs : stampList s.stats ts (min vs.length cs.length) with
  | error e => rw [hs] at h; cases h
  | ok tl => rw [hs] at h; cases h; exact ⟨tl, rfl, rfl⟩

theorem appendRaw_ok {s s' : Session} {ts : Stamp} {vs cs : List ℤ} (h : s.appendRaw ts vs cs = .ok s') :
    ∃ ops, s.appendPlan ts vs cs = .ok ops ∧ s' = ops.foldl Session.prim s := by
  unfold Session.appendRaw at h
  cases hs : s.appendPlan ts vs cs with
  | error e => rw [hs] at h; cases h
  | ok ops => rw [hs] at h; cases h; exact ⟨ops, rfl, rfl⟩

/-- Effect of a complete append. -/
theorem appendRaw_get {s s' : Session} {ts : Stamp} {vs cs : List ℤ} (h : s.appendRaw ts vs cs = .ok s') :
    ∃ tl, stampList s.stats ts (min vs.length cs.length) = .ok tl ∧ s'.Same s ∧ ∀ n,
      s'.get n = resizeList (s.get n) (s.get .voltage).length ++
        (((match n with | .time => tl | .voltage => vs | .current => cs).take (min (min vs.length cs.length) tl.length)).map n.clamp) := by
  obtain ⟨ops, hp, rfl⟩ := appendRaw_ok h
  obtain ⟨tl, ht, rfl⟩ := appendPlan_ok hp
  refine ⟨tl, ht, foldl_prim_same _ _, fun n => ?_⟩
  rw [appendOps_get]
  have := write_resize (s.get n) (((match n with | .time => tl | .voltage => vs | .current => cs).take (min (min vs.length cs.length) tl.length)).map n.clamp) (s.get .voltage).length
  have hl : (((match n with | .time => tl | .voltage => vs | .current => cs).take (min (min vs.length cs.length) tl.length)).map n.clamp).length
      = min (min vs.length cs.length) tl.length := by
    cases n <;> simp only [List.length_map, List.length_take] <;> omega
  rw [hl] at this
  exact this

/-- An append, complete or not, keeps every common prefix. -/
theorem crash_prefix {s : Session} {ts : Stamp} {vs cs : List ℤ} {ops : List PrimOp} (h : s.appendPlan ts vs cs = .ok ops)
    (j : ℕ) (p : DsName → List ℤ) (hp : ∀ n, p n <+: s.get n) (hlen : ∀ n, (p n).length ≤ (s.get .voltage).length) :
    ∀ n, p n <+: ((ops.take j).foldl Session.prim s).get n := by
  obtain ⟨tl, -, rfl⟩ := appendPlan_ok h
  have key : ∀ (l : List PrimOp), (∀ op ∈ l, match op with
      | .resize _ k => (s.get .voltage).length ≤ k
      | .write _ a _ => (s.get .voltage).length ≤ a) → ∀ t : Session, (∀ n, p n <+: t.get n) →
      ∀ n, p n <+: (l.foldl Session.prim t).get n := by
    intro l
    induction l with
    | nil => intro _ t ht; exact ht
    | cons op l ih =>
      intro hl t ht
      refine ih (fun o ho => hl o (by simp [ho])) _ (fun n => ?_)
      have ho := hl op (by simp)
      rw [prim_get]
      cases op with
      | resize m k =>
        dsimp only at ho ⊢
        split
        · exact prefix_resizeList (ht n) _ ((hlen n).trans ho)
        · exact ht n
      | write m a v =>
        dsimp only at ho ⊢
        split
        · exact prefix_writeList (ht n) _ _ ((hlen n).trans ho)
        · exact ht n
  refine key _ (fun op ho => ?_) s hp
  have := List.mem_of_mem_take ho
  simp only [appendOps, List.mem_cons, List.not_mem_nil, or_false] at this
  rcases this with rfl | rfl | rfl | rfl | rfl | rfl <;> simp

theorem clamp_of_mem {n : DsName} {x : ℤ} (h0 : 0 ≤ x) (h1 : x ≤ n.max) : n.clamp x = x := by
  unfold DsName.clamp; omega

/-! ## Opening -/

/-- The calibration found in the attributes of the datasets. -/
def calOf (fl : ℚ → ℚ) (ds : DsName → Dset) : CalSeries where
  voltage := pairOf (ds .voltage).attrs (CalSeries.default fl).voltage
  current := pairOf (ds .current).attrs (CalSeries.default fl).current
  time := pairOf (ds .time).attrs (CalSeries.default fl).time

theorem openSession_ok {fl : ℚ → ℚ} {f : H5File} {s : Session} (h : openSession fl f = .ok s) :
    s.file = f ∧ s.cal = calOf fl s.ds ∧ (s.cal.voltage.Valid ∧ s.cal.current.Valid ∧ s.cal.time.Valid) ∧
      refreshStats fl s.cal (s.get .time) (Stats.init fl) = .ok s.stats := by
  unfold openSession at h
  cases hd : f.data with
  | none => rw [hd] at h; cases h
  | some g =>
    rw [hd] at h
    dsimp only at h
    split at h
    · rename_i t v c ht hv hc
      split at h
      · rename_i hval
        split at h
        · cases h
        · rename_i st hst
          cases h
          refine ⟨?_, rfl, hval, hst⟩
          cases f with
          | mk fa fd fl' =>
            simp only at hd
            subst hd
            cases g with
            | mk ga gd =>
              simp only [Session.file, H5File.mk.injEq, Option.some.injEq, DataGroup.mk.injEq, true_and, and_true]
              funext n
              cases n
              · exact ht.symm
              · exact hv.symm
              · exact hc.symm
      · cases h
    · cases h

theorem openWindow_ok {fl : ℚ → ℚ} {f f' : H5File} {g : DataGroup} {dt : Option EnergyDType} {args : WriterArgs} {s : Session}
    (h : openWindow fl f g dt args = (f', .ok s)) :
    ¬ (dt = some .ivcurve ∧ getWindow (putWindow g.attrs args.window) < 1) ∧
      f' = { f with data := some (putCal fl { g with attrs := putWindow g.attrs args.window } args.cal) } ∧
      openSession fl f' = .ok s := by
  unfold openWindow at h
  dsimp only at h
  by_cases h1 : dt = some .ivcurve ∧ getWindow (putWindow g.attrs args.window) < 1
  · rw [if_pos h1] at h; cases h
  rw [if_neg h1] at h
  by_cases h2 : (g.dset .time).isNone ∨ (g.dset .current).isNone ∨ (g.dset .voltage).isNone
  · rw [if_pos h2] at h; cases h
  rw [if_neg h2, Prod.mk.injEq] at h
  exact ⟨h1, h.1.symm, by rw [← h.1]; exact h.2⟩

theorem openDatatype_ok {fl : ℚ → ℚ} {f f' : H5File} {dtypes : List EnergyDType} {args : WriterArgs} {s : Session}
    (h : openDatatype fl f dtypes args = (f', .ok s)) :
    ∃ g dt t, parseDatatype args.datatype = .ok dt ∧ f.data = some g ∧ (∀ x, dt = some x → x ∈ dtypes) ∧
      getDatatype (putDatatype g.attrs dt) = some t ∧ t ∈ dtypes ∧
      openWindow fl f { g with attrs := putDatatype g.attrs dt } dt args = (f', .ok s) := by
  unfold openDatatype at h
  cases hp : parseDatatype args.datatype with
  | error e => rw [hp] at h; cases h
  | ok dt =>
    rw [hp] at h
    dsimp only at h
    by_cases h1 : (!dtypeArgOk dtypes dt) = true
    · rw [if_pos h1] at h; cases h
    rw [if_neg h1] at h
    cases hg : f.data with
    | none => rw [hg] at h; cases h
    | some g =>
      rw [hg] at h
      dsimp only at h
      by_cases h2 : (!dtypeStoredOk dtypes (getDatatype (putDatatype g.attrs dt))) = true
      · rw [if_pos h2] at h; cases h
      rw [if_neg h2] at h
      have hst' : ∃ t, getDatatype (putDatatype g.attrs dt) = some t ∧ t ∈ dtypes := by
        revert h2
        cases getDatatype (putDatatype g.attrs dt) with
        | none => intro h; exact absurd rfl h
        | some t => intro h; exact ⟨t, rfl, by simpa [dtypeStoredOk] using h⟩
      obtain ⟨t, ht, htm⟩ := hst'
      refine ⟨g, dt, t, rfl, rfl, ?_, ht, htm, h⟩
      intro x hx
      rw [hx] at h1
      simpa [dtypeArgOk] using h1

theorem writerOpen_ok {fl : ℚ → ℚ} {old : Option H5File} {args : WriterArgs} {f : H5File} {s : Session}
    (h : writerOpen fl old args = (f, .ok s)) :
    ∃ dtypes g dt t, modeArgOk args.mode = true ∧
      modeDtypes (getMode (putMode (old.getD skeleton).attrs args.mode)) = some dtypes ∧
      (old.getD skeleton).data = some g ∧ parseDatatype args.datatype = .ok dt ∧ (∀ x, dt = some x → x ∈ dtypes) ∧
      getDatatype (putDatatype g.attrs dt) = some t ∧ t ∈ dtypes ∧
      ¬ (dt = some .ivcurve ∧ getWindow (putWindow (putDatatype g.attrs dt) args.window) < 1) ∧
      f = { attrs := putMode (old.getD skeleton).attrs args.mode
            data := some (putCal fl { g with attrs := putWindow (putDatatype g.attrs dt) args.window } args.cal)
            logLevels := (old.getD skeleton).logLevels } ∧
      openSession fl f = .ok s := by
  unfold writerOpen at h
  dsimp only at h
  by_cases h1 : (!modeArgOk args.mode) = true
  · rw [if_pos h1] at h; cases h
  rw [if_neg h1] at h
  cases hd : modeDtypes (getMode (putMode (old.getD skeleton).attrs args.mode)) with
  | none => rw [hd] at h; cases h
  | some dtypes =>
    rw [hd] at h
    dsimp only at h
    obtain ⟨g, dt, t, hp, hg, hx, ht, htm, h⟩ := openDatatype_ok h
    obtain ⟨hw, hf, hs⟩ := openWindow_ok h
    exact ⟨dtypes, g, dt, t, by simpa using h1, rfl, hg, hp, hx, ht, htm, hw, hf, hs⟩

/-! ## Number of complete buffers -/

theorem floor_buffers {fl : ℚ → ℚ} (hf : Rounding fl) (m : ℕ) (hm : m < 10000 * 2^39) :
    ⌊fl ((m : ℚ) / 10000)⌋ = ((m / 10000 : ℕ) : ℤ) := by
  set q := m / 10000 with hq
  have hq39 : q < 2^39 := by omega
  have hqr : (10000 * q : ℕ) + m % 10000 = m := by omega
  have hr : m % 10000 ≤ 9999 := by omega
  have hmq : (m : ℚ) = 10000 * q + (m % 10000 : ℕ) := by exact_mod_cast hqr.symm
  have hrq : ((m % 10000 : ℕ) : ℚ) ≤ 9999 := by exact_mod_cast hr
  have hr0 : (0:ℚ) ≤ ((m % 10000 : ℕ) : ℚ) := by positivity
  rw [Int.floor_eq_iff]
  constructor
  · have := hf.int_le (n := (q : ℤ)) (x := (m:ℚ) / 10000) (by rw [abs_of_nonneg (by positivity)]; norm_num at hq39 ⊢; omega)
      (by rw [hmq]; push_cast; linarith)
    exact_mod_cast this
  · have hx := hf.exact (((q : ℤ) + 1) * 2^14 - 1) (-14) (by
      rw [abs_of_nonneg (by omega)]
      norm_num at hq39 ⊢; omega) (by norm_num)
    have hle : (m:ℚ) / 10000 ≤ (((q : ℤ) + 1) * 2^14 - 1 : ℤ) * (2:ℚ)^(-14:ℤ) := by
      rw [hmq]; push_cast
      have : (2:ℚ)^(-14:ℤ) = 1/16384 := by norm_num
      rw [this]; linarith
    have h1 := hf.mono hle
    rw [hx] at h1
    refine lt_of_le_of_lt h1 ?_
    push_cast
    have : (2:ℚ)^(-14:ℤ) = 1/16384 := by norm_num
    rw [this]; linarith

/-! ## Accuracy -/

/-- Relative accuracy away from zero. -/
theorem acc_rel {fl : ℚ → ℚ} (hf : AccRounding fl) {x : ℚ} (hx : 1 / 10^30 ≤ x) :
    x * (1 - 1/2^52) ≤ fl x ∧ fl x ≤ x * (1 + 1/2^52) := by
  have hx0 : 0 < x := lt_of_lt_of_le (by norm_num) hx
  have h := hf.err x
  rw [abs_of_pos hx0] at h
  have ht : (2:ℚ)^(-1075:ℤ) ≤ 1/10^30 / 2^53 := by
    calc (2:ℚ)^(-1075:ℤ) ≤ (2:ℚ)^(-153:ℤ) := zpow_le_zpow_right₀ (by norm_num) (by norm_num)
      _ ≤ 1/10^30 / 2^53 := by norm_num
  have ht2 : (2:ℚ)^(-1075:ℤ) ≤ x / 2^53 := ht.trans (by gcongr)
  have h2 : |fl x - x| ≤ x / 2^52 := by
    refine h.trans ?_
    have : x / 2^52 = x / 2^53 + x / 2^53 := by ring
    linarith
  rw [abs_le] at h2
  constructor
  · have := h2.1; rw [mul_sub, mul_one, mul_one_div]; linarith
  · have := h2.2; rw [mul_add, mul_one, mul_one_div]; linarith

/-! ## Regular timestamps -/

/-- `m` timestamps, 10 µs apart. -/
def regular (t0 : ℤ) (m : ℕ) : List ℤ := (List.range m).map (fun i : ℕ => t0 + 10000 * (i : ℤ))

@[simp] theorem length_regular (t0 : ℤ) (m : ℕ) : (regular t0 m).length = m := by simp [regular]

theorem regular_getD (t0 : ℤ) (m i : ℕ) (h : i < m) : (regular t0 m).getD i 0 = t0 + 10000 * (i : ℤ) := by
  simp [regular, List.getD, List.getElem?_map, List.getElem?_range h]

theorem take_regular (t0 : ℤ) (m k : ℕ) (h : k ≤ m) : (regular t0 m).take k = regular t0 k := by
  unfold regular
  rw [← List.map_take, List.take_range, Nat.min_eq_left h]

theorem refresh_regular {fl : ℚ → ℚ} (hf : AccRounding fl) (cal : CalSeries) (hc : cal.time = (CalSeries.default fl).time) (t0 : ℤ) (m : ℕ)
    (h2 : 2 ≤ m) (hm : m ≤ 2^39) (st : Stats) :
    ∃ st', refreshStats fl cal (regular t0 m) st = .ok st' ∧ st'.samplerate = 100000 ∧
      ∃ x : ℚ, st'.intervalNs = pyRound x ∧ |x - 10000 * ((m : ℚ) - 1) / m| ≤ 1/10^6 := by
  have hdur : (regular t0 m).getD (m - 1) 0 - (regular t0 m).getD 0 0 = 10000 * ((m - 1 : ℕ) : ℤ) := by
    rw [regular_getD _ _ _ (by omega), regular_getD _ _ _ (by omega)]; push_cast; ring
  set k := m - 1 with hk
  have hk1 : 1 ≤ k := by omega
  have hkm : (m : ℚ) = k + 1 := by rw [hk]; push_cast [Nat.cast_sub (show 1 ≤ m by omega)]; ring
  have hkq : (1:ℚ) ≤ k := by exact_mod_cast hk1
  have hfd : fl ((10000 * (k : ℤ) : ℤ) : ℚ) = 10000 * k := by
    rw [hf.exactInt _ (by rw [abs_of_nonneg (by positivity)]; norm_num at hm ⊢; omega)]; push_cast; ring
  obtain ⟨a1, a2⟩ := acc_rel hf (x := 1/10^9) (by norm_num)
  set a := fl (1/10^9) with ha
  have hg : cal.time = ⟨a, 0⟩ := hc
  have hx30 : (1:ℚ)/10^30 ≤ 10000 * k * a := by
    calc (1:ℚ)/10^30 ≤ 10000 * 1 * (1/10^9 * (1 - 1/2^52)) := by norm_num
      _ ≤ 10000 * k * a := by gcongr
  obtain ⟨b1, b2⟩ := acc_rel hf hx30
  set x := fl (10000 * k * a) with hx
  have hx2 : fl (x + 0) = x := by rw [add_zero, hx, hf.idem]
  have hraw : cal.time.rawToSi fl ((10000 * (k : ℤ) : ℤ) : ℚ) = x := by
    rw [hg]
    simp only [CalPair.rawToSi, Bool.not_true, Bool.false_eq_true, if_false]
    rw [hfd, ← hx, hx2]
  have ha0 : 0 < a := lt_of_lt_of_le (by norm_num) a1
  -- bounds on the duration
  have hxl : (k : ℚ) * (1/10^5) * (1 - 1/2^50) ≤ x := by
    refine le_trans ?_ b1
    calc (k : ℚ) * (1/10^5) * (1 - 1/2^50) ≤ 10000 * k * (1/10^9 * (1 - 1/2^52)) * (1 - 1/2^52) := by
          have : (k:ℚ) * (1/10^5) * (1 - 1/2^50) = 10000 * k * (1/10^9) * (1 - 1/2^50) := by ring
          rw [this]
          have h3 : 10000 * (k:ℚ) * (1/10^9 * (1 - 1/2^52)) * (1 - 1/2^52) = 10000 * k * (1/10^9) * ((1 - 1/2^52) * (1 - 1/2^52)) := by ring
          rw [h3]
          gcongr
          norm_num
      _ ≤ 10000 * k * a * (1 - 1/2^52) := by gcongr
  have hxu : x ≤ (k : ℚ) * (1/10^5) * (1 + 1/2^50) := by
    refine le_trans b2 ?_
    calc 10000 * k * a * (1 + 1/2^52) ≤ 10000 * k * (1/10^9 * (1 + 1/2^52)) * (1 + 1/2^52) := by gcongr
      _ ≤ (k : ℚ) * (1/10^5) * (1 + 1/2^50) := by
          have : (k:ℚ) * (1/10^5) * (1 + 1/2^50) = 10000 * k * (1/10^9) * (1 + 1/2^50) := by ring
          rw [this]
          have h3 : 10000 * (k:ℚ) * (1/10^9 * (1 + 1/2^52)) * (1 + 1/2^52) = 10000 * k * (1/10^9) * ((1 + 1/2^52) * (1 + 1/2^52)) := by ring
          rw [h3]
          gcongr
          norm_num
  have hx0 : 0 < x := lt_of_lt_of_le (mul_pos (mul_pos (by linarith) (by norm_num)) (by norm_num)) hxl
  -- the rate
  have hr1 : (100000 - 1/10^3 : ℚ) ≤ k / x := by
    rw [le_div_iff₀ hx0]
    calc (100000 - 1/10^3 : ℚ) * x ≤ (100000 - 1/10^3) * (k * (1/10^5) * (1 + 1/2^50)) := by gcongr
      _ = k * ((100000 - 1/10^3) * (1/10^5) * (1 + 1/2^50)) := by ring
      _ ≤ k * 1 := by gcongr; norm_num
      _ = k := mul_one _
  have hr2 : k / x ≤ (100000 + 1/10^3 : ℚ) := by
    rw [div_le_iff₀ hx0]
    calc (k : ℚ) = k * 1 := (mul_one _).symm
      _ ≤ k * ((100000 + 1/10^3) * (1/10^5) * (1 - 1/2^50)) := by gcongr; norm_num
      _ = (100000 + 1/10^3) * (k * (1/10^5) * (1 - 1/2^50)) := by ring
      _ ≤ (100000 + 1/10^3) * x := by gcongr
  obtain ⟨c1, c2⟩ := acc_rel hf (x := k / x) (le_trans (by norm_num) hr1)
  have hrate : pyRound (fl ((k : ℚ) / x)) = 100000 := by
    apply pyRound_eq_of_lt
    rw [abs_lt]
    constructor
    · have : (100000 - 1/10^3 : ℚ) * (1 - 1/2^52) ≤ k / x * (1 - 1/2^52) := by gcongr
      have h4 : (99999.9 : ℚ) ≤ (100000 - 1/10^3 : ℚ) * (1 - 1/2^52) := by norm_num
      push_cast; linarith
    · have : k / x * (1 + 1/2^52) ≤ (100000 + 1/10^3 : ℚ) * (1 + 1/2^52) := by gcongr
      have h4 : (100000 + 1/10^3 : ℚ) * (1 + 1/2^52) ≤ 100000.1 := by norm_num
      push_cast; linarith
  -- the interval
  have hm0 : (0:ℚ) < m := by rw [hkm]; linarith
  have hm39 : (m : ℚ) ≤ 2^39 := by exact_mod_cast hm
  have hi30 : (1:ℚ)/10^30 ≤ x / m := by
    rw [le_div_iff₀ hm0]
    calc (1:ℚ)/10^30 * m ≤ 1/10^30 * 2^39 := by gcongr
      _ ≤ 1 * (1/10^5) * (1 - 1/2^50) := by norm_num
      _ ≤ k * (1/10^5) * (1 - 1/2^50) := by gcongr
      _ ≤ x := hxl
  obtain ⟨d1, d2⟩ := acc_rel hf hi30
  set i := fl (x / m) with hi
  have hi0 : 0 < i := lt_of_lt_of_le (mul_pos (lt_of_lt_of_le (by norm_num) hi30) (by norm_num)) d1
  have hj30 : (1:ℚ)/10^30 ≤ 10^9 * i := by
    calc (1:ℚ)/10^30 ≤ 10^9 * (1/10^30 * (1 - 1/2^52)) := by norm_num
      _ ≤ 10^9 * (x / m * (1 - 1/2^52)) := by gcongr
      _ ≤ 10^9 * i := by gcongr
  obtain ⟨e1, e2⟩ := acc_rel hf hj30
  have hkm1 : (k : ℚ) / m ≤ 1 := by rw [div_le_one hm0, hkm]; linarith
  have hkm0 : 0 ≤ (k : ℚ) / m := by positivity
  have hup : fl (10^9 * i) ≤ 10000 * ((k : ℚ) / m) + 1/10^6 := by
    calc fl (10^9 * i) ≤ 10^9 * i * (1 + 1/2^52) := e2
      _ ≤ 10^9 * (x / m * (1 + 1/2^52)) * (1 + 1/2^52) := by gcongr
      _ ≤ 10^9 * ((k : ℚ) * (1/10^5) * (1 + 1/2^50) / m * (1 + 1/2^52)) * (1 + 1/2^52) := by gcongr
      _ = 10000 * ((k : ℚ) / m) * ((1 + 1/2^50) * (1 + 1/2^52) * (1 + 1/2^52)) := by ring
      _ ≤ 10000 * ((k : ℚ) / m) * (1 + 1/10^11) := by gcongr; norm_num
      _ = 10000 * ((k : ℚ) / m) + ((k : ℚ) / m) * (1/10^7) := by ring
      _ ≤ 10000 * ((k : ℚ) / m) + 1 * (1/10^7) := by gcongr
      _ ≤ 10000 * ((k : ℚ) / m) + 1/10^6 := by norm_num
  have hlo : 10000 * ((k : ℚ) / m) - 1/10^6 ≤ fl (10^9 * i) := by
    calc 10000 * ((k : ℚ) / m) - 1/10^6 ≤ 10000 * ((k : ℚ) / m) - 1 * (1/10^7) := by linarith [show (1:ℚ) * (1/10^7) ≤ 1/10^6 by norm_num]
      _ ≤ 10000 * ((k : ℚ) / m) - ((k : ℚ) / m) * (1/10^7) := by gcongr
      _ = 10000 * ((k : ℚ) / m) * (1 - 1/10^11) := by ring
      _ ≤ 10000 * ((k : ℚ) / m) * ((1 - 1/2^50) * (1 - 1/2^52) * (1 - 1/2^52)) := by gcongr; norm_num
      _ = 10^9 * ((k : ℚ) * (1/10^5) * (1 - 1/2^50) / m * (1 - 1/2^52)) * (1 - 1/2^52) := by ring
      _ ≤ 10^9 * (x / m * (1 - 1/2^52)) * (1 - 1/2^52) := by gcongr <;> norm_num
      _ ≤ 10^9 * i * (1 - 1/2^52) := by gcongr
      _ ≤ fl (10^9 * i) := e1
  refine ⟨{ intervalS := i, intervalNs := pyRound (fl (10^9 * i)), samplerate := 100000 }, ?_, rfl, fl (10^9 * i), rfl, ?_⟩
  · unfold refreshStats
    dsimp only
    rw [length_regular, if_pos (show m > 0 by omega), ← hk, hdur, if_pos ⟨by omega, by omega⟩, hraw, if_neg hx0.ne', hrate, ← hi]
    rfl
  · have : 10000 * ((m : ℚ) - 1) / m = 10000 * ((k : ℚ) / m) := by rw [hkm]; ring
    rw [this, abs_le]
    constructor <;> linarith

end Verif.Model
