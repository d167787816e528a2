import Verif.Props.Recorder
import Verif.Model.Repair

/-!
# Repairing recordings (C98)

The script that repairs recordings: what it does to the samples and to the metadata, which defects it repairs, and which combinations it does not.
-/

namespace Verif.Props
open Verif.Py Verif.Model

/-! ## The samples -/

theorem contents_size {f : H5File} {n : DsName} {x : List ℤ} (h : contents f n = some x) : f.size n = x.length := by
  unfold contents at h
  unfold H5File.size
  cases hd : f.data.bind (fun g => g.dset n) with
  | none => rw [hd] at h; cases h
  | some d =>
    rw [hd] at h
    simp only [Option.map_some, Option.some.injEq] at h
    simp [h]

/-- A file the reader opens has its three datasets. -/
theorem opened_contents {fl : ℚ → ℚ} {f : H5File} {s : Session} (h : openSession fl f = .ok s) (n : DsName) : contents f n = some (s.get n) := by
  rw [← (openSession_ok h).1]; rfl

theorem writer_contents {fl : ℚ → ℚ} {f f1 : H5File} {args : WriterArgs} {s : Session} {x : DsName → List ℤ} (hx : ∀ n, contents f n = some (x n))
    (h : writerOpen fl (some f) args = (f1, .ok s)) (n : DsName) : s.get n = x n := by
  obtain ⟨g, d, hg, hd, e⟩ := open_get h n
  have := hx n
  simp only [Option.getD_some] at hg
  simp only [contents, hg, Option.bind_some, hd, Option.map_some, Option.some.injEq] at this
  rw [e, this]

/-- One modification: if the samples have equal lengths before the file is closed, a common beginning of them is left, or nothing was done. -/
theorem modify_contents {fl : ℚ → ℚ} (hf : Rounding fl) {f : H5File} {args : WriterArgs} {use : Session → Session} {x y : DsName → List ℤ} {m : ℕ}
    (hx : ∀ n, contents f n = some (x n)) (hu : ∀ s : Session, (∀ n, s.get n = x n) → ∀ n, (use s).get n = y n) (hy : ∀ n, (y n).length = m)
    (hm : m < 10000 * 2^39) :
    ((∀ n, contents (modifyFile fl f args use).1 n = some (x n)) ∧ ∃ e, (modifyFile fl f args use).2 = .error e) ∨
    ∃ k, (k = m ∨ Kept m k) ∧ ∀ n, contents (modifyFile fl f args use).1 n = some ((y n).take k) := by
  unfold modifyFile
  have hc := C71_samples_partial fl f args
  rcases ho : writerOpen fl (some f) args with ⟨f1, _ | s⟩
  · rw [ho] at hc
    exact .inl ⟨fun n => by dsimp only; rw [hc n, hx n], ⟨_, rfl⟩⟩
  · have hs := hu s (writer_contents hx ho)
    right
    dsimp only
    cases hcl : (use s).close fl with
    | error e => exact ⟨m, .inl rfl, fun n => by dsimp only; rw [contents_file, hs n, List.take_of_length_le (hy n).le]⟩
    | ok f' =>
      have hv : ((use s).get .voltage).length = m := by rw [hs, hy]
      obtain ⟨k, hk, hk2, -⟩ := C33_close fl hf (use s) f' (fun n => by rw [hs, hs, hy, hy]) (by rw [hv]; exact hm) hcl
      rw [hv] at hk
      refine ⟨k, hk, fun n => ?_⟩
      have : contents f' n = some ((y n).take k) := by rw [hk2 n, hs n]
      dsimp only
      cases openSession fl f' <;> exact this

/-- One modification of a file that ends with a buffer before it is closed: nothing is cut. -/
theorem modify_aligned {fl : ℚ → ℚ} (hf : Rounding fl) {f : H5File} {args : WriterArgs} {use : Session → Session} {x y : DsName → List ℤ}
    (hx : ∀ n, contents f n = some (x n)) (hu : ∀ s : Session, (∀ n, s.get n = x n) → ∀ n, (use s).get n = y n) (hy : (y .voltage).length % 10000 = 0)
    (hm : (y .voltage).length < 10000 * 2^39) :
    ((∀ n, contents (modifyFile fl f args use).1 n = some (x n)) ∧ ∃ e, (modifyFile fl f args use).2 = .error e) ∨
      (∀ n, contents (modifyFile fl f args use).1 n = some (y n)) := by
  unfold modifyFile
  have hc := C71_samples_partial fl f args
  rcases ho : writerOpen fl (some f) args with ⟨f1, _ | s⟩
  · rw [ho] at hc
    exact .inl ⟨fun n => by dsimp only; rw [hc n, hx n], ⟨_, rfl⟩⟩
  · have hs := hu s (writer_contents hx ho)
    right
    dsimp only
    cases hcl : (use s).close fl with
    | error e => exact fun n => by dsimp only; rw [contents_file, hs n]
    | ok f' =>
      obtain ⟨st, s', -, -, rfl, hg⟩ := close_ok hf hcl (by rw [hs]; exact hm)
      intro n
      have : contents s'.file n = some (y n) := by
        rw [contents_file, hg n, hs, hs]
        rw [if_neg (fun h => h.2 hy)]
      dsimp only
      cases openSession fl s'.file <;> exact this

theorem seq_inv {S : Type} (P : S → Prop) : ∀ (l : List (S → S × Except PyErr Unit)) (s : S), (∀ a ∈ l, ∀ s, P s → P (a s).1) → P s → P (seqSteps l s).1
  | [], s, _, h => h
  | a :: l, s, hl, h => by
    unfold seqSteps
    have h1 := hl a (List.mem_cons_self ..) s h
    rcases ha : a s with ⟨s', e | u⟩
    · rw [ha] at h1; exact h1
    · rw [ha] at h1
      exact seq_inv P l s' (fun b hb => hl b (List.mem_cons_of_mem _ hb)) h1

theorem host_inv {fl : ℚ → ℚ} (P : H5File → Prop) (hP : ∀ f args (use : Session → Session), (∀ s n, (use s).get n = s.get n) → P f → P (modifyFile fl f args use).1)
    (f : H5File) (h : P f) : P (hostStep fl f).1 := by
  unfold hostStep
  split
  · exact hP f _ (fun s => s.storeHostname "SheepX") (fun _ _ => rfl) h
  · exact h

theorem window_inv {fl : ℚ → ℚ} (P : H5File → Prop) (hP : ∀ f args (use : Session → Session), (∀ s n, (use s).get n = s.get n) → P f → P (modifyFile fl f args use).1)
    (f : H5File) (h : P f) : P (windowStep fl f).1 := by
  unfold windowStep
  split
  · split
    · exact h
    · refine seq_inv P _ f ?_ h
      intro a ha
      simp only [List.mem_cons, List.not_mem_nil, or_false] at ha
      rcases ha with rfl | rfl
      · exact fun f h => hP f _ _ (fun _ _ => rfl) h
      · exact fun f h => host_inv P hP f h
  · exact host_inv P hP f h

theorem type_inv {fl : ℚ → ℚ} (P : H5File → Prop) (hP : ∀ f args (use : Session → Session), (∀ s n, (use s).get n = s.get n) → P f → P (modifyFile fl f args use).1)
    (f : H5File) (h : P f) : P (typeStep fl f).1 := by
  unfold typeStep
  split
  · exact h
  · split
    · exact hP f _ _ (fun _ _ => rfl) h
    · exact h

/-- The steps after the sizes keep what every modification without a change of samples keeps. -/
theorem tail_inv {fl : ℚ → ℚ} (P : H5File → Prop) (hP : ∀ f args (use : Session → Session), (∀ s n, (use s).get n = s.get n) → P f → P (modifyFile fl f args use).1)
    (f : H5File) (h : P f) : P (seqSteps [alignStep fl, modeStep fl, typeStep fl, windowStep fl] f).1 := by
  refine seq_inv P _ f ?_ h
  intro a ha
  simp only [List.mem_cons, List.not_mem_nil, or_false] at ha
  rcases ha with rfl | rfl | rfl | rfl
  · intro f h
    unfold alignStep
    split
    · exact hP f _ _ (fun _ _ => rfl) h
    · exact h
  · intro f h
    unfold modeStep
    split
    · exact hP f _ _ (fun _ _ => rfl) h
    · exact h
  · exact type_inv P hP
  · exact window_inv P hP

/-- What is left of equally long datasets: a common beginning, all of it or whole buffers. -/
def Beginning (y : DsName → List ℤ) (m : ℕ) (f : H5File) : Prop := ∃ k, (k = m ∨ Kept m k) ∧ ∀ n, contents f n = some ((y n).take k)

theorem beginning_modify {fl : ℚ → ℚ} (hf : Rounding fl) {y : DsName → List ℤ} {m : ℕ} (hy : ∀ n, (y n).length = m) (hm : m < 10000 * 2^39)
    (f : H5File) (args : WriterArgs) (use : Session → Session) (hu : ∀ s n, (use s).get n = s.get n) (h : Beginning y m f) :
    Beginning y m (modifyFile fl f args use).1 := by
  obtain ⟨k, hk, hx⟩ := h
  have hkm : k ≤ m := by rcases hk with h | h; · exact h.le
                         · exact h.1
  rcases modify_contents hf hx (fun s hs n => by rw [hu, hs n]) (m := k) (fun n => by rw [List.length_take, hy]; omega) (by omega) (args := args) with ⟨h, -⟩ | ⟨k', hk', h⟩
  · exact ⟨k, hk, h⟩
  · refine ⟨k', ?_, fun n => ?_⟩
    · rcases hk' with rfl | hk'
      · exact hk
      · rcases hk with rfl | hk
        · exact .inr hk'
        · right
          obtain ⟨a, b, c⟩ := hk
          obtain ⟨a', b', c'⟩ := hk'
          exact ⟨by omega, b', by omega⟩
    · rw [h n, List.take_take]
      congr 2
      rcases hk' with h | h
      · omega
      · have := h.1; omega

/-- **C98, samples.**  Repairing a recording with as many voltages as currents and at least as many timestamps (as an append leaves it, that was finished, or interrupted after its
first step) never changes a sample: without exception all three datasets end equally long and hold what they held, all of it or whole buffers; with an exception they hold that or
everything. -/
theorem C98_samples (fl : ℚ → ℚ) (hf : Rounding fl) (f f' : H5File) (r : Except PyErr Unit) (x : DsName → List ℤ) (m : ℕ) (hx : ∀ n, contents f n = some (x n))
    (hv : (x .voltage).length = m) (hc : (x .current).length = m) (ht : m ≤ (x .time).length) (hm : m < 10000 * 2^39) (h : repairFile fl f = (f', r)) :
    (∃ k, (k = m ∨ Kept m k) ∧ ∀ n, contents f' n = some ((x n).take k)) ∨ ((∃ e, r = .error e) ∧ ∀ n, contents f' n = some (x n)) := by
  have hsz : ∀ n, f.size n = (x n).length := fun n => contents_size (hx n)
  unfold repairFile at h
  cases ho : openSession fl f with
  | error e =>
    rw [ho] at h
    cases h
    exact .inr ⟨⟨_, rfl⟩, hx⟩
  | ok s =>
    rw [ho] at h
    dsimp only at h
    have h1 : sizeStep fl (f.size .voltage) .current f = (f, .ok ()) := by
      unfold sizeStep
      rw [if_neg (by rw [hsz, hsz, hv, hc]; simp)]
    rw [seqSteps, h1] at h
    dsimp only at h
    rw [seqSteps] at h
    set y : DsName → List ℤ := fun n => (x n).take m with hydef
    have hy : ∀ n, (y n).length = m := by
      intro n
      rw [hydef]
      simp only [List.length_take]
      cases n <;> omega
    have hyk : ∀ n k, (k = m ∨ Kept m k) → (y n).take k = (x n).take k := by
      intro n k hk
      rw [hydef]
      simp only [List.take_take]
      congr 1
      rcases hk with h | h
      · omega
      · have := h.1; omega
    have fin : ∀ g, Beginning y m g → ∀ f' r, seqSteps [alignStep fl, modeStep fl, typeStep fl, windowStep fl] g = (f', r) →
        ∃ k, (k = m ∨ Kept m k) ∧ ∀ n, contents f' n = some ((x n).take k) := by
      intro g hg f' r h
      have := tail_inv (fl := fl) (Beginning y m) (fun f a u hu hb => beginning_modify hf hy hm f a u hu hb) g hg
      rw [h] at this
      obtain ⟨k, hk, hk2⟩ := this
      exact ⟨k, hk, fun n => by rw [hk2 n, hyk n k hk]⟩
    unfold sizeStep at h
    by_cases hne : f.size .voltage ≠ f.size .time
    · rw [if_pos hne] at h
      have hmin : min (f.size .voltage) (f.size .time) = m := by rw [hsz, hsz, hv]; omega
      rw [hmin] at h
      have key := modify_contents hf hx (m := m) (y := y) (args := {})
        (use := fun s => (s.prim (.resize .voltage m)).prim (.resize .time m)) (fun s hs n => by
          simp only [prim_get]
          rw [hydef]
          cases n
          · simp only [hs]
            simp [resizeList_le _ _ ht]
          · simp only [hs]
            simp [resizeList_le _ _ hv.ge]
          · simp only [hs]
            simp [List.take_of_length_le hc.le]) hy hm
      rcases hmf : modifyFile fl f {} (fun s => (s.prim (.resize .voltage m)).prim (.resize .time m)) with ⟨g, e | u⟩
      · rw [hmf] at h key
        cases h
        rcases key with ⟨hk, -⟩ | ⟨k, hk, hk2⟩
        · exact .inr ⟨⟨_, rfl⟩, hk⟩
        · exact .inl ⟨k, hk, fun n => by rw [hk2 n, hyk n k hk]⟩
      · rw [hmf] at h key
        rcases key with ⟨-, e, he⟩ | hk
        · cases he
        · exact .inl (fin g hk f' r h)
    · rw [if_neg hne] at h
      push Not at hne
      refine .inl (fin f ⟨m, .inl rfl, fun n => ?_⟩ f' r h)
      rw [hx n, hydef]
      simp only [List.take_take, min_self]
      rw [List.take_of_length_le]
      rw [hsz, hsz] at hne
      cases n <;> omega

/-- **C98 violated: an append interrupted after its second step.**  Timestamps and voltages have been made room for, currents not: such a recording, that ended with a buffer before, has
datasets of different lengths after the repair (and after any number of them). -/
theorem C98_interrupted_violated (fl : ℚ → ℚ) (hf : Rounding fl) (f : H5File) (x : DsName → List ℤ) (m n : ℕ) (hx : ∀ n, contents f n = some (x n)) (hn : 0 < n)
    (ht : (x .time).length = m + n) (hv : (x .voltage).length = m + n) (hc : (x .current).length = m) (ha : m % 10000 = 0) (hm : m < 10000 * 2^39) :
    (repairFile fl f).1.size .time = m + n ∧ (repairFile fl f).1.size .current = m := by
  have hsz : ∀ n, f.size n = (x n).length := fun n => contents_size (hx n)
  suffices h : ∃ y : DsName → List ℤ, (y .time).length = m + n ∧ (y .current).length = m ∧ ∀ n, contents (repairFile fl f).1 n = some (y n) by
    obtain ⟨y, h1, h2, h3⟩ := h
    exact ⟨by rw [contents_size (h3 .time), h1], by rw [contents_size (h3 .current), h2]⟩
  unfold repairFile
  cases ho : openSession fl f with
  | error e => exact ⟨x, ht, hc, hx⟩
  | ok s =>
    dsimp only
    rw [seqSteps]
    set y : DsName → List ℤ := fun k => if k = .voltage then (x .voltage).take m else x k with hydef
    have hyv : (y .voltage).length = m := by rw [hydef]; simp [hv]
    have key := modify_aligned hf hx (y := y) (args := {})
      (use := fun s => (s.prim (.resize .voltage m)).prim (.resize .current m)) (fun s hs k => by
        simp only [prim_get]
        rw [hydef]
        cases k
        · simp [hs]
        · simp only [hs]
          simp [resizeList_le _ _ (show m ≤ (x .voltage).length by omega)]
        · simp only [hs]
          simp [resizeList_le _ _ hc.ge, List.take_of_length_le hc.le]) (by rw [hyv]; exact ha) (by rw [hyv]; exact hm)
    have hst : sizeStep fl (f.size .voltage) .current f = modifyFile fl f {} (fun s => (s.prim (.resize .voltage m)).prim (.resize .current m)) := by
      unfold sizeStep
      rw [if_pos (by rw [hsz, hsz]; omega)]
      have : min (f.size .voltage) (f.size .current) = m := by rw [hsz, hsz]; omega
      rw [this]
    rw [hst]
    have hyt : (y .time).length = m + n := by rw [hydef]; simp [ht]
    have hyc : (y .current).length = m := by rw [hydef]; simp [hc]
    rcases hmf : modifyFile fl f {} (fun s => (s.prim (.resize .voltage m)).prim (.resize .current m)) with ⟨g, e | u⟩
    · rw [hmf] at key
      rcases key with ⟨h, -⟩ | h
      · exact ⟨x, ht, hc, h⟩
      · exact ⟨y, hyt, hyc, h⟩
    · rw [hmf] at key
      rcases key with ⟨-, e, he⟩ | h
      · cases he
      · refine ⟨y, hyt, hyc, ?_⟩
        dsimp only
        have h2 : sizeStep fl (f.size .voltage) .time g = (g, .ok ()) := by
          unfold sizeStep
          rw [if_neg (by rw [hsz, contents_size (h .time), hyt, hv]; simp)]
        rw [seqSteps, h2]
        dsimp only
        refine tail_inv (fl := fl) (fun g => ∀ n, contents g n = some (y n)) (fun f a u hu hb => ?_) g h
        rcases modify_aligned hf hb (y := y) (args := a) (use := u) (fun s hs n => by rw [hu, hs n]) (by rw [hyv]; exact ha) (by rw [hyv]; exact hm) with ⟨h, -⟩ | h
        · exact h
        · exact h

/-! ## The metadata -/

theorem close_meta {fl : ℚ → ℚ} {s : Session} {f : H5File} (h : s.close fl = .ok f) : ∃ s', SameMeta s' s ∧ f = s'.file := by
  unfold Session.close at h
  cases ha : s.align fl with
  | error e => rw [ha] at h; cases h
  | ok t =>
    rw [ha] at h
    dsimp only at h
    cases hr : t.refresh fl with
    | error e => rw [hr] at h; cases h
    | ok u =>
      rw [hr] at h
      cases h
      obtain ⟨st2, -, rfl⟩ := refresh_ok hr
      refine ⟨{ t with stats := st2 }, ?_, rfl⟩
      unfold Session.align at ha
      cases hr2 : s.refresh fl with
      | error e => rw [hr2] at ha; cases ha
      | ok v =>
        rw [hr2] at ha
        obtain ⟨st, -, rfl⟩ := refresh_ok hr2
        dsimp only at ha
        split at ha
        · split at ha
          · cases ha; exact ⟨rfl, rfl, rfl, rfl, fun _ => rfl⟩
          · have e := Except.ok.inj ha
            have : t.Same { s with stats := st } := by rw [← e]; exact foldl_prim_same _ _
            exact ⟨this.1, this.2.1, this.2.2.2.1, this.2.2.2.2.1, this.2.2.2.2.2⟩
        · cases ha; exact ⟨rfl, rfl, rfl, rfl, fun _ => rfl⟩

/-- A modification without exception: the metadata afterwards. -/
theorem modify_meta {fl : ℚ → ℚ} {f f' : H5File} {args : WriterArgs} {use : Session → Session} {h : Attrs → Attrs}
    (hu1 : ∀ s, (use s).attrs = h s.attrs) (hu2 : ∀ s, (use s).dattrs = s.dattrs) (hu3 : ∀ s n, ((use s).ds n).attrs = (s.ds n).attrs)
    (hm : modifyFile fl f args use = (f', .ok ())) :
    ∃ g g' dt l t, f.data = some g ∧ f'.data = some g' ∧ parseDatatype args.datatype = .ok dt ∧ f'.attrs = h (putMode f.attrs args.mode) ∧
      g'.attrs = putWindow (putDatatype g.attrs dt) args.window ∧ modeDtypes (getMode (putMode f.attrs args.mode)) = some l ∧
      getDatatype g'.attrs = some t ∧ t ∈ l ∧ (∀ n, ∃ d d', g.dset n = some d ∧ g'.dset n = some d' ∧
        d'.attrs = putPair d.attrs (args.cal.map (·.get n)) ((CalSeries.default fl).get n)) ∧ ∃ s, openSession fl f' = .ok s := by
  unfold modifyFile at hm
  rcases ho : writerOpen fl (some f) args with ⟨f1, _ | s⟩
  · rw [ho] at hm; simp at hm
  rw [ho] at hm
  dsimp only at hm
  cases hcl : (use s).close fl with
  | error e => rw [hcl] at hm; simp at hm
  | ok f2 =>
    rw [hcl] at hm
    dsimp only at hm
    cases hos : openSession fl f2 with
    | error e => rw [hos] at hm; simp at hm
    | ok s2 =>
      rw [hos] at hm
      simp only [Prod.mk.injEq, and_true] at hm
      subst hm
      obtain ⟨g, dt, l, t, hg, hp, h1, h2, hl, ht, htm, -, hd, -, -⟩ := open_session_facts ho
      simp only [Option.getD_some] at hg h1
      obtain ⟨s', ⟨e1, e2, -, -, e5⟩, rfl⟩ := close_meta hcl
      refine ⟨g, { attrs := s'.dattrs, dset := fun n => some (s'.ds n) }, dt, l, t, hg, rfl, hp, ?_, ?_, by rw [← h1]; exact hl, ?_, htm, fun n => ?_, ⟨s2, hos⟩⟩
      · show s'.attrs = _
        rw [e1, hu1, h1]
      · show s'.dattrs = _
        rw [e2, hu2, h2]
      · show getDatatype s'.dattrs = _
        rw [e2, hu2]; exact ht
      · obtain ⟨d, hd1, hd2⟩ := hd n
        refine ⟨d, s'.ds n, hd1, rfl, ?_⟩
        rw [e5 n, hu3, hd2]

/-- The modes a recording may have. -/
def KnownMode (m : String) : Prop := m = "harvester" ∨ m = "emulator"

instance (m : String) : Decidable (KnownMode m) := by unfold KnownMode; infer_instance

/-- The mode a repaired recording has: the stored one if it is known, else a guess from its name. -/
def modeGuess (m : String) : String :=
  if KnownMode m then m else if ¬ "har".toList <:+: m.toList ∧ "emu".toList <:+: m.toList then "emulator" else "harvester"

/-- A data type that fits a (known) mode: an emulator records samples. -/
def FitsMode (m : String) (t : EnergyDType) : Prop := m = "harvester" ∨ t = .ivsample

instance (m : String) (t : EnergyDType) : Decidable (FitsMode m t) := by unfold FitsMode; infer_instance

/-- The data type a repaired recording has: the stored one if it fits, else samples. -/
def typeGuess (m : String) (t : Option EnergyDType) : EnergyDType :=
  match t with
  | some t => if FitsMode m t then t else .ivsample
  | none => .ivsample

theorem known_iff (m : String) : (modeDtypes m).isSome ↔ KnownMode m := by
  unfold modeDtypes KnownMode
  split_ifs with h1 h2 <;> simp [*]

theorem fits_iff {m : String} {l : List EnergyDType} (h : modeDtypes m = some l) (t : EnergyDType) : t ∈ l ↔ FitsMode m t := by
  unfold modeDtypes at h
  unfold FitsMode
  split_ifs at h with h1 h2
  · cases h; cases t <;> simp [h1]
  · cases h; cases t <;> simp [h1]

theorem repairMode_known (m : String) : KnownMode (repairMode m) := by
  unfold repairMode KnownMode
  split_ifs <;> simp

theorem repairMode_guess {m : String} (h : ¬ KnownMode m) : repairMode m = modeGuess m := by
  unfold repairMode modeGuess inText
  rw [if_neg h]
  by_cases h1 : "har".toList <:+: m.toList
  · rw [if_pos (decide_eq_true h1), if_neg (fun h => h.1 h1)]
  · rw [if_neg (by simpa using h1)]
    by_cases h2 : "emu".toList <:+: m.toList
    · rw [if_pos (decide_eq_true h2), if_pos ⟨h1, h2⟩]
    · rw [if_neg (by simpa using h2), if_neg (fun h => h2 h.2)]

theorem guess_known {m : String} (h : KnownMode m) : modeGuess m = m := by unfold modeGuess; rw [if_pos h]

/-- What every step without exception keeps. -/
structure Keeps (f f' : H5File) : Prop where
  mode : modeGuess (getMode f'.attrs) = modeGuess (getMode f.attrs)
  type : typeGuess (modeGuess (getMode f'.attrs)) (getDatatype f'.dattrs) = typeGuess (modeGuess (getMode f.attrs)) (getDatatype f.dattrs)
  root : ∀ k, k ≠ "mode" → k ≠ "hostname" → f'.attrs k = f.attrs k
  host : f.attrs "hostname" ≠ none → f'.attrs "hostname" = f.attrs "hostname"
  data : ∀ k, k ≠ "datatype" → k ≠ "window_samples" → f'.dattrs k = f.dattrs k
  window : f.dattrs "window_samples" ≠ none → f'.dattrs "window_samples" = f.dattrs "window_samples"
  cal : ∀ g n d, f.data = some g → g.dset n = some d → ∃ g' d', f'.data = some g' ∧ g'.dset n = some d' ∧
    ∀ k, (k ≠ "gain" ∧ k ≠ "offset") ∨ d.attrs k ≠ none → d'.attrs k = d.attrs k

theorem Keeps.refl (f : H5File) : Keeps f f := ⟨rfl, rfl, fun _ _ _ => rfl, fun _ => rfl, fun _ _ _ => rfl, fun _ => rfl, fun g _ d hg hd => ⟨g, d, hg, hd, fun _ _ => rfl⟩⟩

theorem Keeps.trans {f g h : H5File} (a : Keeps f g) (b : Keeps g h) : Keeps f h where
  mode := b.mode.trans a.mode
  type := b.type.trans a.type
  root k h1 h2 := (b.root k h1 h2).trans (a.root k h1 h2)
  host h1 := (b.host (by rw [a.host h1]; exact h1)).trans (a.host h1)
  data k h1 h2 := (b.data k h1 h2).trans (a.data k h1 h2)
  window h1 := (b.window (by rw [a.window h1]; exact h1)).trans (a.window h1)
  cal x n d hx hd := by
    obtain ⟨g1, d1, e1, e2, e3⟩ := a.cal x n d hx hd
    obtain ⟨g2, d2, e4, e5, e6⟩ := b.cal g1 n d1 e1 e2
    refine ⟨g2, d2, e4, e5, fun k hk => ?_⟩
    rw [e6 k (by rcases hk with h | h; · exact .inl h
                 · exact .inr (by rw [e3 k (.inr h)]; exact h)), e3 k hk]

theorem putPair_keeps (a : Attrs) (d : CalPair) (k : String) (h : (k ≠ "gain" ∧ k ≠ "offset") ∨ a k ≠ none) : putPair a none d k = a k := by
  unfold putPair
  dsimp only
  have hd : ∀ (a : Attrs) (k' : String) v, (k ≠ k' ∨ a k ≠ none) → a.setDefault k' v k = a k := by
    intro a k' v h
    by_cases e : k = k'
    · subst e
      have : a k ≠ none := by rcases h with h | h; · exact absurd rfl h
                              · exact h
      rw [setDefault_eq _ _ _ (Option.isSome_iff_ne_none.mpr this)]
    · exact setDefault_other _ _ e
  rw [hd, hd]
  · rcases h with h | h
    · exact .inl h.1
    · exact .inr h
  · rcases h with h | h
    · exact .inl h.2
    · right
      rw [hd _ _ _ (.inr h)]; exact h

theorem getMode_put_some (a : Attrs) (m : String) : getMode (putMode a (some m)) = m := by
  have : putMode a (some m) "mode" = some (.str m) := by unfold putMode; exact setDefault_some _ _ _ _ (set_same _ _ _)
  simp [getMode, this]

theorem getMode_put_none (a : Attrs) : (a "mode" = none ∧ getMode (putMode a none) = "harvester" ∧ getMode a = "") ∨ (a "mode" ≠ none ∧ putMode a none = a) := by
  by_cases h : a "mode" = none
  · left
    have : putMode a none "mode" = some (.str "harvester") := by unfold putMode; exact setDefault_none _ _ _ h
    exact ⟨h, by simp [getMode, this], by simp [getMode, h]⟩
  · right
    refine ⟨h, ?_⟩
    unfold putMode
    exact setDefault_eq _ _ _ (Option.isSome_iff_ne_none.mpr h)

theorem modeGuess_empty : modeGuess "" = "harvester" := by decide

theorem getDatatype_put_none (a : Attrs) : (a "datatype" = none ∧ getDatatype (putDatatype a none) = some .ivsample ∧ getDatatype a = none) ∨
    (a "datatype" ≠ none ∧ putDatatype a none = a) := by
  by_cases h : a "datatype" = none
  · left
    have : putDatatype a none "datatype" = some (.str "ivsample") := by unfold putDatatype; exact setDefault_none _ _ _ h
    exact ⟨h, by simp [getDatatype, this]; decide, by simp [getDatatype, h]⟩
  · right
    refine ⟨h, ?_⟩
    unfold putDatatype
    exact setDefault_eq _ _ _ (Option.isSome_iff_ne_none.mpr h)

theorem getDatatype_window (a : Attrs) (w : Option ℤ) : getDatatype (putWindow a w) = getDatatype a := by
  unfold getDatatype; rw [putWindow_other _ _ (by decide)]

/-- A file with a known mode and a data type that fits. -/
def Labelled (f : H5File) : Prop := KnownMode (getMode f.attrs) ∧ ∃ t, getDatatype f.dattrs = some t ∧ FitsMode (getMode f.attrs) t

theorem typeGuess_fits {m : String} {t : EnergyDType} (h : FitsMode m t) : typeGuess m (some t) = t := by unfold typeGuess; simp [h]

/-- All datasets have a calibration. -/
def Calibrated (f : H5File) : Prop := ∃ g, f.data = some g ∧ ∀ n, ∃ d, g.dset n = some d ∧ d.attrs "gain" ≠ none ∧ d.attrs "offset" ≠ none

/-- A modification without exception, as the script uses it. -/
theorem modify_keeps {fl : ℚ → ℚ} {f f' : H5File} {args : WriterArgs} {use : Session → Session} {h : Attrs → Attrs}
    (hu1 : ∀ s, (use s).attrs = h s.attrs) (hu2 : ∀ s, (use s).dattrs = s.dattrs) (hu3 : ∀ s n, ((use s).ds n).attrs = (s.ds n).attrs)
    (hh : ∀ a k, k ≠ "hostname" → h a k = a k) (hh2 : f.attrs "hostname" ≠ none → ∀ a, h a = a) (hcal : args.cal = none)
    (hmode : args.mode = none ∨ (¬ KnownMode (getMode f.attrs) ∧ args.mode = some (repairMode (getMode f.attrs))))
    (htype : args.datatype = none ∨ (KnownMode (getMode f.attrs) ∧ (∀ t, getDatatype f.dattrs = some t → ¬ FitsMode (getMode f.attrs) t) ∧
      args.datatype = some (repairType (getDatatype f.dattrs)).name))
    (hwin : args.window = none ∨ f.dattrs "window_samples" = none)
    (hm : modifyFile fl f args use = (f', .ok ())) : Keeps f f' ∧ Labelled f' ∧ Calibrated f' ∧ f'.dattrs "window_samples" ≠ none ∧ ∃ s, openSession fl f' = .ok s := by
  obtain ⟨g, g', dt, l, t, hg, hg', hp, ha, hda, hl, ht, htl, hds, hos⟩ := modify_meta hu1 hu2 hu3 hm
  have hdf : f.dattrs = g.attrs := by simp [H5File.dattrs, hg]
  have hdf' : f'.dattrs = g'.attrs := by simp [H5File.dattrs, hg']
  have hgm : ∀ a, getMode (h a) = getMode a := fun a => by unfold getMode; rw [hh a "mode" (by decide)]
  have hmode' : getMode f'.attrs = getMode (putMode f.attrs args.mode) := by rw [ha, hgm]
  have hfit : FitsMode (getMode f'.attrs) t := by rw [hmode']; exact (fits_iff hl t).mp htl
  have hknown : KnownMode (getMode f'.attrs) := by rw [hmode']; exact (known_iff _).mp (by rw [hl]; rfl)
  have hmg : getMode f'.attrs = modeGuess (getMode f.attrs) := by
    rw [hmode']
    rcases hmode with h0 | ⟨h0, h1⟩
    · rw [h0] at hl ⊢
      rcases getMode_put_none f.attrs with ⟨e1, e2, e3⟩ | ⟨e1, e2⟩
      · rw [e2, e3, modeGuess_empty]
      · rw [e2] at hl ⊢
        exact (guess_known ((known_iff _).mp (by rw [hl]; rfl))).symm
    · rw [h1, getMode_put_some, repairMode_guess h0]
  have htg : getDatatype g.attrs = some t ∨ (t = .ivsample ∧ ∀ t, getDatatype g.attrs = some t → ¬ FitsMode (modeGuess (getMode f.attrs)) t) := by
    rw [hda, getDatatype_window] at ht
    rcases htype with h0 | ⟨h0, h1, h2⟩
    · rw [h0] at hp
      cases hp
      rcases getDatatype_put_none g.attrs with ⟨e1, e2, e3⟩ | ⟨e1, e2⟩
      · right
        rw [e2] at ht
        cases ht
        exact ⟨rfl, fun t h => by rw [e3] at h; cases h⟩
      · left
        rw [e2] at ht
        exact ht
    · right
      rw [h2] at hp
      simp only [parseDatatype, dtypeOfName_name, Except.ok.injEq] at hp
      subst hp
      rw [getDatatype_put] at ht
      cases ht
      rw [hdf] at h1
      rw [guess_known h0]
      refine ⟨?_, h1⟩
      unfold repairType at hfit ⊢
      rw [hdf] at hfit ⊢
      by_cases hc : getDatatype g.attrs = some .ivcurve
      · rw [if_pos hc, hmg, guess_known h0] at hfit
        exact absurd hfit (h1 _ hc)
      · rw [if_neg hc]
  have hcalib : ∀ n, ∃ d d', g.dset n = some d ∧ g'.dset n = some d' ∧ d'.attrs = putPair d.attrs none ((CalSeries.default fl).get n) := by
    intro n
    obtain ⟨d, d', h1, h2, h3⟩ := hds n
    rw [hcal] at h3
    exact ⟨d, d', h1, h2, h3⟩
  refine ⟨⟨?_, ?_, ?_, ?_, ?_, ?_, ?_⟩, ⟨hknown, t, by rw [hdf']; exact ht, hfit⟩, ⟨g', hg', fun n => ?_⟩, ?_, hos⟩
  · rw [guess_known hknown, hmg]
  · rw [guess_known hknown, hdf', ht, typeGuess_fits hfit, hdf]
    rcases htg with h0 | ⟨rfl, h1⟩
    · rw [h0, ← hmg, typeGuess_fits hfit]
    · cases hx : getDatatype g.attrs with
      | none => rfl
      | some x => simp [typeGuess, h1 x hx]
  · intro k h1 h2
    rw [ha, hh _ k h2, putMode_other _ _ h1]
  · intro h1
    rw [ha, hh2 h1, putMode_other _ _ (by decide)]
  · intro k h1 h2
    rw [hdf', hda, hdf, putWindow_other _ _ h2, putDatatype_other _ _ h1]
  · intro h1
    have hw : args.window = none := by rcases hwin with h | h; · exact h
                                       · exact absurd h h1
    rw [hdf', hda, hdf, hw]
    show (putDatatype g.attrs dt).setDefault "window_samples" _ _ = _
    have e := putDatatype_other g.attrs dt (k := "window_samples") (by decide)
    rw [hdf] at h1
    rw [setDefault_eq _ _ _ (by rw [e]; exact Option.isSome_iff_ne_none.mpr h1), e]
  · intro x n d hx hd
    rw [hg] at hx
    cases hx
    obtain ⟨d1, d', h1, h2, h3⟩ := hcalib n
    rw [hd] at h1
    cases h1
    refine ⟨g', d', hg', h2, fun k hk => ?_⟩
    rw [h3]
    exact putPair_keeps _ _ _ hk
  · obtain ⟨d, d', h1, h2, h3⟩ := hcalib n
    have := putPair_isSome d.attrs none ((CalSeries.default fl).get n)
    refine ⟨d', h2, ?_, ?_⟩
    · rw [h3]; exact Option.isSome_iff_ne_none.mp this.1
    · rw [h3]; exact Option.isSome_iff_ne_none.mp this.2
  · rw [hdf', hda]
    exact Option.isSome_iff_ne_none.mp (putWindow_isSome _ _)

/-- Known labels, a calibration and a window. -/
def Touched (f : H5File) : Prop := Labelled f ∧ Calibrated f ∧ f.dattrs "window_samples" ≠ none

theorem seq_ok {S : Type} {a : S → S × Except PyErr Unit} {l : List (S → S × Except PyErr Unit)} {s s' : S} (h : seqSteps (a :: l) s = (s', .ok ())) :
    ∃ t, a s = (t, .ok ()) ∧ seqSteps l t = (s', .ok ()) := by
  rw [seqSteps] at h
  rcases ha : a s with ⟨t, e | u⟩
  · rw [ha] at h; simp at h
  · rw [ha] at h; exact ⟨t, rfl, h⟩

/-- What is known of a step without exception. -/
def StepOk (f f' : H5File) : Prop := Keeps f f' ∧ (f' = f ∨ Touched f')

theorem StepOk.refl (f : H5File) : StepOk f f := ⟨Keeps.refl f, .inl rfl⟩

theorem StepOk.trans {f g h : H5File} (a : StepOk f g) (b : StepOk g h) : StepOk f h := by
  refine ⟨a.1.trans b.1, ?_⟩
  rcases b.2 with rfl | hb
  · exact a.2
  · exact .inr hb

theorem modify_step {fl : ℚ → ℚ} {f f' : H5File} {args : WriterArgs} {use : Session → Session}
    (hu1 : ∀ s, (use s).attrs = s.attrs) (hu2 : ∀ s, (use s).dattrs = s.dattrs) (hu3 : ∀ s n, ((use s).ds n).attrs = (s.ds n).attrs) (hcal : args.cal = none)
    (hmode : args.mode = none ∨ (¬ KnownMode (getMode f.attrs) ∧ args.mode = some (repairMode (getMode f.attrs))))
    (htype : args.datatype = none ∨ (KnownMode (getMode f.attrs) ∧ (∀ t, getDatatype f.dattrs = some t → ¬ FitsMode (getMode f.attrs) t) ∧
      args.datatype = some (repairType (getDatatype f.dattrs)).name))
    (hwin : args.window = none ∨ f.dattrs "window_samples" = none)
    (hm : modifyFile fl f args use = (f', .ok ())) : StepOk f f' ∧ Touched f' := by
  obtain ⟨h1, h2, h3, h4, -⟩ := modify_keeps (h := id) hu1 hu2 hu3 (fun _ _ _ => rfl) (fun _ _ => rfl) hcal hmode htype hwin hm
  exact ⟨⟨h1, .inr ⟨h2, h3, h4⟩⟩, h2, h3, h4⟩

theorem size_ok {fl : ℚ → ℚ} {v : ℕ} {n : DsName} {f f' : H5File} (h : sizeStep fl v n f = (f', .ok ())) : StepOk f f' := by
  unfold sizeStep at h
  split at h
  · refine (modify_step ?_ ?_ ?_ rfl (.inl rfl) (.inl rfl) (.inl rfl) h).1
    · intro s; simp
    · intro s; simp
    · intro s m; simp
  · cases h; exact StepOk.refl f

theorem align_step_ok {fl : ℚ → ℚ} {f f' : H5File} (h : alignStep fl f = (f', .ok ())) : StepOk f f' := by
  unfold alignStep at h
  split at h
  · exact (modify_step (fun _ => rfl) (fun _ => rfl) (fun _ _ => rfl) rfl (.inl rfl) (.inl rfl) (.inl rfl) h).1
  · cases h; exact StepOk.refl f

theorem mode_ok {fl : ℚ → ℚ} {f f' : H5File} (h : modeStep fl f = (f', .ok ())) : StepOk f f' ∧ KnownMode (getMode f'.attrs) := by
  unfold modeStep at h
  split at h
  · rename_i hn
    have hk : ¬ KnownMode (getMode f.attrs) := by
      rw [← known_iff]
      intro h
      rw [Option.isNone_iff_eq_none] at hn
      rw [hn] at h
      cases h
    have := modify_step (fun _ => rfl) (fun _ => rfl) (fun _ _ => rfl) rfl (.inr ⟨hk, rfl⟩) (.inl rfl) (.inl rfl) h
    exact ⟨this.1, this.2.1.1⟩
  · rename_i hn
    cases h
    refine ⟨StepOk.refl f, (known_iff _).mp ?_⟩
    cases hx : modeDtypes (getMode f.attrs) with
    | none => rw [hx] at hn; exact absurd rfl hn
    | some l => rfl

theorem type_ok {fl : ℚ → ℚ} {f f' : H5File} (h : typeStep fl f = (f', .ok ())) : StepOk f f' ∧ Labelled f' := by
  unfold typeStep at h
  cases hl : modeDtypes (getMode f.attrs) with
  | none => rw [hl] at h; simp at h
  | some l =>
    rw [hl] at h
    dsimp only at h
    have hk : KnownMode (getMode f.attrs) := (known_iff _).mp (by rw [hl]; rfl)
    by_cases hd : dtypeStoredOk l (getDatatype f.dattrs) = true
    · rw [hd] at h
      simp only [Bool.not_true, Bool.false_eq_true, if_false] at h
      cases h
      refine ⟨StepOk.refl f, hk, ?_⟩
      cases ht : getDatatype f.dattrs with
      | none => rw [ht] at hd; cases hd
      | some t =>
        rw [ht] at hd
        exact ⟨t, rfl, (fits_iff hl t).mp (by simpa [dtypeStoredOk] using hd)⟩
    · rw [Bool.not_eq_true] at hd
      rw [hd] at h
      simp only [Bool.not_false, if_true] at h
      have := modify_step (fun _ => rfl) (fun _ => rfl) (fun _ _ => rfl) rfl (.inl rfl) (.inr ⟨hk, ?_, rfl⟩) (.inl rfl) h
      · exact ⟨this.1, this.2.1⟩
      · intro t ht hfit
        rw [ht] at hd
        have := (fits_iff hl t).mpr hfit
        simp [dtypeStoredOk, this] at hd

theorem host_ok {fl : ℚ → ℚ} {f f' : H5File} (h : hostStep fl f = (f', .ok ())) : StepOk f f' ∧ f'.attrs "hostname" ≠ none := by
  unfold hostStep at h
  split at h
  · rename_i hn
    rw [Option.isNone_iff_eq_none] at hn
    have hu : ∀ s : Session, (s.storeHostname "SheepX").attrs = s.attrs.set "hostname" (.str "SheepX") := fun _ => rfl
    obtain ⟨h1, h2, h3, h4, -⟩ := modify_keeps (h := fun a => a.set "hostname" (.str "SheepX")) hu (fun _ => rfl) (fun _ _ => rfl) (fun a k hk => set_other a _ hk)
      (fun h => absurd hn h) rfl (.inl rfl) (.inl rfl) (.inl rfl) h
    obtain ⟨_, _, _, _, _, -, -, -, ha, -⟩ := modify_meta (h := fun a => a.set "hostname" (.str "SheepX")) hu (fun _ => rfl) (fun _ _ => rfl) h
    exact ⟨⟨h1, .inr ⟨h2, h3, h4⟩⟩, by rw [ha, set_same]; simp⟩
  · rename_i hn
    cases h
    exact ⟨StepOk.refl f, by rw [Option.isNone_iff_eq_none] at hn; exact hn⟩

theorem window_ok {fl : ℚ → ℚ} {f f' : H5File} (h : windowStep fl f = (f', .ok ())) :
    StepOk f f' ∧ ((f' = f ∧ f.dattrs "window_samples" = none ∧ getDatatype f.dattrs = some .ivcurve) ∨
      (f'.dattrs "window_samples" ≠ none ∧ f'.attrs "hostname" ≠ none)) := by
  unfold windowStep at h
  split at h
  · rename_i hn
    rw [Option.isNone_iff_eq_none] at hn
    split at h
    · rename_i ht
      cases h
      exact ⟨StepOk.refl f, .inl ⟨rfl, hn, ht⟩⟩
    · obtain ⟨t, h1, h2⟩ := seq_ok h
      obtain ⟨t2, h3, h4⟩ := seq_ok h2
      cases h4
      have a := modify_step (fun _ => rfl) (fun _ => rfl) (fun _ _ => rfl) rfl (.inl rfl) (.inl rfl) (.inr hn) h1
      obtain ⟨b1, b2⟩ := host_ok h3
      refine ⟨a.1.trans b1, .inr ⟨?_, b2⟩⟩
      rw [b1.1.window a.2.2.2]
      exact a.2.2.2
  · rename_i hn
    rw [Option.isNone_iff_eq_none] at hn
    obtain ⟨b1, b2⟩ := host_ok h
    exact ⟨b1, .inr ⟨by rw [b1.1.window hn]; exact hn, b2⟩⟩

theorem labelled_step {f f' : H5File} (h : StepOk f f') (hl : Labelled f) : Labelled f' := by
  rcases h.2 with rfl | h
  · exact hl
  · exact h.1

/-- A repair without exception, step by step. -/
theorem repair_ok {fl : ℚ → ℚ} {f f' : H5File} (h : repairFile fl f = (f', .ok ())) :
    StepOk f f' ∧ Labelled f' ∧ ((f'.dattrs "window_samples" = none ∧ getDatatype f'.dattrs = some .ivcurve) ∨
      (f'.dattrs "window_samples" ≠ none ∧ f'.attrs "hostname" ≠ none)) := by
  unfold repairFile at h
  cases ho : openSession fl f with
  | error e => rw [ho] at h; simp at h
  | ok s =>
    rw [ho] at h
    dsimp only at h
    obtain ⟨f1, a1, h⟩ := seq_ok h
    obtain ⟨f2, a2, h⟩ := seq_ok h
    obtain ⟨f3, a3, h⟩ := seq_ok h
    obtain ⟨f4, a4, h⟩ := seq_ok h
    obtain ⟨f5, a5, h⟩ := seq_ok h
    obtain ⟨f6, a6, h⟩ := seq_ok h
    cases h
    have b5 := type_ok a5
    have b6 := window_ok a6
    refine ⟨(size_ok a1).trans ((size_ok a2).trans ((align_step_ok a3).trans ((mode_ok a4).1.trans (b5.1.trans b6.1)))), labelled_step b6.1 b5.2, ?_⟩
    rcases b6.2 with ⟨e1, e2, e3⟩ | h
    · left
      rw [e1]
      exact ⟨e2, e3⟩
    · exact .inr h

/-- **C98, labels.**  A repair without exception keeps the mode if it is a known one (otherwise guesses it from its name) and the data type if it fits the mode (otherwise declares
samples); a present window, a present name of the host, every present gain and offset and all other attributes stay as they are. -/
theorem C98_labels (fl : ℚ → ℚ) (f f' : H5File) (h : repairFile fl f = (f', .ok ())) :
    f'.attrs "mode" = some (.str (modeGuess (getMode f.attrs))) ∧ getDatatype f'.dattrs = some (typeGuess (modeGuess (getMode f.attrs)) (getDatatype f.dattrs)) ∧
    (∀ w, f.dattrs "window_samples" = some w → f'.dattrs "window_samples" = some w) ∧ (∀ w, f.attrs "hostname" = some w → f'.attrs "hostname" = some w) ∧
    (∀ k, k ≠ "mode" → k ≠ "hostname" → f'.attrs k = f.attrs k) ∧ (∀ k, k ≠ "datatype" → k ≠ "window_samples" → f'.dattrs k = f.dattrs k) ∧
    (∀ g n d, f.data = some g → g.dset n = some d → ∃ g' d', f'.data = some g' ∧ g'.dset n = some d' ∧
      (∀ k v, d.attrs k = some v → d'.attrs k = some v) ∧ ∀ k, k ≠ "gain" → k ≠ "offset" → d'.attrs k = d.attrs k) := by
  obtain ⟨⟨hk, -⟩, ⟨hm, t, ht, hft⟩, -⟩ := repair_ok h
  have e := hk.mode
  rw [guess_known hm] at e
  refine ⟨?_, ?_, ?_, ?_, hk.root, hk.data, ?_⟩
  · rw [← e]
    have : getMode f'.attrs ≠ "" := by rcases hm with h | h <;> rw [h] <;> decide
    unfold getMode at this ⊢
    cases hx : f'.attrs "mode" with
    | none => rw [hx] at this; exact absurd rfl this
    | some v =>
      rw [hx] at this
      cases v with
      | str s => rfl
      | num q => exact absurd rfl this
      | cfg c => exact absurd rfl this
  · have e2 := hk.type
    rw [guess_known hm, ht, typeGuess_fits hft] at e2
    rw [ht, e2]
  · intro w hw
    rw [hk.window (by rw [hw]; simp), hw]
  · intro w hw
    rw [hk.host (by rw [hw]; simp), hw]
  · intro g n d hg hd
    obtain ⟨g', d', h1, h2, h3⟩ := hk.cal g n d hg hd
    exact ⟨g', d', h1, h2, fun k v hv => by rw [h3 k (.inr (by rw [hv]; simp)), hv], fun k a b => h3 k (.inl ⟨a, b⟩)⟩

/-- **C98, validity (partial: not every repaired recording is valid).**  After a repair without exception a recording is valid exactly if its datasets have a calibration, and its
window is not below one for curves.  Everything else is repaired; a calibration is missing only if nothing at all was changed. -/
theorem C98_valid_partial (fl : ℚ → ℚ) (f f' : H5File) (h : repairFile fl f = (f', .ok ())) :
    (f'.isValid = true ↔ Calibrated f' ∧ (getDatatype f'.dattrs = some .ivcurve → ∃ q, f'.dattrs "window_samples" = some (.num q) ∧ 1 ≤ q)) ∧
    (¬ Calibrated f' → f' = f) ∧ (f'.dattrs "window_samples" = none → f' = f ∧ getDatatype f'.dattrs = some .ivcurve) ∧
    (f'.attrs "hostname" = none → f' = f) := by
  have hl := C98_labels fl f f' h
  obtain ⟨⟨hk, hc⟩, ⟨hm, t, ht, hft⟩, hw⟩ := repair_ok h
  refine ⟨?_, fun hn => ?_, fun hn => ?_, fun hn => ?_⟩
  · rw [C36_valid_meaning]
    constructor
    · rintro ⟨g, m, s, t', w, h1, h2, h3, h4, h5, h6, h7, h8⟩
      have hda : f'.dattrs = g.attrs := by simp [H5File.dattrs, h1]
      refine ⟨⟨g, h1, h7⟩, fun hcurve => ?_⟩
      rw [hda] at hcurve ⊢
      have : t' = .ivcurve := by
        have := (dtypeOfName_iff s t').mpr h5
        simp only [getDatatype, h3, this, Option.some.injEq] at hcurve
        exact hcurve
      obtain ⟨q, rfl, hq⟩ := h8 this
      exact ⟨q, h4, hq⟩
    · rintro ⟨⟨g, hg, hcal⟩, hcurve⟩
      have hda : f'.dattrs = g.attrs := by simp [H5File.dattrs, hg]
      obtain ⟨w, hw'⟩ : ∃ w, g.attrs "window_samples" = some w := by
        rw [← hda]
        rcases hw with ⟨-, h2⟩ | ⟨h1, -⟩
        · obtain ⟨q, hq, -⟩ := hcurve h2
          exact ⟨_, hq⟩
        · exact Option.ne_none_iff_exists'.mp h1
      obtain ⟨s, hs, hst⟩ : ∃ s, g.attrs "datatype" = some (.str s) ∧ dtypeOfName s = some t := by
        rw [hda] at ht
        unfold getDatatype at ht
        split at ht
        · rename_i s hs; exact ⟨s, hs, ht⟩
        · cases ht
      have hmg : getMode f'.attrs = modeGuess (getMode f.attrs) := by simp [getMode, hl.1]
      refine ⟨g, _, s, t, w, hg, hl.1, hs, hw', (dtypeOfName_iff s t).mp hst, ?_, hcal, ?_⟩
      · rw [← hmg]
        rcases hm with h1 | h1
        · exact .inl h1
        · rcases hft with h2 | h2
          · exact .inl h2
          · exact .inr ⟨h1, h2⟩
      · rintro rfl
        obtain ⟨q, hq, h1⟩ := hcurve ht
        rw [hda, hw'] at hq
        cases hq
        exact ⟨q, rfl, h1⟩
  · rcases hc with h | h
    · exact h
    · exact absurd h.2.1 hn
  · rcases hc with h | h
    · refine ⟨h, ?_⟩
      rcases hw with ⟨-, h2⟩ | ⟨h1, -⟩
      · exact h2
      · exact absurd hn h1
    · exact absurd hn h.2.2
  · rcases hw with ⟨h1, -⟩ | ⟨-, h2⟩
    · rcases hc with h | h
      · exact h
      · exact absurd h1 h.2.2
    · exact absurd hn h2

/-! ## Exceptions -/

/-- Whether the statistics can be computed depends on the timestamps and their calibration only. -/
theorem refresh_any {fl : ℚ → ℚ} {c : CalSeries} {l : List ℤ} {st st' : Stats} (h : refreshStats fl c l st = .ok st') (st2 : Stats) :
    ∃ st3, refreshStats fl c l st2 = .ok st3 := by
  unfold refreshStats at h ⊢
  dsimp only at h ⊢
  generalize (if l.length > 0 then l.getD (l.length - 1) 0 - l.getD 0 0 else 0) = dur at h ⊢
  by_cases hc : l.length > 0 ∧ dur > 0
  · rw [if_pos hc] at h ⊢
    by_cases h0 : CalPair.rawToSi fl c.time dur = 0
    · rw [if_pos h0] at h; cases h
    · rw [if_neg h0]
      exact ⟨_, rfl⟩
  · rw [if_neg hc]
    exact ⟨_, rfl⟩

theorem pairOf_kept (a : Attrs) (d : CalPair) : pairOf (putPair a none d) d = pairOf a d := by
  have key : ∀ k v, (a k = none → putPair a none d k = some (.num v)) →
      (match putPair a none d k with | some (.num q) => q | _ => v) = (match a k with | some (.num q) => q | _ => v) := by
    intro k v h
    by_cases hk : a k = none
    · rw [h hk, hk]
    · rw [putPair_keeps a d k (.inr hk)]
  unfold pairOf
  have h1 : ("gain" : String) ≠ "offset" := by decide
  have e1 := key "gain" d.gain (fun h => by
    unfold putPair; dsimp only
    rw [setDefault_other _ _ h1, setDefault_none _ _ _ h])
  have e2 := key "offset" d.offset (fun h => by
    unfold putPair; dsimp only
    rw [setDefault_none]
    rw [setDefault_other _ _ h1.symm, h])
  rw [CalPair.mk.injEq]
  exact ⟨e1, e2⟩

/-- Files that differ in labels and missing calibrations only are opened alike. -/
theorem open_alike {fl : ℚ → ℚ} {f : H5File} {s : Session} (h : openSession fl f = .ok s) (f' : H5File) (g' : DataGroup) (hg' : f'.data = some g')
    (hd : ∀ n, ∃ d', g'.dset n = some d' ∧ d'.data = s.get n ∧ pairOf d'.attrs ((CalSeries.default fl).get n) = pairOf (s.ds n).attrs ((CalSeries.default fl).get n)) :
    ∃ s', openSession fl f' = .ok s' ∧ s'.attrs = f'.attrs ∧ s'.dattrs = g'.attrs ∧ s'.cal = s.cal ∧ (∀ n, some (s'.ds n) = g'.dset n) := by
  obtain ⟨-, hcal, hval, hst⟩ := openSession_ok h
  obtain ⟨t, ht, ht1, ht2⟩ := hd .time
  obtain ⟨v, hv, hv1, hv2⟩ := hd .voltage
  obtain ⟨c, hc, hc1, hc2⟩ := hd .current
  unfold openSession
  rw [hg']
  dsimp only
  rw [ht, hv, hc]
  dsimp only
  have ecal : CalSeries.mk (pairOf v.attrs (CalSeries.default fl).voltage) (pairOf c.attrs (CalSeries.default fl).current) (pairOf t.attrs (CalSeries.default fl).time) = s.cal := by
    rw [hcal]
    unfold calOf
    rw [CalSeries.mk.injEq]
    exact ⟨hv2, hc2, ht2⟩
  rw [if_pos (by have := hval; rw [← ecal] at this; exact this), ecal, ht1, hst]
  refine ⟨_, rfl, rfl, rfl, rfl, fun n => ?_⟩
  cases n
  · exact ht.symm
  · exact hv.symm
  · exact hc.symm

/-- A recording that can be opened, with equally long datasets that end with a buffer. -/
def Aligned (fl : ℚ → ℚ) (f : H5File) : Prop :=
  ∃ s m, openSession fl f = .ok s ∧ (∀ n, (s.get n).length = m) ∧ m % 10000 = 0 ∧ m < 10000 * 2^39

/-- Closing after the metadata were changed only. -/
theorem close_aligned {fl : ℚ → ℚ} (hf : Rounding fl) {s : Session} {st : Stats} (hst : refreshStats fl s.cal (s.get .time) st = .ok s.stats)
    (ha : (s.get .voltage).length % 10000 = 0) (hm : (s.get .voltage).length < 10000 * 2^39) : ∃ st, s.close fl = .ok { s with stats := st }.file := by
  obtain ⟨st1, h1⟩ := refresh_any hst s.stats
  have hr : s.refresh fl = .ok { s with stats := st1 } := by unfold Session.refresh; rw [h1]
  have hal : s.align fl = .ok { s with stats := st1 } := by
    unfold Session.align
    rw [hr]
    dsimp only
    rw [show (({ s with stats := st1 } : Session).get .voltage).length = (s.get .voltage).length from rfl, floor_buffers hf _ hm, pyInt_intCast, if_neg (by omega)]
  obtain ⟨st2, h2⟩ := refresh_any hst st1
  refine ⟨st2, ?_⟩
  unfold Session.close
  rw [hal]
  dsimp only
  unfold Session.refresh
  rw [show refreshStats fl ({ s with stats := st1 } : Session).cal (({ s with stats := st1 } : Session).get .time) ({ s with stats := st1 } : Session).stats = .ok st2 from h2]

/-- A modification of an aligned file runs through if the labels fit afterwards. -/
theorem modify_runs {fl : ℚ → ℚ} (hf : Rounding fl) {f : H5File} (hal : Aligned fl f) {args : WriterArgs} (h : Attrs → Attrs) {l : List EnergyDType} {t : EnergyDType}
    {dt : Option EnergyDType} (hmo : modeArgOk args.mode = true) (hl : modeDtypes (getMode (putMode f.attrs args.mode)) = some l) (hp : parseDatatype args.datatype = .ok dt)
    (hdt : ∀ x, dt = some x → x ∈ l ∧ x ≠ .ivcurve) (ht : getDatatype (putDatatype f.dattrs dt) = some t) (htl : t ∈ l) (hcal : args.cal = none) :
    ∃ f', modifyFile fl f args (fun s => { s with attrs := h s.attrs }) = (f', .ok ()) ∧ Aligned fl f' := by
  obtain ⟨s, m, hos, hlen, hm1, hm2⟩ := hal
  have hfile := (openSession_ok hos).1
  have hg : f.data = some { attrs := s.dattrs, dset := fun n => some (s.ds n) } := by rw [← hfile]; rfl
  have hda : f.dattrs = s.dattrs := by simp [H5File.dattrs, hg]
  rw [hda] at ht
  set g1 : DataGroup := putCal fl { attrs := putWindow (putDatatype s.dattrs dt) args.window, dset := fun n => some (s.ds n) } none with hg1
  set f1 : H5File := { attrs := putMode f.attrs args.mode, data := some g1, logLevels := f.logLevels } with hf1
  have hd : ∀ n, ∃ d', g1.dset n = some d' ∧ d'.data = s.get n ∧ pairOf d'.attrs ((CalSeries.default fl).get n) = pairOf (s.ds n).attrs ((CalSeries.default fl).get n) := by
    intro n
    refine ⟨_, rfl, rfl, pairOf_kept _ _⟩
  obtain ⟨s1, ho1, ha1, hda1, hc1, hds1⟩ := open_alike hos f1 g1 rfl hd
  have hw : writerOpen fl (some f) args = (f1, .ok s1) := by
    unfold writerOpen
    dsimp only [Option.getD_some]
    rw [hmo]
    simp only [Bool.not_true, Bool.false_eq_true, if_false]
    rw [hl]
    dsimp only
    unfold openDatatype
    rw [hp]
    dsimp only
    have h1 : dtypeArgOk l dt = true := by
      cases dt with
      | none => rfl
      | some x => simpa [dtypeArgOk] using (hdt x rfl).1
    rw [h1, hg]
    simp only [Bool.not_true, Bool.false_eq_true, if_false]
    rw [ht]
    have h2 : dtypeStoredOk l (some t) = true := by simpa [dtypeStoredOk] using htl
    rw [h2]
    simp only [Bool.not_true, Bool.false_eq_true, if_false]
    unfold openWindow
    dsimp only
    rw [if_neg (fun hh => (hdt _ hh.1).2 rfl), if_neg (by simp), hcal]
    exact Prod.ext rfl ho1
  have hget : ∀ n, s1.get n = s.get n := by
    intro n
    obtain ⟨d', e1, e2, -⟩ := hd n
    have := hds1 n
    rw [e1, Option.some.injEq] at this
    unfold Session.get
    rw [this, e2]
    rfl
  set s2 : Session := { s1 with attrs := h s1.attrs } with hs2
  have hst := (openSession_ok ho1).2.2.2
  obtain ⟨st, hcl⟩ := close_aligned hf (s := s2) (st := Stats.init fl) hst (by show (s1.get .voltage).length % 10000 = 0; rw [hget, hlen]; exact hm1)
    (by show (s1.get .voltage).length < _; rw [hget, hlen]; exact hm2)
  obtain ⟨s3, ho3, -, -, -, hds3⟩ := open_alike ho1 ({ s2 with stats := st } : Session).file { attrs := s1.dattrs, dset := fun n => some (s1.ds n) } rfl
    (fun n => ⟨_, rfl, rfl, rfl⟩)
  refine ⟨({ s2 with stats := st } : Session).file, ?_, s3, m, ho3, ?_, hm1, hm2⟩
  · unfold modifyFile
    rw [hw]
    dsimp only
    rw [hcl]
    dsimp only
    rw [ho3]
  · intro n
    have := hds3 n
    simp only [Option.some.injEq] at this
    unfold Session.get
    rw [this]
    exact (congrArg List.length (hget n)).trans (hlen n)

theorem known_stored {a : Attrs} (h : KnownMode (getMode a)) : putMode a none = a := by
  rcases getMode_put_none a with ⟨-, -, h2⟩ | ⟨-, h2⟩
  · rw [h2] at h; rcases h with h | h <;> exact absurd h (by decide)
  · exact h2

theorem stored_type {a : Attrs} {t : EnergyDType} (h : getDatatype a = some t) : putDatatype a none = a := by
  rcases getDatatype_put_none a with ⟨-, -, h2⟩ | ⟨-, h2⟩
  · rw [h2] at h; cases h
  · exact h2

theorem host_runs {fl : ℚ → ℚ} (hf : Rounding fl) {f : H5File} (hal : Aligned fl f) (hlab : Labelled f) : ∃ f', hostStep fl f = (f', .ok ()) := by
  obtain ⟨hk, t, ht, hft⟩ := hlab
  obtain ⟨l, hl⟩ := Option.isSome_iff_exists.mp ((known_iff _).mpr hk)
  unfold hostStep
  split
  · obtain ⟨f', h, -⟩ := modify_runs hf hal (args := {}) (fun a => a.set "hostname" (.str "SheepX")) (l := l) (t := t) (dt := none) rfl (by rw [known_stored hk]; exact hl) rfl
      (fun x hx => by cases hx) (by rw [stored_type ht]; exact ht) ((fits_iff hl t).mpr hft) rfl
    exact ⟨f', h⟩
  · exact ⟨f, rfl⟩

theorem window_runs {fl : ℚ → ℚ} (hf : Rounding fl) {f : H5File} (hal : Aligned fl f) (hlab : Labelled f) : ∃ f', windowStep fl f = (f', .ok ()) := by
  have hlab' := hlab
  obtain ⟨hk, t, ht, hft⟩ := hlab
  obtain ⟨l, hl⟩ := Option.isSome_iff_exists.mp ((known_iff _).mpr hk)
  unfold windowStep
  split
  · rename_i hn
    rw [Option.isNone_iff_eq_none] at hn
    split
    · exact ⟨f, rfl⟩
    · obtain ⟨f', h, h2⟩ := modify_runs hf hal (args := { window := some 0 }) (fun a => a) (l := l) (t := t) (dt := none) rfl (by rw [known_stored hk]; exact hl) rfl
        (fun x hx => by cases hx) (by rw [stored_type ht]; exact ht) ((fits_iff hl t).mpr hft) rfl
      have h' : modifyFile fl f { window := some 0 } id = (f', .ok ()) := h
      obtain ⟨f2, h3⟩ := host_runs hf h2 (modify_step (fun _ => rfl) (fun _ => rfl) (fun _ _ => rfl) rfl (.inl rfl) (.inl rfl) (.inr hn) h').2.1
      refine ⟨f2, ?_⟩
      rw [seqSteps, h']
      dsimp only
      rw [seqSteps, h3]
      rfl
  · exact host_runs hf hal hlab'

theorem type_stays {fl : ℚ → ℚ} {f : H5File} (hlab : Labelled f) : typeStep fl f = (f, .ok ()) := by
  obtain ⟨hk, t, ht, hft⟩ := hlab
  obtain ⟨l, hl⟩ := Option.isSome_iff_exists.mp ((known_iff _).mpr hk)
  unfold typeStep
  rw [hl, ht]
  have : dtypeStoredOk l (some t) = true := by simpa [dtypeStoredOk] using (fits_iff hl t).mpr hft
  simp [this]

theorem mode_stays {fl : ℚ → ℚ} {f : H5File} (hk : KnownMode (getMode f.attrs)) : modeStep fl f = (f, .ok ()) := by
  have := (known_iff _).mpr hk
  unfold modeStep
  rw [if_neg]
  rw [Option.isNone_iff_eq_none]
  exact Option.isSome_iff_ne_none.mp this

/-- The steps of an aligned file. -/
theorem repair_aligned {fl : ℚ → ℚ} {f : H5File} (hal : Aligned fl f) : repairFile fl f = seqSteps [modeStep fl, typeStep fl, windowStep fl] f := by
  obtain ⟨s, m, hos, hlen, hm1, hm2⟩ := hal
  have hsz : ∀ n, f.size n = m := fun n => by rw [contents_size (opened_contents hos n), hlen]
  have h1 : ∀ n, sizeStep fl (f.size .voltage) n f = (f, .ok ()) := fun n => by
    unfold sizeStep
    rw [if_neg (by rw [hsz, hsz]; simp)]
  have h2 : alignStep fl f = (f, .ok ()) := by
    unfold alignStep
    rw [if_neg (by rw [hsz]; simpa using hm1)]
  unfold repairFile
  rw [hos]
  dsimp only
  rw [seqSteps, h1]
  dsimp only
  rw [seqSteps, h1]
  dsimp only
  rw [seqSteps, h2]

/-- **C98, exceptions.**  The repair of a recording with equally long datasets that end with a buffer finishes exactly if an unknown mode comes with no data type at all or one that fits the
guessed mode, and an emulator recording does not hold curves. -/
theorem C98_finishes (fl : ℚ → ℚ) (hf : Rounding fl) (f : H5File) (hal : Aligned fl f) :
    (∃ f', repairFile fl f = (f', .ok ())) ↔
      (¬ KnownMode (getMode f.attrs) → f.dattrs "datatype" = none ∨ ∃ t, getDatatype f.dattrs = some t ∧ FitsMode (modeGuess (getMode f.attrs)) t) ∧
      ¬ (getMode f.attrs = "emulator" ∧ getDatatype f.dattrs = some .ivcurve) := by
  rw [repair_aligned hal]
  have hgd : ∃ g, f.data = some g ∧ f.dattrs = g.attrs := by
    obtain ⟨s, m, hos, -⟩ := hal
    have hfile := (openSession_ok hos).1
    rw [← hfile]
    exact ⟨_, rfl, rfl⟩
  obtain ⟨g, hg, hda⟩ := hgd
  by_cases hk : KnownMode (getMode f.attrs)
  · rw [seqSteps, mode_stays hk]
    dsimp only
    obtain ⟨l, hl⟩ := Option.isSome_iff_exists.mp ((known_iff _).mpr hk)
    by_cases hlab : Labelled f
    · refine iff_of_true ?_ ⟨fun h => absurd hk h, ?_⟩
      · rw [seqSteps, type_stays hlab]
        obtain ⟨f', h⟩ := window_runs hf hal hlab
        refine ⟨f', ?_⟩
        dsimp only
        rw [seqSteps, h]
        rfl
      · rintro ⟨h1, h2⟩
        obtain ⟨-, t, ht, hft⟩ := hlab
        rw [h2] at ht
        cases ht
        rcases hft with h | h
        · rw [h1] at h; exact absurd h (by decide)
        · cases h
    · have hnf : ∀ t, getDatatype f.dattrs = some t → ¬ FitsMode (getMode f.attrs) t := fun t ht hft => hlab ⟨hk, t, ht, hft⟩
      have hst : dtypeStoredOk l (getDatatype f.dattrs) = false := by
        cases hx : getDatatype f.dattrs with
        | none => rfl
        | some t =>
          have := hnf t hx
          rw [← fits_iff hl] at this
          simpa [dtypeStoredOk] using this
      have hstep : typeStep fl f = modifyFile fl f { datatype := some (repairType (getDatatype f.dattrs)).name } id := by
        unfold typeStep
        rw [hl]
        dsimp only
        rw [hst]
        rfl
      rw [seqSteps, hstep]
      by_cases hc : getDatatype f.dattrs = some .ivcurve
      · refine iff_of_false ?_ ?_
        · have hn := hnf _ hc
          have hargs : dtypeArgOk l (some .ivcurve) = false := by
            rw [← fits_iff hl] at hn
            simpa [dtypeArgOk] using hn
          have : modifyFile fl f { datatype := some (repairType (getDatatype f.dattrs)).name } id = (f, .error .valueError) := by
            unfold modifyFile writerOpen
            simp only [Option.getD_some, modeArgOk, Bool.not_true, Bool.false_eq_true, if_false]
            rw [known_stored hk, hl]
            dsimp only
            unfold openDatatype
            rw [show repairType (getDatatype f.dattrs) = .ivcurve by unfold repairType; rw [if_pos hc]]
            simp only [parseDatatype, dtypeOfName_name, hargs, Bool.not_false, if_true]
          rw [this]
          rintro ⟨f', h⟩
          simp at h
        · rintro ⟨-, h2⟩
          refine h2 ⟨?_, hc⟩
          rcases hk with h | h
          · exact absurd (.inl h) (hnf _ hc)
          · exact h
      · refine iff_of_true ?_ ⟨fun h => absurd hk h, fun h => hc h.2⟩
        have hr : repairType (getDatatype f.dattrs) = .ivsample := by unfold repairType; rw [if_neg hc]
        have hsamp : EnergyDType.ivsample ∈ l := (fits_iff hl _).mpr (.inr rfl)
        obtain ⟨f', h, h2⟩ := modify_runs hf hal (args := { datatype := some (repairType (getDatatype f.dattrs)).name }) (fun a => a) (l := l) (t := .ivsample) (dt := some .ivsample) rfl
          (by rw [known_stored hk]; exact hl) (by rw [hr]; simp [parseDatatype, dtypeOfName_name])
          (fun x hx => by cases hx; exact ⟨hsamp, by decide⟩) (getDatatype_put _ _) hsamp rfl
        have h' : modifyFile fl f { datatype := some (repairType (getDatatype f.dattrs)).name } id = (f', .ok ()) := h
        have htyp : Labelled f' := (modify_step (fun _ => rfl) (fun _ => rfl) (fun _ _ => rfl) rfl (.inl rfl) (.inr ⟨hk, hnf, rfl⟩) (.inl rfl) h').2.1
        rw [h']
        obtain ⟨f2, h3⟩ := window_runs hf h2 htyp
        refine ⟨f2, ?_⟩
        dsimp only
        rw [seqSteps, h3]
        rfl
  · have hne : ¬ (getMode f.attrs = "emulator" ∧ getDatatype f.dattrs = some .ivcurve) := fun h => hk (.inr h.1)
    have hstep : modeStep fl f = modifyFile fl f { mode := some (repairMode (getMode f.attrs)) } id := by
      unfold modeStep
      rw [if_pos]
      rw [Option.isNone_iff_eq_none]
      by_contra h
      exact hk ((known_iff _).mp (Option.isSome_iff_ne_none.mpr h))
    rw [seqSteps, hstep]
    have hgu := repairMode_guess hk
    obtain ⟨l, hl⟩ := Option.isSome_iff_exists.mp ((known_iff _).mpr (repairMode_known (getMode f.attrs)))
    have hmo : modeArgOk (some (repairMode (getMode f.attrs))) = true := (known_iff _).mpr (repairMode_known _)
    have hput : modeDtypes (getMode (putMode f.attrs (some (repairMode (getMode f.attrs))))) = some l := by rw [getMode_put_some]; exact hl
    by_cases hcond : f.dattrs "datatype" = none ∨ ∃ t, getDatatype f.dattrs = some t ∧ FitsMode (modeGuess (getMode f.attrs)) t
    · refine iff_of_true ?_ ⟨fun _ => hcond, hne⟩
      have : ∃ t, getDatatype (putDatatype f.dattrs none) = some t ∧ t ∈ l := by
        rcases hcond with h | ⟨t, ht, hft⟩
        · rcases getDatatype_put_none f.dattrs with ⟨-, h2, -⟩ | ⟨h2, -⟩
          · exact ⟨_, h2, (fits_iff hl _).mpr (.inr rfl)⟩
          · exact absurd h h2
        · exact ⟨t, by rw [stored_type ht]; exact ht, (fits_iff hl t).mpr (by rw [hgu]; exact hft)⟩
      obtain ⟨t, ht, htl⟩ := this
      obtain ⟨f', h, h2⟩ := modify_runs hf hal (args := { mode := some (repairMode (getMode f.attrs)) }) (fun a => a) (l := l) (t := t) (dt := none) hmo hput rfl
        (fun x hx => by cases hx) ht htl rfl
      have h' : modifyFile fl f { mode := some (repairMode (getMode f.attrs)) } id = (f', .ok ()) := h
      have htyp : Labelled f' := (modify_step (fun _ => rfl) (fun _ => rfl) (fun _ _ => rfl) rfl (.inr ⟨hk, rfl⟩) (.inl rfl) (.inl rfl) h').2.1
      rw [h']
      dsimp only
      obtain ⟨f2, h3⟩ := window_runs hf h2 htyp
      refine ⟨f2, ?_⟩
      rw [seqSteps, type_stays htyp]
      dsimp only
      rw [seqSteps, h3]
      rfl
    · refine iff_of_false ?_ (fun h => hcond (h.1 hk))
      push Not at hcond
      have hbad : dtypeStoredOk l (getDatatype (putDatatype g.attrs none)) = false := by
        rw [← hda]
        rcases getDatatype_put_none f.dattrs with ⟨h2, -⟩ | ⟨-, h2⟩
        · exact absurd h2 hcond.1
        · rw [h2]
          cases hx : getDatatype f.dattrs with
          | none => rfl
          | some t =>
            have := hcond.2 t hx
            rw [← hgu, ← fits_iff hl] at this
            simpa [dtypeStoredOk] using this
      have : ∃ f1, modifyFile fl f { mode := some (repairMode (getMode f.attrs)) } id = (f1, .error .valueError) := by
        unfold modifyFile writerOpen
        simp only [Option.getD_some, hmo, Bool.not_true, Bool.false_eq_true, if_false]
        rw [hput]
        dsimp only
        unfold openDatatype
        simp only [parseDatatype, dtypeArgOk, Bool.not_true, Bool.false_eq_true, if_false, hg, hbad, Bool.not_false, if_true]
        exact ⟨_, rfl⟩
      obtain ⟨f1, h1⟩ := this
      rw [h1]
      rintro ⟨f', h⟩
      simp at h

/-- **C98, good recordings.**  A recording with known labels, a window, a name of the host and equally long datasets that end with a buffer is not touched. -/
theorem C98_untouched (fl : ℚ → ℚ) (f : H5File) (hal : Aligned fl f) (hlab : Labelled f) (hw : f.dattrs "window_samples" ≠ none) (hh : f.attrs "hostname" ≠ none) :
    repairFile fl f = (f, .ok ()) := by
  rw [repair_aligned hal, seqSteps, mode_stays hlab.1]
  dsimp only
  rw [seqSteps, type_stays hlab]
  dsimp only
  have h1 : hostStep fl f = (f, .ok ()) := by
    unfold hostStep
    rw [if_neg (by rw [Option.isNone_iff_eq_none]; exact hh)]
  have h2 : windowStep fl f = (f, .ok ()) := by
    unfold windowStep
    rw [if_neg (by rw [Option.isNone_iff_eq_none]; exact hw), h1]
  rw [seqSteps, h2]
  rfl

/-- **C98 violated: a missing calibration.**  It is not repaired if nothing else is wrong with a recording: the recording was invalid, the repair does nothing and reports nothing. -/
theorem C98_calibration_violated (fl : ℚ → ℚ) (f : H5File) (hal : Aligned fl f) (hlab : Labelled f) (hw : f.dattrs "window_samples" ≠ none) (hh : f.attrs "hostname" ≠ none)
    (hc : ¬ Calibrated f) : repairFile fl f = (f, .ok ()) ∧ f.isValid = false := by
  have h := C98_untouched fl f hal hlab hw hh
  refine ⟨h, ?_⟩
  rw [← Bool.not_eq_true]
  intro hv
  exact hc ((C98_valid_partial fl f f h).1.mp hv).1

/-- **C98 violated: an unknown mode together with datasets of different lengths, or that do not end with a buffer.**  The repair ends with a KeyError before it gets to the mode, nothing is
changed: it will do so every time. -/
theorem C98_mode_violated (fl : ℚ → ℚ) (f : H5File) (s : Session) (ho : openSession fl f = .ok s) (m : String) (hm : f.attrs "mode" = some (.str m)) (hk : ¬ KnownMode m)
    (hs : (s.get .current).length ≠ (s.get .voltage).length ∨ (s.get .time).length ≠ (s.get .voltage).length ∨ (s.get .voltage).length % 10000 ≠ 0) :
    repairFile fl f = (f, .error .keyError) := by
  have hsz : ∀ n, f.size n = (s.get n).length := fun n => contents_size (opened_contents ho n)
  have hmod : ∀ use, modifyFile fl f {} use = (f, .error .keyError) := by
    intro use
    have hp : putMode f.attrs none = f.attrs := by
      rcases getMode_put_none f.attrs with ⟨h, -⟩ | ⟨-, h⟩
      · rw [hm] at h; cases h
      · exact h
    have hd : modeDtypes (getMode f.attrs) = none := by
      have : getMode f.attrs = m := by simp [getMode, hm]
      rw [this]
      by_contra h
      exact hk ((known_iff _).mp (Option.isSome_iff_ne_none.mpr h))
    unfold modifyFile writerOpen
    simp only [Option.getD_some, modeArgOk, Bool.not_true, Bool.false_eq_true, if_false]
    rw [hp, hd]
  have hss : ∀ n, (s.get n).length ≠ (s.get .voltage).length → sizeStep fl (f.size .voltage) n f = (f, .error .keyError) := by
    intro n hn
    unfold sizeStep
    rw [if_pos (by rw [hsz, hsz]; exact hn.symm), hmod]
  have hsn : ∀ n, (s.get n).length = (s.get .voltage).length → sizeStep fl (f.size .voltage) n f = (f, .ok ()) := by
    intro n hn
    unfold sizeStep
    rw [if_neg (by rw [hsz, hsz, hn]; simp)]
  unfold repairFile
  rw [ho]
  dsimp only
  by_cases h1 : (s.get .current).length = (s.get .voltage).length
  · rw [seqSteps, hsn _ h1]
    dsimp only
    by_cases h2 : (s.get .time).length = (s.get .voltage).length
    · rw [seqSteps, hsn _ h2]
      dsimp only
      have h3 : (s.get .voltage).length % 10000 ≠ 0 := by
        rcases hs with h | h | h
        · exact absurd h1 h
        · exact absurd h2 h
        · exact h
      have : alignStep fl f = (f, .error .keyError) := by
        unfold alignStep
        rw [if_pos (by rw [hsz]; exact h3), hmod]
      rw [seqSteps, this]
    · rw [seqSteps, hss _ h2]
  · rw [seqSteps, hss _ h1]

/-- **C98, all files.**  Without exceptions every file is repaired, independently of the others. -/
theorem C98_all (fl : ℚ → ℚ) (l : List H5File) (h : ∀ f ∈ l, (repairFile fl f).2 = .ok ()) : repairAll fl l = (l.map (fun f => (repairFile fl f).1), .ok ()) := by
  induction l with
  | nil => rfl
  | cons f l ih =>
    have hf := h f (List.mem_cons_self ..)
    have ih := ih (fun g hg => h g (List.mem_cons_of_mem _ hg))
    rw [repairAll]
    rcases hr : repairFile fl f with ⟨f', r⟩
    rw [hr] at hf
    cases hf
    dsimp only
    rw [ih, List.map_cons, hr]

/-- **C98 violated: one bad file.**  The first exception ends the script: the files that come later in the directory are not repaired. -/
theorem C98_stop_violated (fl : ℚ → ℚ) (l later : List H5File) (f : H5File) (e : PyErr) (h : ∀ f ∈ l, (repairFile fl f).2 = .ok ()) (hf : (repairFile fl f).2 = .error e) :
    repairAll fl (l ++ f :: later) = (l.map (fun f => (repairFile fl f).1) ++ (repairFile fl f).1 :: later, .error e) := by
  induction l with
  | nil =>
    rw [List.nil_append, repairAll]
    rcases hr : repairFile fl f with ⟨f', r⟩
    rw [hr] at hf
    cases hf
    rfl
  | cons g l ih =>
    have hg := h g (List.mem_cons_self ..)
    have ih := ih (fun g hg => h g (List.mem_cons_of_mem _ hg))
    rw [List.cons_append, repairAll]
    rcases hr : repairFile fl g with ⟨f', r⟩
    rw [hr] at hg
    cases hg
    dsimp only
    rw [ih, List.map_cons, hr]
    rfl

/-- **C98 violated: other HDF5 files.**  A file that is no recording is not passed over, it ends the script. -/
theorem C98_foreign_violated (fl : ℚ → ℚ) (f : H5File) (h : f.data = none ∨ ∃ g n, f.data = some g ∧ g.dset n = none) : (repairFile fl f).2 = .error .keyError := by
  have : openSession fl f = .error .keyError := by
    unfold openSession
    rcases h with h | ⟨g, n, h, hn⟩
    · rw [h]
    · rw [h]
      dsimp only
      cases n
      · rw [hn]
      · rw [hn]; cases g.dset .time <;> rfl
      · rw [hn]; cases g.dset .time <;> cases g.dset .voltage <;> rfl
  unfold repairFile
  rw [this]

/-! ## Concrete recordings -/

/-- A recording with given labels and samples. -/
def labelledFile (mode dtype : String) (cal : Bool) (root : Attrs) (x : DsName → List ℤ) : H5File where
  attrs := root.set "mode" (.str mode)
  data := some {
    attrs := Attrs.set (Attrs.set (fun _ => none) "datatype" (.str dtype)) "window_samples" (.num 0)
    dset := fun n => some { data := x n, attrs := if cal then Attrs.set (Attrs.set (fun _ => none) "gain" (.num (1/1000))) "offset" (.num 0) else fun _ => none } }
  logLevels := none

/-- A name of the host. -/
def hostRoot : Attrs := Attrs.set (fun _ => none) "hostname" (.str "sheep0")

/-- Aligned recordings of any number of buffers. -/
theorem labelledFile_aligned (mode dtype : String) (cal : Bool) (root : Attrs) (m : ℕ) (h1 : m % 10000 = 0) (h2 : m < 10000 * 2^39) : Aligned b64 (labelledFile mode dtype cal root (fun _ => List.replicate m 0)) := by
  have key : ∀ g : DataGroup, ∀ v : CalSeries, v.voltage.Valid ∧ v.current.Valid ∧ v.time.Valid →
      (∀ n, ∃ d, g.dset n = some d ∧ d.data = List.replicate m 0 ∧ pairOf d.attrs ((CalSeries.default b64).get n) = v.get n) → ∀ f : H5File, f.data = some g → Aligned b64 f := by
    intro g v hv hd f hg
    obtain ⟨t, t1, t2, t3⟩ := hd .time
    obtain ⟨w, w1, w2, w3⟩ := hd .voltage
    obtain ⟨c, c1, c2, c3⟩ := hd .current
    have ecal : CalSeries.mk (pairOf w.attrs (CalSeries.default b64).voltage) (pairOf c.attrs (CalSeries.default b64).current) (pairOf t.attrs (CalSeries.default b64).time) = v := by
      cases v
      rw [CalSeries.mk.injEq]
      exact ⟨w3, c3, t3⟩
    have hr : refreshStats b64 v t.data (Stats.init b64) = .ok (Stats.init b64) := by
      unfold refreshStats
      dsimp only
      have h0 : ∀ i, (List.replicate m (0:ℤ)).getD i 0 = 0 := by
        intro i
        rw [List.getD_eq_getElem?_getD, List.getElem?_replicate]
        split <;> rfl
      rw [t2, if_neg]
      rw [h0, h0]
      simp
    refine ⟨{ attrs := f.attrs, dattrs := g.attrs, ds := fun n => match n with | .time => t | .voltage => w | .current => c, logLevels := f.logLevels, cal := v,
              stats := Stats.init b64 }, m, ?_, ?_, h1, h2⟩
    · unfold openSession
      rw [hg]
      dsimp only
      rw [t1, w1, c1]
      dsimp only
      rw [if_pos (by rw [← ecal] at hv; exact hv), ecal]
      simp only [hr]
      congr 2
    · intro n
      cases n
      · show t.data.length = _
        rw [t2, List.length_replicate]
      · show w.data.length = _
        rw [w2, List.length_replicate]
      · show c.data.length = _
        rw [c2, List.length_replicate]
  cases cal
  · exact key _ (CalSeries.default b64) (by decide +kernel) (fun n => ⟨_, rfl, rfl, by cases n <;> (dsimp only; decide +kernel)⟩) _ rfl
  · exact key _ ⟨⟨1/1000, 0⟩, ⟨1/1000, 0⟩, ⟨1/1000, 0⟩⟩ (by decide +kernel) (fun n => ⟨_, rfl, rfl, by cases n <;> (dsimp only; decide +kernel)⟩) _ rfl

/-- Labels of a recording made so. -/
theorem labelledFile_labels (mode dtype : String) (cal : Bool) (root : Attrs) (x : DsName → List ℤ) :
    getMode (labelledFile mode dtype cal root x).attrs = mode ∧ getDatatype (labelledFile mode dtype cal root x).dattrs = dtypeOfName dtype ∧
    (labelledFile mode dtype cal root x).dattrs "window_samples" = some (.num 0) ∧ (labelledFile mode dtype cal root x).dattrs "datatype" = some (.str dtype) := by
  refine ⟨?_, ?_, ?_, ?_⟩
  · simp [labelledFile, getMode, Attrs.set]
  · have : (labelledFile mode dtype cal root x).dattrs "datatype" = some (.str dtype) := by
      show (Attrs.set (Attrs.set (fun _ => none) "datatype" (.str dtype)) "window_samples" (.num 0)) "datatype" = _
      rw [set_other _ _ (by decide), set_same]
    simp [getDatatype, this]
  · show (Attrs.set (Attrs.set (fun _ => none) "datatype" (.str dtype)) "window_samples" (.num 0)) "window_samples" = _
    rw [set_same]
  · show (Attrs.set (Attrs.set (fun _ => none) "datatype" (.str dtype)) "window_samples" (.num 0)) "datatype" = _
    rw [set_other _ _ (by decide), set_same]

/-- Three buffers (`C98_untouched`, `C98_calibration_violated`): known labels, no calibration. -/
example : ∃ f : H5File, Aligned b64 f ∧ Labelled f ∧ f.dattrs "window_samples" ≠ none ∧ f.attrs "hostname" ≠ none ∧ ¬ Calibrated f ∧ f.size .voltage = 30000 := by
  have hl := labelledFile_labels "emulator" "ivsamples" false hostRoot (fun _ => List.replicate 30000 0)
  refine ⟨labelledFile "emulator" "ivsamples" false hostRoot (fun _ => List.replicate 30000 0), labelledFile_aligned _ _ _ _ _ (by norm_num) (by norm_num), ?_, ?_, ?_, ?_, ?_⟩
  · refine ⟨by rw [hl.1]; exact .inr rfl, .ivsample, by rw [hl.2.1]; decide, .inr rfl⟩
  · rw [hl.2.2.1]; simp
  · show (hostRoot.set "mode" (.str "emulator")) "hostname" ≠ none
    rw [set_other _ _ (by decide)]
    unfold hostRoot
    rw [set_same]
    simp
  · rintro ⟨g, hg, hn⟩
    obtain ⟨d, hd, h1, -⟩ := hn .time
    cases hg
    cases hd
    exact h1 rfl
  · exact List.length_replicate ..

/-- Three buffers of an emulator recording that claims curves, of an unknown mode with samples, and of an unknown mode with an unknown data type: the repair finishes with the second only. -/
example : (¬ ∃ f', repairFile b64 (labelledFile "emulator" "ivcurve" true hostRoot (fun _ => List.replicate 30000 0)) = (f', .ok ())) ∧
    (∃ f', repairFile b64 (labelledFile "emulation" "ivsample" true hostRoot (fun _ => List.replicate 30000 0)) = (f', .ok ())) ∧
    (¬ ∃ f', repairFile b64 (labelledFile "emulation" "power" true hostRoot (fun _ => List.replicate 30000 0)) = (f', .ok ())) := by
  have ha := fun a b => labelledFile_aligned a b true hostRoot 30000 (by norm_num) (by norm_num)
  have hl := fun a b => labelledFile_labels a b true hostRoot (fun _ => List.replicate 30000 0)
  have hn : ¬ KnownMode "emulation" := by decide
  refine ⟨?_, ?_, ?_⟩
  · rw [C98_finishes b64 b64_rounding _ (ha _ _), (hl _ _).1, (hl _ _).2.1]
    rintro ⟨-, h⟩
    exact h ⟨rfl, by decide⟩
  · rw [C98_finishes b64 b64_rounding _ (ha _ _), (hl _ _).1, (hl _ _).2.1]
    exact ⟨fun _ => .inr ⟨.ivsample, by decide, .inr rfl⟩, fun h => absurd h.1 (by decide)⟩
  · rw [C98_finishes b64 b64_rounding _ (ha _ _), (hl _ _).1, (hl _ _).2.1, (hl _ _).2.2.2]
    rintro ⟨h, -⟩
    rcases h hn with h | ⟨t, ht, -⟩
    · cases h
    · revert ht
      cases t <;> decide

/-- Was a repair finished, is the file valid, how many samples are there? -/
def repairView (r : H5File × Except PyErr Unit) : Bool × Bool × ℕ × ℕ × ℕ :=
  (match r.2 with | .ok _ => true | .error _ => false, r.1.isValid, r.1.size .time, r.1.size .voltage, r.1.size .current)

/-- Short recordings with timestamps 1 s apart (so that they are kept): an append interrupted after its first step is repaired (`C98_samples`), also an unknown data type alone and a missing
name of the host; interrupted after its second step it is not (`C98_interrupted_violated`); an unknown mode and unequal datasets end with an exception (`C98_mode_violated`). -/
example :
    repairView (repairFile b64 (labelledFile "harvester" "ivsample" true hostRoot (fun n => match n with | .time => [0, 1000, 2000] | _ => [5, 6]))) = (true, true, 2, 2, 2) ∧
    repairView (repairFile b64 (labelledFile "harvester" "ivsample" true (fun _ => none) (fun _ => [0, 1000]))) = (true, true, 2, 2, 2) ∧
    repairView (repairFile b64 (labelledFile "emulator" "power" true hostRoot (fun _ => []))) = (true, true, 0, 0, 0) ∧
    repairView (repairFile b64 (labelledFile "harvester" "ivsample" true hostRoot (fun n => match n with | .current => [] | _ => [0, 0]))) = (true, true, 2, 0, 0) ∧
    repairView (repairFile b64 (labelledFile "harvesting" "ivsample" true hostRoot (fun n => match n with | .time => [0, 1000, 2000] | _ => [5, 6]))) = (false, false, 3, 2, 2) := by
  refine ⟨?_, ?_, ?_, ?_, ?_⟩ <;> decide +kernel

end Verif.Props
