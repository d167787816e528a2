import Verif.Model.Cli
import Verif.Props.CutFile
import Verif.Props.Reports

/-!
# C67, C68: the command line
-/

namespace Verif.Props
open Verif.Py Verif.Model

/-! ## C67: which files are selected -/

/-- **C67, selection in a directory.**  Selected are exactly the regular files whose name ends in ".h5", directly in the directory or, if asked for, anywhere below. -/
theorem C67_selected (entries : List DirEntry) (recurse : Bool) (n : Name) (ps : List Name) :
    (n, ps) ∈ pathToFlist (.dir entries) recurse ↔
      ∃ e ∈ entries, e.name = n ∧ e.parents = ps ∧ e.isFile = true ∧ (∃ pre, n = pre ++ ".h5".toList) ∧ (recurse = true ∨ ps = []) := by
  have hsuf : ∀ m : Name, globH5 m = true ↔ ∃ pre, m = pre ++ ".h5".toList := by
    intro m
    unfold globH5
    rw [List.isSuffixOf_iff_suffix]
    constructor
    · rintro ⟨t, ht⟩; exact ⟨t, ht.symm⟩
    · rintro ⟨t, ht⟩; exact ⟨t, ht.symm⟩
  unfold pathToFlist
  simp only [List.mem_map, List.mem_filter, Bool.and_eq_true, Bool.or_eq_true, List.isEmpty_iff, Prod.mk.injEq]
  constructor
  · rintro ⟨e, ⟨⟨he, hn, hr⟩, hf⟩, rfl, rfl⟩
    exact ⟨e, he, rfl, rfl, hf, (hsuf _).1 hn, hr⟩
  · rintro ⟨e, he, rfl, rfl, hf, hn, hr⟩
    exact ⟨e, ⟨⟨he, (hsuf _).2 hn, hr⟩, hf⟩, rfl, rfl⟩

/-- No file is selected twice. -/
theorem C67_selected_once (entries : List DirEntry) (recurse : Bool) (h : (entries.map (fun e => (e.name, e.parents))).Nodup) :
    (pathToFlist (.dir entries) recurse).Nodup := by
  unfold pathToFlist
  dsimp only
  rw [List.filter_filter]
  exact h.sublist (List.filter_sublist.map _)

/-- **C67, violated: capital letters.**  A recording "a.H5" is selected if it is named on the command line, but not as part of its directory. -/
theorem C67_case_violated : pathToFlist (.file "a.H5".toList) false = [("a.H5".toList, [])] ∧
    ∀ recurse, pathToFlist (.dir [{ name := "a.H5".toList, parents := [], isFile := true }]) recurse = [] := by
  constructor
  · decide +kernel
  · decide +kernel

example : pathToFlist (.dir [⟨"a.h5".toList, [], true⟩, ⟨"b.h5".toList, ["sub".toList], true⟩, ⟨"c.h5".toList, [], false⟩, ⟨"d.txt".toList, [], true⟩]) false = [("a.h5".toList, [])] := by
  decide +kernel
example : pathToFlist (.dir [⟨"a.h5".toList, [], true⟩, ⟨"b.h5".toList, ["sub".toList], true⟩]) true = [("a.h5".toList, []), ("b.h5".toList, ["sub".toList])] := by
  decide +kernel

/-! ## C67: the exit code -/

/-- A recording that passes: it can be opened, is well formed, and its buffers start at regular times. -/
def Passes (fl : ℚ → ℚ) (d : DiskFile) : Prop :=
  ∃ h s, d = .hdf5 h ∧ openSession fl h = .ok s ∧ WellFormed h ∧ s.checkTimediffs fl 4000000 = .ok true

theorem openSession_noType {fl : ℚ → ℚ} {h : H5File} : openSession fl h ≠ .error .typeError := by
  unfold openSession
  split
  · exact fun hc => by cases hc
  · split
    · dsimp only
      split_ifs
      · split
        · rename_i e he
          intro hc
          cases hc
          unfold refreshStats at he
          dsimp only at he
          split_ifs at he
          all_goals cases he
        · exact fun hc => by cases hc
      · exact fun hc => by cases hc
    · exact fun hc => by cases hc

theorem validateFile_open {fl : ℚ → ℚ} {h : H5File} {s : Session} (hs : openSession fl h = .ok s) :
    validateFile fl (.hdf5 h) = (s.checkTimediffs fl 4000000).map (fun t => h.isValid && t) := by
  have hf := (openSession_ok hs).1
  simp only [validateFile, openReader, hs, hf]

theorem validateFile_pass {fl : ℚ → ℚ} (d : DiskFile) : validateFile fl d = .ok true ↔ Passes fl d := by
  unfold Passes
  cases d with
  | notHdf5 => simp [validateFile, openReader]
  | hdf5 h =>
    cases hs : openSession fl h with
    | error e =>
      constructor
      · intro hc
        simp only [validateFile, openReader, hs, reduceCtorEq] at hc
      · rintro ⟨h', s, he, ho, -⟩
        rw [← DiskFile.hdf5.inj he, hs] at ho
        simp only [reduceCtorEq] at ho
    | ok s =>
      rw [validateFile_open hs]
      generalize 4000000 = k
      constructor
      · intro hc
        cases ht : s.checkTimediffs fl k with
        | error e =>
          rw [ht] at hc
          simp only [Except.map, reduceCtorEq] at hc
        | ok t =>
          rw [ht] at hc
          simp only [Except.map, Except.ok.injEq, Bool.and_eq_true] at hc
          exact ⟨h, s, rfl, hs, (C36_valid_meaning h).1 hc.1, by rw [ht, hc.2]⟩
      · rintro ⟨h', s', he, ho, h1, ht⟩
        rw [← DiskFile.hdf5.inj he] at h1 ho
        rw [hs] at ho
        rw [← Except.ok.inj ho] at ht
        rw [ht]
        simp only [Except.map, (C36_valid_meaning h).2 h1, Bool.and_self]

theorem checkTimediffs_noType {fl : ℚ → ℚ} (k : ℕ) (s : Session) : s.checkTimediffs fl k ≠ .error .typeError := by
  unfold Session.checkTimediffs
  generalize s.timediffs fl k = l
  intro hc
  match l, hc with
  | [], hc => simp at hc
  | [d], hc => simp at hc
  | _ :: _ :: _, hc => simp at hc

theorem map_noType (x : Except PyErr Bool) (g : Bool → Bool) (h : x ≠ .error .typeError) : x.map g ≠ .error .typeError := by
  cases x with
  | error e => exact h
  | ok b => simp [Except.map]

theorem validateFile_type {fl : ℚ → ℚ} (d : DiskFile) : validateFile fl d = .error .typeError ↔ d = .notHdf5 := by
  cases d with
  | notHdf5 => simp [validateFile, openReader]
  | hdf5 h =>
    simp only [reduceCtorEq, iff_false]
    cases hs : openSession fl h with
    | error e =>
      intro hc
      simp only [validateFile, openReader, hs, Except.error.injEq] at hc
      exact openSession_noType (hc ▸ hs)
    | ok s =>
      rw [validateFile_open hs]
      exact map_noType _ _ (checkTimediffs_noType _ _)

theorem validateLoop_true {fl : ℚ → ℚ} (files : List DiskFile) (v : Bool) :
    validateLoop fl v files = .ok true ↔ v = true ∧ ∀ d ∈ files, d = .notHdf5 ∨ Passes fl d := by
  induction files generalizing v with
  | nil => simp [validateLoop]
  | cons d t ih =>
    unfold validateLoop
    cases hd : validateFile fl d with
    | ok r =>
      have hnt : d ≠ .notHdf5 := by
        intro hc
        rw [(validateFile_type d).2 hc] at hd
        cases hd
      simp only [ih, Bool.and_eq_true, List.forall_mem_cons, hnt, false_or]
      constructor
      · rintro ⟨⟨rfl, rfl⟩, h⟩
        exact ⟨rfl, (validateFile_pass d).1 hd, h⟩
      · rintro ⟨rfl, hp, h⟩
        rw [(validateFile_pass d).2 hp] at hd
        cases hd
        exact ⟨⟨rfl, rfl⟩, h⟩
    | error e =>
      by_cases he : e = .typeError
      · subst he
        have := (validateFile_type d).1 hd
        subst this
        simp only [ih, List.forall_mem_cons, true_or, true_and]
      · have hnt : d ≠ .notHdf5 := by
          intro hc
          rw [(validateFile_type d).2 hc] at hd
          cases hd
          exact he rfl
        have hnp : ¬ Passes fl d := by
          intro hp
          rw [(validateFile_pass d).2 hp] at hd
          cases hd
        cases e <;> first | exact absurd rfl he | simp [hnt, hnp]

/-- **C67 (partial: files that are no HDF5 are ignored).**  The exit code is 0 exactly if every selected file is either no HDF5-file at all, or passes. -/
theorem C67_exit_partial (fl : ℚ → ℚ) (files : List DiskFile) : validateExit fl files = 0 ↔ ∀ d ∈ files, d = .notHdf5 ∨ Passes fl d := by
  have h := validateLoop_true (fl := fl) files true
  rw [eq_self_iff_true, true_and] at h
  rw [← h]
  unfold validateExit
  cases validateLoop fl true files with
  | error e => simp
  | ok v => cases v <;> simp

/-- The exit code is 0 or 1. -/
theorem validateExit_cases (fl : ℚ → ℚ) (files : List DiskFile) : validateExit fl files = 0 ∨ validateExit fl files = 1 := by
  unfold validateExit
  split
  · split_ifs <;> simp
  · simp

/-- **C67, order.**  The order in which the files are found does not matter. -/
theorem C67_order (fl : ℚ → ℚ) (a b : List DiskFile) (h : a.Perm b) : validateExit fl a = validateExit fl b := by
  have h1 := C67_exit_partial fl a
  have h2 := C67_exit_partial fl b
  have h3 : (∀ d ∈ a, d = .notHdf5 ∨ Passes fl d) ↔ ∀ d ∈ b, d = .notHdf5 ∨ Passes fl d := by
    simp only [h.mem_iff]
  rw [h3, ← h2] at h1
  rcases validateExit_cases fl a with ha | ha <;> rcases validateExit_cases fl b with hb | hb <;> simp_all

theorem four_million : 4000000 = 10000 * 400 := by norm_num

/-- **C67, regular recordings.**  Well formed recordings with default calibration of time and time stamps 10 µs apart (more than one buffer) are accepted. -/
theorem C67_regular (fl : ℚ → ℚ) (hf : AccRounding fl) (files : List DiskFile)
    (h : ∀ d ∈ files, ∃ g s t0 m, d = .hdf5 g ∧ openSession fl g = .ok s ∧ WellFormed g ∧ s.cal.time = (CalSeries.default fl).time ∧ 10001 ≤ m ∧ s.get .time = regular t0 m) :
    validateExit fl files = 0 := by
  rw [C67_exit_partial]
  intro d hd
  obtain ⟨g, s, t0, m, rfl, ho, hw, hc, hm, ht⟩ := h d hd
  refine .inr ⟨g, s, rfl, ho, hw, ?_⟩
  rw [four_million]
  exact C41_regular fl hf 400 (by norm_num) s hc t0 m hm ht

/-- **C67, violated: unreadable files.**  A file that can not be opened does not change the exit code: a directory of broken files only is reported as valid. -/
theorem C67_unreadable_violated (fl : ℚ → ℚ) : validateExit fl [.notHdf5, .notHdf5] = 0 ∧
    ∀ a b, validateExit fl (a ++ .notHdf5 :: b) = validateExit fl (a ++ b) := by
  refine ⟨(C67_exit_partial fl _).2 (by simp), fun a b => ?_⟩
  have h1 := C67_exit_partial fl (a ++ .notHdf5 :: b)
  have h2 := C67_exit_partial fl (a ++ b)
  have h3 : (∀ d ∈ a ++ .notHdf5 :: b, d = .notHdf5 ∨ Passes fl d) ↔ ∀ d ∈ a ++ b, d = .notHdf5 ∨ Passes fl d := by
    simp only [List.mem_append, List.mem_cons]
    constructor
    · intro h d hd; exact h d (by tauto)
    · rintro h d (hd | rfl | hd)
      · exact h d (.inl hd)
      · exact .inl rfl
      · exact h d (.inr hd)
  rw [h3, ← h2] at h1
  rcases validateExit_cases fl (a ++ .notHdf5 :: b) with ha | ha <;> rcases validateExit_cases fl (a ++ b) with hb | hb <;> simp_all

/-- **C67, violated: short recordings.**  A well formed recording of at most one buffer makes the command fail. -/
theorem C67_short_violated (fl : ℚ → ℚ) (files : List DiskFile) (g : H5File) (s : Session) (hmem : .hdf5 g ∈ files) (ho : openSession fl g = .ok s)
    (hm : (s.get .time).length ≤ 10000) : validateExit fl files = 1 := by
  rcases validateExit_cases fl files with h | h
  · rw [C67_exit_partial] at h
    rcases h _ hmem with hc | ⟨h', s', he, ho', -, ht⟩
    · cases hc
    · cases he
      rw [ho] at ho'
      cases ho'
      rw [four_million, C41_short_violated fl 400 (by norm_num) s hm] at ht
      cases ht
  · exact h

/-! ## C68: files do not influence each other -/

section
variable {σ : Type}

/-- The names of the files a command may write for one recording: one for each factor in use.  None if the recording can not be opened. -/
def cliOutputs (fl : ℚ → ℚ) (start stop : Option ℚ) (rate : Option ℤ) (factor : Option ℚ) (src : String × DiskFile) : List String :=
  match openReader fl src.2 with
  | .error _ => []
  | .ok s => (cliList (cliFactor fl s factor rate)).map (s.cutName fl src.1 start stop)

/-- What is written depends only on whether the output exists. -/
theorem cutToFile_congr (fl : ℚ → ℚ) (f : SampleFilter ℤ σ) (s : Session) (fs gs : Files) (stem : String) (start stop : Option ℚ) (factor : ℚ)
    (h : fs (s.cutName fl stem start stop factor) = gs (s.cutName fl stem start stop factor)) :
    (s.cutToFile fl f fs stem start stop factor).2 = (s.cutToFile fl f gs stem start stop factor).2 ∧
    (s.cutToFile fl f fs stem start stop factor).1 (s.cutName fl stem start stop factor) =
      (s.cutToFile fl f gs stem start stop factor).1 (s.cutName fl stem start stop factor) := by
  have put : ∀ g p, (fs.put p g) p = (gs.put p g) p := by simp [Files.put]
  unfold Session.cutToFile
  cases s.cutCheck fl start stop factor with
  | error e => exact ⟨rfl, h⟩
  | ok u =>
    dsimp only
    rw [← h]
    by_cases hs : (fs (s.cutName fl stem start stop factor)).isSome = true
    · rw [if_pos hs, if_pos hs]; exact ⟨rfl, h⟩
    · rw [if_neg hs, if_neg hs]
      generalize writerOpen fl none s.cutArgs = x
      obtain ⟨g, r⟩ := x
      cases r with
      | error e => exact ⟨rfl, put _ _⟩
      | ok w =>
        dsimp only
        generalize s.cutData fl f (s.cutMeta w factor) (s.sampleAt fl (cutStart start)) (s.sampleAt fl (s.cutEnd fl stop)) factor = y
        cases y with
        | error e => exact ⟨rfl, put _ _⟩
        | ok w =>
          dsimp only
          cases w.close fl with
          | error e => exact ⟨rfl, put _ _⟩
          | ok g => exact ⟨rfl, put _ _⟩

theorem cliFile_other (fl : ℚ → ℚ) (f : SampleFilter ℤ σ) (s : Session) (stem : String) (start stop : Option ℚ) (qs : List ℚ) (fs : Files) (p : String)
    (hp : p ∉ qs.map (s.cutName fl stem start stop)) : (cliFile fl f s stem start stop qs fs).1 p = fs p := by
  induction qs generalizing fs with
  | nil => rfl
  | cons q t ih =>
    rw [List.map_cons, List.mem_cons, not_or] at hp
    have h1 := C64_one_output fl f s fs stem start stop q p hp.1
    unfold cliFile
    generalize s.cutToFile fl f fs stem start stop q = x at h1
    obtain ⟨fs', r⟩ := x
    cases r with
    | error e => exact h1
    | ok d => exact (ih fs' hp.2).trans h1

theorem cliFile_congr (fl : ℚ → ℚ) (f : SampleFilter ℤ σ) (s : Session) (stem : String) (start stop : Option ℚ) (qs : List ℚ) (fs gs : Files)
    (N : List String) (hN : ∀ q ∈ qs, s.cutName fl stem start stop q ∈ N) (h : ∀ p ∈ N, fs p = gs p) :
    (cliFile fl f s stem start stop qs fs).2 = (cliFile fl f s stem start stop qs gs).2 ∧
    ∀ p ∈ N, (cliFile fl f s stem start stop qs fs).1 p = (cliFile fl f s stem start stop qs gs).1 p := by
  induction qs generalizing fs gs with
  | nil => exact ⟨rfl, h⟩
  | cons q t ih =>
    obtain ⟨h1, h2⟩ := cutToFile_congr fl f s fs gs stem start stop q (h _ (hN q (by simp)))
    have h3 := C64_one_output fl f s fs stem start stop q
    have h4 := C64_one_output fl f s gs stem start stop q
    unfold cliFile
    generalize s.cutToFile fl f fs stem start stop q = x at h1 h2 h3
    generalize s.cutToFile fl f gs stem start stop q = y at h1 h2 h4
    obtain ⟨fs', r⟩ := x
    obtain ⟨gs', r'⟩ := y
    have h5 : ∀ p ∈ N, fs' p = gs' p := by
      intro p hp
      by_cases hc : p = s.cutName fl stem start stop q
      · rw [hc]; exact h2
      · exact (h3 p hc).trans ((h p hp).trans (h4 p hc).symm)
    dsimp only at h1
    subst h1
    cases r with
    | error e => exact ⟨rfl, h5⟩
    | ok d => exact ih fs' gs' (fun q hq => hN q (List.mem_cons_of_mem _ hq)) h5

/-- The factor in use does not change any more. -/
theorem cliFactor_stable {fl : ℚ → ℚ} {s s' : Session} {factor F : Option ℚ} {rate : Option ℤ} (h : cliFactor fl s factor rate = F) (h' : cliFactor fl s' factor rate = F) :
    cliFactor fl s' F rate = F := by
  cases factor with
  | some q => cases h; cases h'; rfl
  | none =>
    cases rate with
    | none => cases h; rfl
    | some r =>
      simp only [cliFactor] at h h'
      by_cases hr : 1 ≤ r
      · rw [if_pos hr] at h; subst h; rfl
      · rw [if_neg hr] at h; subst h; simp [cliFactor, hr]

/-- What the files of one command share: each of them, alone, is processed with factor `F`. -/
def SameFactor (fl : ℚ → ℚ) (rate : Option ℤ) (factor F : Option ℚ) (srcs : List (String × DiskFile)) : Prop :=
  ∀ src ∈ srcs, ∀ s, openReader fl src.2 = .ok s → cliFactor fl s factor rate = F

theorem cliDownsample_other (fl : ℚ → ℚ) (f : SampleFilter ℤ σ) (start stop : Option ℚ) (rate : Option ℤ) (factor F cur : Option ℚ) (srcs : List (String × DiskFile)) (fs : Files)
    (hsame : SameFactor fl rate factor F srcs) (hcur : SameFactor fl rate cur F srcs) (p : String) (hp : ∀ src ∈ srcs, p ∉ cliOutputs fl start stop rate factor src) :
    (cliDownsample fl f start stop rate srcs cur fs).1 p = fs p := by
  induction srcs generalizing fs cur with
  | nil => rfl
  | cons src t ih =>
    obtain ⟨stem, d⟩ := src
    have hp1 := hp (stem, d) (by simp)
    have hp2 := fun src hs => hp src (List.mem_cons_of_mem _ hs)
    have hs2 : SameFactor fl rate factor F t := fun src hs => hsame src (List.mem_cons_of_mem _ hs)
    have hc2 : SameFactor fl rate cur F t := fun src hs => hcur src (List.mem_cons_of_mem _ hs)
    unfold cliDownsample
    cases ho : openReader fl d with
    | error e =>
      dsimp only
      split_ifs
      · exact ih cur fs hs2 hc2 hp2
      · rfl
    | ok s =>
      dsimp only
      have hF := hsame (stem, d) (by simp) s ho
      have hF' := hcur (stem, d) (by simp) s ho
      rw [hF']
      simp only [cliOutputs, ho, hF] at hp1
      have h1 := cliFile_other fl f s stem start stop (cliList F) fs p hp1
      generalize cliFile fl f s stem start stop (cliList F) fs = x at h1
      obtain ⟨fs', r⟩ := x
      have hst : SameFactor fl rate F F t := fun src hs s' ho' => cliFactor_stable hF (hs2 src hs s' ho')
      cases r with
      | error e =>
        dsimp only
        split_ifs
        · exact (ih F fs' hs2 hst hp2).trans h1
        · exact h1
      | ok u => exact (ih F fs' hs2 hst hp2).trans h1

/-- **C68 (partial: the same factor for all, no other exception).**  If all recordings, taken alone, are processed with the same factor, their cliOutputs have different names and the command comes to its
end, then every output of a recording is the same as if it had been processed alone. -/
theorem C68_independent_partial (fl : ℚ → ℚ) (f : SampleFilter ℤ σ) (start stop : Option ℚ) (rate : Option ℤ) (factor F : Option ℚ) (srcs : List (String × DiskFile)) (fs fs' : Files)
    (hsame : SameFactor fl rate factor F srcs)
    (hdis : srcs.Pairwise (fun a b => ∀ p ∈ cliOutputs fl start stop rate factor a, p ∉ cliOutputs fl start stop rate factor b))
    (hrun : cliDownsample fl f start stop rate srcs factor fs = (fs', .ok ())) (src : String × DiskFile) (hsrc : src ∈ srcs) (p : String)
    (hp : p ∈ cliOutputs fl start stop rate factor src) : fs' p = (cliDownsample fl f start stop rate [src] factor fs).1 p := by
  have key : ∀ (srcs : List (String × DiskFile)) (cur : Option ℚ) (gs fs' : Files), SameFactor fl rate factor F srcs → SameFactor fl rate cur F srcs →
      srcs.Pairwise (fun a b => ∀ p ∈ cliOutputs fl start stop rate factor a, p ∉ cliOutputs fl start stop rate factor b) →
      cliDownsample fl f start stop rate srcs cur gs = (fs', .ok ()) → src ∈ srcs → (∀ q ∈ cliOutputs fl start stop rate factor src, gs q = fs q) →
      fs' p = (cliDownsample fl f start stop rate [src] factor fs).1 p := by
    intro srcs
    induction srcs with
    | nil => intro cur gs fs' _ _ _ _ hsrc; cases hsrc
    | cons a t ih =>
      intro cur gs fs' hsame hcur hdis hrun hsrc hagree
      obtain ⟨stem, d⟩ := a
      rw [List.pairwise_cons] at hdis
      have hs2 : SameFactor fl rate factor F t := fun src hs => hsame src (List.mem_cons_of_mem _ hs)
      have hc2 : SameFactor fl rate cur F t := fun src hs => hcur src (List.mem_cons_of_mem _ hs)
      unfold cliDownsample at hrun
      cases ho : openReader fl d with
      | error e =>
        rw [ho] at hrun
        dsimp only at hrun
        split_ifs at hrun
        swap
        · simp at hrun
        rcases List.mem_cons.mp hsrc with rfl | hmem
        · simp [cliOutputs, ho] at hp
        · exact ih cur gs fs' hs2 hc2 hdis.2 hrun hmem hagree
      | ok s =>
        rw [ho] at hrun
        dsimp only at hrun
        have hF := hsame (stem, d) (by simp) s ho
        have hF' := hcur (stem, d) (by simp) s ho
        rw [hF'] at hrun
        have hst : SameFactor fl rate F F t := fun src hs s' ho' => cliFactor_stable hF (hs2 src hs s' ho')
        have hout : cliOutputs fl start stop rate factor (stem, d) = (cliList F).map (s.cutName fl stem start stop) := by simp [cliOutputs, ho, hF]
        -- the rest of the files
        obtain ⟨gs', r, hx⟩ : ∃ gs' r, cliFile fl f s stem start stop (cliList F) gs = (gs', r) := ⟨_, _, rfl⟩
        rw [hx] at hrun
        have hrest : cliDownsample fl f start stop rate t F gs' = (fs', .ok ()) := by
          cases r with
          | ok u => exact hrun
          | error e =>
            dsimp only at hrun
            split_ifs at hrun
            · exact hrun
            · simp at hrun
        rcases List.mem_cons.mp hsrc with rfl | hmem
        · have h2 := cliDownsample_other fl f start stop rate factor F F t gs' hs2 hst p (fun b hb => hdis.1 b hb p hp)
          rw [hrest] at h2
          obtain ⟨h3, h4⟩ := cliFile_congr fl f s stem start stop (cliList F) gs fs (cliOutputs fl start stop rate factor (stem, d))
            (fun q hq => by rw [hout]; exact List.mem_map_of_mem hq) hagree
          have h5 := h4 p hp
          rw [hx] at h5
          dsimp only at h2 h5
          rw [h2, h5]
          unfold cliDownsample
          rw [ho]
          dsimp only
          rw [hF]
          generalize cliFile fl f s stem start stop (cliList F) fs = y
          obtain ⟨hs', r'⟩ := y
          cases r' with
          | ok u => rfl
          | error e => dsimp only; split_ifs <;> rfl
        · apply ih F gs' fs' hs2 hst hdis.2 hrest hmem
          intro q hq
          rw [← hagree q hq]
          have h6 := cliFile_other fl f s stem start stop (cliList F) gs q
          rw [hx] at h6
          apply h6
          intro hc
          rw [← hout] at hc
          exact hdis.1 src hmem q hc hq
  exact key srcs factor fs fs' hsame hsame hdis hrun hsrc (fun _ _ => rfl)

/-- A given factor is the same for all. -/
theorem C68_given (fl : ℚ → ℚ) (rate : Option ℤ) (q : ℚ) (srcs : List (String × DiskFile)) : SameFactor fl rate (some q) (some q) srcs := by
  intro src _ s _
  cases rate <;> rfl

/-- **C68, violated: the sample rate of the first file counts.**  Asked for 1000 samples per second, a recording with 10 kHz is reduced by 10, but by 100 if another one with 100 kHz comes first. -/
theorem C68_rate_violated (fl : ℚ → ℚ) (h : Rounding fl) (f : SampleFilter ℤ σ) (a b : H5File) (sa sb : Session) (na nb : String) (fs : Files) (start stop : Option ℚ)
    (ha : openSession fl a = .ok sa) (hb : openSession fl b = .ok sb) (hra : sa.stats.samplerate = 100000) (hrb : sb.stats.samplerate = 10000) :
    (cliDownsample fl f start stop (some 1000) [(nb, .hdf5 b)] none fs).1 = (cliFile fl f sb nb start stop [10] fs).1 ∧
    ∀ fs1 r, cliDownsample fl f start stop (some 1000) [(na, .hdf5 a)] none fs = (fs1, .ok r) →
      (cliDownsample fl f start stop (some 1000) [(na, .hdf5 a), (nb, .hdf5 b)] none fs).1 = (cliFile fl f sb nb start stop [100] fs1).1 := by
  have e10 : fl ((10000 : ℤ) / ((1000 : ℤ) : ℚ)) = 10 := by
    rw [show ((10000 : ℤ) : ℚ) / ((1000 : ℤ) : ℚ) = ((10 : ℤ) : ℚ) by norm_num, h.exactInt 10 (by norm_num)]; norm_num
  have e100 : fl ((100000 : ℤ) / ((1000 : ℤ) : ℚ)) = 100 := by
    rw [show ((100000 : ℤ) : ℚ) / ((1000 : ℤ) : ℚ) = ((100 : ℤ) : ℚ) by norm_num, h.exactInt 100 (by norm_num)]; norm_num
  have last : ∀ (x : Files × Except PyErr Unit) (g : Option ℚ), (match x with
      | (fs', .error e) => if cliCaught e then cliDownsample fl f start stop (some 1000) [] g fs' else (fs', .error e)
      | (fs', .ok _) => cliDownsample fl f start stop (some 1000) [] g fs').1 = x.1 := by
    rintro ⟨fs', r⟩ g
    cases r with
    | ok u => rfl
    | error e => dsimp only; split_ifs <;> rfl
  have lb : cliList (some 10) = [10] := by simp [cliList]
  have la : cliList (some 100) = [100] := by simp [cliList]
  constructor
  · unfold cliDownsample
    simp only [openReader, hb, cliFactor, hrb, e10]
    rw [if_pos (by norm_num), lb]
    exact last _ _
  · intro fs1 r hrun
    have hfa : cliFactor fl sa none (some 1000) = some 100 := by
      simp only [cliFactor, hra, e100]; norm_num
    have hfb : cliFactor fl sb (some 100) (some 1000) = some 100 := rfl
    unfold cliDownsample at hrun ⊢
    simp only [openReader, ha, hfa, la] at hrun ⊢
    generalize cliFile fl f sa na start stop [100] fs = x at hrun
    obtain ⟨fs', r'⟩ := x
    have hb' : (cliDownsample fl f start stop (some 1000) [(nb, .hdf5 b)] (some 100) fs').1 = (cliFile fl f sb nb start stop [100] fs').1 := by
      unfold cliDownsample
      simp only [openReader, hb, hfb, la]
      exact last _ _
    cases r' with
    | ok u =>
      simp only [cliDownsample, Prod.mk.injEq] at hrun
      rw [← hrun.1]
      exact hb'
    | error e =>
      dsimp only at hrun ⊢
      split_ifs at hrun ⊢ with hc
      swap
      · simp at hrun
      simp only [cliDownsample, Prod.mk.injEq] at hrun
      rw [← hrun.1]
      exact hb'

/-- **C68, violated: one faulty file ends the command.**  An HDF5-file without recording raises a KeyError, the files after it are not processed. -/
theorem C68_abort_violated (fl : ℚ → ℚ) (f : SampleFilter ℤ σ) (a : H5File) (na : String) (rest : List (String × DiskFile)) (fs : Files) (start stop : Option ℚ) (rate : Option ℤ)
    (factor : Option ℚ) (ha : a.data = none) : cliDownsample fl f start stop rate ((na, .hdf5 a) :: rest) factor fs = (fs, .error .keyError) := by
  have : openSession fl a = .error .keyError := by simp [openSession, ha]
  unfold cliDownsample
  simp only [openReader, this]
  rfl

/-- Files that existed are not changed by the command, whatever the recordings are. -/
theorem C68_untouched (fl : ℚ → ℚ) (f : SampleFilter ℤ σ) (start stop : Option ℚ) (rate : Option ℤ) (factor : Option ℚ) (srcs : List (String × DiskFile)) (fs : Files) (p : String)
    (hp : (fs p).isSome) : (cliDownsample fl f start stop rate srcs factor fs).1 p = fs p := by
  have hfile : ∀ s stem qs (fs : Files), (fs p).isSome → (cliFile fl f s stem start stop qs fs).1 p = fs p := by
    intro s stem qs
    induction qs with
    | nil => intro fs _; rfl
    | cons q t ih =>
      intro fs hp
      have h1 := C64_untouched fl f s fs stem start stop q p hp
      unfold cliFile
      generalize s.cutToFile fl f fs stem start stop q = x at h1
      obtain ⟨fs', r⟩ := x
      cases r with
      | error e => exact h1
      | ok d => exact (ih fs' (by rw [show fs' p = fs p from h1]; exact hp)).trans h1
  induction srcs generalizing fs factor with
  | nil => rfl
  | cons a t ih =>
    obtain ⟨stem, d⟩ := a
    unfold cliDownsample
    cases openReader fl d with
    | error e =>
      dsimp only
      split_ifs
      · exact ih factor fs hp
      · rfl
    | ok s =>
      dsimp only
      have h1 := hfile s stem (cliList (cliFactor fl s factor rate)) fs hp
      generalize cliFile fl f s stem start stop (cliList (cliFactor fl s factor rate)) fs = x at h1
      obtain ⟨fs', r⟩ := x
      have h2 : (fs' p).isSome := by rw [show fs' p = fs p from h1]; exact hp
      cases r with
      | error e =>
        dsimp only
        split_ifs
        · exact (ih _ fs' h2).trans h1
        · exact h1
      | ok u => exact (ih _ fs' h2).trans h1

/-! ### The hypotheses are met -/

/-- Recordings as in `C67_regular`: the command accepts a directory with two of them. -/
example : validateExit b64 [.hdf5 (demoFile b64 20000), .hdf5 (demoFile b64 700000)] = 0 := by
  apply C67_regular b64 b64_accRounding
  have key : ∀ m, 10001 ≤ m → m ≤ 2 ^ 39 → ∃ g s t0 k, DiskFile.hdf5 (demoFile b64 m) = .hdf5 g ∧ openSession b64 g = .ok s ∧ WellFormed g ∧
      s.cal.time = (CalSeries.default b64).time ∧ 10001 ≤ k ∧ s.get .time = regular t0 k := by
    intro m h1 h2
    obtain ⟨st, h3, -⟩ := demo_open b64_accRounding m (by omega) h2
    exact ⟨_, _, 0, m, rfl, h3, demo_wellFormed b64 m, rfl, h1, rfl⟩
  intro d hd
  simp only [List.mem_cons, List.not_mem_nil, or_false] at hd
  rcases hd with rfl | rfl
  · exact key _ (by norm_num) (by norm_num)
  · exact key _ (by norm_num) (by norm_num)

/-- The recording of `C67_short_violated`: well formed, can be opened, 5000 samples. -/
example : ∃ s, openSession b64 (demoFile b64 5000) = .ok s ∧ WellFormed (demoFile b64 5000) ∧ (s.get .time).length ≤ 10000 := by
  obtain ⟨st, h3, -⟩ := demo_open b64_accRounding 5000 (by norm_num) (by norm_num)
  refine ⟨_, h3, demo_wellFormed b64 5000, ?_⟩
  rw [(demo_facts b64_accRounding 5000 st).1, (demo_facts b64_accRounding 5000 st).2.1]
  norm_num

/-- The hypotheses of `C68_independent_partial`: two recordings in an empty directory, reduced by 2. -/
example (f : SampleFilter ℤ σ) (m : ℕ) (hm : m = 120000) : ∃ fs', SameFactor b64 none (some 2) (some 2) [("a", .hdf5 (demoFile b64 m)), ("b", .hdf5 (demoFile b64 m))] ∧
    [("a", DiskFile.hdf5 (demoFile b64 m)), ("b", .hdf5 (demoFile b64 m))].Pairwise
      (fun x y => ∀ p ∈ cliOutputs b64 none none none (some 2) x, p ∉ cliOutputs b64 none none none (some 2) y) ∧
    cliDownsample b64 f none none none [("a", .hdf5 (demoFile b64 m)), ("b", .hdf5 (demoFile b64 m))] (some 2) (fun _ => none) = (fs', .ok ()) ∧
    cliOutputs b64 none none none (some 2) ("b", .hdf5 (demoFile b64 m)) = ["b.downsample_x2.h5"] := by
  obtain ⟨st, ho, hr⟩ := demo_open b64_accRounding m (by omega) (by omega)
  obtain ⟨h0, h1, hv, hcal, hd⟩ := demo_facts b64_accRounding m st
  obtain ⟨ha, hb⟩ := C64_whole b64_accRounding (demoSession b64 m st) 12 (by norm_num) hr (by rw [h1, hm])
  rw [h1] at hb
  have hl : cliList (some 2) = [2] := by simp [cliList]
  have hf : cliFactor b64 (demoSession b64 m st) (some 2) none = some 2 := rfl
  have hout : ∀ stem, cliOutputs b64 none none none (some 2) (stem, .hdf5 (demoFile b64 m)) = [stem ++ ".downsample_x2" ++ ".h5"] := by
    intro stem
    simp only [cliOutputs, openReader, ho, hf, hl, List.map_cons, List.map_nil, cutName_x2]
  have hcut : ∀ stem fs, ∃ fs', (demoSession b64 m st).cutToFile b64 f fs stem none none 2 = (fs', .ok ((demoSession b64 m st).cutName b64 stem none none 2)) := by
    intro stem fs
    obtain ⟨fs', file, h, -⟩ := C64_created b64_accRounding f (demoSession b64 m st) fs stem none none 2 h0 (by rw [h1, hm]; norm_num) (by norm_num) (by norm_num) hv hcal hd
      (.inl (by rw [show ⌊(2 : ℚ)⌋ = 2 from Int.floor_intCast 2]; decide)) (by rw [ha, hb, hm]; norm_num)
    exact ⟨fs', h⟩
  obtain ⟨f1, e1⟩ := hcut "a" (fun _ => none)
  obtain ⟨f2, e2⟩ := hcut "b" f1
  refine ⟨f2, C68_given b64 none 2 _, ?_, ?_, ?_⟩
  · simp only [hout, List.pairwise_cons, List.mem_cons, List.not_mem_nil, or_false, forall_eq, List.Pairwise.nil, and_true, false_implies, implies_true]
    decide
  · simp only [cliDownsample, openReader, ho, hf, hl, cliFile, e1, e2]
  · rw [hout]; rfl

end
end Verif.Props
