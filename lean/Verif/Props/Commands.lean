import Verif.Model.Commands
import Verif.Props.Cli
import Verif.Props.Export
import Verif.Props.Plot
import Verif.Props.Meta

/-!
# C92: the commands `extract`, `extract-meta` and `plot`
-/

namespace Verif.Props
open Verif.Py Verif.Model

/-! ## Specification -/

/-- A command on several files ends normally, and does for each what it does if that file is the only one: what changes for one file alone is so in the end, and nothing else changes. -/
def EachByItself {α S ι V : Type} (get : S → ι → V) (run : List α → S → S × Except PyErr Unit) (files : List α) (d : S) : Prop :=
  (run files d).2 = .ok () ∧
  (∀ p, (∀ x ∈ files, get (run [x] d).1 p = get d p) → get (run files d).1 p = get d p) ∧
  ∀ p, ∀ x ∈ files, get (run [x] d).1 p ≠ get d p → get (run files d).1 p = get (run [x] d).1 p

/-! ## Loops -/

section Loop
variable {α S ι V : Type} (get : S → ι → V)

/-- A step writes only what belongs to its file, and depends on nothing else. -/
structure Confined (owns : α → ι → Prop) (step : α → S → S × Except PyErr Unit) : Prop where
  writes : ∀ a s i, ¬ owns a i → get (step a s).1 i = get s i
  reads : ∀ a s s', (∀ i, owns a i → get s i = get s' i) → (step a s).2 = (step a s').2 ∧ ∀ i, owns a i → get (step a s).1 i = get (step a s').1 i

variable {get} {caught : PyErr → Bool} {step : α → S → S × Except PyErr Unit} {owns : α → ι → Prop}

theorem cmdLoop_cons (a : α) (t : List α) (s : S) (h : (step a s).2 = .ok () ∨ ∃ e, (step a s).2 = .error e ∧ caught e = true) :
    cmdLoop caught step (a :: t) s = cmdLoop caught step t (step a s).1 := by
  rw [cmdLoop]
  generalize step a s = x at *
  obtain ⟨s', r⟩ := x
  rcases h with h | ⟨e, h, hc⟩
  · subst h; rfl
  · subst h; dsimp only; rw [if_pos hc]

theorem cmdLoop_one (a : α) (s : S) : (cmdLoop caught step [a] s).1 = (step a s).1 ∧
    ((cmdLoop caught step [a] s).2 = .ok () ↔ ((step a s).2 = .ok () ∨ ∃ e, (step a s).2 = .error e ∧ caught e = true)) := by
  rw [cmdLoop]
  generalize step a s = x
  obtain ⟨s', r⟩ := x
  cases r with
  | ok u => simp [cmdLoop]
  | error e =>
    dsimp only
    by_cases h : caught e = true
    · rw [if_pos h]; simp [cmdLoop, h]
    · rw [if_neg h]; simp [h]

theorem loop_frame (hc : Confined get owns step) (files : List α) (s : S) (hdis : files.Pairwise (fun a b => ∀ i, owns a i → ¬ owns b i))
    (hok : ∀ a ∈ files, (step a s).2 = .ok () ∨ ∃ e, (step a s).2 = .error e ∧ caught e = true) :
    (cmdLoop caught step files s).2 = .ok () ∧ (∀ a ∈ files, ∀ i, owns a i → get (cmdLoop caught step files s).1 i = get (step a s).1 i) ∧
    ∀ i, (∀ a ∈ files, ¬ owns a i) → get (cmdLoop caught step files s).1 i = get s i := by
  induction files generalizing s with
  | nil => exact ⟨rfl, by simp, fun _ _ => rfl⟩
  | cons a t ih =>
    rw [List.pairwise_cons] at hdis
    have same : ∀ b ∈ t, (step b (step a s).1).2 = (step b s).2 ∧ ∀ i, owns b i → get (step b (step a s).1).1 i = get (step b s).1 i := by
      intro b hb
      refine hc.reads b _ _ (fun i hi => hc.writes a s i (fun ha => hdis.1 b hb i ha hi))
    obtain ⟨h1, h2, h3⟩ := ih (step a s).1 hdis.2 (by
      intro b hb
      rw [(same b hb).1]
      exact hok b (by simp [hb]))
    rw [cmdLoop_cons a t s (hok a (by simp))]
    refine ⟨h1, ?_, ?_⟩
    · intro b hb i hi
      rcases List.mem_cons.mp hb with rfl | hb
      · exact h3 i (fun c hcm hci => hdis.1 c hcm i hi hci)
      · rw [h2 b hb i hi]; exact (same b hb).2 i hi
    · intro i hi
      rw [h3 i (fun b hb => hi b (by simp [hb]))]
      exact hc.writes a s i (hi a (by simp))

theorem loop_each (hc : Confined get owns step) (files : List α) (s : S) (hdis : files.Pairwise (fun a b => ∀ i, owns a i → ¬ owns b i))
    (hok : ∀ a ∈ files, (cmdLoop caught step [a] s).2 = .ok ()) : EachByItself get (cmdLoop caught step) files s := by
  obtain ⟨h1, h2, h3⟩ := loop_frame hc files s hdis (fun a ha => (cmdLoop_one a s).2.mp (hok a ha))
  refine ⟨h1, ?_, ?_⟩
  · intro p hp
    by_cases ho : ∃ a ∈ files, owns a p
    · obtain ⟨a, ha, hap⟩ := ho
      rw [h2 a ha p hap, ← (cmdLoop_one (caught := caught) a s).1]
      exact hp a ha
    · push Not at ho
      exact h3 p ho
  · intro p x hx hne
    rw [(cmdLoop_one (caught := caught) x s).1] at hne ⊢
    have ho : owns x p := by
      by_contra hn
      exact hne (hc.writes x s p hn)
    exact h2 x hx p ho

/-- A file for which a step does nothing but raise something that is caught can be left out. -/
theorem loop_skip (files : List α) (s : S) (P : α → Bool) (hP : ∀ a s, P a = false → ∃ e, step a s = (s, .error e) ∧ caught e = true) :
    cmdLoop caught step files s = cmdLoop caught step (files.filter P) s := by
  induction files generalizing s with
  | nil => rfl
  | cons a t ih =>
    cases h : P a with
    | true =>
      rw [List.filter_cons_of_pos h, cmdLoop, cmdLoop]
      generalize step a s = x
      obtain ⟨s', r⟩ := x
      cases r with
      | ok u => exact ih s'
      | error e =>
        dsimp only
        split_ifs
        · exact ih s'
        · rfl
    | false =>
      rw [List.filter_cons_of_neg (by simp [h])]
      obtain ⟨e, he, hce⟩ := hP a s h
      rw [cmdLoop_cons a t s (.inr ⟨e, by rw [he], hce⟩), he]
      exact ih s

/-- What every step keeps, a loop keeps. -/
theorem loop_keeps (Q : S → Prop) (hQ : ∀ a s, Q s → Q (step a s).1) (files : List α) (s : S) (h : Q s) : Q (cmdLoop caught step files s).1 := by
  induction files generalizing s with
  | nil => exact h
  | cons a t ih =>
    have := hQ a s h
    rw [cmdLoop]
    generalize step a s = x at *
    obtain ⟨s', r⟩ := x
    cases r with
    | ok u => exact ih s' this
    | error e =>
      dsimp only
      split_ifs
      · exact ih s' this
      · exact this

/-- An exception that is not caught ends the loop: nothing is done for the files behind. -/
theorem loop_abort (pre : List α) (a : α) (t : List α) (s : S) (e : PyErr) (hpre : (cmdLoop caught step pre s).2 = .ok ())
    (ha : (step a (cmdLoop caught step pre s).1).2 = .error e) (he : caught e = false) :
    cmdLoop caught step (pre ++ a :: t) s = ((step a (cmdLoop caught step pre s).1).1, .error e) := by
  induction pre generalizing s with
  | nil =>
    simp only [List.nil_append, cmdLoop] at ha ⊢
    generalize step a s = x at *
    obtain ⟨s', r⟩ := x
    dsimp only at ha
    subst ha
    dsimp only
    rw [if_neg (by simp [he])]
  | cons b u ih =>
    rw [cmdLoop] at hpre ha
    simp only [List.cons_append]
    rw [cmdLoop, cmdLoop]
    generalize step b s = x at *
    obtain ⟨s', r⟩ := x
    cases r with
    | ok v => exact ih s' hpre ha
    | error e' =>
      dsimp only at hpre ha ⊢
      split_ifs at hpre ha ⊢
      · exact ih s' hpre ha

end Loop

/-! ## Names -/

theorem dot_split : ∀ (x y u v : List Char), '.' ∉ u → '.' ∉ v → x ++ '.' :: u = y ++ '.' :: v → x = y ∧ u = v := by
  intro x y u v hu hv h
  have hr := congrArg List.reverse h
  simp only [List.reverse_append, List.reverse_cons, List.append_assoc, List.singleton_append] at hr
  have : ∀ (a b c d : List Char), '.' ∉ a → '.' ∉ b → a ++ '.' :: c = b ++ '.' :: d → a = b ∧ c = d := by
    intro a
    induction a with
    | nil =>
      intro b c d _ hb he
      cases b with
      | nil => simpa using he
      | cons z b =>
        simp only [List.nil_append, List.cons_append, List.cons.injEq] at he
        exact absurd (by rw [he.1]; simp) hb
    | cons w a ih =>
      intro b c d ha hb he
      cases b with
      | nil =>
        simp only [List.nil_append, List.cons_append, List.cons.injEq] at he
        exact absurd (by rw [he.1]; simp) ha
      | cons z b =>
        simp only [List.cons_append, List.cons.injEq] at he
        obtain ⟨h1, h2⟩ := ih b c d (fun hm => ha (by simp [hm])) (fun hm => hb (by simp [hm])) he.2
        exact ⟨by rw [he.1, h1], h2⟩
  obtain ⟨h1, h2⟩ := this _ _ _ _ (by simpa using hu) (by simpa using hv) hr
  exact ⟨List.reverse_injective h2, List.reverse_injective h1⟩

theorem digits_noDot (n : ℕ) : '.' ∉ (toString n).toList := by
  intro h
  have hd := (repr_decimal n).2.1 '.' (by
    have : (toString n).toList = Nat.toDigits 10 n := by show (Nat.repr n).toList = _; simp [Nat.repr]
    rwa [this] at h)
  revert hd; decide

theorem secStr_noDot (x : ℚ) : '.' ∉ (secStr x).toList := by
  unfold secStr
  dsimp only
  simp only [String.toList_append, List.mem_append, not_or]
  refine ⟨⟨⟨digits_noDot _, by decide⟩, ?_⟩, digits_noDot _⟩
  split_ifs <;> decide

/-! ## plot -/

section Plot
variable {σ : Type}

theorem picName_inj {stem stem' kind : String} {t t' : PlotData} (hk : ∃ k, kind.toList = '.' :: k ∧ '.' ∉ k) (h : picName stem kind t = picName stem' kind t') : stem = stem' := by
  obtain ⟨k, hk, hd⟩ := hk
  have h1 := congrArg String.toList h
  unfold picName at h1
  simp only [String.toList_append, List.append_assoc, hk, List.cons_append] at h1
  rw [show (".png" : String).toList = '.' :: ['p', 'n', 'g'] from rfl] at h1
  have nd : ∀ u : PlotData, '.' ∉ k ++ ((secStr u.start).toList ++ ("_to_".toList ++ (secStr u.stop).toList)) := by
    intro u
    simp only [List.mem_append, not_or]
    exact ⟨hd, secStr_noDot _, by decide, secStr_noDot _⟩
  have h2 : ∀ (st : String) (u : PlotData), st.toList ++ '.' :: (k ++ ((secStr u.start).toList ++ ("_to_".toList ++ ((secStr u.stop).toList ++ '.' :: ['p', 'n', 'g'])))) =
      (st.toList ++ '.' :: (k ++ ((secStr u.start).toList ++ ("_to_".toList ++ (secStr u.stop).toList)))) ++ '.' :: ['p', 'n', 'g'] := by
    intro st u
    simp [List.append_assoc]
  rw [h2, h2] at h1
  have h3 := (dot_split _ _ _ _ (by decide) (by decide) h1).1
  exact String.toList_inj.mp (dot_split _ _ _ _ (nd t) (nd t') h3).1

/-- The data of a recording for a plot, if it is shown. -/
def plotTrace (fl : ℚ → ℚ) (f : SampleFilter ℚ σ) (start stop : Option ℚ) (x : String × DiskFile) : Option PlotData :=
  match openReader fl x.2 with
  | .error _ => none
  | .ok s =>
    match s.plotData fl f start stop true with
    | .ok (some t) => some t
    | _ => none

theorem plotFile_eq (fl : ℚ → ℚ) (f : SampleFilter ℚ σ) (start stop : Option ℚ) (pw : Bool) (x : String × DiskFile) :
    (∃ t, plotTrace fl f start stop x = some t ∧ ∀ d : PicDir, plotFile fl f start stop pw x d =
      (if (d (picName x.1 ".plot_" t)).isSome then d else fun p => if p = picName x.1 ".plot_" t then some ⟨[t], pw⟩ else d p, .ok ())) ∨
    (plotTrace fl f start stop x = none ∧ ∃ r, ∀ d : PicDir, plotFile fl f start stop pw x d = (d, r)) := by
  unfold plotTrace plotFile
  cases openReader fl x.2 with
  | error e => exact .inr ⟨rfl, _, fun _ => rfl⟩
  | ok s =>
    dsimp only
    cases s.plotData fl f start stop true with
    | error e => exact .inr ⟨rfl, _, fun _ => rfl⟩
    | ok o =>
      cases o with
      | none => exact .inr ⟨rfl, _, fun _ => rfl⟩
      | some t =>
        refine .inl ⟨t, rfl, fun d => ?_⟩
        dsimp only
        split_ifs <;> rfl

theorem plotFile_confined (fl : ℚ → ℚ) (f : SampleFilter ℚ σ) (start stop : Option ℚ) (pw : Bool) :
    Confined (fun (d : PicDir) p => d p) (fun (x : String × DiskFile) p => ∃ t, plotTrace fl f start stop x = some t ∧ p = picName x.1 ".plot_" t) (plotFile fl f start stop pw) := by
  constructor
  · intro x d p hp
    rcases plotFile_eq fl f start stop pw x with ⟨t, ht, h⟩ | ⟨-, r, h⟩
    · rw [h]
      dsimp only
      split_ifs
      · rfl
      · exact if_neg (fun hc => hp ⟨t, ht, hc⟩)
    · rw [h]
  · intro x d d' hdd
    rcases plotFile_eq fl f start stop pw x with ⟨t, ht, h⟩ | ⟨hn, r, h⟩
    · rw [h, h]
      refine ⟨rfl, ?_⟩
      rintro p ⟨t', ht', rfl⟩
      rw [ht] at ht'
      cases ht'
      have e := hdd _ ⟨t, ht, rfl⟩
      dsimp only at e ⊢
      rw [← e]
      split_ifs
      · exact e
      · simp
    · rw [h, h]
      exact ⟨rfl, fun p hp => hdd p hp⟩

/-- **C92, plots of several recordings.**  If each of them alone can be plotted (or is skipped), `plot` ends normally, and for each recording there is the picture that plotting it alone gives; nothing else changes. -/
theorem C92_plot (fl : ℚ → ℚ) (f : SampleFilter ℚ σ) (start stop : Option ℚ) (pw : Bool) (stem : String) (files : List (String × DiskFile)) (d : PicDir)
    (hnames : (files.map Prod.fst).Nodup) (hok : ∀ x ∈ files, (cliPlot fl f start stop false pw stem [x] d).2 = .ok ()) :
    EachByItself (fun (d : PicDir) p => d p) (cliPlot fl f start stop false pw stem) files d := by
  have hrun : cliPlot fl f start stop false pw stem = cmdLoop typeCaught (plotFile fl f start stop pw) := by
    funext l d; simp [cliPlot]
  rw [hrun] at hok ⊢
  refine loop_each (plotFile_confined fl f start stop pw) files d ?_ hok
  rw [List.Nodup, List.pairwise_map] at hnames
  refine hnames.imp ?_
  rintro x y hxy p ⟨t, -, rfl⟩ ⟨t', -, h2⟩
  exact hxy (picName_inj ⟨_, rfl, by decide⟩ h2)

/-- **C92, pictures are kept.**  Whatever happens, with or without exception, no picture that exists is changed. -/
theorem C92_plot_kept (fl : ℚ → ℚ) (f : SampleFilter ℚ σ) (start stop : Option ℚ) (multi pw : Bool) (stem : String) (files : List (String × DiskFile)) (d : PicDir) (p : String) (pic : Picture)
    (hp : d p = some pic) : (cliPlot fl f start stop multi pw stem files d).1 p = some pic := by
  have step : ∀ (x : String × DiskFile) (d : PicDir), d p = some pic → (plotFile fl f start stop pw x d).1 p = some pic := by
    intro x d hd
    rcases plotFile_eq fl f start stop pw x with ⟨t, ht, h⟩ | ⟨hn, r, h⟩
    · rw [h]
      dsimp only
      split_ifs with hs
      · exact hd
      · dsimp only
        rw [if_neg]
        · exact hd
        · rintro rfl
          rw [hd] at hs
          simp at hs
    · rw [h]; exact hd
  unfold cliPlot
  split_ifs
  · split
    · exact hp
    · unfold multiplotToFile
      split
      · exact hp
      · dsimp only
        split_ifs with hs
        · exact hp
        · dsimp only
          rw [if_neg]
          · exact hp
          · rintro rfl
            rw [hp] at hs
            simp at hs
  · exact loop_keeps (fun d : PicDir => d p = some pic) step files d hp

/-- **C92, unreadable files are skipped.**  Without the files that are no recordings, the result is the same. -/
theorem C92_plot_unreadable (fl : ℚ → ℚ) (f : SampleFilter ℚ σ) (start stop : Option ℚ) (pw : Bool) (stem : String) (files : List (String × DiskFile)) (d : PicDir) :
    cliPlot fl f start stop false pw stem files d = cliPlot fl f start stop false pw stem (files.filter (fun x => match x.2 with | .notHdf5 => false | .hdf5 _ => true)) d := by
  have hrun : cliPlot fl f start stop false pw stem = cmdLoop typeCaught (plotFile fl f start stop pw) := by
    funext l d; simp [cliPlot]
  rw [hrun]
  refine loop_skip files d _ ?_
  rintro ⟨st, x⟩ d hx
  cases x with
  | notHdf5 => exact ⟨.typeError, rfl, rfl⟩
  | hdf5 h => cases hx

theorem multi_loop (fl : ℚ → ℚ) (f : SampleFilter ℚ σ) (start stop : Option ℚ) (files : List (String × DiskFile)) (acc : List PlotData) :
    (cmdLoop typeCaught (multiFile fl f start stop) files acc).2 = .ok () →
      (cmdLoop typeCaught (multiFile fl f start stop) files acc).1 = acc ++ files.filterMap (plotTrace fl f start stop) := by
  induction files generalizing acc with
  | nil => intro _; simp [cmdLoop]
  | cons x t ih =>
    rw [cmdLoop, List.filterMap_cons]
    unfold multiFile plotTrace
    cases openReader fl x.2 with
    | error e =>
      dsimp only
      split_ifs
      · exact ih acc
      · intro hc; cases hc
    | ok s =>
      dsimp only
      cases s.plotData fl f start stop true with
      | error e =>
        dsimp only
        split_ifs
        · exact ih acc
        · intro hc; cases hc
      | ok o =>
        cases o with
        | none => exact ih acc
        | some u =>
          intro h
          have := ih (acc ++ [u]) h
          rw [List.append_assoc] at this
          exact this

/-- **C92, multi-plots.**  When the command ends normally, there is a picture for the range of the first trace, and if it was not there before it shows the traces of all recordings that can be plotted, in
the order of the files, and nothing else. -/
theorem C92_multi (fl : ℚ → ℚ) (f : SampleFilter ℚ σ) (start stop : Option ℚ) (pw : Bool) (stem : String) (files : List (String × DiskFile)) (d : PicDir) (hmany : 1 < files.length)
    (hrun : (cliPlot fl f start stop true pw stem files d).2 = .ok ()) :
    ∃ t rest, files.filterMap (plotTrace fl f start stop) = t :: rest ∧
      ((cliPlot fl f start stop true pw stem files d).1 (picName stem ".multiplot_" t)).isSome ∧
      (d (picName stem ".multiplot_" t) = none → (cliPlot fl f start stop true pw stem files d).1 (picName stem ".multiplot_" t) = some ⟨t :: rest, pw⟩) ∧
      ∀ p, p ≠ picName stem ".multiplot_" t → (cliPlot fl f start stop true pw stem files d).1 p = d p := by
  unfold cliPlot at hrun ⊢
  rw [if_pos (by simp [hmany])] at hrun ⊢
  have h1 := multi_loop fl f start stop files []
  generalize cmdLoop typeCaught (multiFile fl f start stop) files [] = x at h1 hrun
  obtain ⟨data, r⟩ := x
  cases r with
  | error e => cases hrun
  | ok u =>
    have h2 : data = files.filterMap (plotTrace fl f start stop) := by simpa using h1 rfl
    dsimp only at hrun ⊢
    cases data with
    | nil => cases hrun
    | cons t rest =>
      refine ⟨t, rest, h2.symm, ?_, ?_, ?_⟩
      · unfold multiplotToFile
        dsimp only
        split_ifs with hs
        · exact hs
        · simp
      · intro hn
        unfold multiplotToFile
        dsimp only
        rw [if_neg (by simp [hn])]
        simp
      · intro p hp
        unfold multiplotToFile
        dsimp only
        split_ifs with hs
        · rfl
        · exact if_neg hp

/-- **C92, violated: a plot that fails stops the others.**  A recording of 36.0 to 39.9 million samples (six minutes) can not be plotted, see `C78_360s_violated`; the recordings behind it get no picture. -/
theorem C92_plot_abort_violated {fl : ℚ → ℚ} (h : AccRounding fl) (f : SampleFilter ℚ σ) (file : H5File) (s : Session) (hs : openSession fl file = .ok s) (h0 : EqualLengths s) (k : ℕ)
    (hk : 3601 ≤ k ∧ k ≤ 3999) (hrate : s.stats.samplerate = 100000) (hlen : (s.get .voltage).length = 10000 * k) (pw : Bool) (stem : String) (name : String)
    (behind : List (String × DiskFile)) (d : PicDir) :
    cliPlot fl f none none false pw stem ((name, .hdf5 file) :: behind) d = (d, .error .valueError) := by
  have hrun : cliPlot fl f none none false pw stem = cmdLoop typeCaught (plotFile fl f none none pw) := by
    funext l d; simp [cliPlot]
  have hd := (C78_360s_violated h f s h0 k hk hrate hlen true (fun _ => none) name).1
  have hp : plotFile fl f none none pw (name, .hdf5 file) d = (d, .error .valueError) := by
    simp only [plotFile, openReader, hs, hd]
  rw [hrun, show (name, DiskFile.hdf5 file) :: behind = [] ++ (name, DiskFile.hdf5 file) :: behind from rfl,
    loop_abort [] (name, .hdf5 file) behind d .valueError rfl (by simp only [cmdLoop]; rw [hp]) rfl]
  simp only [cmdLoop]
  rw [hp]

/-- **C92, violated: nothing to plot.**  If none of several files can be opened, `plot` ends with an IndexError. -/
theorem C92_multi_empty_violated (fl : ℚ → ℚ) (f : SampleFilter ℚ σ) (start stop : Option ℚ) (pw : Bool) (stem : String) (names : List String) (hn : 2 ≤ names.length) (d : PicDir) :
    cliPlot fl f start stop true pw stem (names.map fun n => (n, .notHdf5)) d = (d, .error .indexError) := by
  have hl : ∀ l : List String, cmdLoop typeCaught (multiFile fl f start stop) (l.map fun n => (n, DiskFile.notHdf5)) [] = ([], .ok ()) := by
    intro l
    induction l with
    | nil => rfl
    | cons a l ih => exact ih
  unfold cliPlot
  rw [if_pos (by simp; omega), hl]
  rfl

/-- **C92, violated: pictures of the power.**  After a plot of voltage and current, the plot of the power is skipped, since both have the same name: the picture stays the old one. -/
theorem C92_power_violated (fl : ℚ → ℚ) (f : SampleFilter ℚ σ) (start stop : Option ℚ) (stem name : String) (file : DiskFile) (d d' : PicDir) (t : PlotData)
    (ht : plotTrace fl f start stop (name, file) = some t) (hnew : d (picName name ".plot_" t) = none)
    (hrun : (cliPlot fl f start stop false false stem [(name, file)] d).1 = d') :
    d' (picName name ".plot_" t) = some ⟨[t], false⟩ ∧ cliPlot fl f start stop false true stem [(name, file)] d' = (d', .ok ()) := by
  have hr : ∀ pw, cliPlot fl f start stop false pw stem = cmdLoop typeCaught (plotFile fl f start stop pw) := by
    intro pw; funext l d; simp [cliPlot]
  have key : ∀ pw (e : PicDir), plotFile fl f start stop pw (name, file) e =
      (if (e (picName name ".plot_" t)).isSome then e else fun p => if p = picName name ".plot_" t then some ⟨[t], pw⟩ else e p, .ok ()) := by
    intro pw e
    rcases plotFile_eq fl f start stop pw (name, file) with ⟨t', ht', h⟩ | ⟨hn, -⟩
    · rw [ht] at ht'; cases ht'; exact h e
    · rw [ht] at hn; cases hn
  have h1 : d' (picName name ".plot_" t) = some ⟨[t], false⟩ := by
    rw [← hrun, hr, (cmdLoop_one _ _).1, key, if_neg (by simp [hnew])]
    simp
  refine ⟨h1, ?_⟩
  rw [hr, cmdLoop_cons _ _ _ (.inl (by rw [key])), key, if_pos (by simp [h1])]
  rfl

end Plot

/-! ## extract-meta -/

/-- The text between the stem and the suffix has no dot. -/
theorem suffixed_inj {a b m n suf suf' : String} (hm : '.' ∉ m.toList) (hn : '.' ∉ n.toList) (hs : '.' ∉ suf.toList) (hs' : '.' ∉ suf'.toList)
    (h : a ++ "." ++ m ++ "." ++ suf = b ++ "." ++ n ++ "." ++ suf') : a = b ∧ m = n ∧ suf = suf' := by
  have h1 := congrArg String.toList h
  simp only [String.toList_append] at h1
  rw [show (".".toList : List Char) = ['.'] from rfl] at h1
  have h2 : ∀ x y z : List Char, x ++ ['.'] ++ y ++ ['.'] ++ z = (x ++ '.' :: y) ++ '.' :: z := by intro x y z; simp
  rw [h2, h2] at h1
  obtain ⟨h3, h4⟩ := dot_split _ _ _ _ hs hs' h1
  obtain ⟨h5, h6⟩ := dot_split _ _ _ _ hm hn h3
  exact ⟨String.toList_inj.mp h5, String.toList_inj.mp h6, String.toList_inj.mp h4⟩

theorem suffix_inj {a b suf suf' : String} (hs : '.' ∉ suf.toList) (hs' : '.' ∉ suf'.toList) (h : a ++ "." ++ suf = b ++ "." ++ suf') : a = b ∧ suf = suf' := by
  have h1 := congrArg String.toList h
  simp only [String.toList_append] at h1
  rw [show (".".toList : List Char) = ['.'] from rfl] at h1
  have h2 : ∀ x z : List Char, x ++ ['.'] ++ z = x ++ '.' :: z := by intro x z; simp
  rw [h2, h2] at h1
  obtain ⟨h3, h4⟩ := dot_split _ _ _ _ hs hs' h1
  exact ⟨String.toList_inj.mp h3, String.toList_inj.mp h4⟩

/-- The outputs of `extract-meta` for a recording. -/
def metaOutput (stem p : String) : Prop :=
  p = stem ++ ".yaml" ∨ (∃ n ∈ ["ptp", "sys_util", "pru_util", "sysutil", "timesync"], p = stem ++ "." ++ n ++ ".csv") ∨
    ∃ n ∈ ["sheep", "kernel", "phc2sys", "uart", "shepherd-log", "dmesg", "exceptions"], p = stem ++ "." ++ n ++ ".log"

theorem names_noDot : (∀ n ∈ tableNames, '.' ∉ n.toList) ∧ ∀ n ∈ logNames, '.' ∉ n.toList := by decide

theorem metaOutput_dots {stem p : String} (h : metaOutput stem p) :
    (p = stem ++ "." ++ "yaml") ∨ (∃ n, '.' ∉ n.toList ∧ p = stem ++ "." ++ n ++ "." ++ "csv") ∨ ∃ n, '.' ∉ n.toList ∧ p = stem ++ "." ++ n ++ "." ++ "log" := by
  rcases h with h | ⟨n, hn, h⟩ | ⟨n, hn, h⟩
  · left; rw [h, String.append_assoc]; rfl
  · right; left; exact ⟨n, names_noDot.1 n hn, by rw [h, String.append_assoc (s₃ := "csv")]; rfl⟩
  · right; right; exact ⟨n, names_noDot.2 n hn, by rw [h, String.append_assoc (s₃ := "log")]; rfl⟩

theorem metaOutput_disjoint {a b p : String} (ha : metaOutput a p) (hb : metaOutput b p) : a = b := by
  have d1 : '.' ∉ ("yaml" : String).toList := by decide
  have d2 : '.' ∉ ("csv" : String).toList := by decide
  have d3 : '.' ∉ ("log" : String).toList := by decide
  rcases metaOutput_dots ha with h | ⟨n, hn, h⟩ | ⟨n, hn, h⟩ <;> rcases metaOutput_dots hb with h' | ⟨n', hn', h'⟩ | ⟨n', hn', h'⟩ <;> rw [h] at h'
  · exact (suffix_inj d1 d1 h').1
  · exact absurd (suffix_inj d1 d2 h').2 (by decide)
  · exact absurd (suffix_inj d1 d3 h').2 (by decide)
  · exact absurd (suffix_inj d2 d1 h').2 (by decide)
  · exact (suffixed_inj hn hn' d2 d2 h').1
  · exact absurd (suffix_inj d2 d3 h').2 (by decide)
  · exact absurd (suffix_inj d3 d1 h').2 (by decide)
  · exact absurd (suffix_inj d3 d2 h').2 (by decide)
  · exact (suffixed_inj hn hn' d3 d3 h').1

/-- A step works on one path only: it is kept if it exists, and the rest of the directory does not matter. -/
def OnePath (path : String) (step : OutDir → OutDir × Except PyErr Unit) : Prop :=
  (∀ d p, p ≠ path → (step d).1 p = d p) ∧ (∀ d d' : OutDir, d path = d' path → (step d).2 = (step d').2 ∧ (step d).1 path = (step d').1 path) ∧
    ∀ d o, d path = some o → (step d).1 path = some o

theorem put_other (d : OutDir) (path : String) (o : Option OutFile) (p : String) (h : p ≠ path) : d.put path o p = d p := if_neg h
theorem put_here (d : OutDir) (path : String) (o : Option OutFile) : d.put path o path = o := if_pos rfl

theorem metaStep_one (stem : String) (m : Except PyErr MetaMap) : OnePath (stem ++ ".yaml") (metaStep stem m) := by
  refine ⟨?_, ?_, ?_⟩
  · intro d p hp
    unfold metaStep
    split_ifs
    · rfl
    · cases m with
      | error e => rfl
      | ok m => exact put_other _ _ _ _ hp
  · intro d d' h
    unfold metaStep
    rw [h]
    split_ifs
    · exact ⟨rfl, h⟩
    · cases m with
      | error e => exact ⟨rfl, h⟩
      | ok m => exact ⟨rfl, (put_here _ _ _).trans (put_here _ _ _).symm⟩
  · intro d o h
    unfold metaStep
    rw [if_pos (by rw [h]; rfl)]
    exact h

theorem tableStep_one (fl : ℚ → ℚ) (stem : String) (tables : String → Option (Option CsvGroup)) (n : String) : OnePath (stem ++ "." ++ n ++ ".csv") (tableStep fl stem tables n) := by
  refine ⟨?_, ?_, ?_⟩
  · intro d p hp
    unfold tableStep
    cases tables n with
    | none => rfl
    | some g =>
      dsimp only
      split_ifs
      · rfl
      · exact put_other _ _ _ _ hp
  · intro d d' h
    unfold tableStep
    cases tables n with
    | none => exact ⟨rfl, h⟩
    | some g =>
      dsimp only
      rw [h]
      split_ifs
      · exact ⟨rfl, h⟩
      · exact ⟨rfl, (put_here _ _ _).trans (put_here _ _ _).symm⟩
  · intro d o h
    unfold tableStep
    cases tables n with
    | none => exact h
    | some g =>
      dsimp only
      rw [if_pos (by rw [h]; rfl)]
      exact h

theorem logStep_one (fl : ℚ → ℚ) (stem : String) (logs : String → Option LogGroup) (n : String) : OnePath (stem ++ "." ++ n ++ ".log") (logStep fl stem logs n) := by
  refine ⟨?_, ?_, ?_⟩
  · intro d p hp
    unfold logStep
    cases logs n with
    | none => rfl
    | some g =>
      dsimp only
      split_ifs
      · rfl
      · split
        · exact put_other _ _ _ _ hp
        · exact put_other _ _ _ _ hp
  · intro d d' h
    unfold logStep
    cases logs n with
    | none => exact ⟨rfl, h⟩
    | some g =>
      dsimp only
      rw [h]
      split_ifs
      · exact ⟨rfl, h⟩
      · split
        · exact ⟨rfl, (put_here _ _ _).trans (put_here _ _ _).symm⟩
        · exact ⟨rfl, (put_here _ _ _).trans (put_here _ _ _).symm⟩
  · intro d o h
    unfold logStep
    cases logs n with
    | none => exact h
    | some g =>
      dsimp only
      rw [if_pos (by rw [h]; rfl)]
      exact h

theorem seq_confined (O : String → Prop) (steps : List (OutDir → OutDir × Except PyErr Unit)) (h : ∀ st ∈ steps, ∃ path, O path ∧ OnePath path st) :
    (∀ d p, ¬ O p → (seqSteps steps d).1 p = d p) ∧
    (∀ d d' : OutDir, (∀ p, O p → d p = d' p) → (seqSteps steps d).2 = (seqSteps steps d').2 ∧ ∀ p, O p → (seqSteps steps d).1 p = (seqSteps steps d').1 p) ∧
    ∀ (d : OutDir) p o, d p = some o → (seqSteps steps d).1 p = some o := by
  induction steps with
  | nil => exact ⟨fun _ _ _ => rfl, fun _ _ h => ⟨rfl, h⟩, fun _ _ _ h => h⟩
  | cons st t ih =>
    obtain ⟨i1, i2, i3⟩ := ih (fun s hs => h s (by simp [hs]))
    obtain ⟨path, hO, w1, w2, w3⟩ := h st (by simp)
    refine ⟨?_, ?_, ?_⟩
    · intro d p hp
      have := w1 d p (fun hc => hp (hc ▸ hO))
      rw [seqSteps]
      generalize st d = x at *
      obtain ⟨d1, r⟩ := x
      cases r with
      | ok u => exact (i1 d1 p hp).trans this
      | error e => exact this
    · intro d d' hd
      have h2 := w2 d d' (hd path hO)
      have ha := w1 d
      have hb := w1 d'
      rw [seqSteps, seqSteps]
      generalize st d = x at *
      generalize st d' = y at *
      obtain ⟨d1, r⟩ := x
      obtain ⟨d2, r'⟩ := y
      have h3 : ∀ p, O p → d1 p = d2 p := by
        intro p hp
        by_cases hc : p = path
        · rw [hc]; exact h2.2
        · exact (ha p hc).trans ((hd p hp).trans (hb p hc).symm)
      have h4 : r = r' := h2.1
      subst h4
      cases r with
      | ok u => exact i2 d1 d2 h3
      | error e => exact ⟨rfl, h3⟩
    · intro d p o hd
      have : (st d).1 p = some o := by
        by_cases hc : p = path
        · rw [hc] at hd ⊢; exact w3 d o hd
        · rw [w1 d p hc]; exact hd
      rw [seqSteps]
      generalize st d = x at *
      obtain ⟨d1, r⟩ := x
      cases r with
      | ok u => exact i3 d1 p o this
      | error e => exact this

theorem metaFile_steps (fl : ℚ → ℚ) (stem : String) (m : Except PyErr MetaMap) (tables : String → Option (Option CsvGroup)) (logs : String → Option LogGroup) :
    ∀ st ∈ metaStep stem m :: (tableNames.map (tableStep fl stem tables) ++ logNames.map (logStep fl stem logs)), ∃ path, metaOutput stem path ∧ OnePath path st := by
  intro st hst
  rcases List.mem_cons.mp hst with rfl | hst
  · exact ⟨_, .inl rfl, metaStep_one stem m⟩
  · rcases List.mem_append.mp hst with hst | hst
    · obtain ⟨n, hn, rfl⟩ := List.mem_map.mp hst
      exact ⟨_, .inr (.inl ⟨n, hn, rfl⟩), tableStep_one fl stem tables n⟩
    · obtain ⟨n, hn, rfl⟩ := List.mem_map.mp hst
      exact ⟨_, .inr (.inr ⟨n, hn, rfl⟩), logStep_one fl stem logs n⟩

theorem metaFile_confined (fl : ℚ → ℚ) : Confined (fun (d : OutDir) p => d p) (fun (x : String × MetaSource) p => metaOutput x.1 p) (metaFile fl) := by
  constructor
  · rintro ⟨stem, src⟩ d p hp
    cases src with
    | unreadable => rfl
    | recording m tables logs => exact (seq_confined _ _ (metaFile_steps fl stem m tables logs)).1 d p hp
  · rintro ⟨stem, src⟩ d d' hd
    cases src with
    | unreadable => exact ⟨rfl, hd⟩
    | recording m tables logs => exact (seq_confined _ _ (metaFile_steps fl stem m tables logs)).2.1 d d' hd

/-- **C92, metadata of several recordings.**  If for each of them alone the command ends normally, it does so for all of them, and each recording has the exports that it has alone; nothing else changes. -/
theorem C92_meta (fl : ℚ → ℚ) (files : List (String × MetaSource)) (d : OutDir) (hnames : (files.map Prod.fst).Nodup) (hok : ∀ x ∈ files, (cliMeta fl [x] d).2 = .ok ()) :
    EachByItself (fun (d : OutDir) p => d p) (cliMeta fl) files d := by
  refine loop_each (metaFile_confined fl) files d ?_ hok
  rw [List.Nodup, List.pairwise_map] at hnames
  exact hnames.imp (fun hxy p h1 h2 => hxy (metaOutput_disjoint h1 h2))

/-- **C92, exports are kept.**  Whatever happens, no export that exists is changed, and only the outputs named after the recordings are written. -/
theorem C92_meta_kept (fl : ℚ → ℚ) (files : List (String × MetaSource)) (d : OutDir) (p : String) :
    (∀ o, d p = some o → (cliMeta fl files d).1 p = some o) ∧ ((∀ x ∈ files, ¬ metaOutput x.1 p) → (cliMeta fl files d).1 p = d p) := by
  constructor
  · intro o hp
    refine loop_keeps (fun d : OutDir => d p = some o) ?_ files d hp
    rintro ⟨stem, src⟩ d hd
    cases src with
    | unreadable => exact hd
    | recording m tables logs => exact (seq_confined _ _ (metaFile_steps fl stem m tables logs)).2.2 d p o hd
  · intro hp
    unfold cliMeta
    induction files generalizing d with
    | nil => rfl
    | cons x t ih =>
      have := (metaFile_confined fl).writes x d p (hp x (by simp))
      rw [cmdLoop]
      generalize metaFile fl x d = y at *
      obtain ⟨d1, r⟩ := y
      cases r with
      | ok u => exact (ih d1 (fun z hz => hp z (by simp [hz]))).trans this
      | error e =>
        dsimp only
        split_ifs
        · exact (ih d1 (fun z hz => hp z (by simp [hz]))).trans this
        · exact this

/-- **C92, unreadable files are skipped.** -/
theorem C92_meta_unreadable (fl : ℚ → ℚ) (files : List (String × MetaSource)) (d : OutDir) :
    cliMeta fl files d = cliMeta fl (files.filter (fun x => match x.2 with | .unreadable => false | .recording .. => true)) d := by
  refine loop_skip files d _ ?_
  rintro ⟨st, x⟩ d hx
  cases x with
  | unreadable => exact ⟨.typeError, rfl, rfl⟩
  | recording m t l => cases hx

/-- **C92, violated: an export that fails stops the others.**  An exception other than a TypeError for one recording (the metadata has bytes in it, see `C91_values_violated`; a table has no description) ends the
command: the recordings behind get no export at all. -/
theorem C92_meta_abort_violated (fl : ℚ → ℚ) (stem : String) (tables : String → Option (Option CsvGroup)) (logs : String → Option LogGroup) (behind : List (String × MetaSource)) (d : OutDir)
    (hnew : d (stem ++ ".yaml") = none) : cliMeta fl ((stem, .recording (.error .valueError) tables logs) :: behind) d = (d, .error .valueError) := by
  have hm : metaStep stem (.error .valueError) d = (d, .error .valueError) := by
    unfold metaStep
    rw [if_neg (by rw [hnew]; simp)]
  have hp : metaFile fl (stem, .recording (.error .valueError) tables logs) d = (d, .error .valueError) := by
    simp only [metaFile, seqSteps, hm]
  unfold cliMeta
  rw [cmdLoop, hp]
  rfl

/-! ## extract -/

section Extract
variable {σ : Type}

/-- What is stored at a path: a recording, and the CSV file that belongs to it. -/
def stored (d : CsvDir) (p : String) : Option H5File × Option CsvFile := (d.1 p, d.2 p)

/-- The path of the output for a recording. -/
def extractName (fl : ℚ → ℚ) (start stop : Option ℚ) (factor : ℚ) (x : String × DiskFile) : Option String :=
  match openReader fl x.2 with
  | .error _ => none
  | .ok s => some (s.cutName fl x.1 start stop (if factor < 1 then 1000 else factor))

theorem cutToFile_dst {fl : ℚ → ℚ} {f : SampleFilter ℤ σ} {s : Session} {fs fs' : Files} {stem : String} {start stop : Option ℚ} {factor : ℚ} {dst : String}
    (hrun : s.cutToFile fl f fs stem start stop factor = (fs', .ok dst)) : dst = s.cutName fl stem start stop factor := by
  unfold Session.cutToFile at hrun
  split at hrun
  · cases hrun
  · dsimp only at hrun
    split_ifs at hrun
    · exact (Except.ok.inj (Prod.mk.inj hrun).2).symm
    · split at hrun
      · cases hrun
      · split at hrun
        · cases hrun
        · split at hrun
          · cases hrun
          · exact (Except.ok.inj (Prod.mk.inj hrun).2).symm

theorem extractFile_confined (fl : ℚ → ℚ) (f : SampleFilter ℤ σ) (start stop : Option ℚ) (factor : ℚ) (raw : Bool) :
    Confined stored (fun (x : String × DiskFile) p => extractName fl start stop factor x = some p) (extractFile fl f start stop factor raw) := by
  constructor
  · rintro ⟨stem, file⟩ d p hp
    unfold extractFile
    unfold extractName at hp
    dsimp only at hp ⊢
    cases hs : openReader fl file with
    | error e => rfl
    | ok s =>
      rw [hs] at hp
      dsimp only at hp ⊢
      have hp' : p ≠ s.cutName fl stem start stop (extractFactor factor) := fun hc => hp (by rw [hc]; rfl)
      have h1 := C64_one_output fl f s d.1 stem start stop (extractFactor factor) p hp'
      cases hc : s.cutToFile fl f d.1 stem start stop (extractFactor factor) with
      | mk fs r =>
        rw [hc] at h1
        cases r with
        | error e => exact Prod.ext h1 rfl
        | ok dst =>
          have hd := cutToFile_dst hc
          dsimp only
          split
          · exact Prod.ext h1 rfl
          · split
            · exact Prod.ext h1 rfl
            · exact Prod.ext h1 (if_neg (by rw [hd]; exact hp'))
  · rintro ⟨stem, file⟩ d d' hd
    unfold extractFile
    unfold extractName at hd ⊢
    dsimp only at hd ⊢
    cases hs : openReader fl file with
    | error e => exact ⟨rfl, fun i hi => by cases hi⟩
    | ok s =>
      rw [hs] at hd
      dsimp only at hd ⊢
      have hd0 := hd _ rfl
      have hd1 : d.1 (s.cutName fl stem start stop (extractFactor factor)) = d'.1 (s.cutName fl stem start stop (extractFactor factor)) := (Prod.mk.inj hd0).1
      have hd2 : d.2 (s.cutName fl stem start stop (extractFactor factor)) = d'.2 (s.cutName fl stem start stop (extractFactor factor)) := (Prod.mk.inj hd0).2
      obtain ⟨h1, h2⟩ := cutToFile_congr fl f s d.1 d'.1 stem start stop (extractFactor factor) hd1
      suffices key : ∀ n, n = s.cutName fl stem start stop (extractFactor factor) → ((match s.cutToFile fl f d.1 stem start stop (extractFactor factor) with
            | (fs, .error e) => ((fs, d.2), .error e)
            | (fs, .ok dst) => match fs dst with
              | none => ((fs, d.2), .error .keyError)
              | some h => match openSession fl h with
                | .error e => ((fs, d.2), .error e)
                | .ok o => match saveCsv fl raw (d.2 dst) (some o.csvGroup) with
                  | (csv, r) => ((fs, fun p => if p = dst then csv else d.2 p), r.map (fun _ => ())) : CsvDir × Except PyErr Unit).2 =
          (match s.cutToFile fl f d'.1 stem start stop (extractFactor factor) with
            | (fs, .error e) => ((fs, d'.2), .error e)
            | (fs, .ok dst) => match fs dst with
              | none => ((fs, d'.2), .error .keyError)
              | some h => match openSession fl h with
                | .error e => ((fs, d'.2), .error e)
                | .ok o => match saveCsv fl raw (d'.2 dst) (some o.csvGroup) with
                  | (csv, r) => ((fs, fun p => if p = dst then csv else d'.2 p), r.map (fun _ => ())) : CsvDir × Except PyErr Unit).2 ∧
          stored (match s.cutToFile fl f d.1 stem start stop (extractFactor factor) with
            | (fs, .error e) => ((fs, d.2), .error e)
            | (fs, .ok dst) => match fs dst with
              | none => ((fs, d.2), .error .keyError)
              | some h => match openSession fl h with
                | .error e => ((fs, d.2), .error e)
                | .ok o => match saveCsv fl raw (d.2 dst) (some o.csvGroup) with
                  | (csv, r) => ((fs, fun p => if p = dst then csv else d.2 p), r.map (fun _ => ())) : CsvDir × Except PyErr Unit).1 n =
          stored (match s.cutToFile fl f d'.1 stem start stop (extractFactor factor) with
            | (fs, .error e) => ((fs, d'.2), .error e)
            | (fs, .ok dst) => match fs dst with
              | none => ((fs, d'.2), .error .keyError)
              | some h => match openSession fl h with
                | .error e => ((fs, d'.2), .error e)
                | .ok o => match saveCsv fl raw (d'.2 dst) (some o.csvGroup) with
                  | (csv, r) => ((fs, fun p => if p = dst then csv else d'.2 p), r.map (fun _ => ())) : CsvDir × Except PyErr Unit).1 n) by
        refine ⟨(key _ rfl).1, fun i hi => (key i (Option.some.inj hi).symm).2⟩
      intro n hn
      cases hc : s.cutToFile fl f d.1 stem start stop (extractFactor factor) with
      | mk fs r =>
      cases hc' : s.cutToFile fl f d'.1 stem start stop (extractFactor factor) with
      | mk fs' r' =>
        rw [hc, hc'] at h1 h2
        dsimp only at h1 h2
        subst h1
        rw [← hn] at h2 hd1 hd2
        cases r with
        | error e => exact ⟨rfl, Prod.ext h2 hd2⟩
        | ok dst =>
          have hdst := cutToFile_dst hc
          rw [← hn] at hdst
          subst hdst
          dsimp only
          rw [← h2]
          cases hf : fs dst with
          | none => exact ⟨rfl, Prod.ext h2 hd2⟩
          | some h =>
            dsimp only
            cases openSession fl h with
            | error e => exact ⟨rfl, Prod.ext h2 hd2⟩
            | ok o =>
              dsimp only
              rw [hd2]
              refine ⟨rfl, Prod.ext h2 ?_⟩
              simp only [stored, if_true]

/-- **C92, extraction from several recordings.**  If the outputs have different names and each recording alone is extracted (or skipped), `extract` ends normally, and each recording has the outputs that it has
alone; nothing else changes. -/
theorem C92_extract (fl : ℚ → ℚ) (f : SampleFilter ℤ σ) (start stop : Option ℚ) (factor : ℚ) (raw : Bool) (files : List (String × DiskFile)) (d : CsvDir)
    (hnames : files.Pairwise (fun x y => ∀ p, extractName fl start stop factor x = some p → extractName fl start stop factor y ≠ some p))
    (hok : ∀ x ∈ files, (cliExtract fl f start stop factor raw [x] d).2 = .ok ()) :
    EachByItself stored (cliExtract fl f start stop factor raw) files d :=
  loop_each (extractFile_confined fl f start stop factor raw) files d hnames hok

/-- **C92, nothing is overwritten.**  Recordings and CSV files that exist stay as they are, whatever happens. -/
theorem C92_extract_kept (fl : ℚ → ℚ) (f : SampleFilter ℤ σ) (start stop : Option ℚ) (factor : ℚ) (raw : Bool) (files : List (String × DiskFile)) (d : CsvDir) (p : String) :
    (∀ h, d.1 p = some h → (cliExtract fl f start stop factor raw files d).1.1 p = some h) ∧
    ∀ c, d.2 p = some c → (cliExtract fl f start stop factor raw files d).1.2 p = some c := by
  constructor
  · intro h hp
    refine loop_keeps (fun d : CsvDir => d.1 p = some h) ?_ files d hp
    rintro ⟨stem, file⟩ d hd
    unfold extractFile
    dsimp only
    cases openReader fl file with
    | error e => exact hd
    | ok s =>
      dsimp only
      have h1 := C64_untouched fl f s d.1 stem start stop (extractFactor factor) p (by rw [hd]; rfl)
      rw [hd] at h1
      cases hc : s.cutToFile fl f d.1 stem start stop (extractFactor factor) with
      | mk fs r =>
        rw [hc] at h1
        cases r with
        | error e => exact h1
        | ok dst =>
          dsimp only
          split
          · exact h1
          · split <;> exact h1
  · intro c hp
    refine loop_keeps (fun d : CsvDir => d.2 p = some c) ?_ files d hp
    rintro ⟨stem, file⟩ d hd
    unfold extractFile
    dsimp only
    cases openReader fl file with
    | error e => exact hd
    | ok s =>
      dsimp only
      cases s.cutToFile fl f d.1 stem start stop (extractFactor factor) with
      | mk fs r =>
        cases r with
        | error e => exact hd
        | ok dst =>
          dsimp only
          split
          · exact hd
          · split
            · exact hd
            · rename_i o _
              dsimp only
              by_cases hq : p = dst
              · subst hq
                rw [if_pos rfl, C65_existing fl raw (d.2 p) _ (.inl (by rw [hd]; rfl))]
                exact hd
              · rw [if_neg hq]; exact hd

/-- **C92, unreadable files are skipped.** -/
theorem C92_extract_unreadable (fl : ℚ → ℚ) (f : SampleFilter ℤ σ) (start stop : Option ℚ) (factor : ℚ) (raw : Bool) (files : List (String × DiskFile)) (d : CsvDir) :
    cliExtract fl f start stop factor raw files d =
      cliExtract fl f start stop factor raw (files.filter (fun x => match x.2 with | .notHdf5 => false | .hdf5 _ => true)) d := by
  refine loop_skip files d _ ?_
  rintro ⟨st, x⟩ d hx
  cases x with
  | notHdf5 => exact ⟨.typeError, rfl, rfl⟩
  | hdf5 h => cases hx

/-- A file that was written by a session can be opened, with the same datasets, if its calibration is fine. -/
theorem reopen {fl : ℚ → ℚ} (u : Session) (c : CalSeries) (hc : ∀ n e, pairOf (u.ds n).attrs e = c.get n)
    (hcal : c.voltage.Valid ∧ c.current.Valid ∧ c.time.Valid) (hd : ∀ d : ℤ, 0 < d → c.time.rawToSi fl d ≠ 0) : ∃ r, openSession fl u.file = .ok r ∧ r.ds = u.ds := by
  have e1 : pairOf (u.ds .voltage).attrs (CalSeries.default fl).voltage = c.voltage := hc .voltage _
  have e2 : pairOf (u.ds .current).attrs (CalSeries.default fl).current = c.current := hc .current _
  have e3 : pairOf (u.ds .time).attrs (CalSeries.default fl).time = c.time := hc .time _
  have : ∃ st, refreshStats fl ⟨c.voltage, c.current, c.time⟩ (u.ds .time).data (Stats.init fl) = .ok st := by
    unfold refreshStats
    dsimp only
    generalize (if (u.ds .time).data.length > 0 then (u.ds .time).data.getD ((u.ds .time).data.length - 1) 0 - (u.ds .time).data.getD 0 0 else 0) = z
    split_ifs with h1 h2
    · exact absurd h2 (hd _ h1.2)
    · exact ⟨_, rfl⟩
    · exact ⟨_, rfl⟩
  obtain ⟨st, hst⟩ := this
  unfold openSession Session.file
  dsimp only
  rw [e1, e2, e3, if_pos hcal, hst]
  refine ⟨_, rfl, ?_⟩
  funext n
  cases n <;> rfl

/-- **C92, what is extracted.**  From a valid recording with at least 1000 samples in the result, for a factor that divides the block size (or a range of one block), and without an output of that name: there is
a CSV file with three columns, time, current and voltage, and one row for each sample of the down-sampled recording.  Row `i` has the `i`-th time stamp that was kept, and the values of current and voltage
at that place, calibrated or (on demand) raw.  The number of rows is that of the kept samples, at the end cut to full buffers or not at all; without rows, there is no file. -/
theorem C92_rows {fl : ℚ → ℚ} (h : AccRounding fl) (f : SampleFilter ℤ σ) (start stop : Option ℚ) (factor k : ℚ) (raw : Bool) (stem : String) (file : H5File) (s : Session) (d : CsvDir)
    (hs : openSession fl file = .ok s) (hk : k = if factor < 1 then 1000 else factor) (h0 : EqualLengths s) (hsize : (s.get .voltage).length ≤ 2 ^ 50) (hfac : k ≤ 2 ^ 50)
    (hv : s.file.isValid = true) (hcal : s.cal.voltage.Valid ∧ s.cal.current.Valid ∧ s.cal.time.Valid) (hd : ∀ d : ℤ, 0 < d → s.cal.time.rawToSi fl d ≠ 0)
    (hfit : ⌊k⌋.toNat ∣ 4000000 ∨ (selected (s.get .voltage) (s.sampleAt fl (cutStart start)).toNat (some (s.sampleAt fl (s.cutEnd fl stop)).toNat)).length ≤ 4000000)
    (hlong : 1000 * k ≤ ((s.sampleAt fl (s.cutEnd fl stop) - s.sampleAt fl (cutStart start) : ℤ) : ℚ))
    (hnew : d.1 (s.cutName fl stem start stop k) = none) (hnew2 : d.2 (s.cutName fl stem start stop k) = none) :
    ∃ (d' : CsvDir) (out : DsName → List ℤ) (rows : ℕ), extractFile fl f start stop factor raw (stem, .hdf5 file) d = (d', .ok ()) ∧
      (∀ n, IsDecimated ⌊k⌋.toNat (cutSource f s n (s.sampleAt fl (cutStart start)) (s.sampleAt fl (s.cutEnd fl stop)) ⌊k⌋.toNat) (out n)) ∧
      (rows = (out .voltage).length ∨ Kept (out .voltage).length rows) ∧
      (rows = 0 → d'.2 (s.cutName fl stem start stop k) = none) ∧
      (0 < rows → ∃ csv, d'.2 (s.cutName fl stem start stop k) = some csv ∧
        csv.header = ["system time [s] = value * gain + (offset)", "current [A] = value * gain + offset", "voltage [V] = value * gain + offset"] ∧ csv.rows.length = rows ∧
        ∀ i t c v, i < rows → (out .time)[i]? = some t → (out .current)[i]? = some c → (out .voltage)[i]? = some v →
          csv.rows[i]? = some (microStamp fl (fl (fl t * s.cal.time.gain)),
            if raw then [[(c : ℚ)], [(v : ℚ)]] else [[s.cal.current.rawToSi fl c], [s.cal.voltage.rawToSi fl v]])) := by
  have hk1 : 1 ≤ k := by
    rw [hk]; split_ifs with hf
    · norm_num
    · linarith
  have hkx : extractFactor factor = k := by rw [hk]; rfl
  obtain ⟨fs', fl0, hrun, hput0⟩ := C64_created h f s d.1 stem start stop k h0 hsize hk1 hfac hv hcal hd hfit hlong
  obtain ⟨-, -, g, w, w', fil, hopen, hdata, hclose, hput⟩ := cutToFile_ok hnew hrun
  obtain ⟨w2, e2, hm, -, hdec⟩ := cutData_spec h f s (s.cutMeta w k) _ _ k hk1 h0 hsize hfac hfit
  rw [hdata] at e2
  cases e2
  have hlen : ∀ n, (w'.get n).length = (w'.get .voltage).length := by
    intro n
    rw [(hdec n).1, (hdec .voltage).1, cutSource_length _ _ _ _ _ _ h0, cutSource_length _ _ _ _ _ _ h0]
  have hle : (w'.get .voltage).length < 10000 * 2 ^ 39 := by
    rw [(hdec .voltage).1, cutSource_length _ _ _ _ _ _ h0]
    refine lt_of_le_of_lt (Nat.div_le_self _ _) ?_
    simp only [selected, List.length_drop, List.length_take]
    omega
  obtain ⟨gg, dt, l, t, hg, -, -, -, -, -, -, -, hdd, -, -⟩ := open_session_facts hopen
  simp only [Option.getD_none, skeleton, Option.some.injEq] at hg
  obtain ⟨st, u, -, hu, rfl, hget⟩ := close_ok h.toRounding hclose hle
  have hattrs : ∀ n, (u.ds n).attrs = putPair ((skeleton.data.bind (fun g => g.dset n)).map Dset.attrs |>.getD (fun _ => none)) (some (s.cal.get n)) ((CalSeries.default fl).get n) := by
    intro n
    obtain ⟨dd, hdn, hdw⟩ := hdd n
    have hw : (u.ds n).attrs = (w.ds n).attrs := by
      rw [hu.2.2.2.2 n, hm.2.2.2.2 n]; rfl
    rw [hw, hdw]
    have : dd.attrs = ((skeleton.data.bind (fun g => g.dset n)).map Dset.attrs).getD (fun _ => none) := by
      rw [← hg] at hdn
      simp only [Option.some.injEq] at hdn
      rw [← hdn]
      rfl
    rw [this]
    rfl
  have hpair : ∀ n e, pairOf (u.ds n).attrs e = s.cal.get n := by
    intro n e
    rw [hattrs]
    exact pairOf_put _ _ _ _
  obtain ⟨r, hr, hrds⟩ := reopen (fl := fl) u s.cal hpair hcal hd
  obtain ⟨rows, hrows, hkeep⟩ : ∃ rows, (rows = (w'.get .voltage).length ∨ Kept (w'.get .voltage).length rows) ∧ ∀ n, u.get n = (w'.get n).take rows := by
    obtain ⟨k', h1, h2, -⟩ := C33_close fl h.toRounding w' u.file hlen hle hclose
    refine ⟨k', h1, fun n => ?_⟩
    have := h2 n
    simpa [contents, Session.file, Session.get] using this
  have hrle : rows ≤ (w'.get .voltage).length := by
    rcases hrows with h1 | h1
    · exact h1.le
    · exact h1.1
  have hulen : ∀ n, (u.get n).length = rows := by
    intro n
    rw [hkeep n, List.length_take, hlen n, min_eq_left hrle]
  have hgain : ∀ n, (u.ds n).attrs.number "gain" = some (s.cal.get n).gain ∧ (u.ds n).attrs.number "offset" = some (s.cal.get n).offset := by
    intro n
    rw [hattrs]
    unfold Attrs.number putPair
    dsimp only
    rw [set_same, set_other _ _ (by decide), set_same]
    exact ⟨rfl, rfl⟩
  have hdesc : ∀ n, (u.ds n).attrs.text "description" = some (match n with
      | .time => "system time [s] = value * gain + (offset)" | .voltage => "voltage [V] = value * gain + offset" | .current => "current [A] = value * gain + offset") := by
    intro n
    rw [hattrs]
    unfold Attrs.text putPair
    dsimp only
    rw [set_other _ _ (by decide), set_other _ _ (by decide)]
    rfl
  have hgrp : r.csvGroup = ⟨some "system time [s] = value * gain + (offset)", some s.cal.time.gain, u.get .time,
      [⟨some "current [A] = value * gain + offset", some s.cal.current.gain, some s.cal.current.offset, (u.get .current).map (fun x : ℤ => [(x : ℚ)])⟩,
       ⟨some "voltage [V] = value * gain + offset", some s.cal.voltage.gain, some s.cal.voltage.offset, (u.get .voltage).map (fun x : ℤ => [(x : ℚ)])⟩]⟩ := by
    unfold Session.csvGroup Session.get
    rw [hrds]
    simp only [List.map_cons, List.map_nil, hdesc, (hgain _).1, (hgain _).2]
    rfl
  have hstep : extractFile fl f start stop factor raw (stem, .hdf5 file) d =
      ((fs', fun p => if p = s.cutName fl stem start stop k then (saveCsv fl raw none (some r.csvGroup)).1 else d.2 p), ((saveCsv fl raw none (some r.csvGroup)).2).map (fun _ => ())) := by
    unfold extractFile
    simp only [openReader, hs, hkx, hrun, hput, hr, hnew2]
  refine ⟨(fs', fun p => if p = s.cutName fl stem start stop k then (saveCsv fl raw none (some r.csvGroup)).1 else d.2 p), w'.get, rows, ?_, hdec, hrows, ?_, ?_⟩
  · rw [hstep]
    by_cases hz : rows = 0
    · have : u.get .time = [] := List.length_eq_zero_iff.mp (by rw [hulen, hz])
      rw [hgrp, C65_existing fl raw none _ (.inr (.inr ⟨_, rfl, this⟩))]
      rfl
    · obtain ⟨cf, hcf, -⟩ := C65_rows fl raw r.csvGroup (by
        rw [hgrp]; intro hc; exact hz (by rw [← hulen .time]; exact List.length_eq_zero_iff.mpr hc)) (by
        rw [hgrp]
        refine ⟨by simp, by simp, ?_⟩
        intro d hd
        simp only [List.mem_cons, List.not_mem_nil, or_false] at hd
        rcases hd with rfl | rfl <;> simp [hulen])
      rw [hcf]
      rfl
  · intro hz
    have : u.get .time = [] := List.length_eq_zero_iff.mp (by rw [hulen, hz])
    simp only [if_true]
    rw [hgrp, C65_existing fl raw none _ (.inr (.inr ⟨_, rfl, this⟩))]
  · intro hz
    obtain ⟨cf, hcf, hl, hh, hrow⟩ := C65_rows fl raw r.csvGroup (by
        rw [hgrp]; intro hc; exact hz.ne' (by rw [← hulen .time]; exact List.length_eq_zero_iff.mpr hc)) (by
        rw [hgrp]
        refine ⟨by simp, by simp, ?_⟩
        intro d hd
        simp only [List.mem_cons, List.not_mem_nil, or_false] at hd
        rcases hd with rfl | rfl <;> simp [hulen])
    refine ⟨cf, ?_, ?_, ?_, ?_⟩
    · simp only [if_true]
      rw [hcf]
    · rw [hgrp] at hh
      simp only [List.map_cons, List.map_nil] at hh
      have : cf.header.map some = (["system time [s] = value * gain + (offset)", "current [A] = value * gain + offset", "voltage [V] = value * gain + offset"] : List String).map some := hh
      exact List.map_injective_iff.mpr (Option.some_injective _) this
    · rw [hl, hgrp]; exact hulen .time
    · intro i t c v hi ht hc hv
      have e1 : ∀ n x, (w'.get n)[i]? = some x → (u.get n)[i]? = some x := by
        intro n x hx
        rw [hkeep n, List.getElem?_take_of_lt hi]; exact hx
      have := hrow i t (by rw [hgrp]; exact e1 _ _ ht)
      rw [this, hgrp]
      simp only [Option.getD_some, List.map_cons, List.map_nil, List.getD_eq_getElem?_getD, List.getElem?_map, e1 _ _ hc, e1 _ _ hv, Option.map_some]
      unfold csvValue CalPair.rawToSi
      cases raw <;> rfl

/-- **C92, violated: an extraction that fails stops the others.**  A KeyError is not caught: if the output exists and its datasets have no description, the recordings behind are not extracted. -/
theorem C92_extract_abort_violated {fl : ℚ → ℚ} (f : SampleFilter ℤ σ) (start stop : Option ℚ) (factor : ℚ) (raw : Bool) (stem : String) (file old : H5File) (s o : Session) (d : CsvDir)
    (behind : List (String × DiskFile)) (hs : openSession fl file = .ok s) (hck : s.cutCheck fl start stop (extractFactor factor) = .ok ())
    (hold : d.1 (s.cutName fl stem start stop (extractFactor factor)) = some old) (ho : openSession fl old = .ok o) (hdesc : (o.ds .time).attrs "description" = none) (hne : o.get .time ≠ [])
    (hnew : d.2 (s.cutName fl stem start stop (extractFactor factor)) = none) :
    ∃ d', cliExtract fl f start stop factor raw ((stem, .hdf5 file) :: behind) d = (d', .error .keyError) ∧ ∀ p, stored d' p = stored d p := by
  have hcut : s.cutToFile fl f d.1 stem start stop (extractFactor factor) = (d.1, .ok (s.cutName fl stem start stop (extractFactor factor))) := by
    unfold Session.cutToFile
    rw [hck]
    dsimp only
    rw [if_pos (by rw [hold]; rfl)]
  have hcsv : saveCsv fl raw none (some o.csvGroup) = (none, .error .keyError) := by
    refine C65_undescribed fl raw o.csvGroup hne (.inl ?_)
    simp only [Session.csvGroup, Attrs.text, hdesc]
  have hstep : extractFile fl f start stop factor raw (stem, .hdf5 file) d =
      ((d.1, fun p => if p = s.cutName fl stem start stop (extractFactor factor) then none else d.2 p), .error .keyError) := by
    unfold extractFile
    simp only [openReader, hs, hcut, hold, ho, hnew, hcsv]
    rfl
  refine ⟨(d.1, fun p => if p = s.cutName fl stem start stop (extractFactor factor) then none else d.2 p), ?_, ?_⟩
  · unfold cliExtract
    rw [cmdLoop, hstep]
    rfl
  · intro p
    unfold stored
    dsimp only
    by_cases hp : p = s.cutName fl stem start stop (extractFactor factor)
    · rw [if_pos hp, hp, hnew]
    · rw [if_neg hp]

/-- **C92, violated: outputs with the same name.**  The first five seconds of "a.h5" and all of "a.cut_0s000_to_5s000.h5", which has five seconds, have the same output: of two such recordings, the
second one is not extracted. -/
theorem C92_collision_violated (fl : ℚ → ℚ) (s t : Session) (k : ℚ) (hs : 5 < s.runtimeS fl) (ht : t.runtimeS fl = 5) :
    s.cutName fl "a" none (some 5) k = t.cutName fl "a.cut_0s000_to_5s000" none (some 5) k := by
  have h1 : cutStart none = 0 := by simp [cutStart]
  have h2 : s.cutEnd fl (some 5) = 5 := by simp [Session.cutEnd, hs.le]
  have h3 : t.cutEnd fl (some 5) = t.runtimeS fl := by simp [Session.cutEnd, ht]
  have e0 : secStr 0 = "0s000" := by
    have : pyRound (1000 * 0) = 0 := by rw [mul_zero]; exact pyRound_intCast 0
    simp only [secStr, this]
    decide
  have e5 : secStr 5 = "5s000" := by
    have : pyRound (1000 * 5) = 5000 := by
      have := pyRound_intCast 5000
      norm_num at this ⊢
      exact this
    simp only [secStr, this]
    decide
  unfold Session.cutName
  dsimp only
  rw [h1, h2, h3, if_pos (Or.inr hs.ne), if_neg (show ¬ ((0 : ℚ) ≠ 0 ∨ t.runtimeS fl ≠ t.runtimeS fl) by simp), e0, e5]
  rfl

/-! ## Examples -/

/-- 1.2 s of data, reduced by 2: the hypotheses of `C92_rows` are met. -/
example (f : SampleFilter ℤ σ) : ∃ (d' : CsvDir) (out : DsName → List ℤ) (rows : ℕ),
    extractFile b64 f none none 2 false ("rec", .hdf5 (demoFile b64 120000)) (fun _ => none, fun _ => none) = (d', .ok ()) ∧ (rows = (out .voltage).length ∨ Kept (out .voltage).length rows) := by
  obtain ⟨st, ho, hrate⟩ := demo_open b64_accRounding 120000 (by norm_num) (by norm_num)
  obtain ⟨h0, h1, hv, hcal, hd⟩ := demo_facts b64_accRounding 120000 st
  obtain ⟨ha, hb⟩ := C64_whole b64_accRounding (demoSession b64 120000 st) 12 (by norm_num) hrate (by rw [h1])
  rw [h1] at hb
  obtain ⟨d', out, rows, e1, -, e2, -⟩ := C92_rows b64_accRounding f none none 2 2 false "rec" (demoFile b64 120000) (demoSession b64 120000 st) (fun _ => none, fun _ => none) ho
    (by norm_num) h0 (by rw [h1]; norm_num) (by norm_num) hv hcal hd (.inl (by rw [show ⌊(2 : ℚ)⌋ = 2 from Int.floor_intCast 2]; decide)) (by rw [ha, hb]; norm_num) rfl rfl
  exact ⟨d', out, rows, e1, e2⟩

theorem plot_example (f : SampleFilter ℚ σ) (F : H5File) (S : Session) (t : PlotData) (ho : openSession b64 F = .ok S) (ht : S.plotData b64 f none none true = .ok (some t)) :
    EachByItself (fun (d : PicDir) p => d p) (cliPlot b64 f none none false false "dir") [("a", .hdf5 F), ("x", .notHdf5), ("b", .hdf5 F)] (fun _ => none) := by
  have key : ∀ name, (cliPlot b64 f none none false false "dir" [(name, .hdf5 F)] (fun _ => none)).2 = .ok () := by
    intro name
    simp only [cliPlot, Bool.false_and, Bool.false_eq_true, if_false, cmdLoop, plotFile, openReader, ho, ht, Option.isSome_none]
  refine C92_plot b64 f none none false "dir" _ _ (by simp) ?_
  intro x hx
  simp only [List.mem_cons, List.not_mem_nil, or_false] at hx
  rcases hx with rfl | rfl | rfl
  · exact key "a"
  · rfl
  · exact key "b"

/-- Two recordings of 1.2 s and a file that is no recording are plotted: the hypotheses of `C92_plot` are met. -/
example (f : SampleFilter ℚ σ) : EachByItself (fun (d : PicDir) p => d p) (cliPlot b64 f none none false false "dir")
    [("a", .hdf5 (demoFile b64 120000)), ("x", .notHdf5), ("b", .hdf5 (demoFile b64 120000))] (fun _ => none) := by
  obtain ⟨st, ho, hrate⟩ := demo_open b64_accRounding 120000 (by norm_num) (by norm_num)
  obtain ⟨h0, h1, -⟩ := demo_facts b64_accRounding 120000 st
  obtain ⟨t, ht, -⟩ := C78_whole b64_accRounding f (demoSession b64 120000 st) h0 12 (by norm_num) hrate h1
  exact plot_example f _ _ t ho ht

/-- A recording of 360.1 s stops the command: the hypotheses of `C92_plot_abort_violated` are met. -/
example (f : SampleFilter ℚ σ) : cliPlot b64 f none none false false "dir" [("a", .hdf5 (demoFile b64 36010000)), ("b", .hdf5 (demoFile b64 120000))] (fun _ => none) = (fun _ => none, .error .valueError) := by
  obtain ⟨st, ho, hrate⟩ := demo_open b64_accRounding 36010000 (by norm_num) (by norm_num)
  obtain ⟨h0, h1, -⟩ := demo_facts b64_accRounding 36010000 st
  exact C92_plot_abort_violated b64_accRounding f _ _ ho h0 3601 (by norm_num) hrate (by rw [h1]) false "dir" "a" _ _

/-- A recording, and one without metadata. -/
example : EachByItself (fun (d : OutDir) p => d p) (cliMeta b64) [("a", .recording (.ok .nil) (fun _ => none) (fun _ => none)), ("b", .unreadable)] (fun _ => none) := by
  refine C92_meta b64 _ _ (by decide) ?_
  intro x hx
  simp only [List.mem_cons, List.not_mem_nil, or_false] at hx
  rcases hx with rfl | rfl
  · rfl
  · rfl

end Extract

end Verif.Props
