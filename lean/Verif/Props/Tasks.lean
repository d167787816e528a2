import Verif.Model.Tasks
import Verif.Lemmas.Reports
import Verif.Props.Experiment
import Mathlib.Data.List.ReduceOption

/-!
# C87: observers get their own tasks, in the right order and in time
-/

namespace Verif.Props
open Verif.Py Verif.Model

/-! ## Specification -/

/-- A name: 1 to 32 characters that are allowed in names of files on any system. -/
def NameOk (s : String) : Prop := 1 ≤ s.length ∧ s.length ≤ 32 ∧ ∀ c ∈ s.toList, c ∉ ['<', '>', ':', ';', ',', '?', '"', '*', '|', '/', '\\']

/-- The name of a file in the intel-hex-format: something, then one of three endings in any case. -/
def HexName (p : List String) : Prop :=
  ∃ dir file stem ending, p = dir ++ [file] ∧ file.toList = stem ++ ending ∧ stem ≠ [] ∧ ending.map Char.toLower ∈ [".hex".toList, ".ihex".toList, ".ihx".toList]

/-- A text: 1 to 512 printable characters of ASCII. -/
def TextOk (s : String) : Prop := s ≠ "" ∧ s.length ≤ 512 ∧ ∀ c ∈ s.toList, ' ' ≤ c ∧ c ≤ '~'

/-- A programming task that can be done. -/
def ProgOk (t : Prog) : Prop :=
  (t.mcuPort = 1 ∨ t.mcuPort = 2) ∧ TextOk t.mcuType ∧ 1 ≤ t.voltage ∧ t.voltage < 5 ∧ 1 ≤ t.datarate ∧ t.datarate ≤ 10 ^ 6 ∧ HexName t.file

/-- An emulation that can begin at `now`: it does not start in the past, its duration is not negative, it has no actuation. -/
def EmuOk (now : ℤ) (t : Emu) : Prop := (∀ s, t.timeStart = some s → now ≤ s) ∧ (∀ d, t.duration = some d → 0 ≤ d) ∧ t.gpioActuation = none

/-- The same for a harvest. -/
def HrvOk (now : ℤ) (t : Hrv) : Prop := (∀ s, t.timeStart = some s → now ≤ s) ∧ ∀ d, t.duration = some d → 0 ≤ d

/-- A set of tasks that can be done at `now`. -/
def SetOk (now : ℤ) (t : ObsTasks) : Prop :=
  NameOk t.observer ∧ (∀ i, t.ownerId = some i → i < 2 ^ 128) ∧ (∀ m, t.fw1Mod = some m ∨ t.fw2Mod = some m → m.customId < 2 ^ 16) ∧
    (∀ p, t.fw1Prog = some p ∨ t.fw2Prog = some p → ProgOk p) ∧ ∀ e, t.emulation = some e → EmuOk now e

/-- Sets of tasks that can be done, each at its own time. -/
def SetsOk (clock : ℕ → ℤ) (t : TbTasks) : Prop :=
  NameOk t.name ∧ 1 ≤ t.tasks.length ∧ t.tasks.length ≤ 128 ∧ (∀ i, t.ownerId = some i → i < 2 ^ 128) ∧ ∀ k s, t.tasks[k]? = some s → SetOk (clock k) s

/-- The tasks of a set that exist: modify both firmwares, program both, then emulate. -/
def ordered (s : ObsTasks) : List Task := [s.fw1Mod.map .mod, s.fw2Mod.map .mod, s.fw1Prog.map .prog, s.fw2Prog.map .prog, s.emulation.map .emu].reduceOption

/-! ## Validation -/

theorem isNameStr_iff (s : String) : isNameStr s = true ↔ NameOk s := by
  unfold isNameStr NameOk
  simp only [Bool.and_eq_true, decide_eq_true_eq, List.all_eq_true, String.length_toList]
  tauto

theorem toLower_dot {c : Char} (h : c.toLower = '.') : c = '.' := by
  unfold Char.toLower at h
  split_ifs at h with h1
  · exfalso
    have := congrArg Char.toNat h
    revert this
    obtain ⟨v, hv⟩ := c
    have h2 := h1.1
    have h3 := h1.2
    intro this
    have h4 : ((v + ('a'.val - 'A'.val)) : UInt32).toNat = 46 := this
    have h5 : v.toNat ≥ 65 := h2
    have h6 : v.toNat ≤ 90 := h3
    rw [UInt32.toNat_add] at h4
    have h7 : ('a'.val - 'A'.val : UInt32).toNat = 32 := by decide
    rw [h7] at h4
    omega
  · exact h

theorem isHexFile_iff (p : List String) : isHexFile p = true ↔ HexName p := by
  have hm : isHexFile p = true ↔ fileSuffix p ∈ [".hex".toList, ".ihex".toList, ".ihx".toList] := by
    unfold isHexFile
    have e1 : ".hex".toList = ['.', 'h', 'e', 'x'] := by decide
    have e2 : ".ihex".toList = ['.', 'i', 'h', 'e', 'x'] := by decide
    have e3 : ".ihx".toList = ['.', 'i', 'h', 'x'] := by decide
    rw [e1, e2, e3]
    simp only [Bool.or_eq_true, decide_eq_true_eq, List.mem_cons, List.not_mem_nil, or_false, or_assoc]
  rw [hm]
  constructor
  · intro h
    unfold fileSuffix at h
    cases hl : p.getLast? with
    | none => rw [hl] at h; exact absurd h (by decide)
    | some n =>
      rw [hl] at h
      simp only at h
      obtain ⟨dir, rfl⟩ := List.getLast?_eq_some_iff.mp hl
      rcases splitName_spec n.toList with h1 | ⟨x, t, hx, ht, hd, h1, h2⟩
      · rw [h1] at h; revert h; simp
      · rw [h2] at h
        exact ⟨dir, n, x, '.' :: t, rfl, h1, hx, h⟩
  · rintro ⟨dir, file, stem, ending, rfl, hf, hs, he⟩
    have hl : (dir ++ [file]).getLast? = some file := by simp
    unfold fileSuffix
    rw [hl]
    simp only
    have hsp : splitName file.toList = (stem, ending) := by
      cases ending with
      | nil => exact absurd he (by decide)
      | cons a t =>
        have ha : a = '.' := by
          apply toLower_dot
          simp only [List.map_cons, List.mem_cons, List.not_mem_nil, or_false] at he
          rcases he with he | he | he <;> exact (List.cons.inj he).1
        have ht : t.map Char.toLower ∈ ["hex".toList, "ihex".toList, "ihx".toList] := by
          simp only [List.map_cons, List.mem_cons, List.not_mem_nil, or_false] at he ⊢
          rcases he with he | he | he
          · exact Or.inl (List.cons.inj he).2
          · exact Or.inr (Or.inl (List.cons.inj he).2)
          · exact Or.inr (Or.inr (List.cons.inj he).2)
        subst ha
        rw [hf]
        refine splitName_eq stem t hs ?_ ?_
        · rintro rfl; revert ht; decide
        · intro hd
          have h1 : Char.toLower '.' ∈ t.map Char.toLower := List.mem_map_of_mem hd
          have h2 : Char.toLower '.' = '.' := by decide
          rw [h2] at h1
          simp only [List.mem_cons, List.not_mem_nil, or_false] at ht
          rcases ht with ht | ht | ht <;> rw [ht] at h1 <;> revert h1 <;> decide
    rw [hsp]
    exact he

theorem modLoad_iff (t : FwMod) : t.load = .ok () ↔ t.customId < 2 ^ 16 := by
  unfold FwMod.load
  split_ifs with h
  · constructor
    · intro h1; cases h1
    · intro h1; omega
  · exact ⟨fun _ => by omega, fun _ => rfl⟩

theorem isSafeStr_iff (s : String) : isSafeStr s = true ↔ TextOk s := by
  unfold isSafeStr TextOk
  have e : s.toList ≠ [] ↔ s ≠ "" := by
    rw [not_iff_not]
    exact ⟨fun h => String.toList_inj.mp h, fun h => by rw [h]; rfl⟩
  simp only [Bool.and_eq_true, decide_eq_true_eq, List.all_eq_true, e, String.length_toList, and_assoc]
  rfl

theorem progLoad_iff (t : Prog) : t.load = .ok () ↔ ProgOk t := by
  unfold Prog.load Prog.validate ProgOk
  rw [← isHexFile_iff]
  have hs := isSafeStr_iff t.mcuType
  constructor
  · intro h
    split_ifs at h with h1 h2 h3 h4 h5
    simp only [not_or, not_lt, not_le] at h1 h3 h4
    refine ⟨by omega, hs.mp h2, h3.1, h3.2, h4.1, h4.2, h5⟩
  · rintro ⟨h1, h2, h4, h5, h6, h7, h8⟩
    rw [if_neg (by omega), if_neg (not_not.mpr (hs.mpr h2)), if_neg (by rw [not_or, not_lt, not_le]; exact ⟨h4, h5⟩), if_neg (by omega)]
    simp only [h8, if_true]

theorem emuLoad_iff (now : ℤ) (t : Emu) : t.validate now = .ok () ↔ EmuOk now t := by
  unfold Emu.validate EmuOk
  rcases t.timeStart with _ | s <;> rcases t.duration with _ | d <;> rcases t.gpioActuation with _ | a <;>
    simp [ite_eq_iff]

theorem hrvLoad_iff (now : ℤ) (t : Hrv) : t.validate now = .ok () ↔ HrvOk now t := by
  unfold Hrv.validate HrvOk
  rcases t.timeStart with _ | s <;> rcases t.duration with _ | d <;> simp [ite_eq_iff]

theorem optLoad_iff {α : Type} {f : α → Except PyErr Unit} {P : α → Prop} (h : ∀ a, f a = .ok () ↔ P a) (o : Option α) : optLoad f o = .ok () ↔ ∀ a, o = some a → P a := by
  cases o with
  | none => simp [optLoad]
  | some a => simp [optLoad, h]

theorem owner_iff (o : Option ℕ) : (o.map (fun i => decide (2 ^ 128 ≤ i))).getD false = false ↔ ∀ i, o = some i → i < 2 ^ 128 := by
  cases o with
  | none => simp
  | some i => simp

theorem setLoad_iff (now : ℤ) (t : ObsTasks) : t.load now = .ok () ↔ SetOk now t := by
  unfold ObsTasks.load SetOk
  rw [← isNameStr_iff, ← owner_iff]
  have m1 := optLoad_iff modLoad_iff t.fw1Mod
  have m2 := optLoad_iff modLoad_iff t.fw2Mod
  have p1 := optLoad_iff progLoad_iff t.fw1Prog
  have p2 := optLoad_iff progLoad_iff t.fw2Prog
  have e := optLoad_iff (emuLoad_iff now) t.emulation
  constructor
  · intro h
    split_ifs at h with h1 h2
    rw [Bool.not_eq_true] at h2
    cases hm1 : optLoad FwMod.load t.fw1Mod with
    | error x => rw [hm1] at h; cases h
    | ok u =>
      rw [hm1] at h
      simp only at h
      cases hm2 : optLoad FwMod.load t.fw2Mod with
      | error x => rw [hm2] at h; cases h
      | ok u =>
        rw [hm2] at h
        simp only at h
        cases hp1 : optLoad Prog.load t.fw1Prog with
        | error x => rw [hp1] at h; cases h
        | ok u =>
          rw [hp1] at h
          simp only at h
          cases hp2 : optLoad Prog.load t.fw2Prog with
          | error x => rw [hp2] at h; cases h
          | ok u =>
            rw [hp2] at h
            simp only at h
            refine ⟨h1, h2, ?_, ?_, e.mp h⟩
            · rintro m (hm | hm)
              · exact m1.mp hm1 m hm
              · exact m2.mp hm2 m hm
            · rintro m (hm | hm)
              · exact p1.mp hp1 m hm
              · exact p2.mp hp2 m hm
  · rintro ⟨h1, h2, h3, h4, h5⟩
    rw [if_neg (not_not.mpr h1), h2, m1.mpr (fun m hm => h3 m (.inl hm)), m2.mpr (fun m hm => h3 m (.inr hm)), p1.mpr (fun m hm => h4 m (.inl hm)),
      p2.mpr (fun m hm => h4 m (.inr hm)), e.mpr h5]
    rfl

theorem loadSets_iff (clock : ℕ → ℤ) : ∀ (l : List ObsTasks) (i : ℕ), loadSets clock i l = .ok () ↔ ∀ k s, l[k]? = some s → SetOk (clock (i + k)) s
  | [], i => by simp [loadSets]
  | t :: l, i => by
    have ih := loadSets_iff clock l (i + 1)
    have h1 := setLoad_iff (clock i) t
    rw [loadSets]
    constructor
    · intro h k s hk
      cases ht : t.load (clock i) with
      | error e => rw [ht] at h; cases h
      | ok u =>
        rw [ht] at h
        cases k with
        | zero =>
          cases hk
          exact h1.mp ht
        | succ k =>
          have := ih.mp h k s hk
          rwa [show i + (k + 1) = i + 1 + k by omega]
    · intro h
      rw [h1.mpr (h 0 t rfl)]
      refine ih.mpr (fun k s hk => ?_)
      have := h (k + 1) s hk
      rwa [show i + (k + 1) = i + 1 + k by omega] at this

theorem tbLoad_iff (clock : ℕ → ℤ) (t : TbTasks) : t.load clock = .ok () ↔ SetsOk clock t := by
  unfold TbTasks.load SetsOk
  rw [← isNameStr_iff, ← owner_iff]
  have h := loadSets_iff clock t.tasks 0
  simp only [Nat.zero_add] at h
  rw [← h]
  constructor
  · intro h
    split_ifs at h with h1 h2 h3
    exact ⟨h1, by omega, by omega, by simpa using h3, h⟩
  · rintro ⟨h1, h2, h3, h4, h5⟩
    rw [if_neg (not_not.mpr h1), if_neg (by omega), h4, h5]
    rfl

theorem getTasks_ordered (s : ObsTasks) : s.getTasks = ordered s := by
  unfold ObsTasks.getTasks ordered
  cases s.fw1Mod <;> cases s.fw2Mod <;> cases s.fw1Prog <;> cases s.fw2Prog <;> cases s.emulation <;> rfl

/-! ## Errors are always ValueErrors -/

theorem progLoad_err {t : Prog} {e : PyErr} (h : t.load = .error e) : e = .valueError := by
  unfold Prog.load Prog.validate at h
  split_ifs at h <;> exact (Except.error.inj h).symm

theorem emuLoad_err {now : ℤ} {t : Emu} {e : PyErr} (h : t.validate now = .error e) : e = .valueError := by
  unfold Emu.validate at h
  split_ifs at h <;> exact (Except.error.inj h).symm

theorem hrvLoad_err {now : ℤ} {t : Hrv} {e : PyErr} (h : t.validate now = .error e) : e = .valueError := by
  unfold Hrv.validate at h
  split_ifs at h <;> exact (Except.error.inj h).symm

theorem modLoad_err {t : FwMod} {e : PyErr} (h : t.load = .error e) : e = .valueError := by
  unfold FwMod.load at h
  split_ifs at h <;> exact (Except.error.inj h).symm

theorem optLoad_err {α : Type} {f : α → Except PyErr Unit} (hf : ∀ {a e}, f a = .error e → e = .valueError) {o : Option α} {e : PyErr} (h : optLoad f o = .error e) :
    e = .valueError := by
  cases o with
  | none => cases h
  | some a => exact hf h

theorem setLoad_err {now : ℤ} {t : ObsTasks} {e : PyErr} (h : t.load now = .error e) : e = .valueError := by
  unfold ObsTasks.load at h
  split_ifs at h
  · exact (Except.error.inj h).symm
  rotate_left
  · exact (Except.error.inj h).symm
  · cases hm1 : optLoad FwMod.load t.fw1Mod with
    | error x => rw [hm1] at h; cases h; exact optLoad_err modLoad_err hm1
    | ok u =>
      rw [hm1] at h
      simp only at h
      cases hm2 : optLoad FwMod.load t.fw2Mod with
      | error x => rw [hm2] at h; cases h; exact optLoad_err modLoad_err hm2
      | ok u =>
        rw [hm2] at h
        simp only at h
        cases hp1 : optLoad Prog.load t.fw1Prog with
        | error x => rw [hp1] at h; cases h; exact optLoad_err progLoad_err hp1
        | ok u =>
          rw [hp1] at h
          simp only at h
          cases hp2 : optLoad Prog.load t.fw2Prog with
          | error x => rw [hp2] at h; cases h; exact optLoad_err progLoad_err hp2
          | ok u =>
            rw [hp2] at h
            exact optLoad_err emuLoad_err h

theorem loadSets_err {clock : ℕ → ℤ} : ∀ {l : List ObsTasks} {i : ℕ} {e : PyErr}, loadSets clock i l = .error e → e = .valueError
  | [], i, e, h => by cases h
  | t :: l, i, e, h => by
    rw [loadSets] at h
    cases ht : t.load (clock i) with
    | error x => rw [ht] at h; cases h; exact setLoad_err ht
    | ok u => rw [ht] at h; exact loadSets_err h

theorem tbLoad_err {clock : ℕ → ℤ} {t : TbTasks} {e : PyErr} (h : t.load clock = .error e) : e = .valueError := by
  unfold TbTasks.load at h
  split_ifs at h
  · exact (Except.error.inj h).symm
  · exact (Except.error.inj h).symm
  · exact loadSets_err h
  · exact (Except.error.inj h).symm

/-- **C87, refusals.**  Whatever cannot be prepared or extracted is refused with a ValueError. -/
theorem C87_errors (clock clock' : ℕ → ℤ) (config : TaskConfig) (observer : Option String) (e : PyErr) (h : tasksFor clock clock' config observer = .error e) :
    e = .valueError := by
  unfold tasksFor at h
  cases hp : prepareTask clock config observer with
  | error x =>
    rw [hp] at h
    cases h
    unfold prepareTask at hp
    simp only at hp
    split_ifs at hp
    cases observer with
    | none => cases hp
    | some name =>
      simp only at hp
      split at hp
      · rename_i t _
        cases hl : t.load clock with
        | error y => rw [hl] at hp; cases hp; exact tbLoad_err hl
        | ok u =>
          rw [hl] at hp
          simp only at hp
          cases hf : t.find name with
          | none => rw [hf] at hp; exact (Except.error.inj hp).symm
          | some o => rw [hf] at hp; cases hp
      · exact (Except.error.inj hp).symm
  | ok w =>
    rw [hp] at h
    unfold extractTasks at h
    simp only at h
    split_ifs at h
    · split at h
      · rename_i t _
        cases hl : t.load (clock' 0) with
        | error y => rw [hl] at h; cases h; exact setLoad_err hl
        | ok u => rw [hl] at h; cases h
      · exact (Except.error.inj h).symm
    · split at h
      · rename_i t _
        cases hl : t.validate (clock' 0) with
        | error y => rw [hl] at h; cases h; exact emuLoad_err hl
        | ok u => rw [hl] at h; cases h
      · exact (Except.error.inj h).symm
    · split at h
      · rename_i t _
        cases hl : t.validate (clock' 0) with
        | error y => rw [hl] at h; cases h; exact hrvLoad_err hl
        | ok u => rw [hl] at h; cases h
      · exact (Except.error.inj h).symm
    · split at h
      · rename_i t _
        cases hl : t.load with
        | error y => rw [hl] at h; cases h; exact modLoad_err hl
        | ok u => rw [hl] at h; cases h
      · exact (Except.error.inj h).symm
    · split at h
      · rename_i t _
        cases hl : t.load with
        | error y => rw [hl] at h; cases h; exact progLoad_err hl
        | ok u => rw [hl] at h; cases h
      · exact (Except.error.inj h).symm
    · exact (Except.error.inj h).symm
    · exact (Except.error.inj h).symm

/-! ## Tasks of the testbed -/

theorem find_iff (t : TbTasks) (name : String) (o : ObsTasks) :
    t.find name = some o ↔ ∃ l r, t.tasks = l ++ o :: r ∧ o.observer = name ∧ ∀ x ∈ l, x.observer ≠ name := by
  unfold TbTasks.find
  rw [List.find?_eq_some_iff_append]
  simp only [decide_eq_true_eq]
  constructor
  · rintro ⟨h, l, r, h1, h2⟩
    exact ⟨l, r, h1, h.symm, fun x hx hn => by simpa [hn] using h2 x hx⟩
  · rintro ⟨l, r, h1, h2, h3⟩
    exact ⟨h2.symm, l, r, h1, fun x hx => by simpa using fun hn => h3 x hx hn.symm⟩

/-- **C87, tasks of the testbed.**  Given the tasks of all observers and the name of one, the result is exactly: the tasks of the first set with this name, in order, if all
sets can be done when they are prepared, and this one when it is extracted. -/
theorem C87_testbed (clock clock' : ℕ → ℤ) (t : TbTasks) (name kind : String) (l : List Extracted) :
    tasksFor clock clock' (.model (.tb t) kind) (some name) = .ok l ↔
      SetsOk clock t ∧ ∃ s before after, t.tasks = before ++ s :: after ∧ s.observer = name ∧ (∀ x ∈ before, x.observer ≠ name) ∧ SetOk (clock' 0) s ∧
        l = (ordered s).map .task := by
  unfold tasksFor prepareTask
  simp only [TaskConfig.wrap, Payload.typeName, if_true]
  constructor
  · intro h
    cases hl : t.load clock with
    | error y => rw [hl] at h; cases h
    | ok u =>
      rw [hl] at h
      simp only at h
      cases hf : t.find name with
      | none => rw [hf] at h; cases h
      | some o =>
        rw [hf] at h
        simp only [extractTasks, if_true] at h
        cases ho : o.load (clock' 0) with
        | error y => rw [ho] at h; cases h
        | ok u =>
          rw [ho] at h
          cases h
          obtain ⟨a, b, h1, h2, h3⟩ := (find_iff t name o).mp hf
          exact ⟨(tbLoad_iff _ _).mp hl, o, a, b, h1, h2, h3, (setLoad_iff _ _).mp ho, by rw [getTasks_ordered]⟩
  · rintro ⟨h1, s, a, b, h2, h3, h4, h5, rfl⟩
    rw [(tbLoad_iff _ _).mpr h1]
    simp only
    rw [(find_iff t name s).mpr ⟨a, b, h2, h3, h4⟩]
    simp only [extractTasks, if_true]
    rw [(setLoad_iff _ _).mpr h5, getTasks_ordered]

/-- **C87, only its own.**  From the tasks of all observers, one only gets tasks that were made for it; none if it is not part of them. -/
theorem C87_only_own (clock clock' : ℕ → ℤ) (t : TbTasks) (name kind : String) (l : List Extracted) (h : tasksFor clock clock' (.model (.tb t) kind) (some name) = .ok l) :
    ∃ s ∈ t.tasks, s.observer = name ∧ ∀ x ∈ l, ∃ k ∈ ordered s, x = .task k := by
  obtain ⟨-, s, a, b, h2, h3, -, -, rfl⟩ := (C87_testbed _ _ _ _ _ _).mp h
  refine ⟨s, by rw [h2]; simp, h3, fun x hx => ?_⟩
  obtain ⟨k, hk, rfl⟩ := List.mem_map.mp hx
  exact ⟨k, hk, rfl⟩

/-- **C87, no sets in place of tasks.**  The tasks of all observers are not executed by one without a name; they are handed on unchanged if that is allowed. -/
theorem C87_without_name (clock clock' : ℕ → ℤ) (t : TbTasks) (kind : String) :
    tasksFor clock clock' (.model (.tb t) kind) none = .error .valueError ∧
    ∃ w, prepareTask clock (.model (.tb t) kind) none = .ok w ∧ ∀ l, extractTasks clock' w false = .ok l ↔ SetsOk clock' t ∧ l = [.sets t] := by
  have h1 : "TestbedTasks" ≠ "ObserverTasks" := by decide
  have h2 : "TestbedTasks" ≠ "EmulationTask" := by decide
  have h3 : "TestbedTasks" ≠ "HarvestTask" := by decide
  have h4 : "TestbedTasks" ≠ "FirmwareModTask" := by decide
  have h5 : "TestbedTasks" ≠ "ProgrammingTask" := by decide
  refine ⟨by simp [tasksFor, prepareTask, TaskConfig.wrap, Payload.typeName, extractTasks], _, rfl, fun l => ?_⟩
  simp only [TaskConfig.wrap, Payload.typeName, extractTasks, h1, h2, h3, h4, h5, if_true, if_false, Bool.false_eq_true]
  rw [← tbLoad_iff]
  cases hl : t.load clock' with
  | error e => simp
  | ok u => simp [eq_comm]

/-! ## Sets and single tasks -/

/-- **C87, sets.**  A set of tasks gives exactly its tasks in order if they can be done, for whatever observer. -/
theorem C87_set (clock clock' : ℕ → ℤ) (s : ObsTasks) (observer : Option String) (kind : String) (l : List Extracted) :
    tasksFor clock clock' (.model (.obs s) kind) observer = .ok l ↔ SetOk (clock' 0) s ∧ l = (ordered s).map .task := by
  have h1 : "ObserverTasks" ≠ "TestbedTasks" := by decide
  simp only [tasksFor, prepareTask, TaskConfig.wrap, Payload.typeName, h1, if_false, extractTasks, if_true]
  rw [← setLoad_iff, getTasks_ordered]
  cases hl : s.load (clock' 0) with
  | error e => simp
  | ok u => simp [eq_comm]

/-- **C87, single tasks.**  A task gives exactly this task if it can be done. -/
theorem C87_single (clock clock' : ℕ → ℤ) (observer : Option String) (kind : String) (l : List Extracted) :
    (∀ t, tasksFor clock clock' (.model (.emu t) kind) observer = .ok l ↔ EmuOk (clock' 0) t ∧ l = [.task (.emu t)]) ∧
    (∀ t, tasksFor clock clock' (.model (.hrv t) kind) observer = .ok l ↔ HrvOk (clock' 0) t ∧ l = [.harvest t]) ∧
    (∀ t, tasksFor clock clock' (.model (.mod t) kind) observer = .ok l ↔ t.customId < 2 ^ 16 ∧ l = [.task (.mod t)]) ∧
    (∀ t, tasksFor clock clock' (.model (.prog t) kind) observer = .ok l ↔ ProgOk t ∧ l = [.task (.prog t)]) := by
  have h1 : "EmulationTask" ≠ "TestbedTasks" ∧ "EmulationTask" ≠ "ObserverTasks" := by decide
  have h2 : "HarvestTask" ≠ "TestbedTasks" ∧ "HarvestTask" ≠ "ObserverTasks" ∧ "HarvestTask" ≠ "EmulationTask" := by decide
  have h3 : "FirmwareModTask" ≠ "TestbedTasks" ∧ "FirmwareModTask" ≠ "ObserverTasks" ∧ "FirmwareModTask" ≠ "EmulationTask" ∧ "FirmwareModTask" ≠ "HarvestTask" := by decide
  have h4 : "ProgrammingTask" ≠ "TestbedTasks" ∧ "ProgrammingTask" ≠ "ObserverTasks" ∧ "ProgrammingTask" ≠ "EmulationTask" ∧ "ProgrammingTask" ≠ "HarvestTask" ∧
    "ProgrammingTask" ≠ "FirmwareModTask" := by decide
  refine ⟨fun t => ?_, fun t => ?_, fun t => ?_, fun t => ?_⟩
  · simp only [tasksFor, prepareTask, TaskConfig.wrap, Payload.typeName, h1, if_false, extractTasks, if_true]
    rw [← emuLoad_iff]
    cases hl : t.validate (clock' 0) with
    | error e => simp
    | ok u => simp [eq_comm]
  · simp only [tasksFor, prepareTask, TaskConfig.wrap, Payload.typeName, h2, if_false, extractTasks, if_true]
    rw [← hrvLoad_iff]
    cases hl : t.validate (clock' 0) with
    | error e => simp
    | ok u => simp [eq_comm]
  · simp only [tasksFor, prepareTask, TaskConfig.wrap, Payload.typeName, h3, if_false, extractTasks, if_true]
    rw [← modLoad_iff]
    cases hl : t.load with
    | error e => simp
    | ok u => simp [eq_comm]
  · simp only [tasksFor, prepareTask, TaskConfig.wrap, Payload.typeName, h4, if_false, extractTasks, if_true]
    rw [← progLoad_iff]
    cases hl : t.load with
    | error e => simp
    | ok u => simp [eq_comm]

/-- The names of the models that are tasks. -/
def taskNames : List String := ["EmulationTask", "HarvestTask", "FirmwareModTask", "ProgrammingTask", "ObserverTasks", "TestbedTasks"]

/-- **C87, files.**  A file counts only if its data type is that of a task and its content is a model of this type; then it is as good as the model itself. -/
theorem C87_file (clock clock' : ℕ → ℤ) (w : TaskWrap) (observer : Option String) (kind : String) (l : List Extracted) :
    tasksFor clock clock' (.file w) observer = .ok l ↔
      w.parameters.typeName "" = w.datatype ∧ w.datatype ∈ taskNames ∧ tasksFor clock clock' (.model w.parameters kind) observer = .ok l := by
  obtain ⟨d, p⟩ := w
  by_cases ht : d ∈ taskNames
  · by_cases hk : p.typeName "" = d
    · have hp : p.typeName kind = d := by
        cases p <;> first | exact hk | skip
        exfalso
        subst hk
        revert ht
        decide
      simp only [hk, ht, true_and]
      unfold tasksFor prepareTask
      simp only [TaskConfig.wrap, hp]
      exact Iff.rfl
    · simp only [hk, false_and, iff_false]
      unfold taskNames at ht
      simp only [List.mem_cons, List.not_mem_nil, or_false] at ht
      rcases ht with rfl | rfl | rfl | rfl | rfl | rfl <;> cases p <;> cases observer <;>
        first
        | (exfalso; exact hk rfl)
        | simp [tasksFor, prepareTask, TaskConfig.wrap, extractTasks]
  · simp only [ht, false_and, and_false, iff_false]
    unfold taskNames at ht
    simp only [List.mem_cons, List.not_mem_nil, or_false, not_or] at ht
    obtain ⟨h1, h2, h3, h4, h5, h6⟩ := ht
    simp [tasksFor, prepareTask, TaskConfig.wrap, extractTasks, h1, h2, h3, h4, h5, h6]

/-- **C87, in time.**  An emulation that is handed out with a start did not have to start before it was handed out. -/
theorem C87_in_time (clock clock' : ℕ → ℤ) (config : TaskConfig) (observer : Option String) (l : List Extracted) (h : tasksFor clock clock' config observer = .ok l) :
    (∀ t s, .task (.emu t) ∈ l → t.timeStart = some s → clock' 0 ≤ s) ∧ ∀ t s, .harvest t ∈ l → t.timeStart = some s → clock' 0 ≤ s := by
  have hm : ∃ p kind, tasksFor clock clock' (.model p kind) observer = .ok l := by
    cases config with
    | model p kind => exact ⟨p, kind, h⟩
    | file w => exact ⟨w.parameters, "", ((C87_file clock clock' w observer "" l).mp h).2.2⟩
  have hord : ∀ s t b, SetOk (clock' 0) s → .task (.emu t) ∈ (ordered s).map Extracted.task → t.timeStart = some b → clock' 0 ≤ b := by
    intro s t b hs ht hb
    obtain ⟨k, hk, he⟩ := List.mem_map.mp ht
    cases he
    unfold ordered at hk
    have he : s.emulation = some t := by
      rw [List.reduceOption_mem_iff] at hk
      simpa using hk
    exact (hs.2.2.2.2 t he).1 b hb
  have hno : ∀ s t, Extracted.harvest t ∉ (ordered s).map Extracted.task := by
    intro s t ht
    obtain ⟨k, hk, he⟩ := List.mem_map.mp ht
    cases he
  obtain ⟨p, kind, h⟩ := hm
  obtain ⟨k1, k2, k3, k4⟩ := C87_single clock clock' observer kind l
  cases p with
  | emu t =>
    obtain ⟨a, rfl⟩ := (k1 t).mp h
    refine ⟨fun t' s ht hs => ?_, fun t' s ht => by simp at ht⟩
    simp only [List.mem_cons, List.not_mem_nil, or_false, Extracted.task.injEq, Task.emu.injEq] at ht
    subst ht
    exact a.1 s hs
  | hrv t =>
    obtain ⟨a, rfl⟩ := (k2 t).mp h
    refine ⟨fun t' s ht => by simp at ht, fun t' s ht hs => ?_⟩
    simp only [List.mem_cons, List.not_mem_nil, or_false, Extracted.harvest.injEq] at ht
    subst ht
    exact a.1 s hs
  | mod t =>
    obtain ⟨a, rfl⟩ := (k3 t).mp h
    exact ⟨fun t' s ht => by simp at ht, fun t' s ht => by simp at ht⟩
  | prog t =>
    obtain ⟨a, rfl⟩ := (k4 t).mp h
    exact ⟨fun t' s ht => by simp at ht, fun t' s ht => by simp at ht⟩
  | obs s =>
    obtain ⟨a, rfl⟩ := (C87_set clock clock' s observer kind l).mp h
    exact ⟨fun t b ht hb => hord s t b a ht hb, fun t b ht => absurd ht (hno s t)⟩
  | tb t =>
    cases observer with
    | none => rw [(C87_without_name clock clock' t kind).1] at h; cases h
    | some name =>
      obtain ⟨-, s, -, -, -, -, -, a, rfl⟩ := (C87_testbed _ _ _ _ _ _).mp h
      exact ⟨fun t b ht hb => hord s t b a ht hb, fun t b ht => absurd ht (hno s t)⟩
  | other =>
    exfalso
    have : ∀ w, tasksFor clock clock' (.file { datatype := kind, parameters := .other }) observer = .ok w → False := by
      intro w hw
      have h1 := (C87_file clock clock' _ observer kind w).mp hw
      have h2 : "" = kind := h1.1
      subst h2
      exact absurd h1.2.1 (by decide)
    exact this l h

/-! ## Tasks of an experiment -/

theorem prog_checked {xp : Xp} {tb : TestbedDev} {id port : ℕ} {file : List String} {p : Prog} (h : Prog.fromXp xp tb id port file = .ok (some p)) :
    p.validate = .ok () ∧ p.mcuPort = port ∧ p.file = file := by
  unfold Prog.fromXp at h
  cases ho : tb.getObserver id with
  | error e => rw [ho] at h; cases h
  | ok o =>
    rw [ho] at h
    simp only at h
    cases hc : findConfig id xp.configs with
    | error e => rw [hc] at h; cases h
    | ok c =>
      rw [hc] at h
      simp only at h
      cases hf : c.firmware port with
      | none => rw [hf] at h; cases h
      | some f =>
        rw [hf] at h
        simp only at h
        cases hp : o.getTargetPort id with
        | error e => rw [hp] at h; cases h
        | ok tp =>
          rw [hp] at h
          simp only at h
          split at h
          · cases h
          · rename_i hv
            cases h
            exact ⟨hv, rfl, rfl⟩

theorem emu_checked {now : ℤ} {xp : Xp} {tb : TestbedDev} {id : ℕ} {root : List String} {m : Emu} (h : Emu.fromXp now xp tb id root = .ok m) : m.validate now = .ok () := by
  unfold Emu.fromXp at h
  cases ho : tb.getObserver id with
  | error e => rw [ho] at h; cases h
  | ok o =>
    rw [ho] at h
    simp only at h
    cases hc : findConfig id xp.configs with
    | error e => rw [hc] at h; cases h
    | ok c =>
      rw [hc] at h
      simp only at h
      cases hp : o.getTargetPort id with
      | error e => rw [hp] at h; cases h
      | ok tp =>
        rw [hp] at h
        simp only at h
        split at h
        · cases h
        · rename_i hv
          cases h
          exact hv

theorem set_checked {fmt : ℤ → String} {now now' : ℤ} {xp : Xp} {tb : TestbedDev} {id : ℕ} {s : ObsTasks} (h : ObsTasks.fromXp fmt now now' xp tb id = .ok s) :
    (∀ p, s.fw1Prog = some p → p.validate = .ok () ∧ p.mcuPort = 1 ∧ ∃ dir n : _, p.file = dir ++ ["fw1_" ++ n ++ ".hex"]) ∧
    (∀ p, s.fw2Prog = some p → p.validate = .ok () ∧ p.mcuPort = 2 ∧ ∃ dir n : _, p.file = dir ++ ["fw2_" ++ n ++ ".hex"]) ∧
    ∀ e, s.emulation = some e → e.validate now' = .ok () := by
  unfold ObsTasks.fromXp at h
  split_ifs at h with hs
  cases ho : tb.getObserver id with
  | error e => rw [ho] at h; cases h
  | ok o =>
    rw [ho] at h
    simp only at h
    cases hm1 : FwMod.fromXp xp tb id 1 (xpRoot fmt now xp tb ++ ["fw1_" ++ o.name ++ ".hex"]) with
    | error e => rw [hm1] at h; cases h
    | ok m1 =>
      rw [hm1] at h
      simp only at h
      cases hm2 : FwMod.fromXp xp tb id 2 (xpRoot fmt now xp tb ++ ["fw2_" ++ o.name ++ ".hex"]) with
      | error e => rw [hm2] at h; cases h
      | ok m2 =>
        rw [hm2] at h
        simp only at h
        cases hp1 : Prog.fromXp xp tb id 1 (xpRoot fmt now xp tb ++ ["fw1_" ++ o.name ++ ".hex"]) with
        | error e => rw [hp1] at h; cases h
        | ok p1 =>
          rw [hp1] at h
          simp only at h
          cases hp2 : Prog.fromXp xp tb id 2 (xpRoot fmt now xp tb ++ ["fw2_" ++ o.name ++ ".hex"]) with
          | error e => rw [hp2] at h; cases h
          | ok p2 =>
            rw [hp2] at h
            simp only at h
            cases he : Emu.fromXp now' xp tb id (xpRoot fmt now xp tb) with
            | error e => rw [he] at h; cases h
            | ok em =>
              rw [he] at h
              cases h
              refine ⟨fun p hp => ?_, fun p hp => ?_, fun e hem => ?_⟩
              · simp only at hp
                rw [hp] at hp1
                obtain ⟨a, b, c⟩ := prog_checked hp1
                exact ⟨a, b, _, _, c⟩
              · simp only at hp
                rw [hp] at hp2
                obtain ⟨a, b, c⟩ := prog_checked hp2
                exact ⟨a, b, _, _, c⟩
              · cases hem
                exact emu_checked he

theorem sets_from {fmt : ℤ → String} {clock : ℕ → ℤ} {xp : Xp} {tb : TestbedDev} : ∀ {l : List ℕ} {n : ℕ} {ts : List ObsTasks}, obsTasks fmt clock xp tb n l = .ok ts →
    ∀ s ∈ ts, ∃ id k, ObsTasks.fromXp fmt (clock k) (clock (k + 1)) xp tb id = .ok s
  | [], n, ts, h => by cases h; simp
  | id :: l, n, ts, h => by
    rw [obsTasks] at h
    cases h1 : ObsTasks.fromXp fmt (clock n) (clock (n + 1)) xp tb id with
    | error e => rw [h1] at h; cases h
    | ok s =>
      rw [h1] at h
      simp only at h
      cases h2 : obsTasks fmt clock xp tb (n + 2) l with
      | error e => rw [h2] at h; cases h
      | ok ts' =>
        rw [h2] at h
        cases h
        intro x hx
        rcases List.mem_cons.mp hx with rfl | hx
        · exact ⟨id, n, h1⟩
        · exact sets_from h2 x hx

theorem hexName_fw (dir : List String) (a n : String) (ha : a.toList ≠ []) : HexName (dir ++ [a ++ n ++ ".hex"]) :=
  ⟨dir, a ++ n ++ ".hex", a.toList ++ n.toList, ".hex".toList, rfl, by rw [String.toList_append, String.toList_append], by simp [ha], by decide⟩

theorem progOk_of {p : Prog} (h1 : p.validate = .ok ()) (h2 : p.mcuPort = 1 ∨ p.mcuPort = 2) (h3 : HexName p.file) : ProgOk p := by
  rw [← progLoad_iff]
  unfold Prog.load
  rw [if_neg (by omega), h1]
  simp only [(isHexFile_iff _).mpr h3, if_true]

/-- **C87, experiments (partial: no two observers have the same name).**  The tasks made from a valid experiment can be prepared and extracted until it starts, and every
observer gets exactly the tasks made for its target. -/
theorem C87_experiment_partial (fmt : ℤ → String) (clock clock₁ clock₂ : ℕ → ℤ) (env : ContentDb) (tb : TestbedDev) (xp : Xp) (h : xp.validate env tb = .ok ())
    (hnames : ∀ o ∈ tb.observers, ∀ o' ∈ tb.observers, o.name = o'.name → o = o') (ts : TbTasks) (hts : TbTasks.fromXp fmt clock xp tb = .ok ts)
    (hname : NameOk xp.name) (hobs : ∀ o ∈ tb.observers, NameOk o.name) (howner : ∀ i, xp.ownerId = some i → i < 2 ^ 128)
    (htid : ∀ o ∈ tb.observers, ∀ p t, On o p t → t.testbedId < 2 ^ 16)
    (hstart : ∀ t, xp.timeStart = some t → (∀ i, clock₁ i ≤ t) ∧ clock₂ 0 ≤ t) (kind : String) :
    List.Forall₂ (fun id s => (∃ k, SetFor fmt (clock k) xp tb id s) ∧ tasksFor clock₁ clock₂ (.model (.tb ts) kind) (some s.observer) = .ok (s.getTasks.map .task))
      xp.targetIds ts.tasks := by
  obtain ⟨hsets, hn1, -, hn3⟩ := C54_sets fmt clock xp tb ts hts
  have hlen : 1 ≤ ts.tasks.length ∧ ts.tasks.length ≤ 128 ∧ obsTasks fmt clock xp tb 0 xp.targetIds = .ok ts.tasks := by
    unfold TbTasks.fromXp at hts
    cases h1 : obsTasks fmt clock xp tb 0 xp.targetIds with
    | error e => rw [h1] at hts; cases hts
    | ok l =>
      rw [h1] at hts
      simp only at hts
      split_ifs at hts with h2
      cases hts
      exact ⟨by simp only; omega, by simp only; omega, rfl⟩
  have hok : ∀ s ∈ ts.tasks, ∀ now, (∀ t, xp.timeStart = some t → now ≤ t) → SetOk now s := by
    intro s hs now hnow
    obtain ⟨id, k, hfrom⟩ := sets_from hlen.2.2 s hs
    obtain ⟨o, c, p, n, ⟨-, hom, -⟩, ⟨-, hcm, hci, hnid⟩, e1, e2, -, -, -, e3, e4, e5, -⟩ := set_inv hfrom
    obtain ⟨g1, g2, g3⟩ := set_checked hfrom
    have hn : n < 2 ^ 16 := by
      obtain ⟨n', hn', hc⟩ := nodeId_ok h hcm hci
      rw [hnid] at hn'
      cases hn'
      rcases hc with ⟨h1, h2⟩ | ⟨-, o', ho', p', t', h1, -, h2⟩
      · obtain ⟨-, hval, -⟩ := xp_valid h
        obtain ⟨-, hcu, -⟩ := (C56_exactly env c).mp (hval c hcm)
        cases hl : c.customIds with
        | none => exact absurd hl h1
        | some l =>
          unfold assigned at h2
          rw [hl] at h2
          exact (hcu l hl).2.2.1 n (List.of_mem_zip h2).2
      · rw [h2]
        exact htid o' ho' p' t' h1
    refine ⟨by rw [e1]; exact hobs o hom, by rw [e2]; exact howner, ?_, ?_, ?_⟩
    · rintro m (hm | hm)
      · rw [e4] at hm; cases hm; exact hn
      · rw [e5] at hm
        cases hf : c.firmware2 with
        | none => rw [hf] at hm; cases hm
        | some f => rw [hf] at hm; cases hm; exact hn
    · rintro q (hq | hq)
      · obtain ⟨a, b, dir, nm, hfile⟩ := g1 q hq
        exact progOk_of a (.inl b) (by rw [hfile]; exact hexName_fw _ _ _ (by decide))
      · obtain ⟨a, b, dir, nm, hfile⟩ := g2 q hq
        exact progOk_of a (.inr b) (by rw [hfile]; exact hexName_fw _ _ _ (by decide))
    · intro e he
      obtain ⟨-, a, b⟩ := (emuLoad_iff _ _).mp (g3 e he)
      refine ⟨fun t ht => hnow t ?_, a, b⟩
      rw [e3] at he
      cases he
      exact ht
  have hall : SetsOk clock₁ ts :=
    ⟨by rw [hn1]; exact hname, hlen.1, hlen.2.1, by rw [hn3]; exact howner, fun k s hk => hok s (List.mem_of_getElem? hk) _ (fun t ht => (hstart t ht).1 k)⟩
  have hnd : (ts.tasks.map (·.observer)).Nodup := by
    obtain ⟨os, g1, g2⟩ := C52_observers env tb xp h
    have key : ∀ {l : List ℕ} {os : List ObserverDev} {ss : List ObsTasks}, List.Forall₂ (fun t o => tb.getObserver t = .ok o ∧ o ∈ tb.observers ∧ Carries o t) l os →
        List.Forall₂ (fun id s => ∃ k, SetFor fmt (clock k) xp tb id s) l ss → ss.map (·.observer) = os.map (·.name) ∧ ∀ o ∈ os, o ∈ tb.observers := by
      intro l os ss hf
      induction hf generalizing ss with
      | nil => intro h2; cases h2; simp
      | @cons t o l os ho hf ih =>
        intro h2
        cases h2 with
        | @cons _ s _ ss hs h2 =>
          obtain ⟨i1, i2⟩ := ih h2
          obtain ⟨k, o', c, p, n, ⟨e0, -⟩, -, e1, -⟩ := hs
          rw [ho.1] at e0
          cases e0
          refine ⟨by rw [List.map_cons, List.map_cons, e1, i1], fun x hx => ?_⟩
          rcases List.mem_cons.mp hx with rfl | hx
          · exact ho.2.1
          · exact i2 x hx
    obtain ⟨k1, k2⟩ := key g1 hsets
    rw [k1]
    exact (List.Nodup.of_map _ g2).map_on (fun a ha b hb hab => hnames a (k2 a ha) b (k2 b hb) hab)
  have hgoal : ∀ s ∈ ts.tasks, tasksFor clock₁ clock₂ (.model (.tb ts) kind) (some s.observer) = .ok (s.getTasks.map .task) := by
    intro s hs
    rw [C87_testbed]
    obtain ⟨a, b, hab⟩ := List.append_of_mem hs
    refine ⟨hall, s, a, b, hab, rfl, ?_, hok s hs _ (fun t ht => (hstart t ht).2), by rw [getTasks_ordered]⟩
    intro x hx hxs
    rw [hab, List.map_append, List.map_cons, List.nodup_append] at hnd
    exact hnd.2.2 x.observer (List.mem_map_of_mem hx) s.observer (by simp) hxs
  have hz : ∀ {l : List ℕ} {ss : List ObsTasks}, List.Forall₂ (fun id s => ∃ k, SetFor fmt (clock k) xp tb id s) l ss → (∀ s ∈ ss, s ∈ ts.tasks) →
      List.Forall₂ (fun id s => (∃ k, SetFor fmt (clock k) xp tb id s) ∧ tasksFor clock₁ clock₂ (.model (.tb ts) kind) (some s.observer) = .ok (s.getTasks.map .task)) l ss := by
    intro l ss hf
    induction hf with
    | nil => intro _; exact .nil
    | cons ha hf ih => intro hm; exact .cons ⟨ha, hgoal _ (hm _ (by simp))⟩ (ih (fun s hs => hm s (List.mem_cons_of_mem _ hs)))
  exact hz hsets (fun _ hs => hs)

/-! ## Where it fails -/

/-- A set of one emulation. -/
def emuSet (name : String) (start : Option ℤ) : ObsTasks :=
  ⟨name, none, 0, ["r"], false, none, none, none, none, some ⟨["in.h5"], ["out.h5"], start, none, false, false, .A, .A, 0, none, none, none, 0⟩⟩

/-- **C87 violated: foreign sets.**  A set made for another observer is handed out to anyone: the name is not compared. -/
theorem C87_foreign_violated : ∃ s : ObsTasks, s.observer = "sheep0" ∧ ordered s ≠ [] ∧
    ∀ clock clock' kind, tasksFor clock clock' (.model (.obs s) kind) (some "sheep1") = .ok ((ordered s).map .task) := by
  refine ⟨emuSet "sheep0" none, rfl, by decide, fun clock clock' kind => ?_⟩
  rw [C87_set]
  refine ⟨⟨?_, ?_, ?_, ?_, ?_⟩, rfl⟩
  · rw [← isNameStr_iff]; decide
  · intro i hi; cases hi
  · rintro m (hm | hm) <;> cases hm
  · rintro m (hm | hm) <;> cases hm
  · intro e he
    cases he
    exact ⟨fun s hs => (by cases hs), fun s hs => (by cases hs), rfl⟩

/-- **C87 violated: tasks of others.**  If one observer should have started already, none of the others gets its tasks. -/
theorem C87_others_violated : ∃ t : TbTasks, (∃ s ∈ t.tasks, s.observer = "sheep1" ∧ ∀ now, SetOk now s) ∧
    ∀ clock clock' kind, 10 < clock 0 → tasksFor clock clock' (.model (.tb t) kind) (some "sheep1") = .error .valueError := by
  refine ⟨⟨"xp", [emuSet "sheep0" (some 10), emuSet "sheep1" none], false, none⟩, ⟨emuSet "sheep1" none, by simp, rfl, fun now => ?_⟩, fun clock clock' kind hc => ?_⟩
  · refine ⟨?_, ?_, ?_, ?_, ?_⟩
    · rw [← isNameStr_iff]; decide
    · intro i hi; cases hi
    · rintro m (hm | hm) <;> cases hm
    · rintro m (hm | hm) <;> cases hm
    · intro e he
      cases he
      exact ⟨fun s hs => (by cases hs), fun s hs => (by cases hs), rfl⟩
  · cases hr : tasksFor clock clock' (.model (.tb ⟨"xp", [emuSet "sheep0" (some 10), emuSet "sheep1" none], false, none⟩) kind) (some "sheep1") with
    | error e => rw [C87_errors _ _ _ _ _ hr]
    | ok l =>
      exfalso
      obtain ⟨hs, -⟩ := (C87_testbed _ _ _ _ _ _).mp hr
      have := (hs.2.2.2.2 0 _ rfl).2.2.2.2 _ rfl
      have := this.1 10 rfl
      omega

/-- **C87 violated: equal names.**  If two observers have the same name, which a valid testbed allows, the second one never gets its tasks. -/
theorem C87_names_violated : ∃ env tb xp ts, TestbedDev.validate tb = .ok () ∧ Xp.validate env tb xp = .ok () ∧ TbTasks.fromXp (fun _ => "now") (fun k => k) xp tb = .ok ts ∧
    ∃ s ∈ ts.tasks, ordered s ≠ [] ∧ ∀ clock clock' kind l, tasksFor clock clock' (.model (.tb ts) kind) (some s.observer) = .ok l → l ≠ (ordered s).map .task := by
  refine ⟨db1 none, tbDev [obsDev 0 "sheep" "a" (some (dev 1 0 none)) none, obsDev 1 "sheep" "b" (some (dev 2 0 none)) none],
    xpOf [⟨[1], none, ⟨true, ["env.h5"]⟩, 0, fwA, none, none, none, none⟩, ⟨[2], none, ⟨true, ["env.h5"]⟩, 0, fwA, none, none, none, none⟩], _, by decide +kernel, by decide +kernel, rfl,
    _, List.mem_cons_of_mem _ (List.mem_cons_self), by decide +kernel, fun clock clock' kind l hl => ?_⟩
  obtain ⟨-, s, a, b, h1, h2, h3, -, rfl⟩ := (C87_testbed _ _ _ _ _ _).mp hl
  cases a with
  | nil =>
    simp only [List.nil_append, List.cons.injEq] at h1
    obtain ⟨rfl, -⟩ := h1
    intro hc
    have := List.map_injective_iff.mpr (fun a b h => Extracted.task.inj h) hc
    revert this
    decide +kernel
  | cons x a =>
    simp only [List.cons_append, List.cons.injEq] at h1
    obtain ⟨rfl, -⟩ := h1
    have h4 := h3 _ List.mem_cons_self
    exact (h4 rfl).elim

/-- The two observers of the concrete experiment get five tasks each until it starts, and none afterwards. -/
example : ∃ ts, TbTasks.fromXp (fun _ => "now") (fun k => k) xp1 tb1 = .ok ts ∧
    (∀ n ∈ ["sheep0", "sheep1"], ∃ l, tasksFor (fun _ => 500) (fun _ => 1000) (.model (.tb ts) "") (some n) = .ok l ∧ l.length = 5) ∧
    (∃ e, tasksFor (fun _ => 500) (fun _ => 1001) (.model (.tb ts) "") (some "sheep0") = .error e) ∧
    (∃ e, tasksFor (fun _ => 500) (fun _ => 1000) (.model (.tb ts) "") (some "sheep2") = .error e) := by
  refine ⟨_, rfl, ?_, ⟨_, rfl⟩, ⟨_, rfl⟩⟩
  intro n hn
  simp only [List.mem_cons, List.not_mem_nil, or_false] at hn
  rcases hn with rfl | rfl <;> exact ⟨_, rfl, by decide⟩

/-- The hypotheses of `C87_experiment_partial` are met by it. -/
example : NameOk xp1.name ∧ (∀ o ∈ tb1.observers, NameOk o.name) ∧ (∀ o ∈ tb1.observers, ∀ o' ∈ tb1.observers, o.name = o'.name → o = o') ∧
    (∀ o ∈ tb1.observers, ∀ p t, On o p t → t.testbedId < 2 ^ 16) ∧ ∀ t, xp1.timeStart = some t → (∀ i : ℕ, (fun _ => 500 : ℕ → ℤ) i ≤ t) ∧ (fun _ => 1000 : ℕ → ℤ) 0 ≤ t := by
  refine ⟨by rw [← isNameStr_iff]; decide, ?_, ?_, ?_, ?_⟩
  · intro o ho
    simp only [tb1, tbDev, List.mem_cons, List.not_mem_nil, or_false] at ho
    rcases ho with rfl | rfl <;> (rw [← isNameStr_iff]; decide)
  · intro o ho o' ho' hn
    simp only [tb1, tbDev, List.mem_cons, List.not_mem_nil, or_false] at ho ho'
    rcases ho with rfl | rfl <;> rcases ho' with rfl | rfl <;> first | rfl | exact absurd hn (by decide)
  · intro o ho p t h
    simp only [tb1, tbDev, List.mem_cons, List.not_mem_nil, or_false] at ho
    rcases ho with rfl | rfl <;> cases p <;> simp only [On, obsDev, Option.some.injEq, reduceCtorEq] at h <;> subst h <;> decide
  · intro t ht
    cases ht
    exact ⟨fun _ => by norm_num, by norm_num⟩

/-! ## C89: verbosity -/

/-- **C89.**  After any calls the verbosity is the highest one asked for, never less than the 2 it begins with and never more than 3. -/
theorem C89_verbosity (calls : List ℤ) : calls.foldl increaseVerbose 2 = min 3 (calls.foldl max 2) := by
  have key : ∀ (calls : List ℤ) (v m : ℤ), 2 ≤ m → v = min 3 m → calls.foldl increaseVerbose v = min 3 (calls.foldl max m) := by
    intro calls
    induction calls with
    | nil => intro v m _ h; exact h
    | cons c l ih =>
      intro v m hm h
      rw [List.foldl_cons, List.foldl_cons]
      refine ih _ _ (by omega) ?_
      unfold increaseVerbose
      split_ifs <;> omega
  exact key calls 2 2 (by norm_num) (by norm_num)

/-- **C89, messages.**  Every verbosity that can be reached has a level, and a higher verbosity never hides messages a lower one shows. -/
theorem C89_levels (calls more : List ℤ) : ∃ a b, logLevel (calls.foldl increaseVerbose 2) = some a ∧ logLevel ((calls ++ more).foldl increaseVerbose 2) = some b ∧ b ≤ a ∧ a ≤ 20 := by
  have hr : ∀ l : List ℤ, l.foldl increaseVerbose 2 = 2 ∨ l.foldl increaseVerbose 2 = 3 := by
    intro l
    rw [C89_verbosity]
    have : ∀ (l : List ℤ) (m : ℤ), 2 ≤ m → 2 ≤ l.foldl max m := by
      intro l
      induction l with
      | nil => intro m hm; exact hm
      | cons c l ih => intro m hm; exact ih _ (by omega)
    have := this l 2 (by norm_num)
    omega
  have hmono : calls.foldl increaseVerbose 2 ≤ (calls ++ more).foldl increaseVerbose 2 := by
    rw [List.foldl_append]
    have : ∀ (l : List ℤ) (v : ℤ), v ≤ 3 → 0 ≤ v → v ≤ l.foldl increaseVerbose v := by
      intro l
      induction l with
      | nil => intro v _ _; exact le_refl v
      | cons c l ih =>
        intro v h1 h2
        rw [List.foldl_cons]
        have h3 : v ≤ increaseVerbose v c ∧ increaseVerbose v c ≤ 3 := by unfold increaseVerbose; split_ifs <;> omega
        exact h3.1.trans (ih _ h3.2 (by omega))
    exact this more _ (by rcases hr calls with h | h <;> omega) (by rcases hr calls with h | h <;> omega)
  rcases hr calls with h1 | h1 <;> rcases hr (calls ++ more) with h2 | h2 <;> rw [h1, h2] at hmono ⊢ <;>
    first | (exfalso; omega) | exact ⟨_, _, rfl, rfl, by norm_num, by norm_num⟩

/-- The level follows the highest wish. -/
example : ([1, 3, 0] : List ℤ).foldl increaseVerbose 2 = 3 ∧ logLevel 3 = some 10 ∧ ([0, 1] : List ℤ).foldl increaseVerbose 2 = 2 := by decide

end Verif.Props
