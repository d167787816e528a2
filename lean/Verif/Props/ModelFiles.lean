import Verif.Model.ModelFiles
import Verif.Lemmas.Reports
import Verif.Props.Store
import Verif.Props.Firmware

/-!
# C102 — files of models over a history of calls
-/

namespace Verif.Props
open Verif.Py Verif.Model

theorem saveAll_other (fl : ℚ → ℚ) (m : Name) : ∀ (l : List SaveCall) (d : MDir), (∀ s ∈ l, yamlName s.name ≠ m) → saveAll fl l d m = d m
  | [], _, _ => rfl
  | s :: l, d, h => by
    have ih := saveAll_other fl m l (saveModel fl s.minimal s.cls s.vals s.name s.ending d) (fun x hx => h x (List.mem_cons_of_mem _ hx))
    have e : saveAll fl (s :: l) d = saveAll fl l (saveModel fl s.minimal s.cls s.vals s.name s.ending d) := rfl
    rw [e, ih]
    simp only [saveModel]
    rw [if_neg (fun e => h s List.mem_cons_self e.symm)]

theorem saveAll_split (fl : ℚ → ℚ) (pre post : List SaveCall) (s : SaveCall) (d : MDir) (h : ∀ x ∈ post, yamlName x.name ≠ yamlName s.name) :
    saveAll fl (pre ++ s :: post) d (yamlName s.name) = saveModel fl s.minimal s.cls s.vals s.name s.ending (saveAll fl pre d) (yamlName s.name) := by
  have e : saveAll fl (pre ++ s :: post) d = saveAll fl post (saveModel fl s.minimal s.cls s.vals s.name s.ending (saveAll fl pre d)) := by
    simp only [saveAll, List.foldl_append, List.foldl_cons]
  rw [e, saveAll_other fl _ post _ h]

/-- **C102** After any history of writes, interrupted ones too, reading the path a write returned gives exactly the model of that write, if it was the last one to that path. -/
theorem C102_last {fl : ℚ → ℚ} (hf : Rounding fl) (gen : ℕ → MVal) (pre post : List SaveCall) (s : SaveCall) (d : MDir) (hs : s.ending = .done)
    (hn : s.cls.fields.names.Nodup) (hv : FitsFields s.cls.fields s.vals) (hlast : ∀ x ∈ post, yamlName x.name ≠ yamlName s.name) :
    (s.minimal = false → loadModel gen s.cls (yamlName s.name) (saveAll fl (pre ++ s :: post) d) = .ok (allSet s.vals)) ∧
    (s.minimal = true → DefaultFields s.cls.fields s.vals → loadModel gen s.cls (yamlName s.name) (saveAll fl (pre ++ s :: post) d) = .ok s.vals) := by
  have e := saveAll_split fl pre post s d hlast
  simp only [saveModel, hs, if_true] at e
  constructor
  · intro hm
    unfold loadModel
    rw [e, hm]
    exact C73_full_partial hf gen s.cls s.vals hn hv
  · intro hm hd
    unfold loadModel
    rw [e, hm]
    exact C73_roundtrip_partial hf gen s.cls s.vals hn hv hd

/-- **C102** Writes do not touch any other path: what reading it gives stays the same. -/
theorem C102_others (fl : ℚ → ℚ) (gen : ℕ → MVal) (c : MClass) (l : List SaveCall) (d : MDir) (m : Name) (h : ∀ s ∈ l, yamlName s.name ≠ m) :
    loadModel gen c m (saveAll fl l d) = loadModel gen c m d := by
  unfold loadModel
  rw [saveAll_other fl m l d h]

/-- **C102** A file is only ever read as the class that wrote it last, even if that write was interrupted. -/
theorem C102_class (fl : ℚ → ℚ) (gen : ℕ → MVal) (c : MClass) (pre post : List SaveCall) (s : SaveCall) (d : MDir) (vs : MVals)
    (hlast : ∀ x ∈ post, yamlName x.name ≠ yamlName s.name) (h : loadModel gen c (yamlName s.name) (saveAll fl (pre ++ s :: post) d) = .ok vs) :
    c.name = s.cls.name := by
  have e := saveAll_split fl pre post s d hlast
  unfold loadModel at h
  rw [e] at h
  simp only [saveModel, if_true] at h
  by_contra hc
  have ne : ∀ m : YMap, fromFile gen c ⟨s.cls.name, m⟩ ≠ .ok vs := by
    intro m
    unfold fromFile
    rw [if_pos (fun e => hc e.symm)]
    simp
  cases hs : s.ending with
  | done => rw [hs] at h; exact ne _ h
  | cut o =>
    rw [hs] at h
    cases o with
    | none => simp at h
    | some k => exact ne _ h

/-- **C102** Names that differ and have no dot are written to different paths, and the name `x.yaml` is written to as it is. -/
theorem C102_paths (n n' x : Name) (h : '.' ∉ n) (h' : '.' ∉ n') (hne : n ≠ n') (hx : x ≠ []) :
    yamlName n ≠ yamlName n' ∧ yamlName n = n ++ ".yaml".toList ∧ yamlName (x ++ ".yaml".toList) = x ++ ".yaml".toList := by
  unfold yamlName withSuffix
  have ey : ".yaml".toList = '.' :: "yaml".toList := by decide +kernel
  have hy : "yaml".toList ≠ [] ∧ '.' ∉ "yaml".toList := by decide +kernel
  refine ⟨?_, ?_, ?_⟩
  · rw [splitName_nodot h, splitName_nodot h']
    exact fun e => hne (List.append_cancel_right e)
  · rw [splitName_nodot h]
  · rw [ey, splitName_eq x _ hx hy.1 hy.2]

/-- Violated: the name that was given to `to_file` is not the one to read: without the ending it is not found. -/
theorem C102_name_violated (fl : ℚ → ℚ) (gen : ℕ → MVal) (s : SaveCall) (d : MDir) (h : '.' ∉ s.name) (hd : d s.name = none) :
    loadModel gen s.cls s.name (saveAll fl [s] d) = .error .fileNotFoundError := by
  have hne : yamlName s.name ≠ s.name := by
    unfold yamlName withSuffix
    rw [splitName_nodot h]
    intro e
    have := congrArg List.length e
    have hl : ".yaml".toList.length = 5 := by decide +kernel
    rw [List.length_append, hl] at this
    simp only at this
    omega
  have := saveAll_other fl s.name [s] d (by simpa using hne)
  unfold loadModel
  rw [this, hd]

/-- Violated: what follows the last dot of a name is dropped, so a model silently replaces another one: after writing `x.1` and `x.2`, the path returned for `x.1` gives the second model. -/
theorem C102_collide_violated {fl : ℚ → ℚ} (hf : Rounding fl) (gen : ℕ → MVal) (s t : SaveCall) (d : MDir) (x a b : Name) (hx : x ≠ []) (ha : a ≠ []) (hb : b ≠ [])
    (hda : '.' ∉ a) (hdb : '.' ∉ b) (hs : s.name = x ++ '.' :: a) (ht : t.name = x ++ '.' :: b) (hdone : t.ending = .done) (hfull : t.minimal = false)
    (hn : t.cls.fields.names.Nodup) (hv : FitsFields t.cls.fields t.vals) :
    loadModel gen t.cls (yamlName s.name) (saveAll fl [s, t] d) = .ok (allSet t.vals) := by
  have e : yamlName s.name = yamlName t.name := by
    unfold yamlName withSuffix
    rw [hs, ht, splitName_eq x a hx ha hda, splitName_eq x b hx hb hdb]
  rw [e]
  exact (C102_last hf gen [s] [] t d hdone hn hv (by simp)).1 hfull

/-- Violated: a write that is interrupted destroys the model that was there before: the file can not be read any more. -/
theorem C102_interrupted_violated {fl : ℚ → ℚ} (gen : ℕ → MVal) (c : MClass) (pre post : List SaveCall) (s : SaveCall) (d : MDir) (hs : s.ending = .cut none)
    (hlast : ∀ x ∈ post, yamlName x.name ≠ yamlName s.name) :
    loadModel gen c (yamlName s.name) (saveAll fl (pre ++ s :: post) d) = .error .typeError := by
  have e := saveAll_split fl pre post s d hlast
  simp only [saveModel, hs, if_true] at e
  unfold loadModel
  rw [e]

/-- Violated: or it is read without complaint as another model: fields that were not written yet take their defaults. -/
theorem C102_cut_violated (fl : ℚ → ℚ) (gen : ℕ → MVal) (minimal : Bool) (cn a b : String) (hab : a ≠ b) (n m k : ℕ) (d : MDir) (x : Name) :
    let c : MClass := ⟨cn, .cons a .plain .required (.cons b .plain (.value (.plain k)) .nil)⟩
    loadModel gen c (yamlName x) (saveAll fl [⟨minimal, c, .cons true (.plain n) (.cons true (.plain m) .nil), x, .cut (some 1)⟩] d) =
      .ok (.cons true (.plain n) (.cons false (.plain k) .nil)) := by
  intro c
  have e := saveAll_split fl [] [] ⟨minimal, c, .cons true (.plain n) (.cons true (.plain m) .nil), x, .cut (some 1)⟩ d (by simp)
  simp only [List.nil_append, saveModel, if_true] at e
  unfold loadModel
  rw [e]
  simp only [c, toFile, dumpFields, Bool.true_or, if_true, YMap.take, fromFile, ne_eq, not_true_eq_false, if_false, loadVal, YMap.keys, MFields.names, List.all_cons, List.all_nil,
    Bool.and_true, loadFields, YMap.get, if_neg hab, dumpVal, Dflt.make]
  simp

-- non-vacuity
example : yamlName "exp_v1.2".toList = "exp_v1.yaml".toList := by decide +kernel
example : yamlName ".hidden".toList = ".hidden.yaml".toList := by decide +kernel
example : (⟨"A", .cons "x" .plain .required .nil⟩ : MClass).fields.names.Nodup ∧ FitsFields (.cons "x" .plain .required .nil) (.cons true (.plain 3) .nil) ∧
    DefaultFields (.cons "x" .plain .required .nil) (.cons true (.plain 3) .nil) := by
  simp [MFields.names, FitsFields, FitsVal, DefaultFields, DefaultVal]
example : loadModel (fun _ => .plain 0) ⟨"A", .cons "x" .plain .required .nil⟩ "m.yaml".toList
    (saveAll b64 [⟨true, ⟨"A", .cons "x" .plain .required .nil⟩, .cons true (.plain 3) .nil, "m".toList, .cut none⟩,
      ⟨true, ⟨"A", .cons "x" .plain .required .nil⟩, .cons true (.plain 4) .nil, "m.txt".toList, .done⟩,
      ⟨true, ⟨"A", .cons "x" .plain .required .nil⟩, .cons true (.plain 5) .nil, "n".toList, .done⟩] (fun _ => none)) = .ok (.cons true (.plain 4) .nil) := by
  have e : "m.yaml".toList = yamlName "m.txt".toList := by decide +kernel
  rw [e]
  refine (C102_last b64_rounding (fun _ => .plain 0) [_] [_] ⟨true, ⟨"A", .cons "x" .plain .required .nil⟩, .cons true (.plain 4) .nil, "m.txt".toList, .done⟩ _ rfl
    (by simp [MFields.names]) (by simp [FitsFields, FitsVal]) ?_).2 rfl (by simp [DefaultFields, DefaultVal])
  intro x hx
  rw [List.mem_singleton] at hx
  subst hx
  decide +kernel

end Verif.Props
