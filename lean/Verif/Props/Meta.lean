import Verif.Model.Meta
import Mathlib.Data.List.Nodup

/-!
# C91: metadata shows the whole file
-/

namespace Verif.Props
open Verif.Py Verif.Model

/-! ## Specification -/

/-- The attributes of a node. -/
def H5Node.attrsOf : H5Node → List (String × AttrVal)
  | .dataset a _ => a
  | .group a _ => a

/-- The names in a group. -/
def H5Items.names : H5Items → List String
  | .nil => []
  | .cons n _ r => n :: H5Items.names r

/-- The member of this name. -/
def H5Items.find : H5Items → String → Option H5Node
  | .nil, _ => none
  | .cons n x r, s => if n = s then some x else H5Items.find r s

/-- The members of a node: a dataset has none. -/
def H5Node.itemsOf : H5Node → H5Items
  | .dataset _ _ => .nil
  | .group _ i => i

/-- The node at a path. -/
def nodeAt : H5Node → List String → Option H5Node
  | n, [] => some n
  | n, s :: p => match H5Items.find (H5Node.itemsOf n) s with | some x => nodeAt x p | none => none

/-- The metadata at a path. -/
def metaAt : MetaMap → List String → Option MetaMap
  | m, [] => some m
  | m, s :: p => match m.get s with | some (.map d) => metaAt d p | _ => none

/-- How the metadata shows a value: texts as YAML reads them (as they are if it can not), numbers as numbers. -/
inductive Shown (yaml : String → Option MetaVal) : AttrVal → MetaVal → Prop
  | parsed (s : String) (y : MetaVal) (h : yaml s = some y) : Shown yaml (.text s) y
  | text (s : String) (h : yaml s = none) : Shown yaml (.text s) (.text s)
  | int (n : ℤ) : Shown yaml (.int n) (.int n)
  | float (x : ℚ) : Shown yaml (.float x) (.float x)
  | yes : Shown yaml (.flag true) (.float 1)
  | no : Shown yaml (.flag false) (.float 0)
  | bytes (x : ℚ) : Shown yaml (.bytes (some x)) (.float x)
  | single (x : ℚ) : Shown yaml (.array [x]) (.float x)

/-- The attribute can be shown. -/
def Showable : AttrVal → Prop
  | .bytes none => False
  | .array xs => xs.length = 1
  | .empty => False
  | _ => True

/-- The names the reader adds itself. -/
def reserved : List String := ["_dataset_info", "_group_info"]

/-- Names of attributes and members of a node do not meet. -/
def CleanNode (n : H5Node) : Prop :=
  ((H5Node.attrsOf n).map (·.1)).Nodup ∧ (H5Items.names (H5Node.itemsOf n)).Nodup ∧ (∀ a ∈ (H5Node.attrsOf n).map (·.1), a ∉ H5Items.names (H5Node.itemsOf n)) ∧
  (∀ a ∈ (H5Node.attrsOf n).map (·.1) ++ H5Items.names (H5Node.itemsOf n), a ∉ reserved)

/-- Every node of the file is like that. -/
def Clean (n : H5Node) : Prop := ∀ p x, nodeAt n p = some x → CleanNode x

/-- The entry the reader adds for the node at a path. -/
def infoKeys (minimal : Bool) (path : List String) : H5Node → List String
  | .dataset _ _ => if minimal then [] else ["_dataset_info"]
  | .group _ _ => if path = ["data"] ∧ minimal = false then ["_group_info"] else []

/-! ## Dictionaries -/

theorem MetaMap.get_set (m : MetaMap) (k : String) (v : MetaVal) (s : String) : (m.set k v).get s = if k = s then some v else m.get s := by
  induction m using MetaMap.rec (motive_1 := fun _ => True) with
  | null | text | int | float | flag | floats | other | map => trivial
  | nil => simp [MetaMap.set, MetaMap.get]
  | cons k' w r _ ih =>
    simp only [MetaMap.set]
    by_cases h : k' = k
    · rw [if_pos h]
      simp only [MetaMap.get]
      by_cases h2 : k' = s
      · rw [if_pos h2, if_pos (h ▸ h2)]
      · rw [if_neg h2, if_neg (h ▸ h2), if_neg h2]
    · rw [if_neg h]
      simp only [MetaMap.get, ih]
      by_cases h2 : k' = s
      · rw [if_pos h2, if_neg (fun e => h (h2.trans e.symm)), if_pos h2]
      · rw [if_neg h2, if_neg h2]

theorem MetaMap.keys_set (m : MetaMap) (k : String) (v : MetaVal) (h : k ∉ m.keys) : (m.set k v).keys = m.keys ++ [k] := by
  induction m using MetaMap.rec (motive_1 := fun _ => True) with
  | null | text | int | float | flag | floats | other | map => trivial
  | nil => rfl
  | cons k' w r _ ih =>
    simp only [MetaMap.keys, List.mem_cons, not_or] at h
    simp only [MetaMap.set, if_neg (Ne.symm h.1), MetaMap.keys, ih h.2, List.cons_append]

theorem attrMeta_ok {yaml : String → Option MetaVal} {v : AttrVal} {x : MetaVal} : attrMeta yaml v = .ok x ↔ Shown yaml v x := by
  constructor
  · intro h
    cases v with
    | text s =>
      simp only [attrMeta, Except.ok.injEq] at h
      cases hy : yaml s with
      | none => rw [hy] at h; simp only [Option.getD_none] at h; subst h; exact .text s hy
      | some y => rw [hy] at h; simp only [Option.getD_some] at h; subst h; exact .parsed s y hy
    | int n => simp only [attrMeta, Except.ok.injEq] at h; subst h; exact .int n
    | float n => simp only [attrMeta, Except.ok.injEq] at h; subst h; exact .float n
    | flag b => cases b <;> (simp [attrMeta] at h; subst h; constructor)
    | bytes n => cases n <;> simp [attrMeta] at h; subst h; exact .bytes _
    | array xs =>
      match xs, h with
      | [], h => simp [attrMeta] at h
      | [x], h => simp [attrMeta] at h; subst h; exact .single x
      | _ :: _ :: _, h => simp [attrMeta] at h
    | empty => simp [attrMeta] at h
  · intro h
    cases h with
    | parsed s y h => simp [attrMeta, h]
    | text s h => simp [attrMeta, h]
    | _ => simp [attrMeta]

theorem attrMeta_total (yaml : String → Option MetaVal) (v : AttrVal) : (∃ x, attrMeta yaml v = .ok x) ↔ Showable v := by
  cases v with
  | bytes n => cases n <;> simp [attrMeta, Showable]
  | array xs =>
    match xs with
    | [] => simp [attrMeta, Showable]
    | [x] => simp [attrMeta, Showable]
    | _ :: _ :: _ => simp [attrMeta, Showable]
  | _ => simp [attrMeta, Showable]

/-- The loop over attributes: names that are new and different are appended in order. -/
theorem attrsMeta_ok (yaml : String → Option MetaVal) : ∀ (l : List (String × AttrVal)) (m d : MetaMap), attrsMeta yaml l m = .ok d → (l.map (·.1)).Nodup → (∀ a ∈ l.map (·.1), a ∉ m.keys) →
    d.keys = m.keys ++ l.map (·.1) ∧ (∀ k, k ∉ l.map (·.1) → d.get k = m.get k) ∧ ∀ e ∈ l, ∃ x, Shown yaml e.2 x ∧ d.get e.1 = some x
  | [], m, d, h, _, _ => by
    simp only [attrsMeta, Except.ok.injEq] at h
    subst h
    exact ⟨by simp, fun _ _ => rfl, by simp⟩
  | (k, v) :: t, m, d, h, hn, hd => by
    rw [attrsMeta] at h
    cases hx : attrMeta yaml v with
    | error e => rw [hx] at h; cases h
    | ok x =>
      rw [hx] at h
      simp only at h
      rw [List.map_cons, List.nodup_cons] at hn
      have hk : k ∉ m.keys := hd k (by simp)
      have hks := MetaMap.keys_set m k x hk
      obtain ⟨h1, h2, h3⟩ := attrsMeta_ok yaml t (m.set k x) d h hn.2 (fun a ha => by
        rw [hks, List.mem_append, not_or]
        refine ⟨hd a (by simp [ha]), ?_⟩
        rw [List.mem_singleton]
        rintro rfl
        exact hn.1 ha)
      refine ⟨by rw [h1, hks]; simp, ?_, ?_⟩
      · intro a ha
        rw [List.map_cons, List.mem_cons, not_or] at ha
        rw [h2 a ha.2, MetaMap.get_set, if_neg (Ne.symm ha.1)]
      · intro e he
        rcases List.mem_cons.mp he with rfl | he
        · exact ⟨x, attrMeta_ok.mp hx, by rw [h2 k hn.1, MetaMap.get_set, if_pos rfl]⟩
        · exact h3 e he

/-- The loop over members. -/
theorem itemsMeta_ok (yaml : String → Option MetaVal) (R : MetaFns) (minimal : Bool) (path : List String) : ∀ (l : H5Items) (m d : MetaMap), itemsMeta yaml R minimal path l m = .ok d →
    (H5Items.names l).Nodup → (∀ a ∈ H5Items.names l, a ∉ m.keys) →
    d.keys = m.keys ++ H5Items.names l ∧ (∀ k, k ∉ H5Items.names l → d.get k = m.get k) ∧
    ∀ s n, H5Items.find l s = some n → ∃ x, nodeMeta yaml R minimal (path ++ [s]) n = .ok x ∧ d.get s = some (.map x)
  | .nil, m, d, h, _, _ => by
    simp only [itemsMeta, Except.ok.injEq] at h
    subst h
    exact ⟨by simp [H5Items.names], fun _ _ => rfl, by simp [H5Items.find]⟩
  | .cons k v t, m, d, h, hn, hd => by
    rw [itemsMeta] at h
    cases hx : nodeMeta yaml R minimal (path ++ [k]) v with
    | error e => rw [hx] at h; cases h
    | ok x =>
      rw [hx] at h
      simp only at h
      rw [H5Items.names, List.nodup_cons] at hn
      have hk : k ∉ m.keys := hd k (by simp [H5Items.names])
      have hks := MetaMap.keys_set m k (.map x) hk
      obtain ⟨h1, h2, h3⟩ := itemsMeta_ok yaml R minimal path t (m.set k (.map x)) d h hn.2 (fun a ha => by
        rw [hks, List.mem_append, not_or]
        refine ⟨hd a (by simp [H5Items.names, ha]), ?_⟩
        rw [List.mem_singleton]
        rintro rfl
        exact hn.1 ha)
      refine ⟨by rw [h1, hks]; simp [H5Items.names], ?_, ?_⟩
      · intro a ha
        rw [H5Items.names, List.mem_cons, not_or] at ha
        rw [h2 a ha.2, MetaMap.get_set, if_neg (Ne.symm ha.1)]
      · intro s n hs
        rw [H5Items.find] at hs
        split_ifs at hs with hks
        · simp only [Option.some.injEq] at hs
          subst hs; subst hks
          exact ⟨x, hx, by rw [h2 k hn.1, MetaMap.get_set, if_pos rfl]⟩
        · exact h3 s n hs

/-- One node: its keys, attributes and members. -/
theorem nodeMeta_ok (yaml : String → Option MetaVal) (R : MetaFns) (minimal : Bool) (path : List String) (n : H5Node) (hc : CleanNode n) (d : MetaMap) (h : nodeMeta yaml R minimal path n = .ok d) :
    d.keys.Perm (infoKeys minimal path n ++ (H5Node.attrsOf n).map (·.1) ++ H5Items.names (H5Node.itemsOf n)) ∧
    (∀ e ∈ H5Node.attrsOf n, ∃ x, Shown yaml e.2 x ∧ d.get e.1 = some x) ∧
    ∀ s c, H5Items.find (H5Node.itemsOf n) s = some c → ∃ x, nodeMeta yaml R minimal (path ++ [s]) c = .ok x ∧ d.get s = some (.map x) := by
  obtain ⟨c1, c2, c3, c4⟩ := hc
  cases n with
  | dataset attrs i =>
    simp only [H5Node.attrsOf, H5Node.itemsOf, H5Items.names, List.append_nil, infoKeys] at *
    rw [nodeMeta] at h
    cases minimal with
    | true =>
      simp only [if_true] at h
      obtain ⟨h1, -, h3⟩ := attrsMeta_ok yaml attrs .nil d h c1 (by simp [MetaMap.keys])
      exact ⟨by rw [h1]; simp [MetaMap.keys], h3, by simp [H5Items.find]⟩
    | false =>
      simp only [Bool.false_eq_true, if_false] at h
      cases hi : dsInfoMeta R path i with
      | error e => rw [hi] at h; cases h
      | ok g =>
        rw [hi] at h
        obtain ⟨h1, -, h3⟩ := attrsMeta_ok yaml attrs _ d h c1 (by
          intro a ha
          have := c4 a ha
          simp only [MetaMap.keys, List.mem_singleton]
          rintro rfl
          exact this (by decide))
        exact ⟨by rw [h1]; simp [MetaMap.keys], h3, by simp [H5Items.find]⟩
  | group attrs items =>
    simp only [H5Node.attrsOf, H5Node.itemsOf, infoKeys] at *
    rw [nodeMeta] at h
    cases ha : attrsMeta yaml attrs .nil with
    | error e => rw [ha] at h; cases h
    | ok m =>
      rw [ha] at h
      simp only at h
      obtain ⟨h1, h2, h3⟩ := attrsMeta_ok yaml attrs .nil m ha c1 (by simp [MetaMap.keys])
      simp only [MetaMap.keys, List.nil_append] at h1
      split_ifs at h ⊢ with hd
      · cases hg : R.group with
        | error e => rw [hg] at h; cases h
        | ok g =>
          rw [hg] at h
          simp only at h
          have hk : "_group_info" ∉ m.keys := by
            rw [h1]
            intro hm
            exact c4 _ (List.mem_append_left _ hm) (by decide)
          have hks := MetaMap.keys_set m "_group_info" (.map g) hk
          obtain ⟨k1, k2, k3⟩ := itemsMeta_ok yaml R minimal path items _ d h c2 (by
            intro a ha
            rw [hks, h1, List.mem_append, not_or, List.mem_singleton]
            refine ⟨fun hm => c3 a hm ha, ?_⟩
            rintro rfl
            exact c4 _ (List.mem_append_right _ ha) (by decide))
          refine ⟨?_, ?_, k3⟩
          · rw [k1, hks, h1]
            refine List.Perm.append_right _ ?_
            exact List.perm_append_comm
          · intro e he
            obtain ⟨x, hx1, hx2⟩ := h3 e he
            have hm : e.1 ∈ attrs.map (·.1) := List.mem_map_of_mem he
            refine ⟨x, hx1, ?_⟩
            rw [k2 _ (c3 _ hm), MetaMap.get_set, if_neg, hx2]
            intro he'
            exact c4 _ (List.mem_append_left _ hm) (by rw [← he']; decide)
      · obtain ⟨k1, k2, k3⟩ := itemsMeta_ok yaml R minimal path items m d h c2 (by
          intro a ha
          rw [h1]
          exact fun hm => c3 a hm ha)
        refine ⟨by rw [k1, h1]; simp, ?_, k3⟩
        intro e he
        obtain ⟨x, hx1, hx2⟩ := h3 e he
        exact ⟨x, hx1, by rw [k2 _ (c3 _ (List.mem_map_of_mem he)), hx2]⟩

/-- **C91, parts (partial: names of attributes and members do not meet).**  The metadata of a file has at every path exactly what the metadata of the node at this path is. -/
theorem C91_parts_partial (yaml : String → Option MetaVal) (R : MetaFns) (minimal : Bool) : ∀ (p path : List String) (n x : H5Node), Clean n → nodeAt n p = some x →
    ∀ m, nodeMeta yaml R minimal path n = .ok m → ∃ d, nodeMeta yaml R minimal (path ++ p) x = .ok d ∧ metaAt m p = some d
  | [], path, n, x, _, hx, m, h => by
    simp only [nodeAt, Option.some.injEq] at hx
    subst hx
    exact ⟨m, by rw [List.append_nil]; exact h, rfl⟩
  | s :: p, path, n, x, hc, hx, m, h => by
    rw [nodeAt] at hx
    cases hf : H5Items.find (H5Node.itemsOf n) s with
    | none => rw [hf] at hx; cases hx
    | some c =>
      rw [hf] at hx
      simp only at hx
      obtain ⟨y, hy1, hy2⟩ := (nodeMeta_ok yaml R minimal path n (hc [] n rfl) m h).2.2 s c hf
      have hcc : Clean c := by
        intro q z hz
        refine hc (s :: q) z ?_
        rw [nodeAt, hf]
        exact hz
      obtain ⟨d, hd1, hd2⟩ := C91_parts_partial yaml R minimal p (path ++ [s]) c x hcc hx y hy1
      refine ⟨d, by rw [← hd1]; simp, ?_⟩
      rw [metaAt, hy2]
      exact hd2

/-- **C91 (partial: names of attributes and members do not meet).**  The metadata has at the path of every node an entry for each attribute with its value, one for each member, the facts the reader adds,
and nothing else. -/
theorem C91_mirror_partial (yaml : String → Option MetaVal) (R : MetaFns) (minimal : Bool) (root : H5Node) (hc : Clean root) (m : MetaMap) (h : nodeMeta yaml R minimal [] root = .ok m)
    (p : List String) (n : H5Node) (hp : nodeAt root p = some n) :
    ∃ d, metaAt m p = some d ∧ d.keys.Perm (infoKeys minimal p n ++ (H5Node.attrsOf n).map (·.1) ++ H5Items.names (H5Node.itemsOf n)) ∧
      ∀ e ∈ H5Node.attrsOf n, ∃ x, Shown yaml e.2 x ∧ d.get e.1 = some x := by
  obtain ⟨d, h1, h2⟩ := C91_parts_partial yaml R minimal p [] root n hc hp m h
  obtain ⟨h3, h4, -⟩ := nodeMeta_ok yaml R minimal _ n (hc p n hp) d h1
  exact ⟨d, h2, h3, h4⟩

/-! ## Facts of the reader -/

/-- A number of keys is not changed by attributes. -/
theorem nodeMeta_group (yaml : String → Option MetaVal) (R : MetaFns) (attrs : List (String × AttrVal)) (items : H5Items) (hc : CleanNode (.group attrs items)) (d : MetaMap)
    (h : nodeMeta yaml R false ["data"] (.group attrs items) = .ok d) : ∃ g, R.group = .ok g ∧ d.get "_group_info" = some (.map g) := by
  obtain ⟨c1, c2, c3, c4⟩ := hc
  simp only [H5Node.attrsOf, H5Node.itemsOf] at *
  rw [nodeMeta] at h
  cases ha : attrsMeta yaml attrs .nil with
  | error e => rw [ha] at h; cases h
  | ok m =>
    rw [ha] at h
    simp only [and_self, if_true] at h
    obtain ⟨h1, h2, h3⟩ := attrsMeta_ok yaml attrs .nil m ha c1 (by simp [MetaMap.keys])
    simp only [MetaMap.keys, List.nil_append] at h1
    cases hg : R.group with
    | error e => rw [hg] at h; cases h
    | ok g =>
      rw [hg] at h
      simp only at h
      have hk : "_group_info" ∉ m.keys := by
        rw [h1]
        intro hm
        exact c4 _ (List.mem_append_left _ hm) (by decide)
      have hks := MetaMap.keys_set m "_group_info" (.map g) hk
      obtain ⟨k1, k2, k3⟩ := itemsMeta_ok yaml R false ["data"] items _ d h c2 (by
        intro a ha
        rw [hks, h1, List.mem_append, not_or, List.mem_singleton]
        refine ⟨fun hm => c3 a hm ha, ?_⟩
        rintro rfl
        exact c4 _ (List.mem_append_right _ ha) (by decide))
      refine ⟨g, rfl, ?_⟩
      rw [k2 _ (fun hm => c4 _ (List.mem_append_right _ hm) (by decide)), MetaMap.get_set, if_pos rfl]

theorem nodeMeta_dataset (yaml : String → Option MetaVal) (R : MetaFns) (path : List String) (attrs : List (String × AttrVal)) (i : DsInfo) (hc : CleanNode (.dataset attrs i)) (d : MetaMap)
    (h : nodeMeta yaml R false path (.dataset attrs i) = .ok d) : ∃ g, dsInfoMeta R path i = .ok g ∧ d.get "_dataset_info" = some (.map g) := by
  obtain ⟨c1, c2, c3, c4⟩ := hc
  simp only [H5Node.attrsOf, H5Node.itemsOf, H5Items.names, List.append_nil] at *
  rw [nodeMeta] at h
  simp only [Bool.false_eq_true, if_false] at h
  cases hi : dsInfoMeta R path i with
  | error e => rw [hi] at h; cases h
  | ok g =>
    rw [hi] at h
    have hno : ∀ a ∈ attrs.map (·.1), a ≠ "_dataset_info" := by
      rintro a ha rfl
      exact c4 _ ha (by decide)
    obtain ⟨h1, h2, h3⟩ := attrsMeta_ok yaml attrs _ d h c1 (by
      intro a ha
      simp only [MetaMap.keys, List.mem_singleton]
      exact hno a ha)
    refine ⟨g, rfl, ?_⟩
    rw [h2 _ (fun hm => hno _ hm rfl)]
    rfl

/-- **C91, facts (partial: names of attributes and members do not meet).**  For every dataset the metadata tells type, shape, chunks and compression, for whole numbers the statistics, for the time the differences of
time stamps; for the recording its energy, runtime, rate, size and whether it is valid, as the reader computes them. -/
theorem C91_facts_partial (yaml : String → Option MetaVal) (fl : ℚ → ℚ) (npSum : List ℚ → ℚ) (s : Session) (chunk size : ℕ) (stats : List String → Except PyErr MetaMap) (root : H5Node) (hc : Clean root)
    (m : MetaMap) (h : nodeMeta yaml (s.metaFns fl npSum chunk size stats) false [] root = .ok m) :
    (∀ attrs items, nodeAt root ["data"] = some (.group attrs items) → ∃ d g, metaAt m ["data"] = some d ∧ d.get "_group_info" = some (.map g) ∧
      g.get "energy_Ws" = some (.float (s.energy fl npSum chunk)) ∧ g.get "valid" = some (.flag s.file.isValid) ∧ g.get "runtime_s" = some (.float (fl ((pyRound (10 * s.runtimeS fl) : ℚ) / 10)))) ∧
    (∀ p attrs i, nodeAt root p = some (.dataset attrs i) → ∃ d g, metaAt m p = some d ∧ d.get "_dataset_info" = some (.map g) ∧
      g.get "datatype" = some (.text i.dtype) ∧ g.get "shape" = some (.text i.shape) ∧ g.get "chunks" = some (.text i.chunks) ∧ g.get "compression" = some (.text i.compression) ∧
      g.get "compression_opts" = some (.text i.options) ∧ (p = ["data", "time"] → g.get "time_diffs_s" = some (.floats (s.timediffs fl chunk))) ∧
      (p ≠ ["data", "time"] → "int".toList <:+: i.dtype.toList → ∃ x, stats p = .ok x ∧ g.get "statistics" = some (.map x))) := by
  constructor
  · intro attrs items hp
    obtain ⟨d, h1, h2⟩ := C91_parts_partial yaml _ false ["data"] [] root _ hc hp m h
    rw [List.nil_append] at h1
    obtain ⟨g, h3, h4⟩ := nodeMeta_group yaml _ attrs items (hc _ _ hp) d h1
    simp only [Session.metaFns, Except.ok.injEq] at h3
    subst h3
    exact ⟨d, _, h2, h4, by simp [MetaMap.get], by simp [MetaMap.get], by simp [MetaMap.get]⟩
  · intro p attrs i hp
    obtain ⟨d, h1, h2⟩ := C91_parts_partial yaml _ false p [] root _ hc hp m h
    rw [List.nil_append] at h1
    obtain ⟨g, h3, h4⟩ := nodeMeta_dataset yaml _ p attrs i (hc _ _ hp) d h1
    refine ⟨d, g, h2, h4, ?_⟩
    unfold dsInfoMeta at h3
    simp only [Session.metaFns] at h3
    by_cases ht : p = ["data", "time"]
    · rw [if_pos ht] at h3
      simp only [Except.ok.injEq] at h3
      subst h3
      simp [MetaMap.get, ht]
    · rw [if_neg ht] at h3
      by_cases hi : inText "int" i.dtype = true
      · rw [if_pos hi] at h3
        cases hs : stats p with
        | error e => rw [hs] at h3; cases h3
        | ok x =>
          rw [hs] at h3
          simp only [Except.ok.injEq] at h3
          subst h3
          simp [MetaMap.get, ht]
      · rw [if_neg hi] at h3
        simp only [Except.ok.injEq] at h3
        subst h3
        have hi' : ¬ "int".toList <:+: i.dtype.toList := by simpa [inText] using hi
        refine ⟨by simp [MetaMap.get], by simp [MetaMap.get], by simp [MetaMap.get], by simp [MetaMap.get], by simp [MetaMap.get], fun e => absurd e ht, fun _ e => absurd e hi'⟩

/-! ## When it works -/

mutual
/-- All nodes with their paths. -/
def allNodes (path : List String) : H5Node → List (List String × H5Node)
  | .dataset a i => [(path, .dataset a i)]
  | .group a items => (path, .group a items) :: allItems path items
/-- All nodes of the members of a group. -/
def allItems (path : List String) : H5Items → List (List String × H5Node)
  | .nil => []
  | .cons s n r => allNodes (path ++ [s]) n ++ allItems path r
end

/-- The reader can compute what it adds for this node. -/
def FactsOk (R : MetaFns) (minimal : Bool) (path : List String) : H5Node → Prop
  | .dataset _ i => minimal = false → if path = ["data", "time"] then ∃ x, R.timeDiffs = .ok x else "int".toList <:+: i.dtype.toList → ∃ x, R.stats path = .ok x
  | .group _ _ => minimal = false → path = ["data"] → ∃ x, R.group = .ok x

theorem attrsMeta_succeeds (yaml : String → Option MetaVal) : ∀ (l : List (String × AttrVal)) (m : MetaMap), (∃ d, attrsMeta yaml l m = .ok d) ↔ ∀ e ∈ l, Showable e.2
  | [], m => by simp [attrsMeta]
  | (k, v) :: t, m => by
    rw [attrsMeta]
    cases hx : attrMeta yaml v with
    | error e =>
      have : ¬ Showable v := by
        rw [← attrMeta_total yaml]
        rintro ⟨x, hx'⟩
        rw [hx] at hx'; cases hx'
      simp [this]
    | ok x =>
      have : Showable v := (attrMeta_total yaml v).mp ⟨x, hx⟩
      simp only [List.forall_mem_cons, this, true_and]
      exact attrsMeta_succeeds yaml t (m.set k x)

theorem dsInfo_succeeds (R : MetaFns) (path : List String) (a : List (String × AttrVal)) (i : DsInfo) : (∃ d, dsInfoMeta R path i = .ok d) ↔ FactsOk R false path (.dataset a i) := by
  unfold dsInfoMeta FactsOk
  simp only [true_implies]
  by_cases ht : path = ["data", "time"]
  · rw [if_pos ht, if_pos ht]
    cases R.timeDiffs <;> simp
  · rw [if_neg ht, if_neg ht]
    by_cases hi : inText "int" i.dtype = true
    · rw [if_pos hi]
      have hi' : "int".toList <:+: i.dtype.toList := by simpa [inText] using hi
      simp only [hi', true_implies]
      cases R.stats path <;> simp
    · rw [if_neg hi]
      have hi' : ¬ "int".toList <:+: i.dtype.toList := by simpa [inText] using hi
      simp only [hi', false_implies, iff_true]
      exact ⟨_, rfl⟩

mutual
theorem nodeMeta_succeeds (yaml : String → Option MetaVal) (R : MetaFns) (minimal : Bool) : ∀ (n : H5Node) (path : List String), (∃ d, nodeMeta yaml R minimal path n = .ok d) ↔
    ∀ x ∈ allNodes path n, (∀ e ∈ H5Node.attrsOf x.2, Showable e.2) ∧ FactsOk R minimal x.1 x.2
  | .dataset a i, path => by
    simp only [allNodes, List.forall_mem_singleton, H5Node.attrsOf]
    rw [nodeMeta]
    cases minimal with
    | true =>
      simp only [if_true, FactsOk, Bool.true_eq_false, false_implies, and_true]
      exact attrsMeta_succeeds yaml a _
    | false =>
      simp only [Bool.false_eq_true, if_false]
      cases hi : dsInfoMeta R path i with
      | error e =>
        have : ¬ FactsOk R false path (.dataset a i) := by
          rw [← dsInfo_succeeds, hi]; simp
        simp [this]
      | ok d =>
        have : FactsOk R false path (.dataset a i) := (dsInfo_succeeds R path a i).mp ⟨d, hi⟩
        simp only [this, and_true]
        exact attrsMeta_succeeds yaml a _
  | .group a items, path => by
    rw [allNodes, List.forall_mem_cons, nodeMeta]
    have hS : _ ↔ ∀ e ∈ H5Node.attrsOf (.group a items), Showable e.2 := attrsMeta_succeeds yaml a .nil
    cases ha : attrsMeta yaml a .nil with
    | error e =>
      rw [ha] at hS
      rw [← hS]
      simp
    | ok m =>
      rw [ha] at hS
      rw [← hS]
      simp only [Except.ok.injEq, exists_eq', true_and]
      by_cases hd : path = ["data"] ∧ minimal = false
      · rw [if_pos hd]
        cases hg : R.group with
        | error e =>
          have : ¬ FactsOk R minimal path (.group a items) := by
            simp [FactsOk, hd, hg]
          simp [this]
        | ok g =>
          have : FactsOk R minimal path (.group a items) := by simp [FactsOk, hg]
          simp only [this, true_and]
          exact itemsMeta_succeeds yaml R minimal items path _
      · rw [if_neg hd]
        have : FactsOk R minimal path (.group a items) := fun h1 h2 => absurd ⟨h2, h1⟩ hd
        simp only [this, true_and]
        exact itemsMeta_succeeds yaml R minimal items path _
theorem itemsMeta_succeeds (yaml : String → Option MetaVal) (R : MetaFns) (minimal : Bool) : ∀ (l : H5Items) (path : List String) (m : MetaMap), (∃ d, itemsMeta yaml R minimal path l m = .ok d) ↔
    ∀ x ∈ allItems path l, (∀ e ∈ H5Node.attrsOf x.2, Showable e.2) ∧ FactsOk R minimal x.1 x.2
  | .nil, path, m => by simp [itemsMeta, allItems]
  | .cons s n r, path, m => by
    simp only [allItems, List.forall_mem_append]
    rw [itemsMeta]
    have hS := nodeMeta_succeeds yaml R minimal n (path ++ [s])
    cases hx : nodeMeta yaml R minimal (path ++ [s]) n with
    | error e =>
      rw [← hS, hx]
      simp
    | ok d =>
      rw [← hS, hx]
      simp only [Except.ok.injEq, exists_eq', true_and]
      exact itemsMeta_succeeds yaml R minimal r path _
end

/-- **C91, success.**  There are metadata if and only if every attribute of every node can be shown and the reader can compute its facts. -/
theorem C91_success (yaml : String → Option MetaVal) (R : MetaFns) (minimal : Bool) (root : H5Node) : (∃ m, nodeMeta yaml R minimal [] root = .ok m) ↔
    ∀ x ∈ allNodes [] root, (∀ e ∈ H5Node.attrsOf x.2, Showable e.2) ∧ FactsOk R minimal x.1 x.2 := nodeMeta_succeeds yaml R minimal root []

mutual
theorem nodeMeta_minimal (yaml : String → Option MetaVal) (R R' : MetaFns) : ∀ (n : H5Node) (path : List String), nodeMeta yaml R true path n = nodeMeta yaml R' true path n
  | .dataset a i, path => by rw [nodeMeta, nodeMeta]; simp
  | .group a items, path => by
    rw [nodeMeta, nodeMeta]
    simp only [Bool.true_eq_false, and_false, if_false]
    cases attrsMeta yaml a .nil with
    | error e => rfl
    | ok m => exact itemsMeta_minimal yaml R R' items path m
theorem itemsMeta_minimal (yaml : String → Option MetaVal) (R R' : MetaFns) : ∀ (l : H5Items) (path : List String) (m : MetaMap), itemsMeta yaml R true path l m = itemsMeta yaml R' true path l m
  | .nil, path, m => by rw [itemsMeta, itemsMeta]
  | .cons s n r, path, m => by
    rw [itemsMeta, itemsMeta, nodeMeta_minimal yaml R R' n]
    cases nodeMeta yaml R' true (path ++ [s]) n with
    | error e => rfl
    | ok d => exact itemsMeta_minimal yaml R R' r path _
end

/-- **C91, bare tree.**  With `minimal` nothing is computed: the result does not depend on the data, and only attributes can be in the way. -/
theorem C91_minimal (yaml : String → Option MetaVal) (R R' : MetaFns) (root : H5Node) : nodeMeta yaml R true [] root = nodeMeta yaml R' true [] root ∧
    ((∃ m, nodeMeta yaml R true [] root = .ok m) ↔ ∀ x ∈ allNodes [] root, ∀ e ∈ H5Node.attrsOf x.2, Showable e.2) := by
  refine ⟨nodeMeta_minimal yaml R R' root [], ?_⟩
  rw [C91_success]
  constructor
  · exact fun h x hx => (h x hx).1
  · intro h x hx
    refine ⟨h x hx, ?_⟩
    obtain ⟨p, n⟩ := x
    cases n with
    | dataset a i => exact fun h => by cases h
    | group a i => exact fun h => by cases h

/-! ## Where it does not -/

theorem itemsMeta_map (yaml : String → Option MetaVal) (R : MetaFns) (minimal : Bool) (path : List String) : ∀ (l : H5Items) (m d : MetaMap), itemsMeta yaml R minimal path l m = .ok d →
    ∀ s, (s ∈ H5Items.names l ∨ ∃ x, m.get s = some (.map x)) → ∃ x, d.get s = some (.map x)
  | .nil, m, d, h, s, hs => by
    simp only [itemsMeta, Except.ok.injEq] at h
    subst h
    simpa [H5Items.names] using hs
  | .cons k v t, m, d, h, s, hs => by
    rw [itemsMeta] at h
    cases hx : nodeMeta yaml R minimal (path ++ [k]) v with
    | error e => rw [hx] at h; cases h
    | ok x =>
      rw [hx] at h
      simp only at h
      refine itemsMeta_map yaml R minimal path t _ d h s ?_
      rw [MetaMap.get_set]
      by_cases hk : k = s
      · right; exact ⟨x, by rw [if_pos hk]⟩
      · rw [if_neg hk]
        rcases hs with hs | hs
        · rw [H5Items.names, List.mem_cons] at hs
          exact .inl (hs.resolve_left (Ne.symm hk))
        · exact .inr hs

/-- **C91 violated: equal names.**  An attribute with the name of a member is never shown. -/
theorem C91_names_violated (yaml : String → Option MetaVal) (R : MetaFns) (minimal : Bool) (path : List String) (attrs : List (String × AttrVal)) (items : H5Items) (a : String) (n : ℤ)
    (_ha : (a, .int n) ∈ attrs) (hm : a ∈ H5Items.names items) (d : MetaMap) (h : nodeMeta yaml R minimal path (.group attrs items) = .ok d) : d.get a ≠ some (.int n) := by
  rw [nodeMeta] at h
  cases hx : attrsMeta yaml attrs .nil with
  | error e => rw [hx] at h; cases h
  | ok m =>
    rw [hx] at h
    simp only at h
    have : ∃ x, d.get a = some (.map x) := by
      split_ifs at h with hd
      · cases hg : R.group with
        | error e => rw [hg] at h; cases h
        | ok g => rw [hg] at h; exact itemsMeta_map yaml R minimal path items _ d h a (.inl hm)
      · exact itemsMeta_map yaml R minimal path items m d h a (.inl hm)
    obtain ⟨x, hx⟩ := this
    rw [hx]
    simp

/-- **C91 violated: arrays.**  If any node of the file has an attribute with several numbers, there are no metadata of the file at all. -/
theorem C91_array_violated (yaml : String → Option MetaVal) (R : MetaFns) (minimal : Bool) (root : H5Node) (p : List String) (n : H5Node) (hn : (p, n) ∈ allNodes [] root) (a : String) (xs : List ℚ)
    (ha : (a, .array xs) ∈ H5Node.attrsOf n) (hx : 2 ≤ xs.length) : ∀ m, nodeMeta yaml R minimal [] root ≠ .ok m := by
  intro m hm
  have := ((C91_success yaml R minimal root).mp ⟨m, hm⟩ _ hn).1 _ ha
  simp only [Showable] at this
  omega

/-- **C91 violated: values.**  Flags are shown as numbers, and texts that YAML takes for something else as that: a host with the name `no` as false. -/
theorem C91_values_violated (yaml : String → Option MetaVal) (R : MetaFns) (minimal : Bool) (hy : yaml "no" = some (.flag false)) :
    ∃ m, nodeMeta yaml R minimal [] (.group [("hostname", .text "no"), ("ok", .flag true)] .nil) = .ok m ∧ m.get "hostname" = some (.flag false) ∧ m.get "ok" = some (.float 1) := by
  refine ⟨.cons "hostname" (.flag false) (.cons "ok" (.float 1) .nil), ?_, by simp [MetaMap.get], by simp [MetaMap.get]⟩
  rw [nodeMeta]
  simp [attrsMeta, attrMeta, hy, MetaMap.set, itemsMeta]

/-! ## Export -/

/-- **C91, export.**  A file with metadata is never changed; without one it is written if there are metadata, and they are returned; if there are none, nothing is left behind. -/
theorem C91_export (old : Option MetaFile) (r : Except PyErr MetaMap) :
    (∀ f, old = some f → (∀ x ∈ (saveMetadata old r).1, x = some f) ∧ (saveMetadata old r).2 = .ok .nil) ∧
    (∀ m, old = none → r = .ok m → (saveMetadata old r).1.getLast? = some (some (.done m)) ∧ (saveMetadata old r).2 = .ok m) ∧
    (∀ e, old = none → r = .error e → (∀ x ∈ (saveMetadata old r).1, x = none) ∧ (saveMetadata old r).2 = .error e) := by
  refine ⟨?_, ?_, ?_⟩
  · rintro f rfl; simp [saveMetadata]
  · rintro m rfl rfl; simp [saveMetadata]
  · rintro e rfl rfl; simp [saveMetadata]

/-- **C91 violated: crash.**  An end of the program during the export can leave an incomplete file, which all later exports take for finished. -/
theorem C91_crash_violated (m : MetaMap) (r : Except PyErr MetaMap) : ∃ x ∈ (saveMetadata none (.ok m)).1, x = some .unfinished ∧ (saveMetadata x r).1 = [some .unfinished] ∧ (saveMetadata x r).2 = .ok .nil :=
  ⟨some .unfinished, by simp [saveMetadata], rfl, rfl, rfl⟩

/-! ## A file -/

/-- A recording with a calibrated voltage and a name. -/
def exampleRoot : H5Node := .group [("mode", .text "harvester")] (.cons "data" (.group [("window_samples", .int 0)]
  (.cons "time" (.dataset [("gain", .float (1 / 10 ^ 9))] ⟨"uint64", "(2,)", "(10000,)", "lzf", "None"⟩)
  (.cons "voltage" (.dataset [("gain", .float 2), ("unit", .text "V")] ⟨"uint32", "(2,)", "(10000,)", "lzf", "None"⟩) .nil))) .nil)

example : nodeAt exampleRoot ["data", "voltage"] = some (.dataset [("gain", .float 2), ("unit", .text "V")] ⟨"uint32", "(2,)", "(10000,)", "lzf", "None"⟩) ∧ Clean exampleRoot ∧
    ∀ R : MetaFns, (∃ x, R.timeDiffs = .ok x) → (∀ p, ∃ x, R.stats p = .ok x) → (∃ x, R.group = .ok x) → ∀ yaml, ∃ m, nodeMeta yaml R false [] exampleRoot = .ok m := by
  refine ⟨by simp [exampleRoot, nodeAt, H5Items.find, H5Node.itemsOf], ?_, ?_⟩
  · intro p n h
    match p with
    | [] => simp only [exampleRoot, nodeAt, Option.some.injEq] at h; subst h; refine ⟨?_, ?_, ?_, ?_⟩ <;> simp [H5Node.attrsOf, H5Node.itemsOf, H5Items.names, reserved]
    | s :: p =>
      simp only [exampleRoot, nodeAt, H5Node.itemsOf, H5Items.find] at h
      by_cases h1 : "data" = s
      · rw [if_pos h1] at h
        simp only at h
        match p with
        | [] => simp only [nodeAt, Option.some.injEq] at h; subst h; refine ⟨?_, ?_, ?_, ?_⟩ <;> simp [H5Node.attrsOf, H5Node.itemsOf, H5Items.names, reserved]
        | t :: p =>
          simp only [nodeAt, H5Node.itemsOf, H5Items.find] at h
          by_cases h2 : "time" = t
          · rw [if_pos h2] at h
            simp only at h
            match p with
            | [] => simp only [nodeAt, Option.some.injEq] at h; subst h; refine ⟨?_, ?_, ?_, ?_⟩ <;> simp [H5Node.attrsOf, H5Node.itemsOf, H5Items.names, reserved]
            | u :: p => simp [nodeAt, H5Node.itemsOf, H5Items.find] at h
          · rw [if_neg h2] at h
            by_cases h3 : "voltage" = t
            · rw [if_pos h3] at h
              simp only at h
              match p with
              | [] => simp only [nodeAt, Option.some.injEq] at h; subst h; refine ⟨?_, ?_, ?_, ?_⟩ <;> simp [H5Node.attrsOf, H5Node.itemsOf, H5Items.names, reserved]
              | u :: p => simp [nodeAt, H5Node.itemsOf, H5Items.find] at h
            · rw [if_neg h3] at h; cases h
      · rw [if_neg h1] at h; cases h
  · intro R h1 h2 h3 yaml
    rw [C91_success]
    intro x hx
    simp only [exampleRoot, allNodes, allItems, List.nil_append, List.append_nil, List.mem_cons, List.cons_append, List.not_mem_nil, or_false] at hx
    rcases hx with rfl | rfl | rfl | rfl
    · exact ⟨by simp [H5Node.attrsOf, Showable], fun _ h => by cases h⟩
    · exact ⟨by simp [H5Node.attrsOf, Showable], fun _ _ => h3⟩
    · exact ⟨by simp [H5Node.attrsOf, Showable], fun _ => by rw [if_pos rfl]; exact h1⟩
    · exact ⟨by simp [H5Node.attrsOf, Showable], fun _ => by rw [if_neg (by decide)]; exact fun _ => h2 _⟩

end Verif.Props
