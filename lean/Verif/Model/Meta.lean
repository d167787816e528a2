import Verif.Model.Reports
import Verif.Model.CutFile
import Verif.Model.GpioUart

/-!
# Metadata of files

Models `shepherd_core/shepherd_core/reader.py` l.581-636 (`get_metadata`) and l.638-655 (`save_metadata`) for any HDF5 file.

`yaml.safe_load` is a parameter: a function from texts to values, `none` for a `YAMLError`.  Links that lead back to a group above do not exist in the model.
-/

namespace Verif.Model
open Verif.Py

/-- The value of an attribute as h5py returns it: a text, a number, a flag, a text of fixed length (bytes; with the number it denotes, if any), an array of numbers, or nothing.  Used in `get_metadata`, reader.py l.581-636. -/
inductive AttrVal
  | text (s : String)
  | int (n : ℤ)
  | float (x : ℚ)
  | flag (b : Bool)
  | bytes (number : Option ℚ)
  | array (xs : List ℚ)
  | empty
deriving DecidableEq

/-- The properties of a dataset that are shown, as text (reader.py l.601-607). -/
structure DsInfo where
  dtype : String
  shape : String
  chunks : String
  compression : String
  options : String
deriving DecidableEq

mutual
/-- A dataset or group with its attributes.  Used in `get_metadata`, reader.py l.581-636. -/
inductive H5Node
  | dataset (attrs : List (String × AttrVal)) (info : DsInfo)
  | group (attrs : List (String × AttrVal)) (items : H5Items)
/-- The members of a group, by name.  Used in `get_metadata`, reader.py l.581-636. -/
inductive H5Items
  | nil
  | cons (name : String) (n : H5Node) (rest : H5Items)
end

mutual
/-- A value in the metadata; `other` are those of YAML that do not matter here (dates, lists, ...).  Used in `get_metadata`, reader.py l.581-636. -/
inductive MetaVal
  | null
  | text (s : String)
  | int (n : ℤ)
  | float (x : ℚ)
  | flag (b : Bool)
  | floats (xs : List ℚ)
  | other (n : ℕ)
  | map (m : MetaMap)
/-- A dictionary in the order of insertion.  Used in `get_metadata`, reader.py l.581-636. -/
inductive MetaMap
  | nil
  | cons (key : String) (v : MetaVal) (rest : MetaMap)
end

/-- `d.get(k)`.  Used in `get_metadata`, reader.py l.581-636. -/
def MetaMap.get : MetaMap → String → Option MetaVal
  | .nil, _ => none
  | .cons k v r, s => if k = s then some v else r.get s

/-- `d[k] = v`: replaces in place or appends.  Used in `get_metadata`, reader.py l.581-636. -/
def MetaMap.set : MetaMap → String → MetaVal → MetaMap
  | .nil, s, v => .cons s v .nil
  | .cons k w r, s, v => if k = s then .cons k v r else .cons k w (r.set s v)

/-- The keys in their order.  Used in `get_metadata`, reader.py l.581-636. -/
def MetaMap.keys : MetaMap → List String
  | .nil => []
  | .cons k _ r => k :: r.keys

/-- What the reader computes about the file it has opened: the statistics of a dataset, the differences of time stamps and the facts about the recording.  Used in `get_metadata`, reader.py l.581-636. -/
structure MetaFns where
  stats : List String → Except PyErr MetaMap
  timeDiffs : Except PyErr (List ℚ)
  group : Except PyErr MetaMap

/-- The value of an attribute in the metadata (reader.py l.614-625): `float` of an array works for a single number only, `float` of bytes for those that denote a number. -/
def attrMeta (yaml : String → Option MetaVal) : AttrVal → Except PyErr MetaVal
  | .text s => .ok ((yaml s).getD (.text s))
  | .int n => .ok (.int n)
  | .float x => .ok (.float x)
  | .flag b => .ok (.float (if b then 1 else 0))
  | .bytes (some x) => .ok (.float x)
  | .bytes none => .error .valueError
  | .array [x] => .ok (.float x)
  | .array _ => .error .typeError
  | .empty => .error .typeError

/-- The loop over attributes (reader.py l.614-625). -/
def attrsMeta (yaml : String → Option MetaVal) : List (String × AttrVal) → MetaMap → Except PyErr MetaMap
  | [], m => .ok m
  | (k, v) :: t, m =>
    match attrMeta yaml v with
    | .error e => .error e
    | .ok x => attrsMeta yaml t (m.set k x)

/-- The facts about a dataset (reader.py l.600-613). -/
def dsInfoMeta (R : MetaFns) (path : List String) (i : DsInfo) : Except PyErr MetaMap :=
  let base (rest : MetaMap) : MetaMap := .cons "datatype" (.text i.dtype) (.cons "shape" (.text i.shape) (.cons "chunks" (.text i.chunks)
    (.cons "compression" (.text i.compression) (.cons "compression_opts" (.text i.options) rest))))
  if path = ["data", "time"] then
    match R.timeDiffs with
    | .error e => .error e
    | .ok ds => .ok (base (.cons "time_diffs_s" (.floats ds) .nil))
  else if inText "int" i.dtype then
    match R.stats path with
    | .error e => .error e
    | .ok s => .ok (base (.cons "statistics" (.map s) .nil))
  else .ok (base .nil)

section
variable (yaml : String → Option MetaVal) (R : MetaFns) (minimal : Bool)

mutual
/-- `get_metadata` of a node (reader.py l.581-636); the path has the names from the root to the node. -/
def nodeMeta (path : List String) : H5Node → Except PyErr MetaMap
  | .dataset attrs i =>
    if minimal then attrsMeta yaml attrs .nil
    else
      match dsInfoMeta R path i with
      | .error e => .error e
      | .ok d => attrsMeta yaml attrs (.cons "_dataset_info" (.map d) .nil)
  | .group attrs items =>
    match attrsMeta yaml attrs .nil with
    | .error e => .error e
    | .ok m =>
      if path = ["data"] ∧ minimal = false then
        match R.group with
        | .error e => .error e
        | .ok g => itemsMeta path items (m.set "_group_info" (.map g))
      else itemsMeta path items m
/-- The loop over the members of a group (reader.py l.633-634). -/
def itemsMeta (path : List String) : H5Items → MetaMap → Except PyErr MetaMap
  | .nil, m => .ok m
  | .cons name n rest, m =>
    match nodeMeta (path ++ [name]) n with
    | .error e => .error e
    | .ok d => itemsMeta path rest (m.set name (.map d))
end

end

/-- The facts about the recording (reader.py l.626-632), for a reader of a recording with a file of the given size. -/
def Session.metaFns (fl : ℚ → ℚ) (npSum : List ℚ → ℚ) (s : Session) (chunk : ℕ) (fileSize : ℕ) (stats : List String → Except PyErr MetaMap) : MetaFns where
  stats := stats
  timeDiffs := .ok (s.timediffs fl chunk)
  group := .ok (.cons "energy_Ws" (.float (s.energy fl npSum chunk)) (.cons "runtime_s" (.float (fl ((pyRound (10 * s.runtimeS fl) : ℚ) / 10)))
    (.cons "data_rate_KiB_s" (.int (pyRound (fl ((if 0 < s.runtimeS fl then fl (fileSize / s.runtimeS fl) else 0) / 2 ^ 10))))
    (.cons "file_size_MiB" (.float (fl ((pyRound (1000 * fl ((fileSize : ℚ) / 2 ^ 20)) : ℚ) / 1000))) (.cons "valid" (.flag s.file.isValid) .nil)))))

/-! ## Export -/

/-- A YAML file with metadata: complete, or cut off by an end of the program.  Used in `save_metadata`, reader.py l.638-654. -/
inductive MetaFile
  | unfinished
  | done (m : MetaMap)

/-- `save_metadata` (reader.py l.638-655): what the YAML file next to the recording holds after each step, and the result.  The last entry is the state afterwards, the others are
those an end of the program can leave. -/
def saveMetadata (old : Option MetaFile) (metadata : Except PyErr MetaMap) : List (Option MetaFile) × Except PyErr MetaMap :=
  match old with
  | some f => ([some f], .ok .nil)
  | none =>
    match metadata with
    | .error e => ([none], .error e)
    | .ok m => ([none, some .unfinished, some (.done m)], .ok m)

end Verif.Model
