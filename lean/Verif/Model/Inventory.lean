import Verif.Model.Fixtures
import Verif.Py.Num

/-!
# Inventories of the machines of a testbed

Models `shepherd_core/shepherd_core/inventory/python.py` l.31-48, `inventory/system.py` l.55-114 and `inventory/__init__.py` l.41-115.

Not modelled: how the operating system answers (it is a parameter), stripping of white space by pydantic, the text of the warnings.
-/

namespace Verif.Model
open Verif.Py

/-- The value of a field of an inventory: text, a number or point in time, a list, a dictionary (of addresses).  Used in inventory/__init__.py l.60-115. -/
inductive InvVal
  | text (s : String)
  | num (n : ℤ)
  | list (l : List String)
  | table (t : List (String × String × String))
deriving DecidableEq

/-- `hash(value)` works: lists and dictionaries raise TypeError.  Used in inventory/__init__.py l.60-115. -/
def InvVal.hashable : InvVal → Bool
  | .text _ | .num _ => true
  | .list _ | .table _ => false

/-- What `import_module` and `module.__version__` give.  Used in inventory/python.py l.30-48. -/
inductive PyModule
  | missing
  | version (v : String)
  | unversioned

/-- What a machine answers.  `psutil`: seconds since the start and addresses of the network interfaces, if the package is installed; `fsRoot`, `beagle`, `ptp`:
output of the commands, if they exist; `now` in microseconds.  Used in inventory/system.py l.58-114. -/
structure Machine where
  python : String
  modules : String → PyModule
  now : ℤ
  psutil : Option (ℚ × List (String × List String))
  system : String
  release : String
  version : String
  machine : String
  processor : String
  hostname : String
  fsRoot : Option (List String)
  beagle : Option (List String)
  ptp : Option String

/-- An inventory; `others`: the fields that were set and differ from their default, besides those of the structure.  Used in inventory/__init__.py l.32-74. -/
structure Device where
  hostname : String
  created : ℤ
  uptime : ℤ
  others : List (String × InvVal)

/-- The loop over the modules (python.py l.42-46): a missing one is skipped. -/
def moduleVersions (m : Machine) : List String → Except PyErr (List (String × InvVal))
  | [] => .ok []
  | n :: ns =>
    match m.modules n with
    | .missing => moduleVersions m ns
    | .unversioned => .error .attributeError
    | .version v =>
      match moduleVersions m ns with
      | .error e => .error e
      | .ok rest => .ok ((n, .text v) :: rest)

/-- `PythonInventory.collect` (python.py l.30-48). -/
def collectPython (m : Machine) : Except PyErr (List (String × InvVal)) :=
  match moduleVersions m ["h5py", "numpy", "pydantic", "shepherd_core", "shepherd_sheep", "yaml", "zstandard"] with
  | .error e => .error e
  | .ok vs => .ok (("python", .text m.python) :: vs)

/-- The addresses that are kept (system.py l.71): those of interfaces with at least two, the second one first. -/
def interfaces (l : List (String × List String)) : List (String × String × String) :=
  l.filterMap (fun e => match e.2 with | a :: b :: _ => some (e.1, b, a) | _ => none)

/-- Texts have at most 512 characters (base/shepherd.py l.76). -/
def InvVal.fits : InvVal → Bool
  | .text s => s.length ≤ 512
  | .list l => l.all (fun s => s.length ≤ 512)
  | _ => true

/-- The fields of `SystemInventory.collect` (system.py l.99-112) that are texts or collections. -/
def systemFields (m : Machine) (ifs : List (String × String × String)) : List (String × InvVal) :=
  [("system", .text m.system), ("release", .text m.release), ("version", .text m.version), ("machine", .text m.machine), ("processor", .text m.processor)] ++
    (match m.ptp with | none => [] | some s => [("ptp", .text s)]) ++
    (if ifs = [] then [] else [("interfaces", .table ifs)]) ++
    [("fs_root", .list (m.fsRoot.getD [])), ("beagle", .list (m.beagle.getD []))]

/-- `Inventory.collect` (inventory/__init__.py l.41-52, system.py l.57-114): without psutil the time since the start is 0; it has to be positive (system.py l.31). -/
def collectInventory (m : Machine) : Except PyErr Device :=
  let (up, ifs) := match m.psutil with
    | none => ((0 : ℚ), [])
    | some (s, a) => (s, interfaces a)
  let uptime := pyRound up
  let sid := systemFields m ifs
  if uptime ≤ 0 then .error .valueError
  else if !(sid.all (·.2.fits) && m.hostname.length ≤ 512) then .error .valueError
  else
    match collectPython m with
    | .error e => .error e
    | .ok pid => if !pid.all (·.2.fits) then .error .valueError else .ok ⟨m.hostname, m.now, uptime, pid ++ ("timestamp", .num m.now) :: sid⟩

/-- `model_dump(exclude_unset=True, exclude_defaults=True)`.  Simplification: the order of the fields (it does not matter to the results).  Used in inventory/__init__.py l.32-74. -/
def Device.dump (d : Device) : List (String × InvVal) :=
  ("hostname", .text d.hostname) :: ("created", .num d.created) :: ("uptime", .num d.uptime) :: d.others

section
variable (fl : ℚ → ℚ)

/-- `created.timestamp()`.  Used in inventory/__init__.py l.32-74. -/
def Device.stamp (d : Device) : ℚ := fl ((d.created : ℚ) / 10^6)

/-- The first loop of `warn` (inventory/__init__.py l.79-83): the attribute `hostname` of the list does not exist. -/
def warnDevices (earliest : ℚ) : List Device → Except PyErr Unit
  | [] => .ok ()
  | d :: ds =>
    if 108000 < d.uptime then .error .attributeError
    else if 10 < fl (d.stamp fl - earliest) then .error .attributeError
    else warnDevices earliest ds

end

/-- The inner loop (inventory/__init__.py l.92-98) over the fields of a device. -/
def groupFields (host : String) : List (String × InvVal) → List (String × List (InvVal × List String)) → Except PyErr (List (String × List (InvVal × List String)))
  | [], res => .ok res
  | (k, v) :: fs, res =>
    let byVal := (dictGet res k).getD []
    if !v.hashable then .error .typeError
    else groupFields host fs (dictSet res k (dictSet byVal v ((dictGet byVal v).getD [] ++ [host])))

/-- The outer loop (inventory/__init__.py l.92). -/
def groupHosts : List (String × List (String × InvVal)) → List (String × List (InvVal × List String)) → Except PyErr (List (String × List (InvVal × List String)))
  | [], res => .ok res
  | (host, fs) :: hs, res =>
    match groupFields host fs res with
    | .error e => .error e
    | .ok res => groupHosts hs res

/-- The packages that have to agree (inventory/__init__.py l.100-109). -/
def uniquePackages : List String := ["h5py", "numpy", "pydantic", "python", "shepherd_core", "shepherd_sheep", "yaml", "zstandard"]

/-- The last loop (inventory/__init__.py l.110-112): which hosts have which version, for each package with different ones. -/
def mismatches (res : List (String × List (InvVal × List String))) : List String → Except PyErr (List (String × List (InvVal × List String)))
  | [] => .ok []
  | k :: ks =>
    match dictGet res k with
    | none => .error .keyError
    | some vs =>
      match mismatches res ks with
      | .error e => .error e
      | .ok rest => if 1 < vs.length then .ok ((k, vs) :: rest) else .ok rest

/-- `InventoryList.warn` (inventory/__init__.py l.76-115); a list has at least one element. -/
def warnInventory (fl : ℚ → ℚ) (ds : List Device) : Except PyErr (List (String × List (InvVal × List String))) :=
  match (ds.map (Device.stamp fl)).min? with
  | none => .error .valueError
  | some earliest =>
    match warnDevices fl earliest ds with
    | .error e => .error e
    | .ok () =>
      match groupHosts (ds.foldl (fun t d => dictSet t d.hostname d.dump) []) [] with
      | .error e => .error e
      | .ok res => mismatches res uniquePackages

/-! ## CSV -/

/-- The fields of an inventory (python.py l.19-26, system.py l.31-52, target.py l.14-15, inventory/__init__.py l.38-39).  Simplification: their order in the file. -/
def inventoryColumns : List String :=
  ["hostname", "created", "uptime", "h5py", "numpy", "pydantic", "python", "shepherd_core", "shepherd_sheep", "yaml", "zstandard", "timestamp", "system", "release",
    "version", "machine", "processor", "ptp", "interfaces", "fs_root", "beagle", "cape", "targets"]

/-- The value of a field; unset ones have their default (`None`, `{}` for the interfaces, `[]` for the targets).  Used in inventory/__init__.py l.32-74. -/
def Device.field (d : Device) (k : String) : Option InvVal :=
  match dictGet d.dump k with
  | some v => some v
  | none => if k = "interfaces" then some (.table []) else if k = "targets" then some (.list []) else none

/-- `str` of a list of texts: `['a', 'b']`.  Simplification: quotes and backslashes in the texts are not escaped.  Used in `to_csv`, inventory/__init__.py l.60-74. -/
def strList (l : List String) : List Char :=
  '[' :: (List.intersperse [',', ' '] (l.map (fun s => '\'' :: s.toList ++ ['\'']))).flatten ++ [']']

/-- `str` of a dictionary of pairs.  Used in `to_csv`, inventory/__init__.py l.60-74. -/
def strTable (t : List (String × String × String)) : List Char :=
  '{' :: (List.intersperse [',', ' '] (t.map (fun e => '\'' :: e.1.toList ++ ['\'', ':', ' ', '(', '\''] ++ e.2.1.toList ++ ['\'', ',', ' ', '\''] ++ e.2.2.toList ++ ['\'', ')']))).flatten ++ ['}']

/-- The text of a cell (inventory/__init__.py l.73); `strNum`: text of numbers and points in time. -/
def cellText (strNum : ℤ → List Char) : Option InvVal → List Char
  | none => []
  | some (.text s) => s.toList
  | some (.num n) => strNum n
  | some (.list l) => strList l
  | some (.table t) => strTable t

/-- `", ".join(cells)`.  Used in `to_csv`, inventory/__init__.py l.60-74. -/
def joinCells (cells : List (List Char)) : List Char := (List.intersperse [',', ' '] cells).flatten

/-- The rows `to_csv` writes (inventory/__init__.py l.69-74), the ends of lines removed: the header, and one row for each device. -/
def inventoryCsv (strNum : ℤ → List Char) (ds : List Device) : List (List Char) :=
  joinCells (inventoryColumns.map String.toList) :: ds.map (fun d => joinCells (inventoryColumns.map (fun k => cellText strNum (d.field k))))

end Verif.Model
