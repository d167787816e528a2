import Verif.Model.Client

/-!
# The cache of fixtures on disk

Models how `Fixtures.__init__` (`shepherd_core/shepherd_core/testbed_client/fixtures.py` l.177-218) reads and writes the file of the cache, byte by byte, when programs can be interrupted.

Simplifications: `pickle` is a parameter, of which is only known that it reads what it wrote and refuses what was cut off (its format ends with a STOP mark); the directory of the cache
can be made and written; one program runs at a time.
-/

namespace Verif.Model
open Verif.Py

/-- `pickle.dump` and `pickle.load` (fixtures.py l.197, l.218), on bytes `β`. -/
structure Pickle (β : Type) where
  /-- `pickle.dump` -/
  dump : Components → List β
  /-- `pickle.load` -/
  load : List β → Except PyErr Components
  load_dump : ∀ c, load (dump c) = .ok c
  load_cut : ∀ c n, n < (dump c).length → ∃ e, load ((dump c).take n) = .error e

/-- When a program is interrupted (fixtures.py l.177-218): never, before it opens the cache to write, or after writing some bytes of it. -/
inductive Interrupt
  | never
  | before
  | writing (bytes : ℕ)

/-- A collection that is made (arguments of `Fixtures.__init__`, fixtures.py l.178, and what it looks up at l.165-170, l.186): the time, if the firmware of an observer is installed, `reset`, the
path, and when it is interrupted. -/
structure FixStart where
  now : ℤ
  sheep : Bool
  reset : Bool
  path : FixPath
  interrupt : Interrupt

/-- The file of the cache (fixtures.py l.185): its bytes and when it was written (microseconds). -/
abbrev CacheFile (β : Type) := Option (List β × ℤ)

section
variable (ops : StrOps) {β : Type} (pk : Pickle β)

/-- Reading the files of a path (fixtures.py l.200-211). -/
def readPath : FixPath → Except PyErr Components
  | .missing => .error .valueError
  | .file f => insertFiles ops [] [f]
  | .dir fs => insertFiles ops [] fs

/-- Reading the files and writing the cache (fixtures.py l.200-218).  No result: interrupted. -/
def freshFixtures (disk : CacheFile β) (s : FixStart) : Option (Except PyErr Components) × CacheFile β :=
  match s.interrupt with
  | .before => (none, disk)
  | i =>
    match readPath ops s.path with
    | .error e => (some (.error e), disk)
    | .ok c =>
      if c.length < 1 then (some (.ok c), disk)
      else if s.sheep then
        match i with
        | .writing n => (none, some ((pk.dump c).take n, s.now))
        | _ => (some (.ok c), some (pk.dump c, s.now))
      else (some (.ok c), disk)

/-- `Fixtures.__init__` (fixtures.py l.178-218). -/
def startFixtures (disk : CacheFile β) (s : FixStart) : Option (Except PyErr Components) × CacheFile β :=
  match disk with
  | none => freshFixtures ops pk disk s
  | some (bytes, mtime) =>
    if !s.sheep && !(mtime < s.now - 24 * 3600 * 10^6) && !s.reset then (some (pk.load bytes), disk)
    else freshFixtures ops pk disk s

end

end Verif.Model
