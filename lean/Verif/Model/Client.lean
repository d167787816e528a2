import Verif.Model.Fixtures

/-!
# The collection of fixtures, its cache, and the clients

Models `Fixtures` of `shepherd_core/shepherd_core/testbed_client/fixtures.py` (l.173-249), the choice of the client in `testbed_client/client_abc_fix.py` (l.28-33, 78-126) and
`testbed_client/client_web.py` (l.30-118).

Not modelled here: pickling and interrupted writes (see `Model/FixCache`; here the cache returns what was stored), the network (a parameter), requests that were not made yet.
-/

namespace Verif.Model
open Verif.Py

section
variable (ops : StrOps)

/-- `components` (fixtures.py l.184). -/
abbrev Components := List (String × FixtureDb)

/-- `insert_model` (fixtures.py l.229-233): a new component stays if the insertion fails. -/
def insertModel (c : Components) (datatype : String) (r : Rec) : Components × Except PyErr Unit :=
  let t := ops.lower datatype
  let db := (dictGet c t).getD .empty
  match db.insert ops t datatype r with
  | .error e => (dictSet c t db, .error e)
  | .ok db' => (dictSet c t db', .ok ())

/-- An element of a file with fixtures: a dictionary with data type and parameters, one that is no wrapper, or something else.  Used in `Fixtures.insert_file`, fixtures.py l.221-228. -/
inductive FixEntry
  | model (datatype : String) (r : Rec)
  | noWrapper
  | noDict

/-- The loop of `insert_file` (fixtures.py l.222-227). -/
def insertEntries : Components → List FixEntry → Components × Except PyErr Unit
  | c, [] => (c, .ok ())
  | c, .noDict :: es => insertEntries c es
  | c, .noWrapper :: _ => (c, .error .valueError)
  | c, .model t r :: es =>
    match insertModel ops c t r with
    | (c', .error e) => (c', .error e)
    | (c', .ok ()) => insertEntries c' es

/-- `insert_file` (fixtures.py l.219-227); `none`: an empty file, which is no list. -/
def insertFile (c : Components) (f : Option (List FixEntry)) : Components × Except PyErr Unit :=
  match f with
  | none => (c, .error .typeError)
  | some es => insertEntries ops c es

/-- The loop over the files (fixtures.py l.208-209). -/
def insertFiles : Components → List (Option (List FixEntry)) → Except PyErr Components
  | c, [] => .ok c
  | c, f :: fs =>
    match insertFile ops c f with
    | (_, .error e) => .error e
    | (c', .ok ()) => insertFiles c' fs

/-- What the given path is (fixtures.py l.198-206): a file, a directory with files, or nothing. -/
inductive FixPath
  | file (f : Option (List FixEntry))
  | dir (fs : List (Option (List FixEntry)))
  | missing

/-- The cache on a disk: its content and when it was written (microseconds).  Used in `Fixtures.__init__`, fixtures.py l.179-218, `file_older_than`, l.166-170. -/
abbrev Cache := Option (Components × ℤ)

/-- `Fixtures.__init__` (fixtures.py l.179-216); `sheep`: the firmware of an observer is installed.  Returns the components and the new cache. -/
def loadFixtures (sheep : Bool) (cache : Cache) (now : ℤ) (reset : Bool) (path : FixPath) : Except PyErr Components × Cache :=
  let fresh : Except PyErr Components × Cache :=
    match path with
    | .missing => (.error .valueError, cache)
    | .file f =>
      match insertFiles ops [] [f] with
      | .error e => (.error e, cache)
      | .ok c => (.ok c, if c.length < 1 then cache else if sheep then some (c, now) else cache)
    | .dir fs =>
      match insertFiles ops [] fs with
      | .error e => (.error e, cache)
      | .ok c => (.ok c, if c.length < 1 then cache else if sheep then some (c, now) else cache)
  match cache with
  | none => fresh
  | some (c, mtime) => if !sheep && !(mtime < now - 24 * 3600 * 10^6) && !reset then (.ok c, cache) else fresh

/-- `__getitem__` (fixtures.py l.235-240). -/
def getComponent (c : Components) (key : String) : Except PyErr FixtureDb :=
  match dictGet c (ops.lower key) with
  | some db => .ok db
  | none => .error .valueError

end

/-! ## Clients -/

/-- A user as the server describes them.  Used in client_web.py l.115-122. -/
structure WebUser where
  name : String
  group : String

/-- `WebClient` (client_web.py l.37-44). -/
structure WebClient where
  token : String
  server : String
  user : Option WebUser
  key : Option String
  connected : Bool

/-- The argument `token`: nothing, a text, or a path to a file that exists or not.  Used in client_web.py l.30-47, l.84-105. -/
inductive TokenArg
  | nothing
  | text (s : String)
  | path (content : Option String)

/-- What a server answers to `GET`.  Used in client_web.py l.84-122. -/
structure Net where
  sessionKey : String → Except PyErr String
  userData : String → Except PyErr WebUser

/-- `_connect` for a new client (client_web.py l.37-47, 78-118): the addresses that are requested, and the client. -/
def webConnect (lower : String → String) (net : Net) (server : Option String) (token : TokenArg) : List String × Except PyErr WebClient :=
  let dflt := "basic_public_access"
  let tok : Except PyErr String := match token with
    | .path none => .error .fileNotFoundError
    | .path (some content) => .ok content
    | .text _ => .ok dflt
    | .nothing => .ok dflt
  match tok with
  | .error e => ([], .error e)
  | .ok tok =>
    let srv := match server with
      | some s => lower s
      | none => "http://127.0.0.1:8000/shepherd"
    if srv = "" then ([], .ok ⟨tok, srv, none, none, true⟩)
    else
      let u1 := srv ++ "/session_key"
      match net.sessionKey u1 with
      | .error e => ([u1], .error e)
      | .ok key =>
        let u2 := srv ++ "/user?token=" ++ tok
        match net.userData u2 with
        | .error e => ([u1, u2], .error e)
        | .ok user => ([u1, u2], .ok ⟨tok, srv, some user, some key, true⟩)

/-- `fill_in_user_data` of the client for the web (client_web.py l.69-74). -/
def WebClient.fillIn (w : WebClient) (values : Rec) : Except PyErr Rec :=
  let put (values : Rec) (k : String) (f : WebUser → String) : Except PyErr Rec :=
    match values k with
    | some _ => .ok values
    | none =>
      match w.user with
      | none => .error .attributeError
      | some u => .ok (values.set k (.str (f u)))
  match put values "owner" WebUser.name with
  | .error e => .error e
  | .ok values => put values "group" WebUser.group

/-- `fill_in_user_data` of the client for fixtures (client_abc_fix.py l.114-123). -/
def fixFillIn (values : Rec) : Rec :=
  let v1 := match values "owner" with | some _ => values | none => values.set "owner" (.str "unknown")
  match v1 "group" with | some _ => v1 | none => v1.set "group" (.str "unknown")

/-- The kinds of clients.  Used in testbed_client/__init__.py, client_abc_fix.py l.28-123, client_web.py l.18-79. -/
inductive ClientKind
  | fixtures
  | web
deriving DecidableEq

/-- Names in a running interpreter: the clients that were made, the one `tb_client` stands for in the module `client_abc_fix`, the one it stands for in the package `testbed_client`
(bound when this was imported, `testbed_client/__init__.py` l.3), and the one it stands for in every module with models (bound when that was imported from the package). -/
structure Names where
  clients : List ClientKind
  own : ℕ
  package : ℕ
  models : List (String × ℕ)

/-- After the import of the package (client_abc_fix.py l.126). -/
def Names.start : Names := ⟨[.fixtures], 0, 0, []⟩

/-- What a program does: make a client (client_abc_fix.py l.31-33), or import a module with models (`from ...testbed_client import tb_client`). -/
inductive ClientOp
  | make (k : ClientKind)
  | load (module : String)

/-- One step of a program.  Used in testbed_client/__init__.py, client_abc_fix.py l.28-123, client_web.py l.18-79. -/
def Names.step (n : Names) : ClientOp → Names
  | .make k => { n with clients := n.clients ++ [k], own := n.clients.length }
  | .load m => { n with models := dictSet n.models m ((dictGet n.models m).getD n.package) }

/-- The client the models of a module ask (e.g. data_models/testbed/gpio.py l.49). -/
def Names.asked (n : Names) (module : String) : Option ClientKind := (dictGet n.models module).bind (fun i => n.clients[i]?)

end Verif.Model
