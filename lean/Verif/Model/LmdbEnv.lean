import Verif.Model.Lmdb

/-!
# Creation of an LMDB environment

Models `backends/lmdb/environment.py:13-32,92-100` and its use by
`backend.py:50-105`.  Simplifications: creating the file with its first pages
is one durable step; other failures of LMDB are not modelled.
-/

namespace HatEvent

/-- `DbType`, `backends/lmdb/common.py:30-39`. -/
inductive DbType where
  | systemSettings | systemLastEventId | systemLastTimestamp | ref | latestData | latestType
  | timeseriesData | timeseriesPartition | timeseriesCount
  deriving DecidableEq, Repr

/-- Iteration over `DbType`, `backends/lmdb/common.py:30-39`. -/
def DbType.all : List DbType :=
  [.systemSettings, .systemLastEventId, .systemLastTimestamp, .ref, .latestData, .latestType,
    .timeseriesData, .timeseriesPartition, .timeseriesCount]

/-- A database file: the named databases in it, and their content. -/
structure EnvFile where
  names : List DbType
  disk : Disk

/-- `ext_open_db`, `backends/lmdb/common.py:157-161`: `env.open_db` with a
transaction of its own; LMDB raises `NotFoundError` for a missing database if it
may not create it. -/
def openDb (create : Bool) (f : EnvFile) (t : DbType) : Except PyErr EnvFile :=
  if t ∈ f.names then .ok f
  else if create then .ok { f with names := f.names ++ [t] }
  else .error (.exception "NotFoundError")

/-- The comprehension of `_ext_init`, `environment.py:97-100`: the durable states
after each transaction, and the outcome. -/
def openDbs (create : Bool) : EnvFile → List DbType → List EnvFile × Except PyErr EnvFile
  | f, [] => ([], .ok f)
  | f, t :: r =>
    match openDb create f t with
    | .ok f' => (f' :: (openDbs create f' r).1, (openDbs create f' r).2)
    | .error e => ([], .error e)

/-- `_ext_init`, `environment.py:92-100`; `none` is a missing file.  The durable
states passed, and the outcome. -/
def envInit : Option EnvFile → List EnvFile × Except PyErr EnvFile
  | none =>
    let f : EnvFile := ⟨[], .empty⟩
    (f :: (openDbs true f DbType.all).1, (openDbs true f DbType.all).2)
  | some f => openDbs false f DbType.all

/-- Opening a backend, `backend.py:64,92-95`: the environment, then one
transaction of `_ext_create_dbs`.  The durable states passed, and the outcome. -/
def openBackend (conf : Conf) (file : Option EnvFile) : List EnvFile × Except PyErr (EnvFile × Mem) :=
  match (envInit file).2 with
  | .error e => ((envInit file).1, .error e)
  | .ok f =>
    match createDbs conf f.disk with
    | .error e => ((envInit file).1, .error e)
    | .ok (disk, m) => ((envInit file).1 ++ [{ f with disk := disk }], .ok ({ f with disk := disk }, m))

end HatEvent
