import Verif.Model.Convert

/-!
# Files of a conversion

Models `main` and `convert` of `backends/lmdb/convert/main.py:28-83` with the files they read, write and remove.

* A path is a string; different strings are different files (no links, no relative paths).
* The lock files of LMDB (`path-lock`) are not modelled.
* Nobody else changes files during a conversion, and files can be written and removed.
-/

namespace HatEvent

/-- What a file holds: a database that can be read, a database without (all of) its content, left by a conversion that failed, anything else for
which `get_version` (`version.py:25-55`) raises. -/
inductive Content where
  | db (f : AnyFile)
  | incomplete
  | other

/-- The existing files by path, as seen by `main.py:36-42`. -/
abbrev Files := Dict String Content

/-- `tmp_dst_path`, `main.py:67-72`: `with_suffix` appends to the name. -/
def tmpPath (dst : String) : String := dst ++ ".v07"

/-- `unlink` of a file that exists, `main.py:74-75`. -/
def Files.remove (fs : Files) (path : String) : Files := Dict.del fs path

/-- What a conversion has written, `convert_v06_to_v07.py:17-31`, `convert_v07_to_v09.py:10-21`: a failing one leaves a file that is not complete. -/
def written : Except PyErr AnyFile → Content
  | .ok f => .db f
  | .error _ => .incomplete

/-- What a backend finds in a destination it opens.  The databases are created before the transaction of the conversion begins
(`convert_v07_to_v09.py:13-17`) and the transaction of a conversion that fails is aborted, so they are empty, without a version. -/
def Content.opened : Content → Option Disk
  | .db (.v09 d) => some d
  | .incomplete => some .empty
  | _ => none

/-- The outcome of a conversion (helper for `main.py:77`). -/
def outcome : Except PyErr AnyFile → Except PyErr Unit
  | .ok _ => .ok ()
  | .error e => .error e

/-- `conversion.convert` from 0.6, `convert_v06_to_v07.py:8-31`.  A source that is not there is created by `create_env` and has no
server id (l.10-12,181-184). -/
def stepFrom06 (fs : Files) (src dst : String) : Files × Except PyErr Unit :=
  match Dict.get fs src with
  | some (.db (.v06 f)) =>
    let res := (convert06 f).map AnyFile.v07
    (Dict.set fs dst (written res), outcome res)
  | _ => (Dict.set fs src .incomplete, .error .typeError)

/-- `conversion.convert` from 0.7, `convert_v07_to_v09.py:7-21`; it is called with the file of the previous step or a source of this version. -/
def stepFrom07 (fs : Files) (src dst : String) : Files × Except PyErr Unit :=
  match Dict.get fs src with
  | some (.db (.v07 f)) =>
    let res := (convert07 f).map AnyFile.v09
    (Dict.set fs dst (written res), outcome res)
  | _ => (Dict.set fs src .incomplete, .error (.exception "no database"))

/-- The last round of the loop, version 0.7, `main.py:59-83`. -/
def roundFrom07 (fs : Files) (src tmpSrc dst : String) : Files × Except PyErr Unit :=
  let fs := fs.remove dst
  match stepFrom07 fs tmpSrc dst with
  | (fs, .error e) => (fs, .error e)
  | (fs, .ok _) => (if tmpSrc ≠ src then fs.remove tmpSrc else fs, .ok ())

/-- The first round of the loop for version 0.6 and the one after it, `main.py:59-83`. -/
def roundFrom06 (fs : Files) (src dst : String) : Files × Except PyErr Unit :=
  let fs := fs.remove (tmpPath dst)
  match stepFrom06 fs src (tmpPath dst) with
  | (fs, .error e) => (fs, .error e)
  | (fs, .ok _) => roundFrom07 fs src (tmpPath dst) dst

/-- `convert`, `main.py:52-83`. -/
def convertFiles (fs : Files) (src dst : String) : Files × Except PyErr Unit :=
  match Dict.get fs src with
  | some (.db (.v09 _)) => (fs, .error (.exception "already up to date"))
  | some (.db (.v07 _)) => roundFrom07 fs src src dst
  | some (.db (.v06 _)) => roundFrom06 fs src dst
  | _ => (fs, .error (.exception "unsupported version"))

/-- The exit code for an outcome, `main.py:44-49`. -/
def exitCode : Except PyErr Unit → Nat
  | .ok _ => 0
  | .error _ => 1

/-- `main` with its arguments, `main.py:28-49`; the result are the files and the exit code. -/
def convertMain (fs : Files) (args : List String) : Files × Nat :=
  match args with
  | [src, dst] =>
    if Dict.has fs src then
      if Dict.has fs dst then (fs, 1)
      else ((convertFiles fs src dst).1, exitCode (convertFiles fs src dst).2)
    else (fs, 1)
  | _ => (fs, 1)

end HatEvent
