/-!
# Insertion ordered dictionaries

Shared data structure of the model: the built-in Python `dict`
(and, where its iteration order does not matter, the hash table of the C code)
as an association list.  It models no repository code itself; it is the
meaning given to `d.get(k)`, `k in d`, `d[k] = v`, `d.pop(k, None)`.
-/

namespace HatEvent

/-- Python `dict` as an association list in insertion order
(used e.g. by `src_py/hat/event/common/subscription/common.py:43`). -/
abbrev Dict (κ υ : Type) := List (κ × υ)

namespace Dict

variable {κ υ : Type} [DecidableEq κ]

/-- Python `d.get(k)` (e.g. `common/subscription/common.py:76`). -/
def get : Dict κ υ → κ → Option υ
  | [], _ => none
  | (k', v) :: d, k => if k' = k then some v else get d k

/-- Python `k in d` (e.g. `common/subscription/common.py:58`). -/
def has (d : Dict κ υ) (k : κ) : Bool := (get d k).isSome

/-- Python `d[k] = v`: replaces the value in place or appends a new entry
(e.g. `common/subscription/common.py:77`). -/
def set : Dict κ υ → κ → υ → Dict κ υ
  | [], k, v => [(k, v)]
  | (k', v') :: d, k, v => if k' = k then (k, v) :: d else (k', v') :: set d k v

/-- Python `d.pop(k, None)` (e.g. `backends/lmdb/refdb.py`, `RefDb.remove`). -/
def del : Dict κ υ → κ → Dict κ υ
  | [], _ => []
  | (k', v') :: d, k => if k' = k then del d k else (k', v') :: del d k

/-- Python `d.keys()`. -/
def keys (d : Dict κ υ) : List κ := d.map Prod.fst

end Dict

end HatEvent
