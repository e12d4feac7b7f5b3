import Verif.Model.CSubscription
import Verif.Model.CTreeHeap

/-!
# C subscription, memory level

`Model/CSubscription.lean` has what `src_c/py/subscription/_csubscription.c` computes.  Here its allocations, which may fail, and its references to
Python objects are added.

* A node is referenced only by the table of its parent, so nodes stay values; the memory is the number of allocated nodes and tables.
* `refs` are the references to segments owned by the C code, `objs` the references it owns to other objects: iterators, query types, tuples.
* The objects are lists of lists of `str`; iterators do not raise.  Memory inside the hash tables belongs to the table.
-/

namespace HatEvent

/-- What the C code owns.  `fails` says for the coming allocations if they fail. -/
structure SubMem where
  nodes : Int
  tables : Int
  refs : Segment → Int
  objs : Int
  fails : List Bool

namespace SubMem

/-- Nothing is owned. -/
def empty (fails : List Bool) : SubMem := ⟨0, 0, fun _ => 0, 0, fails⟩

/-- If the next allocation fails. -/
def failing (m : SubMem) : Bool := m.fails.headD false

/-- An allocation was tried. -/
def tried (m : SubMem) : SubMem := { m with fails := m.fails.tail }

/-- Change of the references to a segment. -/
def addRef (m : SubMem) (s : Segment) (n : Int) : SubMem := { m with refs := fun x => if x = s then m.refs x + n else m.refs x }

/-- Change of the references to other objects. -/
def addObjs (m : SubMem) (n : Int) : SubMem := { m with objs := m.objs + n }

end SubMem

/-- `node_t`, `_csubscription.c:7-11`; `table` says if `children` is not `NULL`. -/
inductive MNode where
  | mk (isLeaf : Bool) (hasStar : Bool) (table : Bool) (children : List (Segment × MNode))

namespace MNode

/-- The zero initialised node, `_csubscription.c:89,303-304`. -/
def empty : MNode := mk false false false []

mutual
/-- Freeing the children of a node, `free_children`, `_csubscription.c:14-27`. -/
def freeChildren : MNode → SubMem → SubMem
  | mk _ _ table children, m =>
    if table then
      let m := freeAll children m
      { m with tables := m.tables - 1 }
    else m
/-- The loop of `free_children`, `_csubscription.c:18-23`. -/
def freeAll : List (Segment × MNode) → SubMem → SubMem
  | [], m => m
  | (_, child) :: r, m =>
    let m := freeChildren child m
    freeAll r { m with nodes := m.nodes - 1 }
end

end MNode

/-- How `add_query_type` ends: with 0, or with 1 and an exception. -/
inductive AddEnd where
  | done
  | invalid
  | memory
  deriving DecidableEq

/-- The table of children, created if it is `NULL`, `_csubscription.c:70-77`. -/
def ensureTable (table : Bool) (m : SubMem) : Bool × SubMem :=
  if table then (true, m)
  else if m.failing then (false, m.tried)
  else (true, { m.tried with tables := m.tables + 1 })

/-- A new child, `_csubscription.c:81-95`; `false` if it could not be allocated or stored. -/
def newNode (m : SubMem) : Bool × SubMem :=
  if m.failing then (false, m.tried)
  else
    let m := { m.tried with nodes := m.nodes + 1 }
    if m.failing then (false, { m.tried with nodes := m.nodes - 1 })
    else (true, m.tried)

/-- `add_query_type`, `_csubscription.c:30-100`. -/
def addQueryTypeMem : EventType → MNode → SubMem → MNode × AddEnd × SubMem
  | queryType, .mk isLeaf hasStar table children, m =>
    -- l.31-32
    if hasStar then (.mk isLeaf hasStar table children, .done, m) else
    match queryType with
    -- l.34-38
    | [] => (.mk true hasStar table children, .done, m)
    | subtype :: rest =>
      -- l.34
      let m := m.addRef subtype 1
      -- l.54-68; l.55-58: the reference to the next segment is returned at once
      if cIsStar subtype then
        if rest ≠ [] then (.mk isLeaf hasStar table children, .invalid, m.addRef subtype (-1))
        else (.mk true true false [], .done, (MNode.mk isLeaf hasStar table children).freeChildren m)
      else
        -- l.70-77
        match ensureTable table m with
        | (false, m) => (.mk isLeaf hasStar table children, .memory, m.addRef subtype (-1))
        | (true, m) =>
          -- l.79-96
          match Dict.get children subtype with
          | some child =>
            -- l.97-99
            let (child, err, m) := addQueryTypeMem rest child (m.addRef subtype (-1))
            (.mk isLeaf hasStar true (Dict.set children subtype child), err, m)
          | none =>
            match newNode m with
            | (false, m) => (.mk isLeaf hasStar true children, .memory, m.addRef subtype (-1))
            | (true, m) =>
              let (child, err, m) := addQueryTypeMem rest MNode.empty (m.addRef subtype (-1))
              (.mk isLeaf hasStar true (Dict.set children subtype child), err, m)

/-- The loop of `Subscription_new`, `_csubscription.c:306-327`; the iterator of a query type is an allocation (l.311-317). -/
def addQueryTypesMem : List EventType → MNode → SubMem → MNode × AddEnd × SubMem
  | [], root, m => (root, .done, m)
  | queryType :: rest, root, m =>
    -- l.307, l.311
    let m := m.addObjs 1
    if m.failing then (root, .memory, m.tried.addObjs (-1))
    else
      let m := m.tried.addObjs 1
      let (root, err, m) := addQueryTypeMem queryType root m
      -- l.320-321
      let m := m.addObjs (-2)
      if err = .done then addQueryTypesMem rest root m else (root, err, m)

/-- `Subscription_new`, `_csubscription.c:287-331`: the iterator (l.293), the object (l.297, one of `nodes`), the loop.  On an error the object is
destroyed (l.314, l.323) by `Subscription_dealloc`, `_csubscription.c:334-340`. -/
def subscriptionNew (queryTypes : List EventType) (m : SubMem) : Except AddEnd MNode × SubMem :=
  if m.failing then (.error .memory, m.tried)
  else
    let m := m.tried.addObjs 1
    if m.failing then (.error .memory, m.tried.addObjs (-1))
    else
      let m := { m.tried with nodes := m.nodes + 1 }
      match addQueryTypesMem queryTypes MNode.empty m with
      | (root, .done, m) => (.ok root, m.addObjs (-1))
      | (root, err, m) =>
        let m := root.freeChildren m
        (.error err, { m with nodes := m.nodes - 1 }.addObjs (-1))

/-- `Subscription_dealloc`, `_csubscription.c:334-340`. -/
def subscriptionDealloc (root : MNode) (m : SubMem) : SubMem :=
  let m := root.freeChildren m
  { m with nodes := m.nodes - 1 }

/-! ## Query types -/

/-- A new tuple with a copy of the prefix and one more segment, `_csubscription.c:105-119,147-163`.  `checked` says if the result of `PyTuple_New` is
checked (it is on l.149, but not after l.106); the tuple is `none` if an allocation failed. -/
def newTuple (checked : Bool) (pre : EventType) (s : Segment) (m : SubMem) : Except Ub (Option EventType × SubMem) :=
  -- PyTuple_New
  if m.failing then
    if checked then .ok (none, m.tried) else .error .invalidUse
  else
    let m := m.tried.addObjs 1
    -- PyUnicode_FromString, PyUnicode_DecodeUTF8
    if m.failing then .ok (none, m.tried.addObjs (-1))
    else .ok (some (pre ++ [s]), m.tried)

/-- `append` to the deque, `_csubscription.c:121-127,132-135`; its result is an object that is given back. -/
def appendTuple (q : EventType) (acc : List EventType) (m : SubMem) : Option (List EventType) × SubMem :=
  if m.failing then (none, m.tried) else (some (acc ++ [q]), m.tried)

/-- `get_query_types` for a node with a star, `_csubscription.c:104-129`. -/
def starQueryType (pre : EventType) (acc : List EventType) (m : SubMem) : Except Ub (Option (List EventType) × SubMem) := do
  match ← newTuple false pre "*" m with
  | (none, m) => return (none, m)
  | (some q, m) =>
    let (r, m) := appendTuple q acc m
    return (r, m.addObjs (-1))

/-- The query type of a leaf, `_csubscription.c:131-136`. -/
def leafQueryType (isLeaf : Bool) (pre : EventType) (acc : List EventType) (m : SubMem) : Option (List EventType) × SubMem :=
  if isLeaf then appendTuple pre acc m else (some acc, m)

mutual
/-- `get_query_types`, `_csubscription.c:103-172`; the deque is `acc`, `none` if an exception is raised. -/
def getQueryTypesMem : MNode → EventType → List EventType → SubMem → Except Ub (Option (List EventType) × SubMem)
  | .mk isLeaf hasStar _ children, pre, acc, m =>
    if hasStar then starQueryType pre acc m
    else match leafQueryType isLeaf pre acc m with
      | (none, m) => .ok (none, m)
      | (some acc, m) => childrenQueryTypesMem children pre acc m
/-- The loop of `get_query_types`, `_csubscription.c:141-169`. -/
def childrenQueryTypesMem : List (Segment × MNode) → EventType → List EventType → SubMem → Except Ub (Option (List EventType) × SubMem)
  | [], _, acc, m => .ok (some acc, m)
  | (key, child) :: r, pre, acc, m =>
    match newTuple true pre key m with
    | .error e => .error e
    | .ok (none, m) => .ok (none, m)
    | .ok (some childPrefix, m) =>
      match getQueryTypesMem child childPrefix acc m with
      | .error e => .error e
      | .ok (none, m) => .ok (none, m.addObjs (-1))
      | .ok (some acc, m) => childrenQueryTypesMem r pre acc (m.addObjs (-1))
end

/-- `Subscription_get_query_types`, `_csubscription.c:343-373`: the module (l.345), the class (l.349), the deque (l.354), the empty tuple (l.359).  The
deque is the result (one of `objs` until then). -/
def subscriptionGetQueryTypes (root : MNode) (m : SubMem) : Except Ub (Option (List EventType) × SubMem) :=
  if m.failing then .ok (none, m.tried)
  else if m.tried.failing then .ok (none, m.tried.tried)
  else if m.tried.tried.failing then .ok (none, m.tried.tried.tried)
  else
    let m := m.tried.tried.tried.addObjs 1
    if m.failing then .ok (none, m.tried.addObjs (-1))
    else
      let m := m.tried.addObjs 1
      match getQueryTypesMem root [] [] m with
      | .error e => .error e
      | .ok (none, m) => .ok (none, m.addObjs (-2))
      | .ok (some acc, m) => .ok (some acc, m.addObjs (-2))

end HatEvent
