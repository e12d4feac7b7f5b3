import Verif.Model.Subscription

/-!
# Subscriptions, C implementation, and the `Subscription` interface

Models `src_c/py/subscription/_csubscription.c`,
`src_py/hat/event/common/subscription/csubscription.py`, the class
`PySubscription` of `pysubscription.py` and `create_subscription` of
`src_py/hat/event/common/subscription/__init__.py`.

Not modelled: allocation failures, objects that are not tuples of `str`,
strings without UTF-8 form (lone surrogates).
-/

namespace HatEvent

/-- `node_t`, `_csubscription.c:7-11`.  A `NULL` table of children is the
empty list: the table is created (l.70-77) only right before a child is stored
in it, and `free_children` (l.14-27) sets it back to `NULL`.  The iteration
order of the hash table is modelled by insertion order (no theorem depends
on it). -/
inductive CNode where
  | mk (isLeaf : Bool) (hasStar : Bool) (children : List (Segment × CNode))

namespace CNode

/-- `node_t.is_leaf`, `_csubscription.c:8`. -/
def isLeaf : CNode → Bool
  | mk l _ _ => l

/-- `node_t.has_star`, `_csubscription.c:9`. -/
def hasStar : CNode → Bool
  | mk _ s _ => s

/-- `node_t.children`, `_csubscription.c:10`. -/
def children : CNode → Dict Segment CNode
  | mk _ _ ch => ch

/-- The zero initialised node of `_csubscription.c:89` and `303-304`. -/
def empty : CNode := mk false false []

mutual
/-- Number of levels (recursion bound of `isdisjoint`, not repository code). -/
def depth : CNode → Nat
  | mk _ _ ch => depthL ch + 1
/-- Auxiliary to `depth`. -/
def depthL : List (Segment × CNode) → Nat
  | [] => 0
  | (_, c) :: r => max (depth c) (depthL r)
end

end CNode

/-- `strcmp(key, "*") == 0` of `_csubscription.c:54`: C strings end at the
first NUL byte, so only the part of the segment before a NUL is compared. -/
def cIsStar (key : Segment) : Bool :=
  key.toList.takeWhile (fun c => c.toNat != 0) == ['*']

/-- `add_query_type`, `_csubscription.c:30-100`. -/
def cAddQueryType : EventType → CNode → Except PyErr CNode
  | queryType, .mk isLeaf hasStar children =>
    -- l.31-32
    if hasStar then .ok (.mk isLeaf hasStar children) else
    match queryType with
    -- l.34-38
    | [] => .ok (.mk true hasStar children)
    | subtype :: rest =>
      -- l.54-68
      if cIsStar subtype then
        if rest ≠ [] then .error (.valueError "invalid query event type")
        else .ok (.mk true true [])
      -- l.70-99
      else
        let child := (Dict.get children subtype).getD CNode.empty
        match cAddQueryType rest child with
        | .error err => .error err
        | .ok child => .ok (.mk isLeaf hasStar (Dict.set children subtype child))

/-- The loop of `Subscription_new`, `_csubscription.c:303-327`. -/
def cFromQueryTypes (queryTypes : List EventType) : Except PyErr CNode :=
  queryTypes.foldlM (fun node queryType => cAddQueryType queryType node) CNode.empty

mutual
/-- `get_query_types`, `_csubscription.c:103-172`; the prefix argument is
modelled by prepending the name to the results of the children. -/
def cGetQueryTypes : CNode → List EventType
  | .mk isLeaf hasStar children =>
    -- l.104-129
    if hasStar then [["*"]]
    -- l.131-136, l.138-171
    else (if isLeaf then [[]] else []) ++ cChildrenQueryTypes children
/-- The loop of `get_query_types`, `_csubscription.c:141-169`. -/
def cChildrenQueryTypes : List (Segment × CNode) → List EventType
  | [] => []
  | (key, child) :: r =>
    (cGetQueryTypes child).map (key :: ·) ++ cChildrenQueryTypes r
end

/-- `matches`, `_csubscription.c:175-204`. -/
def cMatches : EventType → CNode → Bool
  | [], .mk isLeaf hasStar _ =>
    -- l.177-181
    if hasStar then true else isLeaf
  | s :: rest, .mk _ hasStar children =>
    -- l.177-178
    if hasStar then true
    -- l.183-184
    else if children.isEmpty then false
    -- l.188-196
    else if (match Dict.get children s with
        | some child => cMatches rest child
        | none => false) then true
    -- l.198-201
    else if (match Dict.get children "?" with
        | some child => cMatches rest child
        | none => false) then true
    -- l.203
    else false

/-- `isdisjoint`, `_csubscription.c:207-278`, with a recursion bound
(`cIsdisjoint` supplies one that suffices). -/
def cIsdisjointF : Nat → CNode → CNode → Bool
  | 0, _, _ => true
  | n + 1, first, second =>
    -- l.208-209
    if first.isLeaf && second.isLeaf then false
    -- l.211-212
    else if first.hasStar then !second.isLeaf && second.children.isEmpty
    -- l.214-215
    else if second.hasStar then !first.isLeaf && first.children.isEmpty
    -- l.217-218
    else if first.children.isEmpty then !first.isLeaf || second.children.isEmpty
    -- l.220-221
    else if second.children.isEmpty then !second.isLeaf || first.children.isEmpty
    -- l.227-235
    else if (match Dict.get first.children "?" with
        | some c => second.children.any fun (_, child) => !(cIsdisjointF n c child)
        | none => false) then false
    -- l.237-245
    else if (match Dict.get second.children "?" with
        | some c => first.children.any fun (_, child) => !(cIsdisjointF n child c)
        | none => false) then false
    -- l.247-260
    else if (first.children.any fun (key, child) =>
        if key = "?" then false
        else match Dict.get second.children key with
          | some other => !(cIsdisjointF n child other)
          | none => false) then false
    -- l.262-275
    else if (second.children.any fun (key, child) =>
        if key = "?" then false
        else match Dict.get first.children key with
          | some other => !(cIsdisjointF n other child)
          | none => false) then false
    -- l.277
    else true

/-- `isdisjoint`, `_csubscription.c:207-278`. -/
def cIsdisjoint (first second : CNode) : Bool :=
  cIsdisjointF (first.depth + second.depth) first second

/-! ## The `Subscription` interface -/

/-- An instance of `Subscription`: `PySubscription` (`pysubscription.py:4-8`)
or `CSubscription` (`csubscription.py:6-10`). -/
inductive Sub where
  | py (root : Node)
  | c (root : CNode)

namespace Sub

/-- `PySubscription(query_types)`, `pysubscription.py:7-8`. -/
def createPy (queryTypes : List EventType) : Except PyErr Sub :=
  (nodeFromQueryTypes queryTypes).map .py

/-- `CSubscription(query_types)`, `csubscription.py:9-10`. -/
def createC (queryTypes : List EventType) : Except PyErr Sub :=
  (cFromQueryTypes queryTypes).map .c

/-- `get_query_types`, `pysubscription.py:10-11`, `csubscription.py:12-13`. -/
def getQueryTypes : Sub → List EventType
  | py root => nodeToQueryTypes root
  | c root => cGetQueryTypes root

/-- `matches`, `pysubscription.py:13-14`, `csubscription.py:15-16`. -/
def «matches» : Sub → EventType → Bool
  | py root, eventType => nodeMatches eventType root
  | c root, eventType => cMatches eventType root

/-- `_get_other_node`, `pysubscription.py:43-47`. -/
def otherNode : Sub → Except PyErr Node
  | py root => .ok root
  | c root => nodeFromQueryTypes (cGetQueryTypes root)

/-- The loop over `others` in `PySubscription.union`/`intersection`,
`pysubscription.py:19-21,30-32`. -/
def pyFold (op : Node → Node → Node) (node : Node) (others : List Sub) : Except PyErr Node :=
  others.foldlM (fun node other =>
    match otherNode other with
    | .error err => .error err
    | .ok otherNode => .ok (op node otherNode)) node

/-- The loop over `others` in `CSubscription.union`/`intersection`,
`csubscription.py:22-24,32-34`. -/
def cFold (op : Node → Node → Node) (node : Node) (others : List Sub) : Except PyErr Node :=
  others.foldlM (fun node other =>
    match nodeFromQueryTypes other.getQueryTypes with
    | .error err => .error err
    | .ok otherNode => .ok (op node otherNode)) node

/-- Common part of `union` and `intersection`,
`pysubscription.py:16-36`, `csubscription.py:18-36`. -/
def combine (op : Node → Node → Node) (self : Sub) (others : List Sub) : Except PyErr Sub :=
  match self with
  | py root => (pyFold op root others).map .py
  | c root =>
    match nodeFromQueryTypes (cGetQueryTypes root) with
    | .error err => .error err
    | .ok node =>
      match cFold op node others with
      | .error err => .error err
      | .ok node => createC (nodeToQueryTypes node)

/-- `union`, `pysubscription.py:16-25`, `csubscription.py:18-26`. -/
def union (self : Sub) (others : List Sub) : Except PyErr Sub :=
  combine unionNode self others

/-- `intersection`, `pysubscription.py:27-36`, `csubscription.py:28-36`. -/
def intersection (self : Sub) (others : List Sub) : Except PyErr Sub :=
  combine intersectionNode self others

/-- `isdisjoint`, `pysubscription.py:38-40`, `csubscription.py:38-47`. -/
def isdisjoint (self other : Sub) : Except PyErr Bool :=
  match self with
  | py root => (otherNode other).map (nodeIsdisjoint root)
  | c root =>
    match other with
    | c otherRoot => .ok (cIsdisjoint root otherRoot)
    | py otherRoot => (cFromQueryTypes (nodeToQueryTypes otherRoot)).map (cIsdisjoint root)

end Sub

end HatEvent
