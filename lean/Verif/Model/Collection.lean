import Verif.Model.CSubscription

/-!
# Event type collections

Models `src_py/hat/event/common/collection/{pylist,pytree,ctree}.py` and
`src_c/py/collection/_ctree.c`.

Values are any type with decidable equality (Python: hashable values).  A
Python `set` is a list; `toSet` removes duplicates.
-/

namespace HatEvent

/-- Python's `set(iterable)`/`set.add`: each element once. -/
def toSet {V : Type} [DecidableEq V] : List V → List V
  | [] => []
  | v :: l => if v ∈ l then toSet l else v :: toSet l

section
variable {V : Type} [DecidableEq V]

/-! ## List implementation -/

/-- State of `PyListEventTypeCollection`, `pylist.py:6-7`. -/
structure PyList (V : Type) where
  values : Dict V Sub

/-- `PyListEventTypeCollection.add`, `pylist.py:12-14`. -/
def PyList.add (c : PyList V) (subscription : Sub) (value : V) : Except PyErr (PyList V) :=
  match Dict.get c.values value with
  | some prev =>
    match prev.union [subscription] with
    | .error err => .error err
    | .ok s => .ok ⟨Dict.set c.values value s⟩
  | none => .ok ⟨Dict.set c.values value subscription⟩

/-- `PyListEventTypeCollection.remove`, `pylist.py:16-17`. -/
def PyList.remove (c : PyList V) (value : V) : PyList V :=
  ⟨Dict.del c.values value⟩

/-- `PyListEventTypeCollection.get`, `pylist.py:19-22` (the generator is
consumed at once). -/
def PyList.get (c : PyList V) (eventType : EventType) : List V :=
  (c.values.filter fun (_, subscription) => subscription.matches eventType).map Prod.fst

/-! ## Python tree implementation -/

/-- `_Node`, `pytree.py:42-44`. -/
inductive PNode (V : Type) where
  | mk (values : List V) (children : List (Segment × PNode V))

namespace PNode

/-- `_Node.values`, `pytree.py:43`. -/
def values : PNode V → List V
  | mk vs _ => vs

/-- `_Node.children`, `pytree.py:44`. -/
def children : PNode V → Dict Segment (PNode V)
  | mk _ ch => ch

/-- `_create_node`, `pytree.py:47-48`. -/
def create : PNode V := mk [] []

/-- Walk along a query type (`pytree.py:21-26`; the `defaultdict` creates the
missing nodes) and change the set of values of the node reached. -/
def modifyAt : EventType → (List V → List V) → PNode V → PNode V
  | [], f, mk vs ch => mk (f vs) ch
  | head :: rest, f, mk vs ch =>
    mk vs (Dict.set ch head (modifyAt rest f ((Dict.get ch head).getD create)))

/-- `node.values` of the node reached by a walk that creates nothing. -/
def valuesAt : EventType → PNode V → List V
  | [], mk vs _ => vs
  | head :: rest, mk _ ch =>
    match Dict.get ch head with
    | some child => valuesAt rest child
    | none => []

/-- `_get`, `pytree.py:51-64`. -/
def get : EventType → PNode V → List V
  | [], mk vs ch =>
    (match Dict.get ch "*" with
     | some child => child.values
     | none => []) ++ vs
  | head :: rest, mk _ ch =>
    (match Dict.get ch "*" with
     | some child => child.values
     | none => []) ++
    (match Dict.get ch head with
     | some child => get rest child
     | none => []) ++
    (match Dict.get ch "?" with
     | some child => get rest child
     | none => [])

end PNode

/-- State of `PyTreeEventTypeCollection`, `pytree.py:9-11`.  The node objects
stored in `_value_nodes` are represented by the query types leading to them
(nodes are never removed or replaced). -/
structure PyTree (V : Type) where
  root : PNode V
  valueNodes : Dict V (List EventType)

/-- `'*'` followed by other segments, `pytree.py:23`. -/
def starNotLast (q : EventType) : Bool := q.dropLast.contains "*"

/-- The loop of `PyTreeEventTypeCollection.add`, `pytree.py:17-32`. -/
def PyTree.addLoop (value : V) : List EventType → PyTree V → Except PyErr (PyTree V)
  | [], c => .ok c
  | queryType :: r, c =>
    -- l.23-24
    if starNotLast queryType then .error (.valueError "invalid query type")
    else
      -- l.21-26
      let root := PNode.modifyAt queryType id c.root
      -- l.28-29: `return`, not `continue`
      if value ∈ PNode.valuesAt queryType root then .ok { c with root := root }
      else
        -- l.31-32
        addLoop value r
          { root := PNode.modifyAt queryType (value :: ·) root
            valueNodes := Dict.set c.valueNodes value
              (((Dict.get c.valueNodes value).getD []) ++ [queryType]) }

/-- `PyTreeEventTypeCollection.add`, `pytree.py:16-32`. -/
def PyTree.add (c : PyTree V) (subscription : Sub) (value : V) : Except PyErr (PyTree V) :=
  PyTree.addLoop value subscription.getQueryTypes c

/-- The loop of `PyTreeEventTypeCollection.remove`, `pytree.py:35-36`;
`set.remove` raises `KeyError` for a missing element. -/
def PyTree.removeLoop (value : V) : List EventType → PNode V → Except PyErr (PNode V)
  | [], root => .ok root
  | queryType :: r, root =>
    if value ∈ PNode.valuesAt queryType root then
      removeLoop value r (PNode.modifyAt queryType (fun vs => vs.filter (· ≠ value)) root)
    else .error .keyError

/-- `PyTreeEventTypeCollection.remove`, `pytree.py:34-36`. -/
def PyTree.remove (c : PyTree V) (value : V) : Except PyErr (PyTree V) :=
  match PyTree.removeLoop value ((Dict.get c.valueNodes value).getD []) c.root with
  | .error err => .error err
  | .ok root => .ok ⟨root, Dict.del c.valueNodes value⟩

/-- `PyTreeEventTypeCollection.get`, `pytree.py:38-39`. -/
def PyTree.get (c : PyTree V) (eventType : EventType) : List V :=
  toSet (PNode.get eventType c.root)

/-! ## C tree implementation -/

/-- `tree_node_t`, `_ctree.c:26-31`.  The doubly linked lists `obj_list_t`
(`_ctree.c:11-19`) are lists of cells; a cell is its address and its object. -/
inductive TNode (V : Type) where
  | mk (values : List (Nat × V)) (asteriskValues : List (Nat × V))
      (children : List (Segment × TNode V)) (questionChild : List (TNode V))

namespace TNode

/-- `create_tree_node`, `_ctree.c:67-78` (`question_child`: the empty list is
`NULL`). -/
def create : TNode V := mk [] [] [] []

/-- Walk of `add_value_to_tree`, `_ctree.c:123-173`, creating missing nodes,
and a change of the list reached. Everything after `*` is ignored (l.138-139). -/
def modifyAt : EventType → (List (Nat × V) → List (Nat × V)) → TNode V → TNode V
  | [], f, mk vs as ch qc => mk (f vs) as ch qc
  | head :: rest, f, mk vs as ch qc =>
    if head = "*" then mk vs (f as) ch qc
    else if head = "?" then
      mk vs as ch [modifyAt rest f (qc.head?.getD create)]
    else
      mk vs as (Dict.set ch head (modifyAt rest f ((Dict.get ch head).getD create))) qc

/-- The list a query type leads to (`_ctree.c:123-173`); empty if a node on the
way is missing. -/
def cellsAt : EventType → TNode V → List (Nat × V)
  | [], mk vs _ _ _ => vs
  | head :: rest, mk _ as ch qc =>
    if head = "*" then as
    else if head = "?" then
      match qc.head? with
      | some child => cellsAt rest child
      | none => []
    else
      match Dict.get ch head with
      | some child => cellsAt rest child
      | none => []

/-- `get_values`, `_ctree.c:176-216`. -/
def get : EventType → TNode V → List V
  | [], mk vs as _ _ => as.map Prod.snd ++ vs.map Prod.snd
  | head :: rest, mk _ as ch qc =>
    as.map Prod.snd ++
    (match qc.head? with
     | some child => get rest child
     | none => []) ++
    (match Dict.get ch head with
     | some child => get rest child
     | none => [])

end TNode

/-- State of `CTreeEventTypeCollection`, `ctree.py:10-12`.  A `ref_t`
(`_ctree.c:21-24`) is the query type whose list it points to and the address
of the cell; `next` supplies addresses that are not in use (`PyMem_Malloc`). -/
structure CTree (V : Type) where
  root : TNode V
  refs : Dict V (List (EventType × Nat))
  next : Nat

/-- The loop of `CTreeEventTypeCollection.add`, `ctree.py:19-21`, with
`add_value_to_list`, `_ctree.c:87-120` (insertion at the head). -/
def CTree.addLoop (value : V) : List EventType → CTree V → CTree V
  | [], c => c
  | queryType :: r, c =>
    addLoop value r
      { root := TNode.modifyAt queryType ((c.next, value) :: ·) c.root
        refs := Dict.set c.refs value
          (((Dict.get c.refs value).getD []) ++ [(queryType, c.next)])
        next := c.next + 1 }

/-- `CTreeEventTypeCollection.add`, `ctree.py:17-21` (l.18 makes an entry for
the value even if there are no query types). -/
def CTree.add (c : CTree V) (subscription : Sub) (value : V) : CTree V :=
  CTree.addLoop value subscription.getQueryTypes
    { c with refs := Dict.set c.refs value ((Dict.get c.refs value).getD []) }

/-- The loop of `CTreeEventTypeCollection.remove`, `ctree.py:24-25`, with
`Collection_remove`, `_ctree.c:269-288`.  Unlinking a cell that is not in the
list would be a use of freed memory; it is an error value here. -/
def CTree.removeLoop : List (EventType × Nat) → TNode V → Except PyErr (TNode V)
  | [], root => .ok root
  | (queryType, addr) :: r, root =>
    if addr ∈ (TNode.cellsAt queryType root).map Prod.fst then
      removeLoop r (TNode.modifyAt queryType (fun l => l.filter (·.1 ≠ addr)) root)
    else .error (.exception "use of freed memory")

/-- `CTreeEventTypeCollection.remove`, `ctree.py:23-25`. -/
def CTree.remove (c : CTree V) (value : V) : Except PyErr (CTree V) :=
  match CTree.removeLoop ((Dict.get c.refs value).getD []) c.root with
  | .error err => .error err
  | .ok root => .ok { c with root := root, refs := Dict.del c.refs value }

/-- `CTreeEventTypeCollection.get`, `ctree.py:27-28`, `_ctree.c:291-307`. -/
def CTree.get (c : CTree V) (eventType : EventType) : List V :=
  toSet (TNode.get eventType c.root)

/-! ## Histories -/

/-- Operations on a collection. -/
inductive CollOp (V : Type) where
  | add (subscription : Sub) (value : V)
  | remove (value : V)

/-- A history applied to a new `PyListEventTypeCollection`. -/
def PyList.run (ops : List (CollOp V)) : Except PyErr (PyList V) :=
  ops.foldlM (fun c op => match op with
    | .add s v => c.add s v
    | .remove v => .ok (c.remove v)) ⟨[]⟩

/-- A history applied to a new `PyTreeEventTypeCollection`. -/
def PyTree.run (ops : List (CollOp V)) : Except PyErr (PyTree V) :=
  ops.foldlM (fun c op => match op with
    | .add s v => c.add s v
    | .remove v => c.remove v) ⟨PNode.create, []⟩

/-- A history applied to a new `CTreeEventTypeCollection`. -/
def CTree.run (ops : List (CollOp V)) : Except PyErr (CTree V) :=
  ops.foldlM (fun c op => match op with
    | .add s v => .ok (c.add s v)
    | .remove v => c.remove v) ⟨TNode.create, [], 0⟩

end

end HatEvent
