import Verif.Model.Collection

/-!
# C tree collection, memory level

`Model/Collection.lean` has the lists of `_ctree.c` as lists of cells.  Here `src_c/py/collection/_ctree.c` is modelled with its memory:
pointers, allocation that may fail, freeing, and the reference counts of the values.

* An address is a number, 0 is `NULL`.  An address is not used again after it is freed, so that every use of freed memory is an error
  (a program without such uses can not tell if addresses are used again).
* The hash table of children (hat-util `ht.h`) is a dictionary; creating it and adding to it may fail.  Its memory belongs to the
  tree node.
* Functions that follow pointers as long as there are any have a limit on the number of steps; reaching it is an error.
* Objects that are not tuples of `str`, and failures while the result of `get` is created, are not modelled.
-/

namespace HatEvent

/-- An address. -/
scoped notation "Addr" => Nat

/-- Pointer to an `obj_list_t`: one of the two lists in a tree node, `_ctree.c:26-28`. -/
structure ListPtr where
  owner : Addr
  asterisk : Bool
  deriving DecidableEq

/-- What is at an address: memory that is not initialised, `obj_node_t` (`_ctree.c:11-15`), `tree_node_t` (`_ctree.c:26-31`, a list is its `head`), and
`ref_t` (`_ctree.c:21-24`). -/
inductive CObj (V : Type) where
  | raw
  | cell (prev next : Addr) (obj : V)
  | tree (values asterisks : Addr) (children : Option (List (Segment × Addr))) (question : Addr)
  | ref (list : ListPtr) (node : Addr)

/-- Memory.  `fails` says for the coming allocations if they fail; `counts` are the references to values owned by the C code. -/
structure CMem (V : Type) where
  objs : Addr → Option (CObj V)
  next : Addr
  fails : List Bool
  counts : V → Int

/-- Undefined behaviour. -/
inductive Ub where
  | invalidUse
  | limit
  deriving DecidableEq

namespace CMem
variable {V : Type} [DecidableEq V]

/-- If the next allocation fails. -/
def failing (m : CMem V) : Bool := m.fails.headD false

/-- An allocation was tried. -/
def tried (m : CMem V) : CMem V := { m with fails := m.fails.tail }

/-- Change of what is at an address. -/
def put (m : CMem V) (a : Addr) (o : Option (CObj V)) : CMem V :=
  { m with objs := fun x => if x = a then o else m.objs x }

/-- `PyMem_Malloc`. -/
def malloc (m : CMem V) : Addr × CMem V :=
  if m.failing then (0, m.tried)
  else (m.next, { m.tried.put m.next (some .raw) with next := m.next + 1 })

/-- `PyMem_Free`.  `NULL` is allowed; anything else must be allocated. -/
def free (m : CMem V) (a : Addr) : Except Ub (CMem V) :=
  if a = 0 then .ok m
  else match m.objs a with
    | none => .error .invalidUse
    | some _ => .ok (m.put a none)

/-- Assignment to a whole structure. -/
def store (m : CMem V) (a : Addr) (o : CObj V) : Except Ub (CMem V) :=
  match m.objs a with
  | none => .error .invalidUse
  | some _ => .ok (m.put a (some o))

/-- Reading an `obj_node_t`. -/
def getCell (m : CMem V) (a : Addr) : Except Ub (Addr × Addr × V) :=
  match m.objs a with
  | some (.cell p n v) => .ok (p, n, v)
  | _ => .error .invalidUse

/-- Reading a `tree_node_t`. -/
def getTree (m : CMem V) (a : Addr) : Except Ub (Addr × Addr × Option (List (Segment × Addr)) × Addr) :=
  match m.objs a with
  | some (.tree vs as ch q) => .ok (vs, as, ch, q)
  | _ => .error .invalidUse

/-- Reading a `ref_t`. -/
def getRef (m : CMem V) (a : Addr) : Except Ub (ListPtr × Addr) :=
  match m.objs a with
  | some (.ref l n) => .ok (l, n)
  | _ => .error .invalidUse

/-- `list->head`. -/
def getHead (m : CMem V) (l : ListPtr) : Except Ub Addr := do
  let (vs, as, _, _) ← m.getTree l.owner
  return if l.asterisk then as else vs

/-- `list->head = a`. -/
def setHead (m : CMem V) (l : ListPtr) (a : Addr) : Except Ub (CMem V) := do
  let (vs, as, ch, q) ← m.getTree l.owner
  m.store l.owner (if l.asterisk then .tree vs a ch q else .tree a as ch q)

/-- `node->prev = p`. -/
def setPrev (m : CMem V) (a p : Addr) : Except Ub (CMem V) := do
  let (_, n, v) ← m.getCell a
  m.store a (.cell p n v)

/-- `node->next = n`. -/
def setNext (m : CMem V) (a n : Addr) : Except Ub (CMem V) := do
  let (p, _, v) ← m.getCell a
  m.store a (.cell p n v)

/-- `Py_INCREF` and `Py_DECREF` of a value. -/
def addCount (m : CMem V) (v : V) (n : Int) : CMem V := { m with counts := fun w => if w = v then m.counts w + n else m.counts w }

/-- `free_obj_list`, `_ctree.c:34-43`. -/
def freeList : Nat → CMem V → Addr → Except Ub (CMem V)
  | 0, _, _ => .error .limit
  | limit + 1, m, a =>
    if a = 0 then .ok m
    else do
      let (_, next, v) ← m.getCell a
      let m ← (m.addCount v (-1)).free a
      freeList limit m next

/-- The pointer, if it is not `NULL`. -/
def nonNull (a : Addr) : List Addr := if a = 0 then [] else [a]

/-- `free_tree_node`, `_ctree.c:46-64`. -/
def freeTree : Nat → CMem V → Addr → Except Ub (CMem V)
  | 0, _, _ => .error .limit
  | limit + 1, m, a => do
    let (vs, as, ch, q) ← m.getTree a
    let m ← freeList (m.next + 1) m vs
    let m ← freeList (m.next + 1) m as
    let m ← (ch.getD []).foldlM (fun m p => freeTree limit m p.2) m
    let m ← (nonNull q).foldlM (fun m q => freeTree limit m q) m
    m.free a

/-- `create_tree_node`, `_ctree.c:67-78`. -/
def createTree (m : CMem V) : Except Ub (Addr × CMem V) :=
  if m.malloc.1 = 0 then .ok (0, m.malloc.2)
  else do
    let m' ← m.malloc.2.store m.malloc.1 (.tree 0 0 none 0)
    return (m.malloc.1, m')

/-- `if (node) node->prev = p`, `_ctree.c:107-108,281-282`. -/
def linkPrev (m : CMem V) (a p : Addr) : Except Ub (CMem V) := if a = 0 then .ok m else m.setPrev a p

/-- `add_value_to_list` after the allocations, `_ctree.c:103-113`. -/
def linkValue (m : CMem V) (list : ListPtr) (value : V) (node ref : Addr) : Except Ub (Addr × CMem V) := do
  let m := m.addCount value 1
  let head ← m.getHead list
  let m ← m.store node (.cell 0 head value)
  let m ← m.linkPrev head node
  let m ← m.setHead list node
  let m ← m.store ref (.ref list node)
  return (ref, m)

/-- `add_value_to_list`, `_ctree.c:87-120`; 0 if it fails.  The capsule (l.99) is represented by the `ref_t` it has. -/
def addToList (m : CMem V) (list : ListPtr) (value : V) : Except Ub (Addr × CMem V) := do
  let (node, m) := m.malloc
  if node = 0 then
    return (0, m)
  else
    let (ref, m) := m.malloc
    if ref = 0 then
      let m ← m.free node
      return (0, m)
    else if m.failing then
      let m ← m.tried.free node
      let m ← m.free ref
      return (0, m)
    else m.tried.linkValue list value node ref

/-- The child for `?`, created if missing, `_ctree.c:142-146`; 0 if that fails. -/
def questionChild (m : CMem V) (a : Addr) : Except Ub (Addr × CMem V) := do
  let (vs, as, ch, q) ← m.getTree a
  if q ≠ 0 then return (q, m)
  else
    let (child, m) ← m.createTree
    let m ← m.store a (.tree vs as ch child)
    return (child, m)

/-- A new child, `_ctree.c:160-169`; 0 if it fails. -/
def newChild (m : CMem V) (a : Addr) (head : Segment) (vs as : Addr) (ch : List (Segment × Addr)) (q : Addr) : Except Ub (Addr × CMem V) := do
  let (child, m) ← m.createTree
  if child = 0 then return (0, m)
  else if m.failing then
    let m ← freeTree (m.next + 1) m.tried child
    return (0, m)
  else
    let m ← m.tried.store a (.tree vs as (some (Dict.set ch head child)) q)
    return (child, m)

/-- The child for a segment, created if missing, `_ctree.c:152-170`; 0 if that fails. -/
def segmentChild (m : CMem V) (a : Addr) (head : Segment) : Except Ub (Addr × CMem V) := do
  let (vs, as, ch, q) ← m.getTree a
  match ch with
  | none =>
    if m.failing then return (0, m.tried)
    else
      let m ← m.tried.store a (.tree vs as (some []) q)
      m.newChild a head vs as [] q
  | some ch =>
    match Dict.get ch head with
    | some child => return (child, m)
    | none => m.newChild a head vs as ch q

/-- The child to continue with, `_ctree.c:141-170`. -/
def childFor (m : CMem V) (a : Addr) (head : Segment) : Except Ub (Addr × CMem V) :=
  if head = "?" then m.questionChild a else m.segmentChild a head

/-- `add_value_to_tree`, `_ctree.c:123-173`; 0 if it fails. -/
def addToTree : EventType → CMem V → Addr → V → Except Ub (Addr × CMem V)
  | [], m, a, value => m.addToList ⟨a, false⟩ value
  | head :: rest, m, a, value =>
    if head = "*" then m.addToList ⟨a, true⟩ value
    else do
      let (child, m) ← m.childFor a head
      if child = 0 then return (0, m)
      else addToTree rest m child value

/-- The loops over a list in `get_values`, `_ctree.c:178-186`. -/
def listValues : Nat → CMem V → Addr → Except Ub (List V)
  | 0, _, _ => .error .limit
  | limit + 1, m, a =>
    if a = 0 then .ok []
    else do
      let (_, next, v) ← m.getCell a
      let vs ← listValues limit m next
      return v :: vs

/-- `get_values`, `_ctree.c:176-216`. -/
def getValues : EventType → CMem V → Addr → Except Ub (List V)
  | [], m, a => do
    let (vs, as, _, _) ← m.getTree a
    let r1 ← listValues (m.next + 1) m as
    let r2 ← listValues (m.next + 1) m vs
    return r1 ++ r2
  | head :: rest, m, a => do
    let (_, as, ch, q) ← m.getTree a
    let r1 ← listValues (m.next + 1) m as
    let r2 ← (nonNull q).mapM (getValues rest m)
    let r3 ← (Dict.get (ch.getD []) head).toList.mapM (getValues rest m)
    return r1 ++ r2.flatten ++ r3.flatten

/-- `_ctree.c:274-279`. -/
def linkNext (m : CMem V) (list : ListPtr) (prev next : Addr) : Except Ub (CMem V) :=
  if prev = 0 then m.setHead list next else m.setNext prev next

/-- `Collection_remove`, `_ctree.c:269-288`. -/
def unlink (m : CMem V) (ref : Addr) : Except Ub (CMem V) := do
  let (list, node) ← m.getRef ref
  let (prev, next, v) ← m.getCell node
  let m ← m.linkNext list prev next
  let m ← m.linkPrev next prev
  (m.addCount v (-1)).free node

end CMem

/-! ## The collection -/

variable {V : Type} [DecidableEq V]

/-- `CTreeEventTypeCollection`, `ctree.py:8-15`.  A capsule in `_refs` is the `ref_t` it owns. -/
structure HeapTree (V : Type) where
  mem : CMem V
  root : Addr
  refs : Dict V (List Addr)

namespace HeapTree

/-- `Collection_new`, `_ctree.c:225-240`, `ctree.py:10-12`; `none` if it fails. -/
def create (m : CMem V) : Except Ub (Option (HeapTree V) × CMem V) := do
  let (root, m) ← m.createTree
  if root = 0 then return (none, m)
  else return (some ⟨m, root, []⟩, m)

/-- The loop of `add`, `ctree.py:19-21`; the exception if an allocation failed. -/
def addLoop (value : V) : List EventType → HeapTree V → Except Ub (HeapTree V × Bool)
  | [], c => .ok (c, true)
  | queryType :: rest, c => do
    let (ref, m) ← c.mem.addToTree queryType c.root value
    if ref = 0 then return ({ c with mem := m }, false)
    else
      addLoop value rest
        { c with mem := m, refs := Dict.set c.refs value (((Dict.get c.refs value).getD []) ++ [ref]) }

/-- `add`, `ctree.py:17-21`. -/
def add (c : HeapTree V) (subscription : Sub) (value : V) : Except Ub (HeapTree V × Bool) :=
  addLoop value subscription.getQueryTypes
    { c with refs := Dict.set c.refs value ((Dict.get c.refs value).getD []) }

/-- `ref_obj_destructor` of a list of capsules, `_ctree.c:81-84`. -/
def dropRefs (m : CMem V) (refs : List Addr) : Except Ub (CMem V) := refs.foldlM (fun m r => m.free r) m

/-- `remove`, `ctree.py:23-25`.  The capsules are destroyed when the list is. -/
def remove (c : HeapTree V) (value : V) : Except Ub (HeapTree V) := do
  let refs := (Dict.get c.refs value).getD []
  let m ← refs.foldlM (fun m r => m.unlink r) c.mem
  let m ← dropRefs m refs
  return { c with mem := m, refs := Dict.del c.refs value }

/-- `get`, `ctree.py:27-28`, `_ctree.c:291-307`. -/
def get (c : HeapTree V) (eventType : EventType) : Except Ub (List V) := do
  let vs ← c.mem.getValues eventType c.root
  return toSet vs

/-- The collection is destroyed: `Collection_dealloc`, `_ctree.c:243-250`, and the capsules in `_refs`. -/
def destroy (c : HeapTree V) : Except Ub (CMem V) := do
  let m ← c.mem.freeTree (c.mem.next + 1) c.root
  dropRefs m (c.refs.flatMap Prod.snd)

/-- One operation; for an addition, whether it raised no exception. -/
def step (c : HeapTree V) : CollOp V → Except Ub (HeapTree V × Bool)
  | .add s v => c.add s v
  | .remove v => do
    let c ← c.remove v
    return (c, true)

/-- A history, with the result of each operation. -/
def run : List (CollOp V) → HeapTree V → Except Ub (HeapTree V × List Bool)
  | [], c => .ok (c, [])
  | op :: ops, c => do
    let (c, b) ← c.step op
    let (c, bs) ← run ops c
    return (c, b :: bs)

end HeapTree

/-- Memory in which nothing is allocated. -/
def CMem.empty (fails : List Bool) : CMem V := ⟨fun _ => none, 1, fails, fun _ => 0⟩

end HatEvent
