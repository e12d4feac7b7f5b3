import Verif.Model.Dict
import Verif.Model.Matches

/-!
# Subscriptions, Python implementation

Models `src_py/hat/event/common/subscription/common.py` and
`src_py/hat/event/common/subscription/pysubscription.py`.
-/

namespace HatEvent

/-- Python exceptions the modelled code can raise (as values). -/
inductive PyErr where
  | valueError (msg : String)
  | attributeError
  | unboundLocalError
  | indexError
  | keyError
  | typeError
  | structError
  | connectionError
  | exception (msg : String)
  deriving DecidableEq, Repr

/-- Subscription tree node, `common/subscription/common.py:40-43`.
The `dict` of children is an association list in insertion order. -/
inductive Node where
  | mk (isLeaf : Bool) (children : List (Segment × Node))

namespace Node

/-- `Node.is_leaf`, `common/subscription/common.py:42`. -/
def isLeaf : Node → Bool
  | mk l _ => l

/-- `Node.children`, `common/subscription/common.py:43`. -/
def children : Node → Dict Segment Node
  | mk _ ch => ch

/-- `Node(False, {})`, `common/subscription/common.py:47,141`. -/
def empty : Node := mk false []

mutual
/-- Number of levels of a tree.  Not a function of the repository: it is the
recursion bound of the functions that descend into two trees at once. -/
def depth : Node → Nat
  | mk _ ch => depthL ch + 1
/-- Auxiliary to `depth`. -/
def depthL : List (Segment × Node) → Nat
  | [] => 0
  | (_, c) :: r => max (depth c) (depthL r)
end

end Node

/-- `_add_query_type`, `common/subscription/common.py:123-145`.
The in-place mutation of `children` is modelled by returning the new node
(the old node is never used again by the caller, l.50 and l.142). -/
def addQueryType : EventType → Node → Except PyErr Node
  | queryType, .mk isLeaf children =>
    -- l.126-127
    if Dict.has children "*" then .ok (.mk isLeaf children) else
    match queryType with
    -- l.129-130
    | [] => .ok (.mk true children)
    | head :: rest =>
      -- l.134-138 (`is_leaf` of the node stays as it was)
      if head = "*" then
        if rest ≠ [] then .error (.valueError "invalid query event type")
        else .ok (.mk isLeaf [("*", .mk true [])])
      -- l.140-143
      else
        let child := (Dict.get children head).getD Node.empty
        match addQueryType rest child with
        | .error err => .error err
        | .ok child => .ok (.mk isLeaf (Dict.set children head child))

/-- `node_from_query_types`, `common/subscription/common.py:46-52`. -/
def nodeFromQueryTypes (queryTypes : List EventType) : Except PyErr Node :=
  queryTypes.foldlM (fun node queryType => addQueryType queryType node) Node.empty

mutual
/-- `node_to_query_types`, `common/subscription/common.py:55-63`. -/
def nodeToQueryTypes : Node → List EventType
  | .mk isLeaf children =>
    (if isLeaf && !(Dict.has children "*") then [[]] else []) ++
      childrenToQueryTypes children
/-- The loop of `node_to_query_types`, `common/subscription/common.py:61-63`. -/
def childrenToQueryTypes : List (Segment × Node) → List EventType
  | [] => []
  | (head, child) :: r =>
    (nodeToQueryTypes child).map (head :: ·) ++ childrenToQueryTypes r
end

/-- One iteration of the merging loops
`common/subscription/common.py:76-77` and `115-118`: a child is stored under
its name, merged with the child already there (a `Node` is a non-empty tuple,
hence always truthy). -/
def mergeChild (merge : Node → Node → Node) (children : Dict Segment Node)
    (entry : Segment × Node) : Dict Segment Node :=
  Dict.set children entry.1
    (match Dict.get children entry.1 with
     | some prev => merge prev entry.2
     | none => entry.2)

/-- `union`, `common/subscription/common.py:66-79`, with a recursion bound
(`unionNode` supplies one that suffices).  The plain tuple `(True, {})` of
l.70 is modelled as the node it is used as. -/
def unionF : Nat → Node → Node → Node
  | 0, first, _ => first
  | n + 1, first, second =>
    let isLeaf := first.isLeaf || second.isLeaf
    if Dict.has first.children "*" || Dict.has second.children "*" then
      .mk isLeaf [("*", .mk true [])]
    else
      .mk isLeaf ((first.children ++ second.children).foldl
        (mergeChild (unionF n)) [])

/-- `union`, `common/subscription/common.py:66-79`. -/
def unionNode (first second : Node) : Node :=
  unionF (first.depth + second.depth) first second

/-- The candidates of one child in `intersection`,
`common/subscription/common.py:100-110`. -/
def intersectionCandidates (name : Segment) (other : Dict Segment Node) :
    Dict Segment Node :=
  if name = "?" then other
  else
    let candidates : Dict Segment Node :=
      match Dict.get other name with
      | some c => Dict.set [] name c
      | none => []
    match Dict.get other "?" with
    | some c => Dict.set candidates "?" c
    | none => candidates

/-- The results stored by the inner loop of `intersection`
(`common/subscription/common.py:112-114`) for the children of one operand
against the children of the other: pairs of `result_name` and
`result_children`, in program order. -/
def intersectionResults (inter : Node → Node → Node)
    (children other : Dict Segment Node) : List (Segment × Node) :=
  children.flatMap fun (name, child) =>
    (intersectionCandidates name other).map fun (otherName, otherChild) =>
      (if name ≠ "?" then name else otherName, inter child otherChild)

/-- `intersection`, `common/subscription/common.py:82-120`, with a recursion
bound (`intersectionNode` supplies one that suffices). -/
def intersectionF : Nat → Node → Node → Node
  | 0, _, _ => Node.empty
  | n + 1, first, second =>
    let isLeaf := first.isLeaf && second.isLeaf
    if Dict.has first.children "*" then .mk isLeaf second.children
    else if Dict.has second.children "*" then .mk isLeaf first.children
    else
      .mk isLeaf
        ((intersectionResults (intersectionF n) first.children second.children ++
          intersectionResults (intersectionF n) second.children first.children).foldl
            (mergeChild unionNode) [])

/-- `intersection`, `common/subscription/common.py:82-120`. -/
def intersectionNode (first second : Node) : Node :=
  intersectionF (first.depth + second.depth) first second

/-- `_matches`, `common/subscription/pysubscription.py:50-67`; the tuple and
the index into it are modelled by the remaining suffix. -/
def nodeMatches : EventType → Node → Bool
  | [], .mk isLeaf children =>
    -- l.53-54
    if Dict.has children "*" then true
    -- l.56-57
    else isLeaf
  | s :: rest, .mk _ children =>
    -- l.53-54
    if Dict.has children "*" then true
    -- l.59-61
    else if (match Dict.get children s with
        | some child => nodeMatches rest child
        | none => false) then true
    -- l.63-65
    else if (match Dict.get children "?" with
        | some child => nodeMatches rest child
        | none => false) then true
    -- l.67
    else false

/-- `_isdisjoint`, `common/subscription/pysubscription.py:70-97`, with a
recursion bound (`nodeIsdisjoint` supplies one that suffices). The set of
names of l.90 is enumerated in the order of `first.children`. -/
def nodeIsdisjointF : Nat → Node → Node → Bool
  | 0, _, _ => true
  | n + 1, first, second =>
    -- l.71-72
    if first.isLeaf && second.isLeaf then false
    -- l.74-76
    else if (Dict.has first.children "*" &&
              (!second.children.isEmpty || second.isLeaf)) ||
            (Dict.has second.children "*" &&
              (!first.children.isEmpty || first.isLeaf)) then false
    -- l.78-81
    else if (match Dict.get first.children "?" with
        | some c => second.children.any fun (_, child) => !(nodeIsdisjointF n c child)
        | none => false) then false
    -- l.83-88
    else if (match Dict.get second.children "?" with
        | some c => first.children.any fun (name, child) =>
            name != "?" && !(nodeIsdisjointF n c child)
        | none => false) then false
    -- l.90-95
    else if (first.children.any fun (name, child) =>
        match Dict.get second.children name with
        | some other => name != "?" && !(nodeIsdisjointF n child other)
        | none => false) then false
    -- l.97
    else true

/-- `_isdisjoint`, `common/subscription/pysubscription.py:70-97`. -/
def nodeIsdisjoint (first second : Node) : Bool :=
  nodeIsdisjointF (first.depth + second.depth) first second

end HatEvent
