import Verif.Model.Event
import Verif.Model.Collection

/-!
# Storage conditions

Models `backends/lmdb/conditions.py`.  Configuration is given as already
validated by the JSON schema `schemas_json/backends/lmdb.yaml` (an unsupported
condition type is rejected there).
-/

namespace HatEvent

/-- `path` of the configuration schema (`schemas_json/backends/lmdb.yaml`):
a name, an index or an array of paths. -/
inductive JsonPath where
  | name (s : String)
  | index (i : Int)
  | array (l : List JsonPath)
  deriving Repr

mutual
/-- `json.flatten` of hat-json: the elementary steps of a path. -/
def JsonPath.flatten : JsonPath → List (String ⊕ Int)
  | .name s => [.inl s]
  | .index i => [.inr i]
  | .array l => JsonPath.flattenL l
/-- Auxiliary to `JsonPath.flatten`. -/
def JsonPath.flattenL : List JsonPath → List (String ⊕ Int)
  | [] => []
  | p :: r => JsonPath.flatten p ++ JsonPath.flattenL r
end

/-- `l[i]` of a Python list (negative indexes count from the end). -/
def pyIndex {α : Type} (l : List α) (i : Int) : Option α :=
  if 0 ≤ i then l[i.toNat]? else if 0 ≤ l.length + i then l[(l.length + i).toNat]? else none

/-- The loop of `json.get` of hat-json over elementary steps; `none` if a step
is not possible. -/
def jsonWalk : List (String ⊕ Int) → Json → Option Json
  | [], data => some data
  | .inl name :: r, .obj l =>
    match Dict.get l name with
    | some data => jsonWalk r data
    | none => none
  | .inr i :: r, .arr l =>
    match pyIndex l i with
    | some data => jsonWalk r data
    | none => none
  | _ :: _, _ => none

/-- `json.get(data, path)` of hat-json, as used at `conditions.py:64`: the
default is `None`, which is also the JSON null. -/
def jsonGet (data : Json) (path : JsonPath) : Json :=
  (jsonWalk path.flatten data).getD .null

/-- Numeric value of a JSON value, as used by Python's `==`: booleans are the
integers 0 and 1. -/
def Json.number? : Json → Option Rat
  | .bool b => some (if b then 1 else 0)
  | .int n => some n
  | .float q => some q
  | _ => none

mutual
/-- Python's `a == b` on JSON values. -/
def pyEq : Json → Json → Bool
  | .null, .null => true
  | .str a, .str b => a == b
  | .arr a, .arr b => pyEqL a b
  | .obj a, .obj b => a.length == b.length && pyEqO a b
  | .bool a, y => y.number? == (Json.bool a).number?
  | .int a, y => y.number? == (Json.int a).number?
  | .float a, y => y.number? == (Json.float a).number?
  | _, _ => false
/-- Equality of lists. -/
def pyEqL : List Json → List Json → Bool
  | [], [] => true
  | x :: a, y :: b => pyEq x y && pyEqL a b
  | _, _ => false
/-- Every entry of a dict is in another one. -/
def pyEqO : List (String × Json) → List (String × Json) → Bool
  | [], _ => true
  | (k, x) :: a, b =>
    (match Dict.get b k with
     | some y => pyEq x y
     | none => false) && pyEqO a b
end

/-- `data_type` of the configuration schema. -/
inductive DataType where
  | null | boolean | string | number | array | object
  deriving DecidableEq, Repr

/-- The type checks of `_JsonCondition.matches`, `conditions.py:66-93`. -/
def DataType.check : DataType → Json → Bool
  | .null, .null => true
  | .boolean, .bool _ => true
  | .string, .str _ => true
  | .number, .float _ => true
  | .number, .int _ => true
  | .array, .arr _ => true
  | .object, .obj _ => true
  | _, _ => false

/-- Condition configuration (`_create_condition`, `conditions.py:23-33`). -/
inductive Condition where
  | all (l : List Condition)
  | any (l : List Condition)
  | json (dataPath : Option JsonPath) (dataType : Option DataType) (dataValue : Option Json)
  deriving Repr

/-- `_JsonCondition.matches`, `conditions.py:59-99`. -/
def jsonConditionMatches (dataPath : Option JsonPath) (dataType : Option DataType)
    (dataValue : Option Json) (event : Event) : Bool :=
  match event.payload with
  | some (.json payload) =>
    let data := jsonGet payload (dataPath.getD (.array []))
    if (match dataType with
        | some t => !t.check data
        | none => false) then false
    else if (match dataValue with
        | some v => !pyEq v data
        | none => false) then false
    else true
  | _ => false

mutual
/-- `_AllCondition.matches`, `_AnyCondition.matches`, `_JsonCondition.matches`,
`conditions.py:36-99`. -/
def Condition.matches : Condition → Event → Bool
  | .all l, event => Condition.allMatch l event
  | .any l, event => Condition.anyMatch l event
  | .json p t v, event => jsonConditionMatches p t v event
/-- `all(...)`, `conditions.py:42`. -/
def Condition.allMatch : List Condition → Event → Bool
  | [], _ => true
  | c :: r, event => if c.matches event then Condition.allMatch r event else false
/-- `any(...)`, `conditions.py:51`. -/
def Condition.anyMatch : List Condition → Event → Bool
  | [], _ => false
  | c :: r, event => if c.matches event then true else Condition.anyMatch r event
end

/-- `Conditions.__init__`, `conditions.py:8-13`, with the C tree collection
(the default, `common/collection/__init__.py:24-25`).  Condition objects are
compared by identity, i.e. by their position in the configuration. -/
def conditionsC (conf : List (Sub × Condition)) : Except PyErr (CTree Nat) :=
  CTree.run ((List.range conf.length).zip conf |>.map fun (i, s, _) => .add s i)

/-- `Conditions.__init__` with the Python tree collection
(`common/collection/__init__.py:27`). -/
def conditionsPy (conf : List (Sub × Condition)) : Except PyErr (PyTree Nat) :=
  PyTree.run ((List.range conf.length).zip conf |>.map fun (i, s, _) => .add s i)

/-- `Conditions.matches`, `conditions.py:15-20`, given the conditions found by
`self._conditions.get(event.type)`. -/
def conditionsMatch (conf : List (Sub × Condition)) (found : List Nat) (event : Event) : Bool :=
  match found with
  | [] => true
  | i :: r =>
    match conf[i]? with
    | some (_, c) => if c.matches event then conditionsMatch conf r event else false
    | none => conditionsMatch conf r event

end HatEvent
