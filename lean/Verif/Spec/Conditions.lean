import Verif.Model.Conditions

/-!
# Specification: conditions
-/

namespace HatEvent
namespace Spec

/-- `data` is found in `doc` by following the steps. -/
inductive Found : Json → List (String ⊕ Int) → Json → Prop
  | here (data : Json) : Found data [] data
  | name {l : List (String × Json)} {s : String} {d : Json} {r : List (String ⊕ Int)} {data : Json} :
      Dict.get l s = some d → Found d r data → Found (.obj l) (.inl s :: r) data
  | index {l : List Json} {i : Nat} {d : Json} {r : List (String ⊕ Int)} {data : Json} :
      l[i]? = some d → Found d r data → Found (.arr l) (.inr i :: r) data
  | fromEnd {l : List Json} {i : Nat} {d : Json} {r : List (String ⊕ Int)} {data : Json} :
      i < l.length → l.reverse[i]? = some d → Found d r data →
      Found (.arr l) (.inr (-(i : Int) - 1) :: r) data

/-- The steps lead to `data`; a path that leads nowhere counts as null. -/
def At (doc : Json) (path : List (String ⊕ Int)) (data : Json) : Prop :=
  Found doc path data ∨ ((¬ ∃ d, Found doc path d) ∧ data = .null)

/-- Equal JSON values.  Numbers are compared by value, with `true` and `false`
being 1 and 0; objects are compared as mappings. -/
inductive Same : Json → Json → Prop
  | null : Same .null .null
  | str (s : String) : Same (.str s) (.str s)
  | number {x y : Json} {q : Rat} : x.number? = some q → y.number? = some q → Same x y
  | arr {a b : List Json} : a.length = b.length →
      (∀ i (h : i < a.length) (h' : i < b.length), Same a[i] b[i]) → Same (.arr a) (.arr b)
  | obj {a b : List (String × Json)} : a.length = b.length →
      (∀ p ∈ a, Dict.get b p.1 ≠ none) →
      (∀ p ∈ a, ∀ y, Dict.get b p.1 = some y → Same p.2 y) → Same (.obj a) (.obj b)

/-- JSON values of a type. -/
def HasType : DataType → Json → Prop
  | .null, x => x = .null
  | .boolean, x => ∃ b, x = .bool b
  | .string, x => ∃ s, x = .str s
  | .number, x => (∃ n, x = .int n) ∨ ∃ q, x = .float q
  | .array, x => ∃ l, x = .arr l
  | .object, x => ∃ l, x = .obj l

/-- An event satisfies a condition. -/
inductive Satisfies : Event → Condition → Prop
  | all {e : Event} {l : List Condition} : (∀ c ∈ l, Satisfies e c) → Satisfies e (.all l)
  | any {e : Event} {l : List Condition} {c : Condition} : c ∈ l → Satisfies e c → Satisfies e (.any l)
  | json {e : Event} {doc data : Json} {p : Option JsonPath} {t : Option DataType} {v : Option Json} :
      e.payload = some (.json doc) →
      At doc (match p with | some p => p.flatten | none => []) data →
      (∀ t', t = some t' → HasType t' data) →
      (∀ v', v = some v' → Same v' data) →
      Satisfies e (.json p t v)

/-- An event satisfies the configured conditions. -/
def SatisfiesAll (conf : List (Sub × Condition)) (e : Event) : Prop :=
  ∀ s c, (s, c) ∈ conf → s.matches e.type = true → Satisfies e c

end Spec
end HatEvent
