import Verif.Model.Sbs

/-!
# Specification: conformance of data to an SBS schema
-/

namespace HatEvent
namespace Spec

/-- Data that can be serialised with a schema type: a record has all fields of
the schema, a choice is one of the listed cases. -/
inductive Conforms : Sbs → SbsType → Prop
  | none : Conforms .none .none
  | bool (b : Bool) : Conforms (.bool b) .boolean
  | int (n : Int) : Conforms (.int n) .integer
  | str (s : String) : Conforms (.str s) .string
  | bytes (b : List UInt8) : Conforms (.bytes b) .bytes
  | array {l : List Sbs} {t : SbsType} : (∀ x ∈ l, Conforms x t) → Conforms (.array l) (.array t)
  | record {l : List (String × Sbs)} {fs : List (String × SbsType)} :
      l.map Prod.fst = fs.map Prod.fst →
      (∀ i (h : i < l.length) (h' : i < fs.length), Conforms l[i].2 fs[i].2) →
      Conforms (.record l) (.record fs)
  | choice {n : String} {v : Sbs} {t : SbsType} {cs : List (String × SbsType)} :
      (n, t) ∈ cs → Conforms v t → Conforms (.choice n v) (.choice cs)

/-- The JSON text of the payload (if it is a JSON payload) can be read back. -/
def JsonReadable (jc : JsonCodec) (p : Option Payload) : Prop :=
  ∀ d, p = some (.json d) → jc.decode (jc.encode d) = .ok d

end Spec
end HatEvent
