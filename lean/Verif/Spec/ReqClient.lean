import Verif.Model.ReqClient

/-!
# Specification of the eventer client
-/

namespace HatEvent
namespace Spec

/-- The conversation of a request. -/
def requestConv : ClientMsg → Option Nat
  | .register conv _ _ => some conv
  | .query conv _ => some conv
  | _ => none

/-- Calls of the client that wait for a response. -/
inductive Asks : ReqAct → Prop
  | register (events : List RegisterEvent) : Asks (.register events true)
  | query (params : QueryParams) : Asks (.query params)

end Spec
end HatEvent
