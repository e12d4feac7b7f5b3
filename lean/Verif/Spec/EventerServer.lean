import Verif.Model.EventerServer
import Verif.Spec.Subscription

/-!
# Specification of the eventer server
-/

namespace HatEvent.Spec

/-- The notifications of a call among messages. -/
def notesOf (call : Nat) (sent : List ServerMsg) : List (List Event) :=
  sent.filterMap fun m => match m with
    | .events k _ es => if k = call then some es else none
    | _ => none

/-- The statuses a client was told. -/
def statuses (sent : List ServerMsg) : List Status :=
  sent.filterMap fun m => match m with
    | .initOk status => some status
    | .status status => some status
    | _ => none

open Classical in
/-- The events a client asked for. -/
noncomputable def wanted (req : InitReq) (events : List Event) : List Event :=
  events.filter fun e => decide (MatchesAny req.subscriptions e.type ∧
    (req.serverId = none ∨ req.serverId = some e.id.server))

/-- A client may connect. -/
def Permitted (serverToken clientToken : Option String) : Prop :=
  clientToken = none ∨ clientToken = serverToken

end HatEvent.Spec
