import Verif.Model.AdminServer

/-! # Requests and responses of the adminer server -/

namespace HatEvent

/-- The conversation of a request. -/
def AdminReq.conv : AdminReq → Option Nat
  | .get conv => some conv
  | .set conv _ => some conv
  | .other => none

/-- The conversation of a response. -/
def AdminRes.conv : AdminRes → Nat
  | .got conv _ => conv
  | .done conv _ => conv

/-- A response has the type of its request. -/
inductive Fits : AdminReq → AdminRes → Prop
  | get (conv : Nat) (conf : Json) : Fits (.get conv) (.got conv (some conf))
  | set (conv : Nat) (conf : Json) (ok : Bool) : Fits (.set conv conf) (.done conv ok)

/-- The requests a connection gets. -/
def requestsOf (id : Nat) (acts : List AdminServerAct) : List AdminReq :=
  acts.filterMap fun a => match a with
    | .receive i req _ => if i = id then some req else none
    | _ => none

/-- The action sets a new configuration. -/
def AdminServer.Sets (s : AdminServer) (a : AdminServerAct) : Prop :=
  ∃ id conv conf, a = .receive id (.set conv conf) true ∧ (s.conns id).running = true

/-- No action of a history sets a new configuration. -/
def AdminServer.Quiet (s : AdminServer) (acts : List AdminServerAct) : Prop :=
  ∀ pre a post, acts = pre ++ a :: post → ¬ (s.run pre).Sets a

/-- The connection an action is about. -/
def AdminServerAct.about (next : Nat) : AdminServerAct → Nat
  | .accept => next
  | .lose id => id
  | .receive id _ _ => id
  | .giveUp id => id

end HatEvent
