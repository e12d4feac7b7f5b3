import Verif.Model.EventerHost
import Verif.Spec.Link

/-! # What the event server tells its engine about clients -/

namespace HatEvent

/-- The calls of `Engine.register` with the source of a connection, in order: engine and reason. -/
def Host.callsOf (s : Host) (id : Nat) : List (Nat × HostCall) :=
  (s.calls.filter fun c => c.conn = id).map fun c => (c.engine, c.call)

/-- The calls for one client with a name: `CONNECTED` at most once and first, then register requests with events,
`DISCONNECTED` at most once and last. -/
def Orderly (name : String) (calls : List HostCall) : Prop :=
  ∃ pre mid post, calls = pre ++ mid ++ post ∧
    (pre = [] ∨ pre = [.connected name]) ∧ (∀ c ∈ mid, ∃ evs, c = .register evs) ∧
    (post = [] ∨ post = [.disconnected name])

/-- `engine` is in use and open. -/
def Host.Uses (s : Host) (engine : Nat) : Prop := s.engine = some engine ∧ s.closed engine = false

/-- An action that neither replaces nor closes an engine. -/
def HostAct.keeps (engine : Nat) : HostAct → Prop
  | .setStatus _ e => e = some engine
  | .closeEngine e => e ≠ engine
  | _ => True

/-- No connection is lost by its client or by the network. -/
def HostAct.calm : HostAct → Prop
  | .lose _ => False
  | _ => True

/-- Neither the engine nor the backend raises. -/
def HostAct.succeeds : HostAct → Prop
  | .answer _ .raised => False
  | .queried _ none => False
  | _ => True

/-- Every register request that expects a response has got one in its conversation, once its callback has finished. -/
def Host.Answered (s : Host) (id : Nat) : Prop :=
  ∀ conv evs, (.register conv evs false) ∈ (s.server.conns id).handled →
    (∀ info m, (s.server.conns id).phase ≠ .busy info m) →
      conv ∈ (Spec.answersOf (s.server.conns id).sent).map Prod.fst

end HatEvent
