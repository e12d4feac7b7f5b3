import Verif.Model.AdminWire
import Verif.Spec.Schedule

/-!
# Schedules of an adminer client and its server
-/

namespace HatEvent.Spec

/-- A client and its server at a time. -/
def adminAt (id : Nat) (conf : Json) (acts : Nat → AdminWireAct) (n : Nat) : AdminWire := (AdminWire.init id conf).run (upTo acts n)

/-- Both sides and the connection go on: the server starts the loop of the connection, messages of both directions arrive, the client notices that the connection is closed,
its receive loop gets its turn. -/
structure AdminGoesOn (s : Nat → AdminWire) (acts : Nat → AdminWireAct) : Prop where
  accepted : ∃ n, (s n).id < (s n).server.next
  arrive : ∀ n, ∃ m, n ≤ m ∧ ∃ ok, acts m = .arrive ok
  deliver : Often acts .deliver
  notice : Often acts .notice
  start : Often acts (.client .start)
  stop : Often acts (.client .stop)

/-- A call gets its turn again and again. -/
structure AdminCallGoesOn (acts : Nat → AdminWireAct) (k : Nat) : Prop where
  sendDone : Often acts (.client (.sendDone k))
  resume : Often acts (.client (.resume k))

/-- The receive loop of the client is not cancelled before it has started. -/
def AdminLoopStarts (s : Nat → AdminWire) : Prop := ∀ n, (s n).client.isOpen = false → (s n).client.started = true

/-- No response is received before `send_msg` of its request has returned. -/
def AdminNotOvertaken (s : Nat → AdminWire) (acts : Nat → AdminWireAct) : Prop :=
  ∀ n res, acts n = .deliver → (s n).conn.sent[(s n).read]? = some res → ∀ kind, (s n).client.calls res.toMsg.conv ≠ .sending kind

/-- Nobody closes the client, nobody closes its connection, no call is cancelled. -/
structure AdminCalm (id : Nat) (acts : Nat → AdminWireAct) : Prop where
  close : ∀ n, acts n ≠ .client .close
  lose : ∀ n, acts n ≠ .server (.lose id)
  cancel : ∀ n k, acts n ≠ .client (.cancel k)

/-- What the end of call `k` says that was made at time `n` and has ended at time `m`. -/
inductive AdminMeaning (s : Nat → AdminWire) (acts : Nat → AdminWireAct) (query : AdminQuery) (k n m : Nat) : AdminEnd → Prop
  /-- The configuration of the server when it processed the request, in between. -/
  | got (j : Nat) (ok : Bool) (hq : query = .get) (hj : n < j ∧ j < m) (ha : acts j = .arrive ok) (hr : (s j).request = some (query.toReq k)) :
      AdminMeaning s acts query k n m (.success (s j).server.conf)
  /-- The server has processed the request, and has the configuration afterwards. -/
  | stored (j : Nat) (conf : Json) (hq : query = .set conf) (hj : n < j ∧ j < m) (ha : acts j = .arrive true) (hr : (s j).request = some (query.toReq k))
      (hc : (s (j + 1)).server.conf = conf) : AdminMeaning s acts query k n m (.success .null)
  /-- The server could not set the configuration, and has kept its own. -/
  | refused (j : Nat) (conf : Json) (hq : query = .set conf) (hj : n < j ∧ j < m) (ha : acts j = .arrive false) (hr : (s j).request = some (query.toReq k))
      (hc : (s (j + 1)).server.conf = (s j).server.conf) : AdminMeaning s acts query k n m .adminerError
  /-- The client is closed. -/
  | gone (h : (s m).client.isOpen = false) : AdminMeaning s acts query k n m .connectionError
  /-- The task of the call was cancelled. -/
  | cancelled (j : Nat) (hj : n < j ∧ j < m) (ha : acts j = .client (.cancel k)) : AdminMeaning s acts query k n m .cancelled

end HatEvent.Spec
