import Verif.Model.Wire
import Verif.Spec.Schedule
import Verif.Spec.ReqClient
import Verif.Spec.Link

/-!
# Schedules of a client and a server that go on
-/

namespace HatEvent.Spec

/-- What a callback of the server may give for a request: it raises, or it gives events for a registration, a result for a query. -/
inductive ReplyFits : ClientMsg → Handled → Prop
  | raised (msg : ClientMsg) : ReplyFits msg .raised
  | register (conv : Nat) (events : List RegisterEvent) (last : Bool) (r : Option (List Event)) :
      ReplyFits (.register conv events last) (.registered r)
  | query (conv : Nat) (params : QueryParams) (r : QueryResult) : ReplyFits (.query conv params) (.queried r)

/-- Both sides and the connection go on: messages of both directions arrive, each side notices that the other one has closed the connection, the receive loop of the client
gets its turn, callbacks of the client and of the server end. -/
structure WireGoesOn (s : Nat → Wire) (acts : Nat → WireAct) : Prop where
  arrive : Often acts .arrive
  deliver : Often acts .deliver
  notice : Often acts .notice
  start : Often acts (.client .start)
  stop : Often acts (.client .stop)
  callback : ∀ n, ∃ m, n ≤ m ∧ ∃ ok, acts m = .client (.callbackDone ok)
  reply : ∀ n info msg, (s n).conn.phase = .busy info msg → ∃ m, n ≤ m ∧ ∃ r, acts m = .server (.reply (s n).link.id r) ∧ ReplyFits msg r

/-- A call gets its turn again and again. -/
structure CallGoesOn (acts : Nat → WireAct) (k : Nat) : Prop where
  sendDone : Often acts (.client (.sendDone k))
  resume : Often acts (.client (.resume k))

/-- The receive loop of the client is not cancelled before it has started. -/
def LoopStarts (s : Nat → Wire) : Prop := ∀ n c, (s n).link.client = some c → c.loop ≠ .never

/-- No response is received before `send_msg` of its request has returned. -/
def NotOvertaken (s : Nat → Wire) (acts : Nat → WireAct) (k : Nat) : Prop :=
  ∀ n c conv w msg x, acts n = .deliver → (s n).link.client = some c → c.calls k = .sending conv w →
    (s n).conn.sent[(s n).link.read]? = some msg → msg.toPeer (s n).lastFlag ≠ .answer conv x

/-- A call of `notify_events` goes on for a client: its task gets its turn, the server loop is told that the connection is lost when it waits for a message, `connect` of the
client returns. -/
structure NoteGoesOn (acts : Nat → WireAct) (call id : Nat) : Prop where
  send : Often acts (.server (.send call id))
  await_ : Often acts (.server (.await_ call id))
  giveUp : Often acts (.server (.giveUp id))
  connect : Often acts .connect

/-- Between the sending of a notification and the creation of its future neither the acknowledgment is received nor the connection loop ends. -/
def AckInTime (s : Nat → Wire) (acts : Nat → WireAct) (call id : Nat) : Prop :=
  ∀ n conv, ((s n).link.server.calls call).state id = .sent conv →
    (s n).conn.phase ≠ .ended ∧ (acts n = .arrive → (s n).request ≠ some (.ack conv))

end HatEvent.Spec
