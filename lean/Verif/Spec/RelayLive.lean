import Verif.Model.Relay
import Verif.Spec.EngineLive
import Verif.Spec.Wire

/-!
# Event servers that go on with their clients
-/

namespace HatEvent.Spec

/-- The event server with its clients after the beginning of an endless schedule. -/
def relayAt (cf : StationConf) (past : List BackendOp) (acts : Nat → RelayAct) (n : Nat) : Relay :=
  (Relay.init cf past).run cf (upTo acts n)

/-- An engine goes on: its loop gets its turn, modules return, the backend calls its callback in calls of `register` and returns from them once the callback has returned. -/
structure EngineGoesOn (acts : Nat → RelayAct) (e : Nat) : Prop where
  take : ∀ n, ∃ m, n ≤ m ∧ ∃ now, acts m = .station (.engine e (.take now))
  next : Often acts (.station (.engine e .next))
  told : Often acts (.station (.engine e .told))
  processed : ∀ n, ∃ m, n ≤ m ∧ ∃ outputs, acts m = .station (.engine e (.processed outputs))
  tell : Often acts (.tell e)
  registered : ∀ n, ∃ m, n ≤ m ∧ ∃ now, acts m = .station (.engine e (.registered .same now))

/-- The process goes on: its engines do and are started after they were created, modules do not return new events for ever in a session, there is room in the
queues of the engines, the backend is open, and `notify_events` gets its turn for each of its clients. -/
structure ProcessGoesOn (cf : StationConf) (past : List BackendOp) (acts : Nat → RelayAct) : Prop where
  engines : ∀ (e n : Nat) (eng : Engine), (relayAt cf past acts n).station.engines[e]? = some eng → EngineGoesOn acts e
  started : ∀ (e n : Nat) (eng : Engine), (relayAt cf past acts n).station.engines[e]? = some eng →
    ∃ (m : Nat) (x : Engine), (relayAt cf past acts m).station.engines[e]? = some x ∧ x.phase = .creating ∧ acts m = .station (.engine e .spawn)
  calm : ∀ (e : Nat) (session : Int), ∃ N, ∀ (n : Nat) (eng : Engine), (relayAt cf past acts n).station.engines[e]? = some eng →
    (madeIn eng session).length ≤ N
  room : ∀ (e n : Nat) (eng : Engine), (relayAt cf past acts n).station.engines[e]? = some eng → eng.putters = []
  open_ : ∀ n, ((relayAt cf past acts n).station.backend cf).mem.isSome
  send : ∀ n call x, x ∈ ((relayAt cf past acts n).station.host.server.calls call).targets → Often acts (.station (.host (.send call x.1)))

/-- The two sides of a connection agree on whether it is closed. -/
def Agree (s : Station) (a : Nat) : Prop :=
  ((s.conn a).lost = false ∧ ∀ c, s.clients a = some c → c.isOpen = true) ∨ ((s.conn a).lost = true ∧ ∀ c, s.clients a = some c → c.isOpen = false)

/-- A client and its connection go on: messages of both directions arrive, each side notices that the other one has closed the connection, the receive loop of the client
gets its turn and its callbacks end, the server loop goes on once the engine or the backend have answered. -/
structure ClientGoesOn (cf : StationConf) (past : List BackendOp) (acts : Nat → RelayAct) (a : Nat) : Prop where
  arrive : Often acts (.station (.arrive a))
  deliver : Often acts (.station (.deliver a))
  notice : ∀ n, ∃ m, n ≤ m ∧ Agree (relayAt cf past acts m).station a
  start : Often acts (.station (.client a .start))
  stop : Often acts (.station (.client a .stop))
  callback : ∀ n, ∃ m, n ≤ m ∧ ∃ ok, acts m = .station (.client a (.callbackDone ok))
  answered : Often acts (.station (.answered a))
  queried : Often acts (.station (.queried a))

/-- The task of a call gets its turn. -/
structure TaskGoesOn (acts : Nat → RelayAct) (a k : Nat) : Prop where
  sendDone : Often acts (.station (.client a (.sendDone k)))
  resume : Often acts (.station (.client a (.resume k)))

/-- The receive loop of the client is not cancelled before it has started. -/
def ReceiveStarts (cf : StationConf) (past : List BackendOp) (acts : Nat → RelayAct) (a : Nat) : Prop :=
  ∀ n c, (relayAt cf past acts n).station.clients a = some c → c.loop ≠ .never

/-- No response is received before `send_msg` of its request has returned. -/
def SentFirst (cf : StationConf) (past : List BackendOp) (acts : Nat → RelayAct) (a k : Nat) : Prop :=
  ∀ n c conv w msg x, acts n = .station (.deliver a) → (relayAt cf past acts n).station.clients a = some c → c.calls k = .sending conv w →
    ((relayAt cf past acts n).station.conn a).sent[(relayAt cf past acts n).station.read a]? = some msg →
      msg.toPeer ((relayAt cf past acts n).station.lastFlag msg) ≠ .answer conv x

end HatEvent.Spec
