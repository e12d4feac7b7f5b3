import Verif.Model.EventerServer

/-!
# Eventer server of the event server

Models `server/eventer_server.py`: the callbacks of the eventer server (`Model/EventerServer.lean`) and the engine they use.

* Engines are numbered.  An engine is open until it is closed; it may close at any time.
* `Engine.register` may return or raise at any time (its own behaviour is the subject of `Model/Engine.lean`). It raises if
  the engine is closed (`engine.py:92-93`) or closes before the events are processed.
* A callback that does not call the engine returns without suspending.
-/

namespace HatEvent

/-- Why `Engine.register` is called, `server/eventer_server.py:90,98,105`. -/
inductive HostCall where
  | connected (name : String)
  | disconnected (name : String)
  | register (events : List RegisterEvent)

/-- `_create_eventer_event`, `server/eventer_server.py:110-114`. -/
def eventerEvent (serverId : Int) (name status : String) : RegisterEvent :=
  ⟨["event", toString serverId, "eventer", name], none, some (.json (.str status))⟩

/-- The register events of a call, `server/eventer_server.py:89,97,105`. -/
def HostCall.events (serverId : Int) : HostCall → List RegisterEvent
  | .connected name => [eventerEvent serverId name "CONNECTED"]
  | .disconnected name => [eventerEvent serverId name "DISCONNECTED"]
  | .register events => events

/-- A call of `Engine.register`: the engine, the id of the source (`server/eventer_server.py:117-119`), the reason. -/
structure HostEntry where
  engine : Nat
  conn : Nat
  call : HostCall

/-- `EventerServer`, `server/eventer_server.py:25-38`.  `calls` are all calls of `Engine.register`, in order. -/
structure Host where
  server : EvServer
  engine : Option Nat := none
  closed : Nat → Bool := fun _ => false
  calls : List HostEntry := []

/-- How `Engine.register` ends, `engine.py:80-95`. -/
inductive EngineEnd where
  | registered (events : Option (List Event))
  | raised

/-- The result of `register` for the eventer server, `eventer/server.py:217-221`. -/
def EngineEnd.handled : EngineEnd → Handled
  | .registered events => .registered events
  | .raised => .raised

/-- What may happen: the actions of `EvAct` (`eventer/server.py`), with the callbacks of `server/eventer_server.py:80-108`.  `answer` is the end of `Engine.register` called for a connection, `queried` the end of `Backend.query`. -/
inductive HostAct where
  | accept
  | lose (id : Nat)
  | receive (id : Nat) (msg : ClientMsg)
  | giveUp (id : Nat)
  | answer (id : Nat) (result : EngineEnd)
  | queried (id : Nat) (result : Option QueryResult)
  | setStatus (status : Status) (engine : Option Nat)
  | closeEngine (engine : Nat)
  | statusStep (task : Nat)
  | notify (events : List Event) (persisted withAck : Bool)
  | send (call id : Nat)
  | await_ (call id : Nat)

namespace Host

/-- The engine, if it is open, `server/eventer_server.py:85,93`. -/
def openEngine (s : Host) : Option Nat :=
  match s.engine with
  | some e => if s.closed e then none else some e
  | none => none

/-- A call of `Engine.register`, `server/eventer_server.py:90,98,105`. -/
def call (s : Host) (engine id : Nat) (call : HostCall) : Host := { s with calls := s.calls ++ [⟨engine, id, call⟩] }

/-- `_on_disconnected`, `server/eventer_server.py:92-98`.  Exceptions are suppressed (`eventer/server.py:209-211`). -/
def onDisconnected (s : Host) (id : Nat) (info : ConnInfo) : Host :=
  match s.openEngine with
  | some e => s.call e id (.disconnected info.req.clientName)
  | none => s

/-- The connection loop of a client has possibly ended, `eventer/server.py:209-211`. -/
def settle (s : Host) (id : Nat) (info : ConnInfo) : Host :=
  match (s.server.conns id).phase with
  | .ended => s.onDisconnected id info
  | _ => s

/-- Progress of the eventer server, `eventer/server.py`. -/
def serve (s : Host) (act : EvAct) : Host := { s with server := s.server.step act }

/-- `_on_connected` after the check of the token, `server/eventer_server.py:85-90`. -/
def onConnected (s : Host) (id : Nat) (info : ConnInfo) : Host :=
  match s.openEngine with
  | some e => s.call e id (.connected info.req.clientName)
  | none => (s.serve (.connected id true)).settle id info

/-- `_on_register`, `server/eventer_server.py:100-105`; `Engine.register` returns at once if there are no events (`engine.py:84-85`). -/
def onRegister (s : Host) (id : Nat) (info : ConnInfo) (events : List RegisterEvent) : Host :=
  match s.engine with
  | none => (s.serve (.reply id (.registered none))).settle id info
  | some e =>
    if events.isEmpty then (s.serve (.reply id (.registered (some [])))).settle id info
    else s.call e id (.register events)

/-- After a message was received by a connection loop in `before`: the callbacks it starts, `eventer/server.py:150-151,183-189,209-211`. -/
def afterReceive (s : Host) (id : Nat) (before : LoopPhase) : Host :=
  match before, (s.server.conns id).phase with
  | .waiting, .connecting info => s.onConnected id info
  | .ready info, .busy _ (.register _ events _) => s.onRegister id info events
  | .ready info, .ended => s.onDisconnected id info
  | _, _ => s

/-- `Engine.register` returns or raises in a callback, `server/eventer_server.py:90,105`. -/
def answer (s : Host) (id : Nat) (result : EngineEnd) : Host :=
  match (s.server.conns id).phase with
  | .connecting info =>
    match result with
    | .registered _ => (s.serve (.connected id true)).settle id info
    | .raised => s.serve (.connected id false)
  | .busy info (.register _ _ _) => (s.serve (.reply id result.handled)).settle id info
  | _ => s

/-- `Backend.query` returns or raises in `_on_query`, `server/eventer_server.py:107-108`. -/
def queried (s : Host) (id : Nat) (result : Option QueryResult) : Host :=
  match (s.server.conns id).phase with
  | .busy info (.query _ _) =>
    match result with
    | some r => (s.serve (.reply id (.queried r))).settle id info
    | none => (s.serve (.reply id .raised)).settle id info
  | _ => s

/-- The connection loop finds its connection lost, `eventer/server.py:136,175`. -/
def giveUp (s : Host) (id : Nat) : Host :=
  match (s.server.conns id).phase with
  | .ready info => (s.serve (.giveUp id)).settle id info
  | _ => s.serve (.giveUp id)

/-- The arguments of `set_status` fit, `server/eventer_server.py:62-68`. -/
def fits (status : Status) (engine : Option Nat) : Bool :=
  match status with
  | .operational => engine.isSome
  | _ => engine.isNone

/-- `set_status`, `server/eventer_server.py:58-71`; wrong arguments raise. -/
def setStatus (s : Host) (status : Status) (engine : Option Nat) : Host :=
  if fits status engine then { s with engine := engine, server := s.server.step (.setStatus status) } else s

/-- Effect of an action.  An engine may close at any time (`engine.py:71-74`). -/
def step (s : Host) : HostAct → Host
  | .accept => s.serve .accept
  | .lose id => s.serve (.lose id)
  | .receive id msg => (s.serve (.receive id msg)).afterReceive id (s.server.conns id).phase
  | .giveUp id => s.giveUp id
  | .answer id result => s.answer id result
  | .queried id result => s.queried id result
  | .setStatus status engine => s.setStatus status engine
  | .closeEngine engine => { s with closed := fun e => if e = engine then true else s.closed e }
  | .statusStep task => s.serve (.statusStep task)
  | .notify events persisted withAck => s.serve (.notify events persisted withAck)
  | .send call id => s.serve (.send call id)
  | .await_ call id => s.serve (.await_ call id)

/-- A history of `EventerServer`, `server/eventer_server.py:41-119`. -/
def run (s : Host) (acts : List HostAct) : Host := acts.foldl step s

/-- `create_eventer_server`, `server/eventer_server.py:17-38`. -/
def init (useC : Bool) (token : Option String) : Host := { server := EvServer.init useC token }

end Host
end HatEvent
