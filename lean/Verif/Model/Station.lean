import Verif.Model.EventerHost
import Verif.Model.Engine
import Verif.Model.Link

/-!
# An event server with its clients

Clients (`Model/ReqClient.lean`), the eventer server with its callbacks (`Model/EventerHost.lean`), the engines one after the other
(`Model/Engine.lean`) and the LMDB backend (`Model/Lmdb.lean`) of one process, put together as in `server/main_runner.py:43-116` and
`server/engine_runner.py:61-111`.

* What the callbacks of the eventer server get is what the engine they called has answered and what the backend returns.
* What the engine passes to the backend is registered there.
* Messages of clients and of the server arrive in order and each of them once, with any delay, as long as the connection is not lost.
* A query is one action; latest queries do not suspend (`backends/lmdb/backend.py:202-203`), the others read one snapshot (`Model/LmdbAsync.lean`).
* The end of the process is not part of it; what earlier processes did to the database is its beginning.
-/

namespace HatEvent

/-- The configuration: of the backend and of the server (`server/main.py:60-78`, `server/eventer_server.py:17-38`).  `foreign` are the
connections of programs that need not be an eventer client. -/
structure StationConf where
  db : Conf
  serverId : Int
  useC : Bool := false
  token : Option String := none
  foreign : Nat → Bool := fun _ => false

/-- The whole.  `clients` are those whose `connect` has returned, `read` and `taken` the numbers of messages they have received and of
their messages the server has received; `waits` is the call of `Engine.register` the loop of a connection is in (`server/eventer_server.py:90,105`): the
engine and the number of the call; `past` is what happened to the database. -/
structure Station where
  host : Host
  engines : List Engine := []
  clients : Nat → Option ReqClient := fun _ => none
  read : Nat → Nat := fun _ => 0
  taken : Nat → Nat := fun _ => 0
  waits : Nat → Option (Nat × Nat) := fun _ => none
  past : List BackendOp := []

/-- What may happen: actions of the eventer server that need nothing else, the server receives the next message of a client, `connect` of a
client returns, actions of a client, a client receives the next message, `Engine.register` called for a connection ends, a query is
answered, an engine is created, an action of an engine, the backend works on its own (`backends/lmdb/backend.py:213-289`), the client of another
server registers events of that server (`server/eventer_client.py:121,161-173`). -/
inductive StationAct where
  | host (act : HostAct)
  | arrive (id : Nat)
  | connect (id : Nat)
  | client (id : Nat) (act : ReqAct)
  | deliver (id : Nat)
  | answered (id : Nat)
  | queried (id : Nat)
  | start (modules : List Sub)
  | engine (e : Nat) (act : EngineAct)
  | keep (op : BackendOp)
  | remote (events : List Event)

namespace Station

/-- The connection of a client. -/
def conn (s : Station) (id : Nat) : Conn := s.host.server.conns id

/-- The backend, `server/main_runner.py:43-50`. -/
def backend (cf : StationConf) (s : Station) : Backend := (Backend.new cf.db).run s.past

/-- Actions of the eventer server that need nothing else.  Messages come from `connect` (`eventer/client.py:80-88`), from programs that are no
eventer client, or arrive (see `arrive`); results come from the engine and the backend; the engine given to `set_status` exists
(`server/engine_runner.py:74-83`). -/
def permits (cf : StationConf) (s : Station) : HostAct → Bool
  | .receive id msg =>
    cf.foreign id || match (s.conn id).phase, msg with
      | .waiting, .init _ => true
      | _, _ => false
  | .answer _ _ => false
  | .queried _ _ => false
  | .setStatus _ (some e) => decide (e < s.engines.length)
  | _ => true

/-- A callback of the eventer server calls the engine, `server/eventer_server.py:88-90,96-98,104-105`. -/
def callEngine (cf : StationConf) (s : Station) (entry : HostEntry) : Station :=
  match s.engines[entry.engine]? with
  | some engine =>
    { s with
      engines := s.engines.set entry.engine (engine.step (.register ⟨.eventer, entry.conn⟩ (entry.call.events cf.serverId)))
      waits := fun i => if i = entry.conn then some (entry.engine, engine.requests.length) else s.waits i }
  | none => s

/-- An action of the eventer server, with the calls of the engine it makes (`server/eventer_server.py:80-108`). -/
def hostStep (cf : StationConf) (s : Station) (act : HostAct) : Station :=
  ((s.host.step act).calls.drop s.host.calls.length).foldl (callEngine cf) { s with host := s.host.step act }

/-- The server receives the next message of a client, `eventer/server.py:175`. -/
def arrive (cf : StationConf) (s : Station) (id : Nat) : Station :=
  match (s.conn id).phase, s.clients id with
  | .ready _, some client =>
    match client.sent[s.taken id]? with
    | some msg => { s.hostStep cf (.receive id msg) with taken := fun i => if i = id then s.taken i + 1 else s.taken i }
    | none => s
  | _, _ => s

/-- The end of `connect`, `eventer/client.py:91-109`: the first message is a success. -/
def connect (cf : StationConf) (s : Station) (id : Nat) : Station :=
  match cf.foreign id, s.clients id, (s.conn id).sent with
  | false, none, .initOk status :: _ =>
    { s with
      clients := fun i => if i = id then some (ReqClient.init status) else s.clients i
      read := fun i => if i = id then 1 else s.read i }
  | _, _, _ => s

/-- A client changes. -/
def setClient (s : Station) (id : Nat) (f : ReqClient → ReqClient) : Station :=
  { s with clients := fun i => if i = id then (s.clients i).map f else s.clients i }

/-- An action of a client.  Messages come only from the server. -/
def clientStep (s : Station) (id : Nat) : ReqAct → Station
  | .receive _ => s
  | act => s.setClient id (·.step act)

/-- The flag of a message: notifications with acknowledgment do not have it, `eventer/server.py:264-267`. -/
def lastFlag (s : Station) : ServerMsg → Bool
  | .events call _ _ => !(s.host.server.calls call).withAck
  | _ => true

/-- The receive loop of a client gets the next message, `eventer/client.py:165`. -/
def deliver (s : Station) (id : Nat) : Station :=
  match s.clients id, (s.conn id).sent[s.read id]? with
  | some client, some msg =>
    match client.loop with
    | .receiving =>
      { s.setClient id (·.step (.receive (msg.toPeer (s.lastFlag msg)))) with
        read := fun i => if i = id then s.read i + 1 else s.read i }
    | _ => s
  | _, _ => s

/-- What the callback gets from a call of `Engine.register` that has ended, `server/engine.py:89-95`. -/
def endOf : EngineOutcome → EngineEnd
  | .result events => .registered events
  | .closed => .raised
  | .cancelled => .raised

/-- The outcome of a call of `Engine.register`, `server/engine.py:95`. -/
def outcome (s : Station) (call : Nat × Nat) : Option EngineOutcome :=
  match s.engines[call.1]? with
  | some engine => (engine.outcomes.find? fun o => o.1 = call.2).map Prod.snd
  | none => none

/-- `Engine.register` called for a connection ends, `server/eventer_server.py:90,105`. -/
def answered (cf : StationConf) (s : Station) (id : Nat) : Station :=
  match s.waits id with
  | some call =>
    match s.outcome call with
    | some o => s.hostStep cf (.answer id (endOf o))
    | none => s
  | none => s

/-- A query of a client is answered, `server/eventer_server.py:107-108`. -/
def queried (cf : StationConf) (s : Station) (id : Nat) : Station :=
  match (s.conn id).phase with
  | .busy _ (.query _ params) =>
    s.hostStep cf (.queried id (match s.backend cf |>.query params with | .ok r => some r | .error _ => none))
  | _ => s

/-- `create_engine` gets the last event id from the backend (`server/engine.py:38-39`); the previous engine was closed before
(`server/engine_runner.py:84-91,107-111`).  A backend that is closed raises. -/
def start (cf : StationConf) (s : Station) (modules : List Sub) : Station :=
  match s.engines.getLast?.map Engine.phase with
  | none | some .closed =>
    match s.backend cf |>.getLastEventId cf.serverId with
    | .ok last => { s with engines := s.engines ++ [.create ⟨cf.serverId, modules, 1024⟩ last] }
    | .error _ => s
  | _ => s

/-- An action of an engine, with the calls of `Backend.register` it makes (`server/engine.py:125,153`). -/
def engineStep (s : Station) (e : Nat) (act : EngineAct) : Station :=
  match s.engines[e]? with
  | some engine =>
    { s with
      engines := s.engines.set e (engine.step act)
      past := s.past ++ ((engine.step act).sent.drop engine.sent.length).map .register }
  | none => s

/-- The backend works on its own: it notes a partition, writes to the file or removes old events (`backends/lmdb/backend.py:213-289`). -/
def keep (s : Station) : BackendOp → Station
  | .register _ => s
  | .reopen _ => s
  | op => { s with past := s.past ++ [op] }

/-- Events of another server are registered, `server/eventer_client.py:121,161-173`.  The code registers all it gets; the other server sends
only events it has made (it gets them for its `server_id`, `server/eventer_client.py:57,137`), so those of this server are left out. -/
def remote (cf : StationConf) (s : Station) (events : List Event) : Station :=
  { s with past := s.past ++ [.register (events.filter fun e => e.id.server ≠ cf.serverId)] }

/-- Effect of an action. -/
def step (cf : StationConf) (s : Station) : StationAct → Station
  | .host act => if s.permits cf act then s.hostStep cf act else s
  | .arrive id => s.arrive cf id
  | .connect id => s.connect cf id
  | .client id act => s.clientStep id act
  | .deliver id => s.deliver id
  | .answered id => s.answered cf id
  | .queried id => s.queried cf id
  | .start modules => s.start cf modules
  | .engine e act => s.engineStep e act
  | .keep op => s.keep op
  | .remote events => s.remote cf events

/-- A history. -/
def run (cf : StationConf) (s : Station) (acts : List StationAct) : Station := acts.foldl (step cf) s

/-- A process that begins with the database `past` has led to (`server/main_runner.py:43-116`). -/
def init (cf : StationConf) (past : List BackendOp) : Station := { host := Host.init cf.useC cf.token, past := past }

end Station
end HatEvent
