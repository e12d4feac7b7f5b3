import Verif.Model.Lmdb

/-!
# Eventer server

Models `eventer/server.py` with the token check of `server/eventer_server.py`
as a machine.  Between two actions the real code awaits.

* A message is handed to the connection when `send_msg` is called
  (`eventer/common.py:14-20`); a lost connection raises `ConnectionError`.
* Callbacks may take any time, return anything and raise.
* Closing of the whole server and failures of encoding are not modelled.
* Connections, calls of `notify_events` and conversations are numbered.
-/

namespace HatEvent

/-- `MsgInitReq`, `schemas_sbs/eventer.sbs`, read in `server.py:141-148`. -/
structure InitReq where
  clientName : String
  clientToken : Option String
  subscriptions : List EventType
  serverId : Option Int
  persisted : Bool

/-- `ConnectionInfo`, `server.py:23-29`. -/
structure ConnInfo where
  req : InitReq
  subscription : Sub

/-- Messages of a client, `server.py:136-138,173-192`.  `other` is any other type. -/
inductive ClientMsg where
  | init (req : InitReq)
  | ack (conv : Nat)
  | register (conv : Nat) (events : List RegisterEvent) (last : Bool)
  | query (conv : Nat) (params : QueryParams)
  | other

/-- Messages to a client, `server.py:153,164,233,247,253,264`.  Notifications have the
number of the call of `notify_events` they come from, which is not part of the real message. -/
inductive ServerMsg where
  | initOk (status : Status)
  | initError
  | status (status : Status)
  | events (call conv : Nat) (events : List Event)
  | registerRes (conv : Nat) (events : Option (List Event))
  | queryRes (conv : Nat) (result : QueryResult)

/-- Where a connection loop is, `server.py:130-211`: before the request (l.136), in the
connected callback (l.150-151), closing after an error (l.167-171), waiting for a message (l.175), in
a callback of a request (l.185,189), finished. -/
inductive LoopPhase where
  | absent
  | waiting
  | connecting (info : ConnInfo)
  | rejected
  | ready (info : ConnInfo)
  | busy (info : ConnInfo) (msg : ClientMsg)
  | ended

/-- A connection.  `sent` are the messages handed to it, `handled` the requests passed to
`register_cb` and `query_cb`, `acks` the acknowledged conversations. -/
structure Conn where
  phase : LoopPhase := .absent
  lost : Bool := false
  sent : List ServerMsg := []
  handled : List ClientMsg := []
  acks : List Nat := []

/-- Progress of `_notify_events` for one client, `server.py:261-285`: not started, message handed over
(l.264-267), waiting for the future (l.272-276), finished. -/
inductive Delivery where
  | unsent
  | sent (conv : Nat)
  | waiting (conv : Nat)
  | done
  deriving DecidableEq

/-- A call of `notify_events`: `conn_conn_events` and the progress for each client. -/
structure NotifyCall where
  withAck : Bool := false
  targets : List (Nat × List Event) := []
  state : Nat → Delivery := fun _ => .unsent

/-- `Server`, `server.py:57-67`, with the token of `EventerServer`.  `tasks` are the clients each
running call of `set_status` still has to notify (l.93-94). -/
structure EvServer where
  useC : Bool
  token : Option String
  status : Status := .standby
  nextConn : Nat := 0
  conns : Nat → Conn := fun _ => {}
  infos : List (Nat × ConnInfo) := []
  nextConv : Nat := 0
  nextTask : Nat := 0
  tasks : Nat → List Nat := fun _ => []
  nextCall : Nat := 0
  calls : Nat → NotifyCall := fun _ => {}

/-- What a callback of a request gives, `server.py:217-221,239-244`. -/
inductive Handled where
  | registered (events : Option (List Event))
  | queried (result : QueryResult)
  | raised

/-- What may happen. -/
inductive EvAct where
  | accept
  | lose (id : Nat)
  | receive (id : Nat) (msg : ClientMsg)
  | connected (id : Nat) (ok : Bool)
  | reply (id : Nat) (result : Handled)
  | giveUp (id : Nat)
  | setStatus (status : Status)
  | statusStep (task : Nat)
  | notify (events : List Event) (persisted withAck : Bool)
  | send (call id : Nat)
  | await_ (call id : Nat)

namespace EvServer

/-- Change of a connection. -/
def setConn (s : EvServer) (id : Nat) (f : Conn → Conn) : EvServer :=
  { s with conns := fun i => if i = id then f (s.conns i) else s.conns i }

/-- A message is handed to a connection, `eventer/common.py:14-20`. -/
def post (s : EvServer) (id : Nat) (msg : ServerMsg) : EvServer :=
  s.setConn id fun c => { c with sent := c.sent ++ [msg] }

/-- A pending future fails, `server.py:205-207`. -/
def failDelivery : Delivery → Delivery
  | .waiting _ => .done
  | d => d

/-- End of a connection loop, `server.py:194-211`. All futures are failed. -/
def endLoop (s : EvServer) (id : Nat) : EvServer :=
  { s.setConn id (fun c => { c with phase := .ended, lost := true }) with
    infos := s.infos.filter fun p => p.1 ≠ id
    calls := fun k => { s.calls k with state := fun i => failDelivery ((s.calls k).state i) } }

/-- Response to a failed initialization, `server.py:156-171`. -/
def reject (s : EvServer) (id : Nat) : EvServer :=
  if (s.conns id).lost then s.endLoop id
  else (s.post id .initError).setConn id fun c => { c with phase := .rejected }

/-- The check of the token, `server/eventer_server.py:81-83`. -/
def tokenOk (s : EvServer) (req : InitReq) : Bool :=
  req.clientToken.isNone || req.clientToken == s.token

/-- The initialization request, `server.py:140-151`. -/
def initConn (s : EvServer) (id : Nat) (req : InitReq) : EvServer :=
  match createSubscription s.useC req.subscriptions with
  | .error _ => s.reject id
  | .ok subscription =>
    if s.tokenOk req then
      s.setConn id fun c => { c with phase := .connecting ⟨req, subscription⟩ }
    else s.reject id

/-- An acknowledgment, `server.py:177-181`. -/
def acknowledge (s : EvServer) (id conv : Nat) : EvServer :=
  { s.setConn id (fun c => { c with acks := c.acks ++ [conv] }) with
    calls := fun k => { s.calls k with
      state := fun i => if i = id ∧ (s.calls k).state i = .waiting conv then .done else (s.calls k).state i } }

/-- A request is passed to its callback, `server.py:183-189`. -/
def handle (s : EvServer) (id : Nat) (info : ConnInfo) (msg : ClientMsg) : EvServer :=
  s.setConn id fun c => { c with phase := .busy info msg, handled := c.handled ++ [msg] }

/-- A message in the main loop, `server.py:173-192`. -/
def process (s : EvServer) (id : Nat) (info : ConnInfo) (msg : ClientMsg) : EvServer :=
  match msg with
  | .ack conv => s.acknowledge id conv
  | .register _ _ _ => s.handle id info msg
  | .query _ _ => s.handle id info msg
  | .init _ => s.endLoop id
  | .other => s.endLoop id

/-- A message is received, `server.py:136-138,175`. -/
def receive (s : EvServer) (id : Nat) (msg : ClientMsg) : EvServer :=
  match (s.conns id).phase with
  | .waiting =>
    match msg with
    | .init req => s.initConn id req
    | _ => s.endLoop id
  | .ready info => s.process id info msg
  | _ => s

/-- A client becomes known and is told so, `server.py:153-165`. -/
def establish (s : EvServer) (id : Nat) (info : ConnInfo) : EvServer :=
  { (s.post id (.initOk s.status)).setConn id (fun c => { c with phase := .ready info }) with
    infos := s.infos ++ [(id, info)] }

/-- The connected callback has finished, `server.py:150-171`. -/
def connected (s : EvServer) (id : Nat) (ok : Bool) : EvServer :=
  match (s.conns id).phase with
  | .connecting info =>
    if ok then
      if (s.conns id).lost then s.endLoop id
      else s.establish id info
    else s.reject id
  | _ => s

/-- A response to a request, `server.py:226-234,246-248`, and back to the loop. -/
def respond (s : EvServer) (id : Nat) (info : ConnInfo) (msg : ServerMsg) : EvServer :=
  if (s.conns id).lost then s.endLoop id
  else (s.post id msg).setConn id fun c => { c with phase := .ready info }

/-- A callback of a request has finished, `server.py:213-248`. -/
def reply (s : EvServer) (id : Nat) (result : Handled) : EvServer :=
  match (s.conns id).phase with
  | .busy info msg =>
    match msg, result with
    | _, .raised => s.endLoop id
    | .register conv _ last, .registered events =>
      if last then s.setConn id fun c => { c with phase := .ready info }
      else s.respond id info (.registerRes conv events)
    | .query conv _, .queried result => s.respond id info (.queryRes conv result)
    | _, _ => s
  | _ => s

/-- The loop finds its connection lost (l.136,175), or stops waiting for the client to close it
(`server.py:167-171`). -/
def giveUp (s : EvServer) (id : Nat) : EvServer :=
  match (s.conns id).phase with
  | .waiting => if (s.conns id).lost then s.endLoop id else s
  | .ready _ => if (s.conns id).lost then s.endLoop id else s
  | .rejected => s.endLoop id
  | _ => s

/-- `set_status` up to its first await, `server.py:86-93`. -/
def setStatus (s : EvServer) (status : Status) : EvServer :=
  if s.status = status then s
  else
    { s with
      status := status
      nextTask := s.nextTask + 1
      tasks := fun k => if k = s.nextTask then s.infos.map Prod.fst else s.tasks k }

/-- `_notify_status` for the next client, `server.py:93-94,250-259`. -/
def statusStep (s : EvServer) (task : Nat) : EvServer :=
  match s.tasks task with
  | [] => s
  | id :: rest =>
    let s := { s with tasks := fun k => if k = task then rest else s.tasks k }
    if (s.conns id).lost then s else s.post id (.status s.status)

/-- The events for a client, `server.py:107-111`. -/
def selectEvents (info : ConnInfo) (events : List Event) : List Event :=
  events.filter fun e =>
    info.subscription.matches e.type &&
      (info.req.serverId.isNone || info.req.serverId == some e.id.server)

/-- A client with its events, or nothing, `server.py:103-115`. -/
def target (events : List Event) (persisted : Bool) (p : Nat × ConnInfo) : Option (Nat × List Event) :=
  if p.2.req.persisted ≠ persisted then none
  else if (selectEvents p.2 events).isEmpty then none
  else some (p.1, selectEvents p.2 events)

/-- `notify_events` up to its first await, `server.py:96-128`. -/
def notify (s : EvServer) (events : List Event) (persisted withAck : Bool) : EvServer :=
  { s with
    nextCall := s.nextCall + 1
    calls := fun k =>
      if k = s.nextCall then
        { withAck := withAck, targets := s.infos.filterMap (target events persisted), state := fun _ => .unsent }
      else s.calls k }

/-- Progress of a call for one client. -/
def setDelivery (s : EvServer) (call id : Nat) (d : Delivery) : EvServer :=
  { s with
    calls := fun k =>
      if k = call then
        { s.calls k with state := fun i => if i = id then d else (s.calls k).state i }
      else s.calls k }

/-- It is the turn of a client: calls with acknowledgment run one task for each client (l.120-124), the others go through the
clients in order (l.126-128). -/
def turn (c : NotifyCall) (id : Nat) : Bool :=
  c.withAck || (c.targets.takeWhile fun t => t.1 ≠ id).all fun t => c.state t.1 = .done

/-- `_notify_events` up to and including the sending, `server.py:261-267`. -/
def send (s : EvServer) (call id : Nat) : EvServer :=
  match (s.calls call).targets.find? (fun t => t.1 = id), (s.calls call).state id with
  | some t, .unsent =>
    if turn (s.calls call) id then
      if (s.conns id).lost then s.setDelivery call id .done
      else
        let s' := { s.post id (.events call s.nextConv t.2) with nextConv := s.nextConv + 1 }
        s'.setDelivery call id (if (s.calls call).withAck then .sent s.nextConv else .done)
    else s
  | _, _ => s

/-- The future is created, `server.py:269-276`. -/
def awaitAck (s : EvServer) (call id : Nat) : EvServer :=
  match (s.calls call).state id with
  | .sent conv => s.setDelivery call id (.waiting conv)
  | _ => s

/-- Effect of an action. `accept` is a new connection, `server.py:130-133`. -/
def step (s : EvServer) : EvAct → EvServer
  | .accept =>
    { s.setConn s.nextConn (fun c => { c with phase := .waiting }) with nextConn := s.nextConn + 1 }
  | .lose id => s.setConn id fun c => { c with lost := true }
  | .receive id msg => s.receive id msg
  | .connected id ok => s.connected id ok
  | .reply id result => s.reply id result
  | .giveUp id => s.giveUp id
  | .setStatus status => s.setStatus status
  | .statusStep task => s.statusStep task
  | .notify events persisted withAck => s.notify events persisted withAck
  | .send call id => s.send call id
  | .await_ call id => s.awaitAck call id

/-- A history. -/
def run (s : EvServer) (acts : List EvAct) : EvServer := acts.foldl step s

/-- `listen`, `server.py:46-72`. -/
def init (useC : Bool) (token : Option String) : EvServer := { useC := useC, token := token }

end EvServer

/-- The call of `notify_events` has returned, `server.py:117-128`. -/
def NotifyCall.returned (c : NotifyCall) : Prop := ∀ t ∈ c.targets, c.state t.1 = .done

end HatEvent
