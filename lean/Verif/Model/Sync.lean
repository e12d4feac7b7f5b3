import Verif.Model.Event

/-!
# Synchronisation of two event servers

Models the client of a remote event server (`server/eventer_client.py`)
together with the parts of the remote server and of the connection it depends
on, for one connection.

* The connection delivers messages in the order they are sent (TCP).
* Events of the remote backend become visible to queries when a flush is written, and are
  notified afterwards, one message for each call of `register`
  (`backends/lmdb/backend.py:291-315`, `eventer/server.py:96-128`); a query may be answered
  between.
* The remote server answers a query with a page of its persisted events
  (`C31`, `C32`); the page size is arbitrary.
* Events may be removed from the remote backend at any time: by cleanup or because a newer event of
  their type replaces them (`backends/lmdb/latestdb.py`, `backends/lmdb/timeseriesdb.py`, `refdb.py`).
* The client subscribes to everything with the id of the remote server
  (`eventer_client.py:53-60`).
* Status messages, the registration of `synced` events and callbacks are in `Model/SyncReport.lean`.
-/

namespace HatEvent

/-- Messages to the client: `MsgEventsNotify` and `MsgQueryRes`,
`eventer/server.py:246-248,261-267`. -/
inductive SyncMsg where
  | notify (events : List Event)
  | response (events : List Event) (moreFollows : Bool)

/-- The task `_synchronize`, `eventer_client.py:123-186`: before the first query
(l.126-133), waiting for an answer (l.140), with an answer (l.142-152), registering sessions
(l.154-164), processing cached notifications (l.166-173), done (l.175-178). -/
inductive SyncTask where
  | starting
  | asking (last : EventId) (events : List Event)
  | answered (last : EventId) (events : List Event) (result : List Event) (moreFollows : Bool)
  | storing (last : EventId) (events : List Event) (moreFollows : Bool)
  | draining (last : EventId)
  | synced

/-- Remote server, connection and client.  `queue` is `_events_queue`, `calls` are
the calls of `register` of the local backend. -/
structure Sync where
  remoteId : Int
  keep : Event → Bool
  last : EventId
  disk : List Event
  unnotified : List (List Event)
  connected : Bool
  wire : List SyncMsg
  request : Option EventId
  queue : Option (List (List Event))
  task : SyncTask
  calls : List (List Event)
  closed : Bool

/-- What may happen. `flush` has the arguments of the calls of `register` of the
remote backend since the last flush; `remove` tells which events a cleanup or a flush removes; `serve` has the page size; `advance` is the task
running to its next await. -/
inductive SyncAct where
  | flush (registered : List (List Event))
  | remove (gone : Event → Bool)
  | connect
  | notify
  | serve (size : Nat)
  | deliver
  | advance
  | close

/-- Before the connection.  `keep` tells which events the remote backend stores
(`backends/lmdb/backend.py:146-181`), `last` is the result of `get_last_event_id` of the
local backend (`eventer_client.py:126-127`). -/
def Sync.init (remoteId : Int) (keep : Event → Bool) (last : EventId) : Sync :=
  { remoteId := remoteId, keep := keep, last := last, disk := [], unnotified := []
    connected := false, wire := [], request := none, queue := some [], task := .starting
    calls := [], closed := false }

/-- The loops `eventer_client.py:154-161,163-164` up to the next await: register the
events of the first session if there are later ones, or go on. -/
def Sync.store (s : Sync) (last : EventId) (events : List Event) (moreFollows : Bool) : Sync :=
  match events with
  | [] =>
    if moreFollows then { s with task := .asking last [], request := some last }
    else { s with task := .draining last }
  | e :: _ =>
    if events.getLast?.map (fun x => x.id.session) ≠ some e.id.session then
      { s with
        calls := s.calls ++ [events.takeWhile fun x => x.id.session = e.id.session]
        task := .storing last (events.dropWhile fun x => x.id.session = e.id.session) moreFollows }
    else if moreFollows then { s with task := .asking last events, request := some last }
    else { s with calls := s.calls ++ [events], task := .draining last }

/-- One cached notification, `eventer_client.py:169-177`. -/
def Sync.drain (s : Sync) (last : EventId) : Sync :=
  match s.queue with
  | none => s
  | some [] => { s with queue := none, task := .synced }
  | some (es :: q) =>
    let events := es.filter fun e => last.lt e.id
    if events.isEmpty then { s with queue := some q }
    else { s with queue := some q, calls := s.calls ++ [events] }

/-- Progress of `_synchronize`, `eventer_client.py:123-186`. -/
def Sync.advance (s : Sync) : Sync :=
  match s.task with
  | .starting => { s with task := .asking s.last [], request := some s.last }
  | .asking _ _ => s
  | .answered last events result moreFollows =>
    let events := events ++ result
    { s with task := .storing ((events.getLast?.map Event.id).getD last) events moreFollows }
  | .storing last events moreFollows => s.store last events moreFollows
  | .draining last => s.drain last
  | .synced => s

/-- A message is received: `_on_events` (`eventer_client.py:114-121`) or the answer
to a query (`eventer/client.py:249-256`). -/
def Sync.receive (s : Sync) (m : SyncMsg) : Sync :=
  match m with
  | .notify events =>
    match s.queue with
    | some q => { s with queue := some (q ++ [events]) }
    | none => { s with calls := s.calls ++ [events] }
  | .response result moreFollows =>
    match s.task with
    | .asking last events => { s with task := .answered last events result moreFollows }
    | _ => s

/-- The events of a list the client is interested in, `eventer/server.py:108-112`. -/
def Sync.relevant (s : Sync) (events : List Event) : List Event :=
  events.filter fun e => e.id.server = s.remoteId

/-- A notification is sent, `eventer/server.py:96-128`. -/
def Sync.sendNotify (s : Sync) : Sync :=
  match s.unnotified with
  | [] => s
  | es :: r =>
    let s := { s with unnotified := r }
    if s.connected && !(s.relevant es).isEmpty then { s with wire := s.wire ++ [.notify (s.relevant es)] }
    else s

/-- A query is answered, `eventer/server.py:236-248`, `server/eventer_server.py:107-108`. -/
def Sync.serve (s : Sync) (size : Nat) : Sync :=
  match s.request with
  | none => s
  | some last =>
    let events := s.disk.filter fun e => last.lt e.id
    { s with
      request := none
      wire := s.wire ++ [.response (events.take size) (decide (size < events.length))] }

/-- A flush of the remote backend, `backends/lmdb/backend.py:291-315`. -/
def Sync.flush (s : Sync) (registered : List (List Event)) : Sync :=
  { s with
    disk := s.disk ++ (s.relevant registered.flatten).filter s.keep
    unnotified := s.unnotified ++ registered }

/-- Effect of an action. The client runs from the time its connection is known to
the server (`eventer/server.py:153-165`) until the connection is lost. -/
def Sync.step (s : Sync) : SyncAct → Sync
  | .flush registered => s.flush registered
  | .remove gone => { s with disk := s.disk.filter fun e => !gone e }
  | .connect => { s with connected := true }
  | .notify => s.sendNotify
  | .serve size => if s.closed then s else s.serve size
  | .deliver =>
    if s.closed then s
    else
      match s.wire with
      | [] => s
      | m :: w => { s with wire := w }.receive m
  | .advance => if s.closed || !s.connected then s else s.advance
  | .close => { s with closed := true }

/-- A history. -/
def Sync.run (s : Sync) (acts : List SyncAct) : Sync := acts.foldl Sync.step s

end HatEvent
