import Verif.Model.Sync
import Verif.Model.Lmdb

/-!
# A server and its standby

Two event servers with LMDB backends (`Model/Lmdb.lean`): the events of the primary are synchronised to the standby
by the client of `Model/Sync.lean`.  Here the questions of the client are answered by the backend of the primary,
and the calls of the client register events in the backend of the standby.  Connections may be lost and made again.

* What else the standby registers (events of other servers, `server/main_runner.py:105-116`) are actions of its backend.
* A call of `register` of a backend is done at once; both backends are those of the sequential model.
-/

namespace HatEvent

/-- Backends of the primary and of the standby (`server/main_runner.py:80-87`), and the connection
(`server/eventer_client_runner.py:77-112`).  The field `disk` of the connection is
not used: what is stored is in the backend of the primary. -/
structure Duo where
  primary : Backend
  standby : Backend
  link : Sync

/-- What may happen: an action of a backend (`reopen` is the end of the process and its new start), a new
connection, a notification is sent, a question is answered, a message is received, progress of the client, loss
of the connection. -/
inductive DuoAct where
  | primary (op : BackendOp)
  | standby (op : BackendOp)
  | connect
  | notify
  | serve
  | deliver
  | advance
  | close

/-- Nothing exists yet (`server/main_runner.py:30-40`).  `server` is the id of the primary. -/
def Duo.new (conf : Conf) (server : Int) : Duo :=
  ⟨.new conf, .new conf, { Sync.init server (fun _ => true) ⟨server, 0, 0⟩ with closed := true }⟩

/-- The action ends the process. -/
def BackendOp.ends : BackendOp → Bool
  | .reopen _ => true
  | _ => false

/-- An action of the backend of the primary.  Flushed events are handed to the eventer server, which notifies
them (`backends/lmdb/backend.py:312-315`, `server/main_runner.py:187-191`, `eventer/server.py:96-128`); they are forgotten at
the end of the process. -/
def Duo.stepPrimary (d : Duo) (op : BackendOp) : Duo :=
  { d with
    primary := d.primary.step op
    link :=
      if op.ends || (d.primary.step op).mem.isNone then { d.link with unnotified := [], closed := true }
      else
        { d.link with
          unnotified := d.link.unnotified ++ (d.primary.step op).flushedCb.drop d.primary.flushedCb.length } }

/-- An action of the backend of the standby. -/
def Duo.stepStandby (d : Duo) (op : BackendOp) : Duo :=
  { d with
    standby := d.standby.step op
    link := if op.ends || (d.standby.step op).mem.isNone then { d.link with closed := true } else d.link }

/-- The client has made calls of `register`. -/
def Duo.register (d : Duo) (link : Sync) : Duo :=
  let standby := (link.calls.drop d.link.calls.length).foldl (fun b es => b.step (.register es)) d.standby
  { d with
    standby := standby
    link := if standby.mem.isNone then { link with closed := true } else link }

/-- A new client, with the last id of the backend of the standby (`server/eventer_client.py:126-127`).  The id is
read when the connection is made, which is before the client registers anything. -/
def Duo.connect (d : Duo) : Duo :=
  if !d.link.closed || d.primary.mem.isNone then d
  else
    match d.standby.getLastEventId d.link.remoteId with
    | .error _ => d
    | .ok last =>
      { d with
        link := { Sync.init d.link.remoteId d.link.keep last with unnotified := d.link.unnotified, connected := true } }

/-- The question of the client, `server/eventer_client.py:136-140`. -/
def syncParams (server : Int) (last : EventId) : QueryServerParams :=
  { serverId := server, persisted := true, maxResults := none, lastEventId := some last }

/-- The answer, `eventer/server.py:236-248`.  An exception ends the connection (`eventer/server.py:192-202`). -/
def Duo.serve (d : Duo) : Duo :=
  if d.link.closed then d
  else
    match d.link.request with
    | none => d
    | some last =>
      match d.primary.query (.server (syncParams d.link.remoteId last)) with
      | .error _ => { d with link := { d.link with closed := true } }
      | .ok r =>
        { d with
          link := { d.link with request := none, wire := d.link.wire ++ [.response r.events r.moreFollows] } }

/-- Effect of an action. -/
def Duo.step (d : Duo) : DuoAct → Duo
  | .primary op => d.stepPrimary op
  | .standby op => d.stepStandby op
  | .connect => d.connect
  | .notify => { d with link := d.link.sendNotify }
  | .serve => d.serve
  | .deliver => d.register (d.link.step .deliver)
  | .advance => d.register (d.link.step .advance)
  | .close => { d with link := d.link.step .close }

/-- A history. -/
def Duo.run (d : Duo) (acts : List DuoAct) : Duo := acts.foldl Duo.step d

end HatEvent
