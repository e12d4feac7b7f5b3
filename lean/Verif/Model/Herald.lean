import Verif.Model.Relay

/-!
# An event server with its clients and all notifications

`Model/Relay.lean` with the callback of flushes, as in `Model/Announcer.lean`: `LmdbBackend._flush` calls `MainRunner._on_backend_events` for each list of
events that was registered before the flush (`backends/lmdb/backend.py:291-315`, `server/main_runner.py:82-88,187-191`), which calls
`Server.notify_events` (`eventer/server.py:96-128`) with `persisted`.

* The flush loop runs one flush with all of its callbacks at a time (`backends/lmdb/backend.py:243,313-315`).
* A flush writes what was registered up to its beginning in one action (`Model/LmdbAsync.lean` has the event loop and the database thread apart).
* Calls of `notify_events` for events of other servers (`server/eventer_client.py`) are actions of the eventer server, any of them at any time.
-/

namespace HatEvent

/-- The whole.  `written` are the lists the flush loop has written and not announced yet, `announced` those it has announced, with the number of the
call of `notify_events` (`backends/lmdb/backend.py:297-315`). -/
structure Herald where
  relay : Relay
  written : List (List Event) := []
  announced : List (Nat × List Event) := []

/-- What may happen: all of `RelayAct`, and the flush loop calls the callback. -/
inductive HeraldAct where
  | relay (act : RelayAct)
  | announce

namespace Herald

/-- The flush loop is not in a callback, `backends/lmdb/backend.py:313-315`. -/
def free (s : Herald) : Bool :=
  match s.announced.getLast? with
  | none => true
  | some p => s.relay.over p.1

/-- The database, `server/main_runner.py:82-88`. -/
def backend (cf : StationConf) (s : Herald) : Backend := s.relay.station.backend cf

/-- A flush, `backends/lmdb/backend.py:243,291-311`.  Only when the former one is over. -/
def flush (cf : StationConf) (s : Herald) : Herald :=
  if s.written.isEmpty && s.free then
    let relay := s.relay.step cf (.station (.keep .flush))
    { s with
      relay := relay
      written := (relay.station.backend cf).flushedCb.drop (s.backend cf).flushedCb.length }
  else s

/-- The next callback of a flush, `backends/lmdb/backend.py:313-315`. -/
def announce (cf : StationConf) (s : Herald) : Herald :=
  match s.written with
  | [] => s
  | events :: rest =>
    if s.free then
      { relay := s.relay.step cf (.station (.host (.notify events true false)))
        written := rest
        announced := s.announced ++ [(s.relay.station.host.server.nextCall, events)] }
    else s

/-- Effect of an action.  Persisted events are announced by the flush loop only (`server/main_runner.py:82-88`). -/
def step (cf : StationConf) (s : Herald) : HeraldAct → Herald
  | .relay (.station (.host (.notify _ true _))) => s
  | .relay (.station (.keep .flush)) => s.flush cf
  | .relay act => { s with relay := s.relay.step cf act }
  | .announce => s.announce cf

/-- A history. -/
def run (cf : StationConf) (s : Herald) (acts : List HeraldAct) : Herald := acts.foldl (step cf) s

/-- A process that begins with the database `past` has led to (`server/main_runner.py:43-116`). -/
def init (cf : StationConf) (past : List BackendOp) : Herald := { relay := Relay.init cf past }

end Herald
end HatEvent
