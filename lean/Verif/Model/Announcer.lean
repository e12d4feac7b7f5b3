import Verif.Model.Station

/-!
# An event server with its clients and the notifications of persisted events

`Model/Station.lean` with the callback of flushes: `LmdbBackend._flush` calls `MainRunner._on_backend_events` for each list of events that was
registered before the flush (`backends/lmdb/backend.py:291-315`, `server/main_runner.py:82-88,187-191`), which calls `Server.notify_events`
(`eventer/server.py:96-128`) with `persisted`.

* The flush loop runs one flush with all of its callbacks at a time (`backends/lmdb/backend.py:243,313-315`).
* Calls of `notify_events` for registered events are actions of the eventer server of `Model/Station.lean`, any of them at any time.
* A flush writes what was registered up to its beginning in one action (`Model/LmdbAsync.lean` has the event loop and the database thread apart).
-/

namespace HatEvent

/-- The whole.  `written` are the lists the flush loop has written and not announced yet, `announced` those it has announced, with the number of the
call of `notify_events` (`backends/lmdb/backend.py:297-315`). -/
structure Announcer where
  station : Station
  written : List (List Event) := []
  announced : List (Nat × List Event) := []

/-- What may happen: all of `StationAct`, and the flush loop calls the callback. -/
inductive AnnounceAct where
  | station (act : StationAct)
  | announce

namespace Announcer

/-- The flush loop is not in a callback, `backends/lmdb/backend.py:313-315`. -/
def free (s : Announcer) : Bool :=
  match s.announced.getLast? with
  | none => true
  | some p => (s.station.host.server.calls p.1).targets.all fun t => (s.station.host.server.calls p.1).state t.1 = .done

/-- A flush, `backends/lmdb/backend.py:243,291-311`.  Only when the former one is over. -/
def flush (cf : StationConf) (s : Announcer) : Announcer :=
  if s.written.isEmpty && s.free then
    { s with
      station := s.station.step cf (.keep .flush)
      written := ((s.station.step cf (.keep .flush)).backend cf).flushedCb.drop (s.station.backend cf).flushedCb.length }
  else s

/-- The next callback of a flush, `backends/lmdb/backend.py:313-315`. -/
def announce (cf : StationConf) (s : Announcer) : Announcer :=
  match s.written with
  | [] => s
  | events :: rest =>
    if s.free then
      { station := s.station.step cf (.host (.notify events true false))
        written := rest
        announced := s.announced ++ [(s.station.host.server.nextCall, events)] }
    else s

/-- Effect of an action.  Persisted events are announced by the flush loop only (`server/main_runner.py:82-88`). -/
def step (cf : StationConf) (s : Announcer) : AnnounceAct → Announcer
  | .station (.host (.notify _ true _)) => s
  | .station (.keep .flush) => s.flush cf
  | .station act => { s with station := s.station.step cf act }
  | .announce => s.announce cf

/-- A history. -/
def run (cf : StationConf) (s : Announcer) (acts : List AnnounceAct) : Announcer := acts.foldl (step cf) s

/-- A process that begins with the database `past` has led to (`server/main_runner.py:43-116`). -/
def init (cf : StationConf) (past : List BackendOp) : Announcer := { station := Station.init cf past }

end Announcer
end HatEvent
