import Verif.Model.Station

/-!
# An event server with its clients and the notifications of registered events

`Model/Station.lean` with the callback of `Backend.register`: `LmdbBackend.register` calls `MainRunner._on_backend_events`
(`backends/lmdb/backend.py:191-192`, `server/main_runner.py:82-88,187-191`), which calls `Server.notify_events` (`eventer/server.py:96-128`), and returns to the
engine after that.

* Other calls of `notify_events` (after flushes, `backends/lmdb/backend.py:313-315`, and for events of other servers) are actions of the eventer
  server of `Model/Station.lean`, any of them at any time.
* A register loop that is cancelled in the callback leaves its call of `notify_events`; here it may go on or not.
-/

namespace HatEvent

/-- The whole.  `said` is the call of `notify_events` (by number) the latest call of `Backend.register` of an engine has made. -/
structure Relay where
  station : Station
  said : Nat → Option Nat := fun _ => none

/-- What may happen: all of `StationAct`, and the backend calls the callback in the latest call of `Backend.register` of an engine. -/
inductive RelayAct where
  | station (act : StationAct)
  | tell (e : Nat)

namespace Relay

/-- The number of calls of `Backend.register` of an engine, `server/engine.py:125,153`. -/
def passed (s : Station) (e : Nat) : Nat := (s.engines[e]?.map fun engine => engine.sent.length).getD 0

/-- An action of `Model/Station.lean`.  A new call of `Backend.register` has not called the callback (`backends/lmdb/backend.py:140-192`). -/
def advance (cf : StationConf) (s : Relay) (act : StationAct) : Relay :=
  { station := s.station.step cf act
    said := fun e => if passed s.station e < passed (s.station.step cf act) e then none else s.said e }

/-- `notify_events` has returned, `eventer/server.py:117-128`. -/
def over (s : Relay) (call : Nat) : Bool :=
  (s.station.host.server.calls call).targets.all fun t => (s.station.host.server.calls call).state t.1 = .done

/-- `Backend.register` of an engine returns its events only after the callback has returned, `backends/lmdb/backend.py:191-194`. -/
def returns (s : Relay) (e : Nat) : Bool :=
  match s.said e with
  | some call => s.over call
  | none => false

/-- The events of the call of `Backend.register` an engine is in, `server/engine.py:125,153`. -/
def offered (engine : Engine) : Option (List Event) :=
  match engine.phase with
  | .registering _ events => some events
  | .finishing => engine.sent.getLast?
  | _ => none

/-- The backend calls the callback, `backends/lmdb/backend.py:191-192`.  A closed backend raises before (l.143-144). -/
def tell (cf : StationConf) (s : Relay) (e : Nat) : Relay :=
  match s.said e, s.station.engines[e]?.bind offered, (s.station.backend cf).mem with
  | none, some events, some _ =>
    { station := s.station.step cf (.host (.notify events false false))
      said := fun i => if i = e then some s.station.host.server.nextCall else s.said i }
  | _, _, _ => s

/-- Effect of an action. -/
def step (cf : StationConf) (s : Relay) : RelayAct → Relay
  | .station (.engine e (.registered .same now)) => if s.returns e then s.advance cf (.engine e (.registered .same now)) else s
  | .station act => s.advance cf act
  | .tell e => s.tell cf e

/-- A history. -/
def run (cf : StationConf) (s : Relay) (acts : List RelayAct) : Relay := acts.foldl (step cf) s

/-- A process that begins with the database `past` has led to (`server/main_runner.py:43-116`). -/
def init (cf : StationConf) (past : List BackendOp) : Relay := { station := Station.init cf past }

end Relay
end HatEvent
