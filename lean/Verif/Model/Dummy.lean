import Verif.Model.Lmdb

/-!
# Dummy backend

Models `src_py/hat/event/backends/dummy.py`.  Its coroutines await only the callbacks.
-/

namespace HatEvent

/-- `DummyBackend`, `dummy.py:18-23`.  `calls` are the calls of the registered (`false`) and the flushed (`true`) events callback. -/
structure DummyBackend where
  registeredCb : Bool
  flushedCb : Bool
  calls : List (Bool × List Event) := []

namespace DummyBackend

/-- A new backend, `dummy.py:20-23`. -/
def new (registeredCb flushedCb : Bool) : DummyBackend := ⟨registeredCb, flushedCb, []⟩

/-- `get_last_event_id`, `dummy.py:29-30`. -/
def getLastEventId (_ : DummyBackend) (serverId : Int) : Except PyErr EventId := .ok ⟨serverId, 0, 0⟩

/-- `register`, `dummy.py:32-39`. -/
def register (s : DummyBackend) (events : List Event) : DummyBackend × List Event :=
  let s := if s.registeredCb then { s with calls := s.calls ++ [(false, events)] } else s
  let s := if s.flushedCb then { s with calls := s.calls ++ [(true, events)] } else s
  (s, events)

/-- `query`, `dummy.py:41-43`. -/
def query (_ : DummyBackend) (_ : QueryParams) : Except PyErr QueryResult := .ok ⟨[], false⟩

/-- A history of registrations. -/
def run (s : DummyBackend) (history : List (List Event)) : DummyBackend :=
  history.foldl (fun s events => (s.register events).1) s

end DummyBackend
end HatEvent
