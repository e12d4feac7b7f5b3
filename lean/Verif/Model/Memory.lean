import Verif.Model.Lmdb

/-!
# Memory backend

Models `src_py/hat/event/backends/memory.py`.  Its coroutines await only the callbacks; a query does not await at all.
-/

namespace HatEvent

/-- `MemoryBackend`, `memory.py:14-20`.  `calls` are the calls of the registered (`false`) and the flushed (`true`) events callback; `useC` says if
the C subscriptions are available. -/
structure MemoryBackend where
  useC : Bool
  registeredCb : Bool
  flushedCb : Bool
  events : List Event := []
  calls : List (Bool × List Event) := []

namespace MemoryBackend

/-- `register`, `memory.py:32-41`. -/
def register (s : MemoryBackend) (events : List Event) : MemoryBackend × List Event :=
  let s := { s with events := s.events ++ events }
  let s := if s.registeredCb then { s with calls := s.calls ++ [(false, events)] } else s
  let s := if s.flushedCb then { s with calls := s.calls ++ [(true, events)] } else s
  (s, events)

/-- `get_last_event_id`, `memory.py:26-30`: an event has no attribute `server`. -/
def getLastEventId (s : MemoryBackend) (serverId : Int) : Except PyErr EventId :=
  match s.events with
  | [] => .ok ⟨serverId, 0, 0⟩
  | _ :: _ => .error .attributeError

/-- `_filter_event_types`, `memory.py:144-148`.  The subscription is created when the first event is requested, i.e. always. -/
def filterEventTypes (useC : Bool) (events : List Event) : Option (List EventType) → Except PyErr (List Event)
  | none => .ok events
  | some types => (createSubscription useC types).map fun sub => events.filter fun e => sub.matches e.type

/-- One event in `_query_latest`, `memory.py:65-68`. -/
def latestStep (result : Dict EventType Event) (event : Event) : Dict EventType Event :=
  match Dict.get result event.type with
  | none => Dict.set result event.type event
  | some previous => if previous.lt event then Dict.set result event.type event else result

/-- `_query_latest`, `memory.py:58-71`. -/
def queryLatest (s : MemoryBackend) (types : Option (List EventType)) : Except PyErr QueryResult :=
  (filterEventTypes s.useC s.events types).map fun events => ⟨(events.foldl latestStep []).map Prod.snd, false⟩

/-- `_query_timeseries`, `memory.py:73-120`.  The filters are generators and do nothing before they are read.  In l.92 and l.94 the value is a pair of a
function and the local variable `event` (assigned in l.108), which has no value yet. -/
def queryTimeseries (_ : MemoryBackend) (params : QueryTimeseriesParams) : Except PyErr QueryResult :=
  match params.orderBy with
  | .timestamp => .error .unboundLocalError
  | .sourceTimestamp => .error .unboundLocalError

/-- `_query_server`, `memory.py:122-138`, `memory.py:175-178`: an event has no attribute `event_id`. -/
def queryServer (s : MemoryBackend) (params : QueryServerParams) : Except PyErr QueryResult :=
  match s.events with
  | [] =>
    match params.maxResults with
    | some n => .ok ⟨[], decide (0 > n)⟩
    | none => .ok ⟨[], false⟩
  | _ :: _ => .error .attributeError

/-- `query`, `memory.py:43-53`. -/
def query (s : MemoryBackend) : QueryParams → Except PyErr QueryResult
  | .latest types => s.queryLatest types
  | .timeseries params => s.queryTimeseries params
  | .server params => s.queryServer params

/-- A history of registrations. -/
def run (s : MemoryBackend) (history : List (List Event)) : MemoryBackend :=
  history.foldl (fun s events => (s.register events).1) s

/-- A new backend, `memory.py:16-20`. -/
def new (useC registeredCb flushedCb : Bool) : MemoryBackend := ⟨useC, registeredCb, flushedCb, [], []⟩

end MemoryBackend
end HatEvent
