import Verif.Model.EventerServer

/-!
# Backend and eventer server of one event server

Models how the callbacks of the backend are used by the server: `LmdbBackend.register` and `_flush`
(`backends/lmdb/backend.py:140-194,296-315`) call `MainRunner._on_backend_events` (`server/main_runner.py:82-88,187-191`), which calls
`Server.notify_events` (`eventer/server.py:96-128`).

* The backend is `Backend` (`Model/Lmdb.lean`) and the clients are those of `EvServer` (`Model/EventerServer.lean`).  Flushes
  are not interleaved with registrations here (`Model/LmdbAsync.lean` does that).
* `register` is called by the engine (`server/engine.py:125,153`) and by eventer clients
  (`server/eventer_client.py:121,161,164,173`), any number of calls may run.  The caller may be cancelled, as the register
  loop of an engine that is closed.
* The flush loop runs one flush with all of its callbacks at a time and is not cancelled
  (`backend.py:243,266`, `aio.uncancellable`).
-/

namespace HatEvent

/-- The server.  `cancelled` are the calls of `notify_events` (by number) whose callers were cancelled,
`registers` those made by `register`, `announced` those made by the flush loop; `flushing` are the lists the
flush loop has written and not announced yet (`backend.py:313-315`). -/
structure Publisher where
  backend : Backend
  server : EvServer
  cancelled : List Nat := []
  registers : List (Nat × List Event) := []
  announced : List (Nat × List Event) := []
  flushing : List (List Event) := []

/-- What may happen. -/
inductive PubAct where
  | server (act : EvAct)
  | register (events : List Event)
  | cancel (call : Nat)
  | flush
  | announce
  | backend (op : BackendOp)

namespace Publisher

/-- `notify_events` has returned, `eventer/server.py:117-128`. -/
def over (s : Publisher) (call : Nat) : Bool :=
  (s.server.calls call).targets.all fun t => (s.server.calls call).state t.1 = .done

/-- The flush loop is not in a callback, `backend.py:315`. -/
def free (s : Publisher) : Bool :=
  match s.announced.getLast? with
  | none => true
  | some p => s.over p.1

/-- `_on_backend_events`, `server/main_runner.py:187-191`. -/
def tell (s : Publisher) (events : List Event) (persisted : Bool) : Publisher :=
  { s with server := s.server.step (.notify events persisted false) }

/-- The end of `register`, `backend.py:191-194`. -/
def stored (s : Publisher) (backend : Backend) (events : List Event) : Publisher :=
  match backend.mem with
  | none => { s with backend := backend }
  | some _ =>
    { s.tell events false with
      backend := backend
      registers := s.registers ++ [(s.server.nextCall, events)] }

/-- `LmdbBackend.register`, `backend.py:140-194`: nothing happens if the backend is closed (l.143-144), and the
callback is not called if there is an exception before. -/
def register (s : Publisher) (events : List Event) : Publisher :=
  match s.backend.mem with
  | none => s
  | some _ => s.stored (s.backend.step (.register events)) events

/-- A flush, `backend.py:243,296-311`.  Only when the former one is over. -/
def flush (s : Publisher) : Publisher :=
  if s.flushing.isEmpty && s.free then
    { s with
      backend := s.backend.step .flush
      flushing := (s.backend.step .flush).flushedCb.drop s.backend.flushedCb.length }
  else s

/-- The next callback of a flush, `backend.py:313-315`. -/
def announce (s : Publisher) : Publisher :=
  match s.flushing with
  | [] => s
  | events :: rest =>
    if s.free then
      { s.tell events true with
        announced := s.announced ++ [(s.server.nextCall, events)]
        flushing := rest }
    else s

/-- An action of the eventer server.  `notify_events` is called by the callbacks only, and a call whose caller
was cancelled does not go on (`eventer/server.py:127-128`). -/
def serve (s : Publisher) (act : EvAct) : Publisher :=
  match act with
  | .notify _ _ _ => s
  | .send call id => if call ∈ s.cancelled then s else { s with server := s.server.step (.send call id) }
  | act => { s with server := s.server.step act }

/-- A caller of `register` is cancelled while the callback runs, `backend.py:191-192`. -/
def cancel (s : Publisher) (call : Nat) : Publisher :=
  if s.registers.any fun p => p.1 = call then { s with cancelled := s.cancelled ++ [call] } else s

/-- Other actions of the backend: side effects of queries and cleanups. -/
def other (s : Publisher) (op : BackendOp) : Publisher :=
  match op with
  | .touch p => { s with backend := s.backend.step (.touch p) }
  | .cleanup fl sizeEntries now => { s with backend := s.backend.step (.cleanup fl sizeEntries now) }
  | _ => s

/-- Effect of an action. -/
def step (s : Publisher) : PubAct → Publisher
  | .server act => s.serve act
  | .register events => s.register events
  | .cancel call => s.cancel call
  | .flush => s.flush
  | .announce => s.announce
  | .backend op => s.other op

/-- A history. -/
def run (s : Publisher) (acts : List PubAct) : Publisher := acts.foldl step s

/-- A server with a backend on a new file, `server/main_runner.py:81-98`. -/
def init (conf : Conf) (useC : Bool) (token : Option String) : Publisher :=
  { backend := (Backend.new conf).step (.reopen conf), server := EvServer.init useC token }

end Publisher
end HatEvent
