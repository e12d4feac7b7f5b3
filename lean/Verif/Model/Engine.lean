import Verif.Model.Event
import Verif.Model.CSubscription

/-!
# Engine

Models `server/engine.py` as a machine whose actions are the calls of its
methods, the progress of the register loop and closing.  Between two actions
the real code awaits; where the code does not really suspend, the machine allows
more interleavings than there are.

Modules are arbitrary: what they return, or that they raise, is part of the
actions.  The backend returns its argument (`backends/lmdb/backend.py:194`,
`backends/memory.py:41`, `backends/dummy.py:39`), `None`, or raises.  Callbacks
(`restart`, `reset_monitor_ready`) and `query` (delegated to the backend) are
not modelled.
-/

namespace HatEvent

/-- `SourceType`, `common/module.py:17-21`. -/
inductive SourceType where
  | eventer | module_ | engine | server
  deriving DecidableEq, Repr

/-- `Source`, `common/module.py:24-26`. -/
structure Source where
  type : SourceType
  id : Int
  deriving DecidableEq, Repr

/-- Arguments of `create_engine`, `engine.py:19-25`; a module is given by its
subscription (constant, `common/module.py:68-73`). -/
structure EngineConf where
  serverId : Int
  modules : List Sub
  queueSize : Nat := 1024

/-- An item of the register queue, `engine.py:44,90`.  The future is identified by
the number of the call of `register`; nobody waits for the one of `create_engine`. -/
structure EngineRequest where
  future : Option Nat
  source : Source
  events : List RegisterEvent

/-- Result of a call of `register`, `engine.py:80-95,127-133,144-145`. -/
inductive EngineOutcome where
  | result (events : Option (List Event))
  | closed
  | cancelled

/-- What an awaited call of the backend gives. -/
inductive EngineReply where
  | same | none | raised
  deriving DecidableEq, Repr

/-- Where the register loop is.  `creating` is `engine.py:46-60`, up to the first step of the
task of the loop (a task cancelled before does not run at all); `idle` is l.118-119; the session phases are l.158-160, 166-188, 190-191, 125; `finishing` is
l.153.  A pending call of `process` is a module (its index), a source and an event. -/
inductive EnginePhase where
  | creating
  | idle
  | starting (r : EngineRequest) (timestamp : Timestamp) (left : Nat)
  | processing (r : EngineRequest) (timestamp : Timestamp) (events : List Event)
      (pending : List (Nat × Source × Event)) (outputs : List (Source × Event))
  | stopping (r : EngineRequest) (events : List Event) (left : Nat)
  | registering (r : EngineRequest) (events : List Event)
  | finishing
  | closed

/-- The engine.  `accepted`, `requests`, `outcomes`, `created`, `seen`, `made` and
`sent` record what happened: queued requests, calls of `register` and their
outcomes, events created, calls of `process`, register events returned by modules (with the
session), and calls of `Backend.register`. -/
structure Engine where
  conf : EngineConf
  lastId : EventId
  queue : List EngineRequest
  queueClosed : Bool
  putters : List EngineRequest
  phase : EnginePhase
  accepted : List EngineRequest
  requests : List (Source × List RegisterEvent)
  outcomes : List (Nat × EngineOutcome)
  created : List Event
  seen : List (Nat × Source × Event)
  made : List (Int × Source × RegisterEvent)
  sent : List (List Event)

/-- Actions.  `now` is the time read from the clock. -/
inductive EngineAct where
  | spawn
  | register (source : Source) (events : List RegisterEvent)
  | wake (i : Nat)
  | cancel (i : Nat)
  | take (now : Timestamp)
  | told
  | processed (outputs : List RegisterEvent)
  | next
  | registered (reply : EngineReply) (now : Timestamp)
  | raise (outputs : List RegisterEvent) (now : Timestamp)
  | close (now : Timestamp)
  | finished

/-- `_create_status_reg_event`, `engine.py:195-199`. -/
def statusRegEvent (serverId : Int) (status : String) : RegisterEvent :=
  ⟨["event", toString serverId, "engine"], none, some (.json (.str status))⟩

/-- `create_engine`, `engine.py:28-44`; `last` is the answer of the backend (l.39). -/
def Engine.create (conf : EngineConf) (last : EventId) : Engine :=
  let r : EngineRequest := ⟨none, ⟨.engine, 0⟩, [statusRegEvent conf.serverId "STARTED"]⟩
  { conf := conf, lastId := last, queue := [r], queueClosed := false, putters := []
    phase := .creating, accepted := [r], requests := [], outcomes := [], created := []
    seen := [], made := [], sent := [] }

/-- `_create_session`, `engine.py:201-206`, without the clock. -/
def Engine.createSession (s : Engine) : Engine :=
  { s with lastId := { s.lastId with session := s.lastId.session + 1, instance_ := 0 } }

/-- `_create_event`, `engine.py:208-216`. -/
def Engine.createEvent (s : Engine) (timestamp : Timestamp) (r : RegisterEvent) : Engine × Event :=
  let i := { s.lastId with instance_ := s.lastId.instance_ + 1 }
  let e : Event := ⟨i, r.type, timestamp, r.sourceTimestamp, r.payload⟩
  ({ s with lastId := i, created := s.created ++ [e] }, e)

/-- `_create_event` for several register events, `engine.py:162-164,181-183`. -/
def Engine.createEvents (s : Engine) (timestamp : Timestamp) : List RegisterEvent → Engine × List Event
  | [] => (s, [])
  | r :: l =>
    let p := s.createEvent timestamp r
    let q := p.1.createEvents timestamp l
    (q.1, p.2 :: q.2)

/-- The source of a module, `engine.py:49-50`. -/
def moduleSource (i : Nat) : Source := ⟨.module_, i⟩

/-- The calls of one round, `engine.py:170-176`: module by module, event by event. -/
def roundCalls (modules : List Sub) (inputs : List (Source × Event)) : List (Nat × Source × Event) :=
  modules.zipIdx.flatMap fun m =>
    (inputs.filter fun p => m.1.matches p.2.type).map fun p => (m.2, p.1, p.2)

/-- `future.done()`, `engine.py:127,144`. -/
def Engine.isDone (s : Engine) (f : Nat) : Bool := (s.outcomes.map Prod.fst).contains f

/-- Setting the outcome of a future that is not done, `engine.py:127-133,144-145`. -/
def Engine.resolve (s : Engine) (f : Option Nat) (o : EngineOutcome) : Engine :=
  match f with
  | none => s
  | some f => if s.isDone f then s else { s with outcomes := s.outcomes ++ [(f, o)] }

/-- The request in progress: the variable `future`, `engine.py:118`, if not done for
other reasons. -/
def EnginePhase.current : EnginePhase → Option EngineRequest
  | .starting r _ _ => some r
  | .processing r _ _ _ _ => some r
  | .stopping r _ _ => some r
  | .registering r _ => some r
  | _ => none

/-- The `finally` block up to its last await, `engine.py:138-153`. -/
def Engine.finalize (s : Engine) (now : Timestamp) : Engine :=
  let s := (s.phase.current.toList ++ s.queue).foldl (fun s r => s.resolve r.future .closed) s
  let s := { s with queue := [], queueClosed := true, phase := .finishing }
  let p := s.createSession.createEvent now (statusRegEvent s.conf.serverId "STOPPED")
  { p.1 with sent := p.1.sent ++ [[p.2]] }

/-- Putting a request into the queue, `engine.py:89-93`: the caller gets an error
from a closed queue, and waits if it is full. -/
def Engine.put (s : Engine) (r : EngineRequest) : Engine :=
  if s.queueClosed then s.resolve r.future .closed
  else if s.queue.length < s.conf.queueSize then
    { s with queue := s.queue ++ [r], accepted := s.accepted ++ [r] }
  else { s with putters := s.putters ++ [r] }

/-- A call of `register`, `engine.py:80-95`. -/
def Engine.register (s : Engine) (source : Source) (events : List RegisterEvent) : Engine :=
  let f := s.requests.length
  let s := { s with requests := s.requests ++ [(source, events)] }
  match events with
  | [] => s.resolve (some f) (.result (some []))
  | _ :: _ => s.put ⟨some f, source, events⟩

/-- `module.process` returns, `engine.py:175-186`. -/
def Engine.processed (s : Engine) (r : EngineRequest) (timestamp : Timestamp) (events : List Event)
    (call : Nat × Source × Event) (pending : List (Nat × Source × Event)) (outputs : List (Source × Event))
    (outs : List RegisterEvent) : Engine :=
  let s := { s with
    seen := s.seen ++ [call]
    made := s.made ++ outs.map fun o => (s.lastId.session, moduleSource call.1, o) }
  let p := s.createEvents timestamp outs
  { p.1 with
    phase := .processing r timestamp (events ++ p.2) pending
      (outputs ++ p.2.map fun e => (moduleSource call.1, e)) }

/-- Progress that needs no answer, `engine.py:162-188,190-193,122-125`. -/
def Engine.next (s : Engine) : Engine :=
  match s.phase with
  | .starting r timestamp 0 =>
    let p := s.createEvents timestamp r.events
    let inputs := p.2.map fun e => (r.source, e)
    { p.1 with phase := .processing r timestamp p.2 (roundCalls s.conf.modules inputs) [] }
  | .processing r _ events [] [] => { s with phase := .stopping r events s.conf.modules.length }
  | .processing r timestamp events [] (o :: outputs) =>
    { s with phase := .processing r timestamp events (roundCalls s.conf.modules (o :: outputs)) [] }
  | .stopping r events 0 => { s with phase := .registering r events, sent := s.sent ++ [events] }
  | _ => s

/-- An exception in a module, `engine.py:135-153`.  A module may fail while its
results are iterated (l.181), `outputs` are those before. -/
def Engine.raise (s : Engine) (outputs : List RegisterEvent) (now : Timestamp) : Engine :=
  match s.phase with
  | .starting _ _ (_ + 1) => s.finalize now
  | .processing r timestamp events (c :: pending) outs =>
    (s.processed r timestamp events c pending outs outputs).finalize now
  | .stopping _ _ (_ + 1) => s.finalize now
  | _ => s

/-- Cancellation of the register loop, `engine.py:138-153`.  Before the loop
exists the creation fails (l.62-64). -/
def Engine.close (s : Engine) (now : Timestamp) : Engine :=
  match s.phase with
  | .creating => { s with phase := .closed }
  | .finishing => { s with phase := .closed }
  | .closed => s
  | _ => s.finalize now

/-- The caller of `register` stops waiting, `engine.py:90,95`. -/
def Engine.cancel (s : Engine) (i : Nat) : Engine :=
  if i < s.requests.length then
    { s.resolve (some i) .cancelled with putters := s.putters.filter fun r => r.future ≠ some i }
  else s

/-- The backend answers, `engine.py:125-133`. -/
def Engine.registered (s : Engine) (reply : EngineReply) (now : Timestamp) : Engine :=
  match s.phase with
  | .registering r events =>
    match reply with
    | .raised => s.finalize now
    | .none => { s.resolve r.future (.result none) with phase := .idle }
    | .same =>
      { s.resolve r.future (.result (some ((events.zip r.events).map Prod.fst))) with phase := .idle }
  | .finishing => { s with phase := .closed }
  | _ => s

/-- The register loop gets a request, `engine.py:118-122,156`. -/
def Engine.take (s : Engine) (now : Timestamp) : Engine :=
  match s.phase, s.queue with
  | .idle, r :: q =>
    { s.createSession with queue := q, phase := .starting r now s.conf.modules.length }
  | _, _ => s

/-- `on_session_start` or `on_session_stop` returns, `engine.py:158-160,190-191`. -/
def Engine.told (s : Engine) : Engine :=
  match s.phase with
  | .starting r timestamp (n + 1) => { s with phase := .starting r timestamp n }
  | .stopping r events (n + 1) => { s with phase := .stopping r events n }
  | _ => s

/-- `module.process` returns, `engine.py:175-186`. -/
def Engine.processedAct (s : Engine) (outs : List RegisterEvent) : Engine :=
  match s.phase with
  | .processing r timestamp events (c :: pending) outputs =>
    s.processed r timestamp events c pending outputs outs
  | _ => s

/-- A waiting caller of `register` tries again, `engine.py:90`. -/
def Engine.wake (s : Engine) (i : Nat) : Engine :=
  match s.putters[i]? with
  | none => s
  | some r => { s with putters := s.putters.eraseIdx i }.put r

/-- Effect of an action. -/
def Engine.step (s : Engine) : EngineAct → Engine
  | .spawn =>
    match s.phase with
    | .creating => { s with phase := .idle }
    | _ => s
  | .register source events => s.register source events
  | .wake i => s.wake i
  | .cancel i => s.cancel i
  | .take now => s.take now
  | .told => s.told
  | .processed outputs => s.processedAct outputs
  | .next => s.next
  | .registered reply now => s.registered reply now
  | .raise outputs now => s.raise outputs now
  | .close now => s.close now
  | .finished =>
    match s.phase with
    | .finishing => { s with phase := .closed }
    | _ => s

/-- A history of actions. -/
def Engine.run (s : Engine) (acts : List EngineAct) : Engine := acts.foldl Engine.step s

end HatEvent
