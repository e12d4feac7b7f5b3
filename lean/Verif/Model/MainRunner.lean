/-!
# Main runner

Models the life of the parts of an event server, `server/main_runner.py:23-176,210-212`, as a machine.  Between two actions the real code awaits.

* A part is created, and it is closed when its `async_close` has returned; `async_close` does not raise.
* The parts made without awaiting (client runner, engine runner) are made in a step of their own.
* With a monitor component the engine runners are created and closed by it (`runner_cb`, l.121,168-176), one at a time; its `async_close` returns
  after its engine runner is closed.
* A part that closes by itself closes the group of the main runner (`_bind_resource`, l.210-212), which cancels `_run`.
-/

namespace HatEvent

/-- The parts of an event server, `server/main_runner.py:31-36`.  Engine runners are numbered. -/
inductive MainPart where
  | backend
  | eventerServer
  | adminerServer
  | clientRunner
  | monitor
  | engineRunner (k : Nat)
  deriving DecidableEq

/-- An engine runner (helper for `server/main_runner.py:36`). -/
def MainPart.isEngine : MainPart → Bool
  | .engineRunner _ => true
  | _ => false

/-- What can be observed of `server/main_runner.py:79-166`: a part was created, `backend.flush` was called and has finished, a part was closed. -/
inductive MainEntry where
  | created (p : MainPart)
  | flushed
  | closed (p : MainPart)
  deriving DecidableEq

/-- An await of `_stop`, `server/main_runner.py:146-166`. -/
inductive StopStep where
  | close (p : MainPart)
  | flush
  deriving DecidableEq

/-- Where `_run` is, `server/main_runner.py:47-77`: spawned, in `_start` with parts to be made (the first one is being made), in the loop, in `_stop` with steps
to be done (the first one is being done), finished. -/
inductive MainPhase where
  | spawned
  | making (rest : List MainPart)
  | running
  | stopping (rest : List StopStep)
  | finished
  deriving DecidableEq

/-- `MainRunner`, `server/main_runner.py:25-41`.  `adminer` and `monitor` tell what is configured, `alive` are the parts that were created and not closed. -/
structure Main where
  adminer : Bool
  monitor : Bool
  phase : MainPhase := .spawned
  alive : List MainPart := []
  nextEngine : Nat := 0
  log : List MainEntry := []

/-- What may happen in `server/main_runner.py:47-185`: `_run` starts, a part is made or fails, the group of the main runner is closed or the loop raises, an await of `_stop` is finished, the monitor component
creates or closes its engine runner. -/
inductive MainAct where
  | start
  | made
  | failed
  | cancel
  | stepDone
  | bless
  | unbless

namespace Main

/-- What `_start` makes, in order, `server/main_runner.py:79-144`. -/
def toMake (s : Main) : List MainPart :=
  [.backend, .eventerServer] ++ (if s.adminer then [.adminerServer] else []) ++
    if s.monitor then [.clientRunner, .monitor] else [.engineRunner 0]

/-- A part is created (the assignments in `server/main_runner.py:79-144,168-176`). -/
def create (s : Main) (p : MainPart) : Main := { s with alive := s.alive ++ [p], log := s.log ++ [.created p] }

/-- A part is closed (`async_close` in `server/main_runner.py:146-166`). -/
def close (s : Main) (p : MainPart) : Main := { s with alive := s.alive.filter (fun q => q ≠ p), log := s.log ++ [.closed p] }

/-- `backend.flush` has returned or raised, `server/main_runner.py:160-161`. -/
def flush (s : Main) : Main := { s with log := s.log ++ [.flushed] }

/-- The conditions of `_stop`, `server/main_runner.py:147-165`; nothing they depend on changes while `_stop` runs. -/
def wanted (s : Main) : StopStep → Bool
  | .close (.engineRunner k) => decide (.engineRunner k ∈ s.alive) && !s.monitor
  | .close p => decide (p ∈ s.alive)
  | .flush => decide (.eventerServer ∈ s.alive)

/-- The steps of `_stop`, `server/main_runner.py:146-166`. -/
def stopOrder : List StopStep :=
  [.close (.engineRunner 0), .close .clientRunner, .close .monitor, .close .adminerServer, .flush, .close .eventerServer,
    .close .backend]

/-- `_stop` goes on with the remaining steps, `server/main_runner.py:146-166`. -/
def proceed (s : Main) (rest : List StopStep) : Main :=
  match rest with
  | [] => { s with phase := .finished }
  | _ :: _ => { s with phase := .stopping rest }

/-- An exception or cancelling, `server/main_runner.py:71-77`. -/
def stop (s : Main) : Main := s.proceed (stopOrder.filter s.wanted)

/-- `_start` goes on or `_run` enters its loop, `server/main_runner.py:50-56`. -/
def afterMade : List MainPart → MainPhase
  | [] => .running
  | p :: rest => .making (p :: rest)

/-- The next part of `_start` was made, `server/main_runner.py:79-144`. -/
def made (s : Main) (p : MainPart) (rest : List MainPart) : Main :=
  { s.create p with phase := afterMade rest }

/-- There is an engine runner (helper). -/
def hasEngine (s : Main) : Bool := s.alive.any MainPart.isEngine

/-- An await of `_stop` is finished, `server/main_runner.py:146-166`.  Closing the monitor component takes until its engine runner is closed. -/
def stepDone (s : Main) (step : StopStep) (rest : List StopStep) : Main :=
  match step with
  | .close .monitor => if s.hasEngine then s else (s.close .monitor).proceed rest
  | .close p => (s.close p).proceed rest
  | .flush => s.flush.proceed rest

/-- `_create_monitor_runner`, `server/main_runner.py:168-176`. -/
def bless (s : Main) : Main :=
  if .monitor ∈ s.alive ∧ s.hasEngine = false then
    { s.create (.engineRunner s.nextEngine) with nextEngine := s.nextEngine + 1 }
  else s

/-- The monitor component closes its engine runner, or it is closed by `_on_monitor_close_req`, `server/main_runner.py:181-185`. -/
def unbless (s : Main) : Main :=
  if .monitor ∈ s.alive then
    match s.alive.find? MainPart.isEngine with
    | some p => s.close p
    | none => s
  else s

/-- Effect of an action, `server/main_runner.py:47-77`. -/
def step (s : Main) (a : MainAct) : Main :=
  match a, s.phase with
  | .start, .spawned => { s with phase := .making s.toMake }
  | .cancel, .spawned => { s with phase := .finished }
  | .made, .making (p :: rest) => s.made p rest
  | .failed, .making _ => s.stop
  | .cancel, .making _ => s.stop
  | .cancel, .running => s.stop
  | .stepDone, .stopping (x :: rest) => s.stepDone x rest
  | .bless, _ => s.bless
  | .unbless, _ => s.unbless
  | _, _ => s

/-- A history of `server/main_runner.py:23-176`. -/
def run (s : Main) (acts : List MainAct) : Main := acts.foldl step s

/-- `MainRunner.__init__`, `server/main_runner.py:25-41`. -/
def init (adminer monitor : Bool) : Main := { adminer := adminer, monitor := monitor }

end Main
end HatEvent
