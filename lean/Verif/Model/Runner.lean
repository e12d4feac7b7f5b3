import Verif.Model.Monitor

/-!
# Eventer client runner and engine runner

Models `server/eventer_client_runner.py` and `server/engine_runner.py` as a machine.  Between two actions the real code awaits.

* The eventer client is its `status`; its status callback may be delayed (`eventer_client.py:95-112` awaits a registration first).
* Closing the client runner cancels its loops; a task that is cancelled before it starts never runs.
* Exceptions of callbacks registered for changes of `remote_active` are not modelled.
* The engine is open or closed; everything else about it is in the model of the engine.
-/

namespace HatEvent

/-- Where a `_client_loop` is, `eventer_client_runner.py:77-119`: spawned (l.74), in `create_eventer_client` (l.85), sleeping (l.101), waiting for
the end of the connection (l.107), closing the client (l.110), finished; `never` is cancelled before it started. -/
inductive ClientAt where
  | absent
  | spawned
  | connecting
  | sleeping
  | connected
  | closing
  | ended
  | never
  deriving DecidableEq

/-- A task of `_client_loop`.  `status` is the status of its client, `delayed` tells that the status callback was not called yet,
`cancelled` that the task was cancelled while it closes its client. -/
structure ClientLoop where
  data : ServerAddr
  at_ : ClientAt := .absent
  status : Status := .standby
  delayed : Bool := false
  cancelled : Bool := false

/-- `EventerClientRunner`, `eventer_client_runner.py:35-49`.  `notified` are the arguments of the callbacks for changes of `remote_active`;
`waiter` is the event of `engine_runner.py:124`, registered by the engine runner. -/
structure ClientRunner where
  group : String
  token : Option String
  isOpen : Bool := true
  valid : List ServerAddr := []
  nextLoop : Nat := 0
  loops : Nat → ClientLoop := fun _ => { data := ⟨0, "", 0⟩ }
  connecting : List ServerAddr := []
  active : List ServerAddr := []
  remoteActive : Bool := false
  notified : List Bool := []
  waiter : Option Bool := none

namespace ClientRunner

/-- Change of a loop. -/
def setLoop (s : ClientRunner) (i : Nat) (f : ClientLoop → ClientLoop) : ClientRunner :=
  { s with loops := fun k => if k = i then f (s.loops k) else s.loops k }

/-- New members of `_remote_active_server_data`, `eventer_client_runner.py:122-126`. -/
def newActive (active : List ServerAddr) (data : ServerAddr) (status : Option Status) : List ServerAddr :=
  if status.isNone || status == some .standby then active.filter (fun d => d ≠ data)
  else if data ∈ active then active else active ++ [data]

/-- `_set_client_status`, `eventer_client_runner.py:121-133`. -/
def setClientStatus (s : ClientRunner) (data : ServerAddr) (status : Option Status) : ClientRunner :=
  let active := newActive s.active data status
  if (!active.isEmpty) = s.remoteActive then { s with active := active }
  else
    { s with
      active := active
      remoteActive := !active.isEmpty
      notified := s.notified ++ [!active.isEmpty]
      waiter := s.waiter.map fun _ => true }

/-- One server in `set_monitor_state`, `eventer_client_runner.py:70-75`. -/
def spawnLoop (s : ClientRunner) (data : ServerAddr) : ClientRunner :=
  if data ∈ s.connecting then s
  else
    { s.setLoop s.nextLoop (fun _ => { data := data, at_ := .spawned }) with
      nextLoop := s.nextLoop + 1
      connecting := s.connecting ++ [data] }

/-- `set_monitor_state`, `eventer_client_runner.py:64-75`.  A closed runner can not spawn tasks. -/
def setMonitorState (s : ClientRunner) (state : MonitorState) : ClientRunner :=
  let s := { s with valid := eventerServerData s.group s.token state }
  if s.isOpen then s.valid.foldl spawnLoop s else s

/-- End of a loop, `eventer_client_runner.py:116-119`. -/
def endLoop (s : ClientRunner) (i : Nat) : ClientRunner :=
  let s' := s.setLoop i fun l => { l with at_ := .ended, delayed := false }
  { s' with connecting := s.connecting.filter fun d => d ≠ (s.loops i).data }.setClientStatus (s.loops i).data none

/-- The head of the loop, `eventer_client_runner.py:80-85`. -/
def iterate (s : ClientRunner) (i : Nat) : ClientRunner :=
  if (s.loops i).data ∈ s.valid then
    (s.setLoop i fun l => { l with at_ := .connecting, delayed := false }).setClientStatus (s.loops i).data none
  else s.endLoop i

/-- A client was created, `eventer_client_runner.py:104-107`. -/
def established (s : ClientRunner) (i : Nat) (status : Status) : ClientRunner :=
  (s.setLoop i fun l => { l with at_ := .connected, status := status, delayed := false }).setClientStatus (s.loops i).data
    (some status)

end ClientRunner

/-- What may happen to the client runner: a monitor state, the first step of a loop, a client is created or not, the end of sleeping, the server reports a
status, the status callback is called, the connection closes, the client is closed, an
exception in a loop, closing of the runner, cancelling of a loop of a closed runner. -/
inductive ClientAct where
  | monitor (state : MonitorState)
  | start (i : Nat)
  | created (i : Nat) (status : Status)
  | failed (i : Nat)
  | slept (i : Nat)
  | report (i : Nat) (status : Status)
  | callback (i : Nat)
  | lose (i : Nat)
  | clientClosed (i : Nat)
  | raise_ (i : Nat)
  | close
  | cancel (i : Nat)

namespace ClientRunner

/-- A report of the server changes the status of the client, `eventer/client.py:213-217`. -/
def report (s : ClientRunner) (i : Nat) (status : Status) : ClientRunner :=
  if (s.loops i).at_ = .connected ∧ (s.loops i).delayed = false then
    s.setLoop i fun l => { l with status := status, delayed := true }
  else s

/-- The status callback is called, `eventer_client.py:95-112`, `eventer_client_runner.py:92-93`. -/
def callback (s : ClientRunner) (i : Nat) : ClientRunner :=
  if ((s.loops i).at_ = .connected ∨ (s.loops i).at_ = .closing) ∧ (s.loops i).delayed = true then
    (s.setLoop i fun l => { l with delayed := false }).setClientStatus (s.loops i).data (some (s.loops i).status)
  else s

/-- A loop of a closed runner is cancelled, `eventer_client_runner.py:85,101,107-110,116-119`. -/
def cancelLoop (s : ClientRunner) (i : Nat) : ClientRunner :=
  if s.isOpen then s
  else
    match (s.loops i).at_ with
    | .spawned => s.setLoop i fun l => { l with at_ := .never }
    | .connecting => s.endLoop i
    | .sleeping => s.endLoop i
    | .connected => s.setLoop i fun l => { l with at_ := .closing, cancelled := true }
    | .closing => s.setLoop i fun l => { l with cancelled := true }
    | _ => s

/-- An exception in a loop, `eventer_client_runner.py:112-119`. -/
def raiseLoop (s : ClientRunner) (i : Nat) : ClientRunner :=
  match (s.loops i).at_ with
  | .connected => { s with isOpen := false }.endLoop i
  | .closing => { s with isOpen := false }.endLoop i
  | _ => s

/-- The client is closed, `eventer_client_runner.py:110`; a cancelled loop ends. -/
def clientClosed (s : ClientRunner) (i : Nat) : ClientRunner :=
  if (s.loops i).at_ = .closing then (if (s.loops i).cancelled then s.endLoop i else s.iterate i) else s

/-- Effect of an action. -/
def step (s : ClientRunner) : ClientAct → ClientRunner
  | .monitor state => s.setMonitorState state
  | .start i => if (s.loops i).at_ = .spawned then s.iterate i else s
  | .created i status => if (s.loops i).at_ = .connecting then s.established i status else s
  | .failed i => if (s.loops i).at_ = .connecting then s.setLoop i fun l => { l with at_ := .sleeping } else s
  | .slept i => if (s.loops i).at_ = .sleeping then s.iterate i else s
  | .report i status => s.report i status
  | .callback i => s.callback i
  | .lose i => if (s.loops i).at_ = .connected then s.setLoop i fun l => { l with at_ := .closing } else s
  | .clientClosed i => s.clientClosed i
  | .raise_ i => s.raiseLoop i
  | .close => { s with isOpen := false }
  | .cancel i => s.cancelLoop i

/-- A history. -/
def run (s : ClientRunner) (acts : List ClientAct) : ClientRunner := acts.foldl step s

/-- A new runner, `eventer_client_runner.py:35-49`. -/
def init (group : String) (token : Option String) : ClientRunner := { group := group, token := token }

end ClientRunner

/-- Stages of `_close`, `engine_runner.py:103-117`: announcing STOPPING (l.107), closing the engine (l.110), flushing (l.112), announcing STANDBY (l.117). -/
inductive CloseAt where
  | stopping
  | engine
  | flush
  | standby
  deriving DecidableEq

/-- Where `_run` is, `engine_runner.py:62-101`: spawned (l.36), waiting in `_wait_while_remote_active` (l.127), announcing STARTING (l.70), creating the engine (l.74),
announcing OPERATIONAL (l.81), waiting for the engine (l.85), in `_close`, the last one (l.101) or not (l.93), ended. -/
inductive EngineAt where
  | spawned
  | waiting
  | starting
  | creating
  | operational
  | running
  | closing (stage : CloseAt) (last : Bool)
  | ended
  deriving DecidableEq

/-- `EngineRunner` with its client runner, `engine_runner.py:21-36`.  `engine` is `_engine`: none, open or closed; `restart` is the restart event; `statuses`
are the calls of `EventerServer.set_status`, with whether an engine is given. -/
structure Runners where
  clients : ClientRunner
  at_ : EngineAt := .spawned
  engine : Option Bool := none
  restart : Bool := false
  statuses : List (Status × Bool) := []

/-- What may happen: something in the client runner, the first step of `_run`, the event is noticed, an await is finished, the engine
closes itself, a restart is requested, an exception, cancelling. -/
inductive RunnerAct where
  | client (a : ClientAct)
  | start
  | wake
  | done
  | engineCloses
  | restart
  | raise_
  | cancel

namespace Runners

/-- Call of `set_status` and waiting for it. -/
def announce (s : Runners) (status : Status) (engine : Bool) (at_ : EngineAt) : Runners :=
  { s with statuses := s.statuses ++ [(status, engine)], at_ := at_ }

/-- `_wait_while_remote_active`, from the check of the condition, `engine_runner.py:123-127`, and l.68-71. -/
def check (s : Runners) : Runners :=
  if s.clients.remoteActive then
    { s with clients := { s.clients with waiter := some false }, at_ := .waiting }
  else
    { s with clients := { s.clients with waiter := none }, restart := false }.announce .starting false .starting

/-- `_close` up to the first await, `engine_runner.py:103-107`. -/
def close (s : Runners) (last : Bool) : Runners :=
  { s with engine := s.engine.map fun _ => false, clients := { s.clients with waiter := none } }.announce .stopping false
    (.closing .stopping last)

/-- The engine runner notices that its engine is closed or a restart is requested, `engine_runner.py:84-93`. -/
def notice (s : Runners) : Runners :=
  if s.engine = some true then
    if s.restart then s.close false else s
  else s.close true

/-- An await is finished, `engine_runner.py:70-93,103-117`. -/
def done (s : Runners) : Runners :=
  match s.at_ with
  | .starting => { s with at_ := .creating }
  | .creating => { s with engine := some true }.announce .operational true .operational
  | .operational => { s with at_ := .running }
  | .running => s.notice
  | .closing .stopping last => { s with at_ := .closing (if s.engine.isSome then .engine else .flush) last }
  | .closing .engine last => { s with at_ := .closing .flush last }
  | .closing .flush last => s.announce .standby false (.closing .standby last)
  | .closing .standby true => { s with at_ := .ended }
  | .closing .standby false => s.check
  | _ => s

/-- An exception or cancelling goes to the last `_close`, which can not be cancelled, `engine_runner.py:95-101`; an exception in it ends the task. -/
def abort (s : Runners) (raised : Bool) : Runners :=
  match s.at_ with
  | .spawned => if raised then s else { s with at_ := .ended }
  | .ended => s
  | .closing _ true => if raised then { s with at_ := .ended } else s
  | _ => s.close true

/-- Effect of an action. -/
def step (s : Runners) : RunnerAct → Runners
  | .client a => { s with clients := s.clients.step a }
  | .start => if s.at_ = .spawned then s.check else s
  | .wake => if s.at_ = .waiting ∧ s.clients.waiter = some true then s.check else s
  | .done => s.done
  | .engineCloses => { s with engine := s.engine.map fun _ => false }
  | .restart => { s with restart := true }
  | .raise_ => s.abort true
  | .cancel => s.abort false

/-- A history. -/
def run (s : Runners) (acts : List RunnerAct) : Runners := acts.foldl step s

/-- A new engine runner. -/
def init (group : String) (token : Option String) : Runners := { clients := .init group token }

end Runners
end HatEvent
