import Verif.Model.Monitor

/-!
# Component

Models the part of `component.py` that follows the active server, as a machine.  Between two actions the real code awaits.

* hat-monitor calls `_create_monitor_runner` when the component becomes active and closes the runner when it no longer is;
  there is at most one runner at a time.
* `state` is the state hat-monitor has; it calls `_on_state` for each state in order, possibly later (`pending`).
* hat-monitor does not call `_on_state` while the previous call waits for a free place in the queue (`putting`).
* A closed runner ends its loop and closes its queue at once.
* Closing of the whole component is not modelled; a failing runner or client loop closes it.
-/

namespace HatEvent

/-- Where `_server_data_loop` is, `component.py:207-224`: waiting without a server (l.211-212), client loop running (l.214-216), closing the client loop
with the next data (l.214), ended. -/
inductive DataLoop where
  | idle
  | serving (data : ServerData)
  | switching (old : ServerData) (next : Option ServerData)
  | ended

/-- `Component`, `component.py:94-106`.  `capacity` is `server_data_queue_size`, where 0 is without limit; `current` is `_server_data`, `queue` is
`_server_data_queue`, `none` if it was not created; `putting` is the data a call of `_on_state` waits to put (l.149);
`connects` are the servers connections were requested to. -/
structure Comp where
  serverGroup : String
  clientToken : Option String
  capacity : Nat
  state : MonitorState := ⟨none, []⟩
  pending : List MonitorState := []
  current : Option ServerData := none
  queue : Option (List (Option ServerData)) := none
  putting : Option (Option ServerData) := none
  loop : DataLoop := .ended
  connects : List ServerData := []

/-- What may happen: a new monitor state, the next call of `_on_state`, the end of its waiting, creation and closing of the runner, a step of the loop after `get_until_empty`, end
of the closing of a client loop, a connection attempt of the client loop. -/
inductive CompAct where
  | state (state : MonitorState)
  | onState
  | put
  | createRunner
  | closeRunner
  | get
  | closed
  | connect

namespace Comp

/-- The queue has no free place, `component.py:170`. -/
def full (s : Comp) (items : List (Option ServerData)) : Prop := 0 < s.capacity ∧ s.capacity ≤ items.length

instance (s : Comp) (items : List (Option ServerData)) : Decidable (s.full items) := inferInstanceAs (Decidable (_ ∧ _))

/-- `put` of the queue, `component.py:148-149`: a closed queue raises an exception, which is suppressed. -/
def offer (s : Comp) (data : Option ServerData) (items : List (Option ServerData)) : Comp :=
  match s.loop with
  | .ended => s
  | _ => if s.full items then { s with putting := some data } else { s with queue := some (items ++ [data]) }

/-- New active server data, `component.py:145-149`. -/
def follow (s : Comp) (data : Option ServerData) (items : List (Option ServerData)) : Comp :=
  if data ≠ s.current then { s with current := data }.offer data items else s

/-- `_on_state`, `component.py:141-149`. -/
def onState (s : Comp) : Comp :=
  if s.putting.isSome then s
  else
    match s.pending with
    | [] => s
    | state :: rest =>
      let s := { s with pending := rest }
      match s.queue with
      | none => s
      | some items => s.follow (activeServerData s.serverGroup s.clientToken state) items

/-- The data that waits is put, `component.py:149`. -/
def put (s : Comp) : Comp :=
  match s.putting, s.queue with
  | some data, some items => if s.full items then s else { s with queue := some (items ++ [data]), putting := none }
  | _, _ => s

/-- The queue at the beginning, `component.py:169-172`. -/
def firstItems (data : Option ServerData) : List (Option ServerData) := if data.isSome then [data] else []

/-- `_create_monitor_runner`, `component.py:166-177`. -/
def createRunner (s : Comp) : Comp :=
  match s.loop with
  | .ended =>
    { s with
      current := activeServerData s.serverGroup s.clientToken s.state
      queue := some (firstItems (activeServerData s.serverGroup s.clientToken s.state))
      loop := .idle }
  | _ => s

/-- The runner is closed: the loop ends and closes the queue, which ends waiting in `_on_state`, `component.py:148-149,222-224`. -/
def closeRunner (s : Comp) : Comp := { s with loop := .ended, putting := none }

/-- The head of the loop, `component.py:211-216`. -/
def enter (s : Comp) (data : Option ServerData) : Comp :=
  match data with
  | none => { s with loop := .idle }
  | some d =>
    match s.queue with
    | some (_ :: _) => { s with loop := .idle }
    | _ => { s with loop := .serving d }

/-- `get_until_empty` returns the last item, `component.py:212,216`. -/
def get (s : Comp) : Comp :=
  match s.queue with
  | none => s
  | some [] => s
  | some (x :: items) =>
    match s.loop with
    | .idle => { s with queue := some [] }.enter ((x :: items).getLast (by simp))
    | .serving old => { s with queue := some [], loop := .switching old ((x :: items).getLast (by simp)) }
    | _ => s

/-- The client loop has ended, `component.py:214-216`. -/
def closed (s : Comp) : Comp :=
  match s.loop with
  | .switching _ data => s.enter data
  | _ => s

/-- A connection attempt, `component.py:229-243`. -/
def connect (s : Comp) : Comp :=
  match s.loop with
  | .serving data => { s with connects := s.connects ++ [data] }
  | _ => s

/-- Effect of an action. -/
def step (s : Comp) : CompAct → Comp
  | .state state => { s with state := state, pending := s.pending ++ [state] }
  | .onState => s.onState
  | .put => s.put
  | .createRunner => s.createRunner
  | .closeRunner => s.closeRunner
  | .get => s.get
  | .closed => s.closed
  | .connect => s.connect

/-- A history. -/
def run (s : Comp) (acts : List CompAct) : Comp := acts.foldl step s

/-- `connect`, `component.py:58-117`. -/
def init (serverGroup : String) (clientToken : Option String) (capacity : Nat) : Comp :=
  { serverGroup := serverGroup, clientToken := clientToken, capacity := capacity }

end Comp
end HatEvent
