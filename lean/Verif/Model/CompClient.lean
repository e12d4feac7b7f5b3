/-!
# Client loops of a component

Models `_client_loop` of `component.py:226-284` and how client loops follow one another (`component.py:207-224`), as a machine.  Between two actions
the real code awaits.

* A client loop is spawned in its own subgroup, which is left only after the loop has ended (l.214-216); hat-monitor creates a monitor runner only after the
  previous one is closed.  So there is one client loop at a time.
* `eventer.connect` that is cancelled or fails closes its connection (`eventer/client.py:104-106`).
* The runner callback runs in a task of the client's group (l.251-252).  When that group is closed, the task is cancelled and the await in the client loop raises
  `CancelledError`, which no `except Exception` (l.278) catches.  A runner callback that does not end when it is cancelled is not modelled.
* The tasks waiting for closing (l.256-259) end as soon as what they wait for is closing.
* `async_close` does not raise.  An await in `aio.uncancellable` (l.271,274) is finished also when it is cancelled; cancelling is raised afterwards.
-/

namespace HatEvent

/-- What can be observed of `component.py:226-284`: connection number `k` was made, its runner was made, its runner was closed, its client was closed. -/
inductive CompEntry where
  | connected (k : Nat)
  | runnerMade (k : Nat)
  | runnerClosed (k : Nat)
  | clientClosed (k : Nat)
  deriving DecidableEq

/-- What follows the closing of runner and client: reconnecting (`component.py:276-277`), the end of the loop (l.269 or cancelled), closing of the component and the
end of the loop (l.279-281). -/
inductive CompNext where
  | again
  | stop
  | fail
  deriving DecidableEq

/-- Where `_client_loop` is, `component.py:226-284`: there is no loop, in `connect` (l.238-241), in `sleep` (l.246,277), runner callback running (l.251-252), runner callback
has returned and the loop was not resumed yet, waiting (l.261-263), closing the runner (l.271), closing the client (l.274). -/
inductive CompAt where
  | ended
  | connecting
  | sleeping
  | creating
  | created
  | running
  | closingRunner (next : CompNext)
  | closingClient (next : CompNext)
  deriving DecidableEq

/-- State of `component.py:207-284`.  `cancelled` tells whether the last loop was cancelled, `next` is the number of the next connection. -/
structure CompClient where
  place : CompAt := .ended
  cancelled : Bool := false
  compOpen : Bool := true
  next : Nat := 0
  clientOpen : Bool := false
  runnerOpen : Bool := false
  log : List CompEntry := []

/-- What may happen in `component.py:207-284`: a loop is spawned, `connect` returns or raises, `sleep` ends, the connection is lost, the runner callback returns or raises or ends because its
client is closed, the loop is resumed with the runner, the runner closes, the loop is resumed after waiting, `runner.async_close` and `client.async_close` return, the loop is
cancelled. -/
inductive CompClientAct where
  | start
  | connect
  | refuse
  | wake
  | lose
  | make
  | raise
  | interrupt
  | receive
  | runnerCloses
  | notice
  | runnerClosed
  | clientClosed
  | cancel
  deriving DecidableEq

namespace CompClient

/-- Number of the current connection (helper). -/
def cur (s : CompClient) : Nat := s.next - 1

/-- `_client_loop` is spawned, `component.py:215`. -/
def start (s : CompClient) : CompClient :=
  match s.place with
  | .ended => if s.compOpen then { s with place := .connecting, cancelled := false } else s
  | _ => s

/-- `connect` has returned, `component.py:238-252`. -/
def connect (s : CompClient) : CompClient :=
  match s.place with
  | .connecting =>
    { s with place := .creating, clientOpen := true, next := s.next + 1, log := s.log ++ [.connected s.next] }
  | _ => s

/-- `connect` has raised, `component.py:243-247`. -/
def refuse (s : CompClient) : CompClient :=
  match s.place with
  | .connecting => { s with place := .sleeping }
  | _ => s

/-- `sleep` has ended, `component.py:228,246,277`. -/
def wake (s : CompClient) : CompClient :=
  match s.place with
  | .sleeping => { s with place := .connecting }
  | _ => s

/-- The runner callback has returned, `component.py:252`. -/
def make (s : CompClient) : CompClient :=
  match s.place with
  | .creating =>
    if s.clientOpen then { s with place := .created, runnerOpen := true, log := s.log ++ [.runnerMade s.cur] } else s
  | _ => s

/-- The runner callback has raised, `component.py:251,279-281`. -/
def raise (s : CompClient) : CompClient :=
  match s.place with
  | .creating => if s.clientOpen then { s with place := .closingClient .fail } else s
  | _ => s

/-- The task of the runner callback was cancelled because the client is closing, `component.py:251,273-274`. -/
def interrupt (s : CompClient) : CompClient :=
  match s.place with
  | .creating => if s.clientOpen then s else { s with place := .closingClient .stop }
  | _ => s

/-- The loop is resumed with the runner, `component.py:251-263`. -/
def receive (s : CompClient) : CompClient :=
  match s.place with
  | .created => { s with place := .running }
  | _ => s

/-- The loop is resumed after waiting, `component.py:261-268`. -/
def notice (s : CompClient) : CompClient :=
  match s.place with
  | .running =>
    if s.clientOpen then
      if s.runnerOpen then s else { s with place := .closingRunner .stop, compOpen := false }
    else { s with place := .closingRunner .again }
  | _ => s

/-- `runner.async_close` has returned, `component.py:271`. -/
def runnerClosed (s : CompClient) : CompClient :=
  match s.place with
  | .closingRunner next =>
    { s with place := .closingClient next, runnerOpen := false, log := s.log ++ [.runnerClosed s.cur] }
  | _ => s

/-- Whether the loop goes on, `component.py:276-284`. -/
def afterClient : CompNext → CompAt
  | .again => .sleeping
  | .stop => .ended
  | .fail => .ended

/-- `client.async_close` has returned, `component.py:274-284`. -/
def clientClosed (s : CompClient) : CompClient :=
  match s.place with
  | .closingClient next =>
    { s with
      place := afterClient next
      clientOpen := false
      compOpen := s.compOpen && decide (next ≠ .fail)
      log := s.log ++ [.clientClosed s.cur] }
  | _ => s

/-- Where the loop is after it was cancelled, `component.py:226-284`.  A runner that was made and not yet received is lost (l.251). -/
def cancelPlace : CompAt → CompAt
  | .ended => .ended
  | .connecting => .ended
  | .sleeping => .ended
  | .creating => .closingClient .stop
  | .created => .closingClient .stop
  | .running => .closingRunner .stop
  | .closingRunner _ => .closingRunner .stop
  | .closingClient _ => .closingClient .stop

/-- Effect of an action, `component.py:207-284`. -/
def step (s : CompClient) : CompClientAct → CompClient
  | .start => s.start
  | .connect => s.connect
  | .refuse => s.refuse
  | .wake => s.wake
  | .lose => { s with clientOpen := false }
  | .make => s.make
  | .raise => s.raise
  | .interrupt => s.interrupt
  | .receive => s.receive
  | .runnerCloses => { s with runnerOpen := false }
  | .notice => s.notice
  | .runnerClosed => s.runnerClosed
  | .clientClosed => s.clientClosed
  | .cancel => { s with place := cancelPlace s.place, cancelled := true }

/-- A history of `component.py:207-284`. -/
def run (s : CompClient) (acts : List CompClientAct) : CompClient := acts.foldl step s

end CompClient
end HatEvent
