import Verif.Model.Event

/-!
# Adminer client

Models `adminer/client.py` after `connect` has returned, as a machine.  Between two actions the real code awaits.  The conversation of a request is its number.

* A closed connection raises `ConnectionError` on `send_msg`.
* Encoding and decoding of JSON (l.63,68) is not modelled.
* The task of the receive loop is cancelled when the client is closed; a task that has not started then never runs (`aio.Group.spawn`, l.34).
-/

namespace HatEvent

/-- The two requests and their responses, `adminer/client.py:56-69`. -/
inductive AdminKind where
  | getLogConf
  | setLogConf
  deriving DecidableEq

/-- A message of the server: conversation, type, `none` for an error, `adminer/client.py:95-111`. -/
structure AdminMsg where
  conv : Nat
  kind : AdminKind
  data : Option Json

/-- How a request ends: the data of the response, `AdminerError`, `ConnectionError`, cancelled. -/
inductive AdminEnd where
  | success (data : Json)
  | adminerError
  | connectionError
  | cancelled

/-- Where a request is: in `send_msg` (`adminer/client.py:72-76`), waiting for its future (l.81-85), its future is done but
it was not resumed, finished. -/
inductive AdminPhase where
  | absent
  | sending (kind : AdminKind)
  | waiting (kind : AdminKind)
  | resolved (result : AdminEnd)
  | finished (result : AdminEnd)

/-- `Client`, `adminer/client.py:28-32`.  `started` and `ended` tell that the receive loop has started and ended. -/
structure AdminClient where
  isOpen : Bool := true
  started : Bool := true
  ended : Bool := false
  next : Nat := 0
  calls : Nat → AdminPhase := fun _ => .absent

/-- What may happen. -/
inductive AdminAct where
  | start
  | request (kind : AdminKind)
  | sendDone (call : Nat)
  | resume (call : Nat)
  | cancel (call : Nat)
  | receive (msg : AdminMsg)
  | close
  | stop

namespace AdminClient

/-- A request moves on. -/
def setCall (s : AdminClient) (k : Nat) (p : AdminPhase) : AdminClient :=
  { s with calls := fun i => if i = k then p else s.calls i }

/-- A pending future fails, `adminer/client.py:123-125`. -/
def failCall : AdminPhase → AdminPhase
  | .waiting _ => .resolved .connectionError
  | p => p

/-- End of the receive loop, `adminer/client.py:113-125`. -/
def endLoop (s : AdminClient) : AdminClient :=
  { s with isOpen := false, ended := true, calls := fun k => failCall (s.calls k) }

/-- `_send` up to the first await, `adminer/client.py:71-76`. -/
def request (s : AdminClient) (kind : AdminKind) : AdminClient :=
  { s.setCall s.next (if s.isOpen then .sending kind else .finished .connectionError) with next := s.next + 1 }

/-- `send_msg` returns, `adminer/client.py:78-85`. -/
def sendDone (s : AdminClient) (k : Nat) : AdminClient :=
  match s.calls k with
  | .sending kind => s.setCall k (if s.isOpen then .waiting kind else .finished .connectionError)
  | _ => s

/-- A request goes on after its future is done, `adminer/client.py:85-88`. -/
def resume (s : AdminClient) (k : Nat) : AdminClient :=
  match s.calls k with
  | .resolved result => s.setCall k (.finished result)
  | _ => s

/-- The task of a request is cancelled, `adminer/client.py:84-88`. -/
def cancel (s : AdminClient) (k : Nat) : AdminClient :=
  match s.calls k with
  | .absent => s
  | .finished _ => s
  | _ => s.setCall k (.finished .cancelled)

/-- Result of a response, `adminer/client.py:107-111`. -/
def result : Option Json → AdminEnd
  | some data => .success data
  | none => .adminerError

/-- A message is received, `adminer/client.py:95-111`.  Without a pending future the loop returns (l.101-102). -/
def receive (s : AdminClient) (msg : AdminMsg) : AdminClient :=
  if s.ended || !s.started then s
  else
    match s.calls msg.conv with
    | .waiting kind => if kind = msg.kind then s.setCall msg.conv (.resolved (result msg.data)) else s.endLoop
    | _ => s.endLoop

/-- The receive loop starts, `adminer/client.py:34,91-93`. -/
def start (s : AdminClient) : AdminClient := if s.isOpen then { s with started := true } else s

/-- The receive loop of a closed client stops, `adminer/client.py:95,113-125`. -/
def stop (s : AdminClient) : AdminClient :=
  if s.isOpen then s else if s.ended || !s.started then s else s.endLoop

/-- Effect of an action.  `close` is closing of the client or of its connection. -/
def step (s : AdminClient) : AdminAct → AdminClient
  | .start => s.start
  | .request kind => s.request kind
  | .sendDone k => s.sendDone k
  | .resume k => s.resume k
  | .cancel k => s.cancel k
  | .receive msg => s.receive msg
  | .close => { s with isOpen := false }
  | .stop => s.stop

/-- A history. -/
def run (s : AdminClient) (acts : List AdminAct) : AdminClient := acts.foldl step s

/-- The end of `connect`, `adminer/client.py:28-40`. -/
def connected : AdminClient := { started := false }

end AdminClient
end HatEvent
