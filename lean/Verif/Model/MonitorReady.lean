/-!
# Readiness told to the monitor

Models the loop of `MainRunner._run` of a server with a monitor component, `server/main_runner.py:56-69,199-208`.  Between two actions the real code awaits.

* `set_ready` of the monitor component is an await that returns at any time; what was told is recorded when it is called.
* The state of the monitor component is reduced to whether its info has a token in `blessing_res` (no info counts as no token); it is changed before the
  callbacks of `_monitor_state_cbs` are called (`_on_monitor_state`, l.178-179).
* An exception of `set_ready`, cancelling and all other work of the main runner are in the model of its life (`Model/MainRunner.lean`).
-/

namespace HatEvent

/-- Where the loop is, `server/main_runner.py:56-69`: in `set_ready(True)` (l.56 and 69), waiting for a request (l.60), in `set_ready(False)` (l.62), waiting for the
end of the token (l.65-67). -/
inductive ReadyAt where
  | telling
  | idle
  | retracting
  | draining
  deriving DecidableEq

/-- The loop, `server/main_runner.py:38,56-69`.  `flag` is `_reset_monitor_ready`, `woken` the event of l.206, `told` the arguments of `set_ready`. -/
structure Readiness where
  at_ : ReadyAt
  flag : Bool
  token : Bool
  woken : Bool := false
  told : List Bool
  deriving DecidableEq

/-- What may happen: a request (`reset_monitor_ready_cb`), a new state of the monitor component, `set_ready` returns, the loop notices the request, the loop notices
the event of l.206, the timeout of l.67. -/
inductive ReadyAct where
  | request
  | state (token : Bool)
  | told
  | notice
  | recheck
  | timeout
  deriving DecidableEq

namespace Readiness

/-- `set_ready(True)`, `server/main_runner.py:56,69`. -/
def tell (s : Readiness) : Readiness := { s with at_ := .telling, told := s.told ++ [true] }

/-- `_wait_while_monitor_blessing_res_token` up to the await, `server/main_runner.py:199-207`. -/
def drain (s : Readiness) : Readiness :=
  if s.token then { s with at_ := .draining, woken := false } else s.tell

/-- `set_ready` returned, `server/main_runner.py:58-60,64-67`. -/
def returned (s : Readiness) : Readiness :=
  match s.at_ with
  | .telling => { s with at_ := .idle, flag := false }
  | .retracting => s.drain
  | _ => s

/-- `set_ready(False)`, `server/main_runner.py:60,62`. -/
def retract (s : Readiness) : Readiness := { s with at_ := .retracting, told := s.told ++ [false] }

/-- Effect of an action, `server/main_runner.py:56-69,178-179,199-207`. -/
def step (s : Readiness) (a : ReadyAct) : Readiness :=
  match a with
  | .request => { s with flag := true }
  | .state token => { s with token := token, woken := true }
  | .told => s.returned
  | .notice => if s.at_ = .idle ∧ s.flag then s.retract else s
  | .recheck => if s.at_ = .draining ∧ s.woken then s.drain else s
  | .timeout => if s.at_ = .draining then s.tell else s

/-- A history of `server/main_runner.py:56-69`. -/
def run (s : Readiness) (acts : List ReadyAct) : Readiness := acts.foldl step s

/-- The loop at its first `set_ready(True)`; an engine runner may have been created and may have made a request before, `server/main_runner.py:56`. -/
def init (flag token : Bool) : Readiness := { at_ := .telling, flag := flag, token := token, told := [true] }

end Readiness
end HatEvent
