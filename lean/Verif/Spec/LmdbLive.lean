import Verif.Model.LmdbAsync
import Verif.Spec.Schedule

/-!
# Schedules that go on

An endless schedule of the event loop and the database thread, as a function of
time.
-/

namespace HatEvent.Spec

/-- The event loop and the database thread do not stop: again and again the flush
loop wakes up (a request, the end of the period or the cancellation), continues
after a flush, the thread does a job and the first query that can continue does. -/
structure Fair (acts : Nat → Act) : Prop where
  flush : ∀ n, ∃ m, n ≤ m ∧ acts m = .flush
  job : ∀ n, ∃ m, n ≤ m ∧ ∃ raise, acts m = .job raise
  notify : ∀ n, ∃ m, n ≤ m ∧ acts m = .notify
  finish : ∀ n, ∃ m, n ≤ m ∧ acts m = .finish 0

/-- What a call of `flush` in this state is recorded as: the number of `register`
calls before it. -/
def flushCall (s : Async) : Act → List Nat
  | .request => if s.isOpen then [s.calls.length] else []
  | _ => []

/-- The calls of `flush` in a schedule, while the backend is open. -/
def flushCalls (s : Async) : List Act → List Nat
  | [] => []
  | a :: r => flushCall s a ++ flushCalls (s.step a) r

/-- What a query in this state is recorded as: its parameters and the number of
`register` calls before it. -/
def queryCall (s : Async) : Act → List (QueryParams × Nat)
  | .query params => if s.isOpen then [(params, s.calls.length)] else []
  | _ => []

/-- The queries in a schedule, while the backend is open. -/
def queryCalls (s : Async) : List Act → List (QueryParams × Nat)
  | [] => []
  | a :: r => queryCall s a ++ queryCalls (s.step a) r

/-- The queries that have a result. -/
def answered (s : Async) : List (QueryParams × Nat) := s.results.map fun r => (r.1, r.2.1)

end HatEvent.Spec
