import Verif.Model.CompClient

/-! # What is expected of connections and runners of a component -/

namespace HatEvent

/-- What must have happened before an entry: connections follow one another, each begins after the clients of all previous ones were closed; a runner is made at
most once for a connection, while its client is not closed; it is closed at most once; a client is closed at most once. -/
def CompEntry.Fits (pre : List CompEntry) : CompEntry → Prop
  | .connected k => .connected k ∉ pre ∧ ∀ j, .connected j ∈ pre → .clientClosed j ∈ pre
  | .runnerMade k => .connected k ∈ pre ∧ .clientClosed k ∉ pre ∧ .runnerMade k ∉ pre
  | .runnerClosed k => .runnerMade k ∈ pre ∧ .clientClosed k ∉ pre ∧ .runnerClosed k ∉ pre
  | .clientClosed k => .connected k ∈ pre ∧ .clientClosed k ∉ pre

end HatEvent
