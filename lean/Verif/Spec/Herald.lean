import Verif.Model.Herald
import Verif.Spec.RelayLive

/-!
# Event servers that go on with their flush loop
-/

namespace HatEvent.Spec

/-- The event server with its clients and flush loop after the beginning of an endless schedule. -/
def heraldAt (cf : StationConf) (past : List BackendOp) (acts : Nat → HeraldAct) (n : Nat) : Herald :=
  (Herald.init cf past).run cf (upTo acts n)

/-- What happens to the event server and its clients in an action (`Model/Relay.lean`); nothing is `.tell` of an engine that there is not. -/
def heraldDoes (s : Herald) : HeraldAct → RelayAct
  | .relay (.station (.host (.notify _ true _))) => .tell s.relay.station.engines.length
  | .relay (.station (.keep .flush)) => if s.written.isEmpty && s.free then .station (.keep .flush) else .tell s.relay.station.engines.length
  | .relay act => act
  | .announce =>
    match s.written with
    | [] => .tell s.relay.station.engines.length
    | events :: _ => if s.free then .station (.host (.notify events true false)) else .tell s.relay.station.engines.length

/-- What happens to the event server and its clients in an endless schedule. -/
def heraldActs (cf : StationConf) (past : List BackendOp) (acts : Nat → HeraldAct) (n : Nat) : RelayAct :=
  heraldDoes (heraldAt cf past acts n) (acts n)

/-- Lists of events that wait for a flush. -/
def heraldWaits (cf : StationConf) (s : Herald) : List (List Event) :=
  match (s.backend cf).mem with
  | some m => m.registered
  | none => []

/-- The flush loop goes on: as long as lists wait for a flush the backend is flushed again, and as long as lists are to be announced the callback is called
again. -/
structure HeraldGoesOn (cf : StationConf) (past : List BackendOp) (acts : Nat → HeraldAct) : Prop where
  flush : ∀ n, ∃ m, n ≤ m ∧ (acts m = .relay (.station (.keep .flush)) ∨ heraldWaits cf (heraldAt cf past acts m) = [])
  announce : ∀ n, ∃ m, n ≤ m ∧ (acts m = .announce ∨ (heraldAt cf past acts m).written = [])

end HatEvent.Spec
