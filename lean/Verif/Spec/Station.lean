import Verif.Model.Station
import Verif.Spec.Lmdb
import Verif.Props.ReadWrites

/-!
# Specification of an event server with its clients
-/

namespace HatEvent.Spec

/-- The clock was not set back: of the events of the server that were registered, those of this process do not have earlier timestamps than
those before them, and not earlier ones than can be stored.  `pre` is what happened to the database before the process, `past` what happened
up to now. -/
structure ClockForward (server : Int) (pre past : List BackendOp) : Prop where
  sorted : (offeredBy server past).Pairwise fun a b => b ∈ offeredBy server (past.drop pre.length) → TimeLe a.timestamp b.timestamp
  valid : ∀ e ∈ offeredBy server (past.drop pre.length), TimeLe minTimestamp e.timestamp

/-- The types of a latest query that are asked for. -/
def AskedFor (types : Option (List EventType)) (t : EventType) : Prop := ∀ l, types = some l → MatchesAny l t

/-- The types of a latest query can be used: they are well formed, and the C implementation gets no null characters. -/
def Usable (conf : Conf) (types : Option (List EventType)) : Prop :=
  ∀ l, types = some l → (∀ q ∈ l, WellFormed q) ∧ (conf.useC = true → ∀ q ∈ l, NulFree q)

/-- An event is what a register event became: `server/engine.py:208-216`. -/
def MadeFrom (server : Int) (e : Event) (r : RegisterEvent) : Prop :=
  e.id.server = server ∧ e.type = r.type ∧ e.sourceTimestamp = r.sourceTimestamp ∧ e.payload = r.payload

end HatEvent.Spec
