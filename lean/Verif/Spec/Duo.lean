import Verif.Model.Duo
import Verif.Spec.Lmdb
import Verif.Spec.Event

/-!
# Specification of a server and its standby
-/

namespace HatEvent.Spec

/-- The events of the calls of `register` so far, without those that were not flushed when the process ended. -/
def told (b : Backend) : List Event :=
  b.flushedCb.flatten ++ ((b.mem.map Mem.registered).getD []).flatten

/-- The events of a server. -/
def ofServer (server : Int) (l : List Event) : List Event := l.filter fun e => decide (e.id.server = server)

/-- Events of one server in order: ids increase, timestamps do not decrease. -/
structure Orderly (server : Int) (l : List Event) : Prop where
  sorted : l.Pairwise fun a b => IdLt a.id b.id ∧ TimeLe a.timestamp b.timestamp
  owner : ∀ e ∈ l, e.id.server = server
  pos : ∀ e ∈ l, IdLt ⟨server, 0, 0⟩ e.id ∧ TimeLe minTimestamp e.timestamp

/-- The servers are set up alike: all configurations show the same latest events, and the standby registers
events of the primary only when it receives them. -/
structure Alike (conf : Conf) (server : Int) (acts : List DuoAct) : Prop where
  primary : ∀ c, .primary (.reopen c) ∈ acts → LookupLaw c ∧ ∀ e, Visible c e ↔ Visible conf e
  standby : ∀ c, .standby (.reopen c) ∈ acts → LookupLaw c ∧ ∀ e, Visible c e ↔ Visible conf e
  receives : ∀ es, .standby (.register es) ∈ acts → ∀ e ∈ es, e.id.server ≠ server

/-- The primary registers its own events in order, at any time. -/
def InOrder (conf : Conf) (server : Int) (acts : List DuoAct) : Prop :=
  ∀ pre, pre <+: acts → Orderly server (ofServer server (told ((Duo.new conf server).run pre).primary))

end HatEvent.Spec
