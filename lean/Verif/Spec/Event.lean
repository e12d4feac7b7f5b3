import Verif.Model.Event

/-!
# Specification: orders on timestamps, identifiers and events
-/

namespace HatEvent
namespace Spec

/-- Earlier timestamp. -/
def TimeLt (a b : Timestamp) : Prop := a.s < b.s ∨ (a.s = b.s ∧ a.us < b.us)

/-- Earlier or same timestamp. -/
def TimeLe (a b : Timestamp) : Prop := TimeLt a b ∨ a = b

/-- Smaller identifier: server, then session, then instance. -/
def IdLt (a b : EventId) : Prop :=
  a.server < b.server ∨
  (a.server = b.server ∧ (a.session < b.session ∨
    (a.session = b.session ∧ a.instance_ < b.instance_)))

/-- Smaller or same identifier. -/
def IdLe (a b : EventId) : Prop := IdLt a b ∨ a = b

/-- The documented natural order: events of one server by identifier, events
of different servers by timestamp. -/
def Newer (a b : Event) : Prop :=
  if a.id.server = b.id.server then IdLt b.id a.id else TimeLt b.timestamp a.timestamp

/-- In the set `S`, timestamps of a server do not decrease with identifiers
(and events with one identifier have one timestamp). -/
def Monotone (S : Event → Prop) : Prop :=
  ∀ a b, S a → S b → a.id.server = b.id.server → IdLe a.id b.id → TimeLe a.timestamp b.timestamp

end Spec
end HatEvent
