import Verif.Spec.Lmdb

/-!
# Specification vocabulary for paging while the database changes
-/

namespace HatEvent
namespace Spec

/-- Event `a` is before event `b`: by timestamp, events with the same timestamp
by identifier. -/
def KeyBefore (o : OrderBy) (a b : Event) : Prop :=
  ∃ s t, orderTimestamp o a = some s ∧ orderTimestamp o b = some t ∧ (TimeLt s t ∨ s = t ∧ IdLt a.id b.id)

/-- The same in the order a query asks for. -/
def KeyOrder (params : QueryTimeseriesParams) (a b : Event) : Prop :=
  match params.order with
  | .ascending => KeyBefore params.orderBy a b
  | .descending => KeyBefore params.orderBy b a

/-- Events that are not flushed come after the events before them, also among
events with the same timestamp. -/
def PendingInKeyOrder (fl cur : Store) (o : OrderBy) : Prop :=
  ∀ pre p post, cur.log = pre ++ p :: post → fl.log.length ≤ pre.length →
    ∀ a ∈ pre, ∀ s t, orderTimestamp o a = some s → orderTimestamp o p = some t → TimeLt s t ∨ s = t ∧ IdLt a.id p.id

/-- Actions that neither open a backend nor clean up. -/
def OnlyGrows (ops : List BackendOp) : Prop :=
  ∀ op ∈ ops, (∀ c, op ≠ .reopen c) ∧ ∀ fl sizeEntries now, op ≠ .cleanup fl sizeEntries now

/-- Nothing was registered since the last flush or since the backend was opened. -/
def NothingPending (ops : List BackendOp) : Prop :=
  ∃ before op after, ops = before ++ op :: after ∧ (op = .flush ∨ ∃ c, op = .reopen c) ∧ ∀ es, .register es ∉ after

/-- The event is part of the answer to a query of a partition. -/
def InAnswer (conf : Conf) (st : Store) (partition : Int) (params : QueryTimeseriesParams) (e : Event) : Prop :=
  (∃ k, k.partition = partition ∧ st.entry k = some e) ∧ conf.conditions e = true ∧ TsMatches params e

/-- Repeating a query with the identifier of the last received event until
nothing follows, while other things happen: `query ops` answers after the
actions `ops`, the pages are asked for when `asked` holds.  `PagesDuring … ops i
more all`: the first query is after `ops`, `more` are the actions between the
first and the last one, `all` is everything received. -/
inductive PagesDuring (query : List BackendOp → Option EventId → Except PyErr QueryResult)
    (asked : List BackendOp → Prop) : List BackendOp → Option EventId → List BackendOp → List Event → Prop
  | last {ops i events} : asked ops → query ops i = .ok ⟨events, false⟩ → PagesDuring query asked ops i [] events
  | more {ops i events x between later rest} : asked ops → query ops i = .ok ⟨events, true⟩ →
      events.getLast? = some x → PagesDuring query asked (ops ++ between) (some x.id) later rest →
      PagesDuring query asked ops i (between ++ later) (events ++ rest)

end Spec
end HatEvent
