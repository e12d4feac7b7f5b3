import Verif.Proof.LmdbRange
import Verif.Props.LmdbLatest
import Verif.Props.Sbs

/-!
# C53: registering cannot stop the backend
-/

namespace HatEvent
open Spec

/-- C53 if all events can be stored: identifiers and timestamps (source
timestamps included) of registered events have a byte representation and fewer
than 2^64 events are offered.  Any flush of an open backend then succeeds: the
backend stays open, in any history of registrations, flushes, queries, cleanups
and restarts with any configurations.

Missing for the full claim: source timestamps outside the byte representation,
for which it is false (`C53_refuted`).  The size limit of the LMDB environment
and errors of the operating system are not modelled. -/
theorem C53_partial (conf : Conf) (ops : List BackendOp) (hl : LookupLaws ops) (hs : StorableOps ops)
    (hn : offered ops < 2 ^ 64) (ho : ((Backend.new conf).run ops).mem ≠ none) :
    ((Backend.new conf).run (ops ++ [.flush])).mem ≠ none :=
  flush_open conf ops hl hs hn ho

/-- C53 does not hold: clients choose source timestamps and the wire format
transfers any of them, but one that has no byte representation makes the flush
fail, which closes the backend. -/
theorem C53_refuted :
    ¬ ∀ (jc : JsonCodec) (conf : Conf) (ops : List BackendOp) (es : List Event), LookupLaws ops →
      StorableOps ops → offered (ops ++ [.register es]) < 2 ^ 64 →
      (∀ e ∈ es, IdRange e.id ∧ TimeRange e.timestamp ∧
        registerEventFromSbs jc (registerEventToSbs jc ⟨e.type, e.sourceTimestamp, e.payload⟩) =
          .ok ⟨e.type, e.sourceTimestamp, e.payload⟩) →
      ((Backend.new conf).run ops).mem ≠ none →
      ((Backend.new conf).run (ops ++ [.register es] ++ [.flush])).mem ≠ none := by
  intro h
  refine h ⟨fun _ => "", fun _ => .error (.valueError "")⟩ (exConf none [])
    [.reopen (exConf none exPartitions)] [exE 1 1 1 ["a"] 1 (some (2 ^ 63))] ?_ ?_ (by decide) ?_ ?_ (by rfl)
  · intro c hc
    simp only [List.mem_singleton, BackendOp.reopen.injEq] at hc
    rw [hc]; exact exConf_lookup _ _
  · refine ⟨by simp, by simp⟩
  · intro e he
    rw [List.mem_singleton.1 he]
    refine ⟨?_, ?_, (C14_register_event _ _ ?_).1⟩
    · simp [exE, IdRange, U64]
    · simp [exE, TimeRange]
    · intro d hd; simp [exE] at hd
  · have : ((Backend.new (exConf none [])).run [.reopen (exConf none exPartitions)]).mem.isSome = true := by rfl
    intro h
    rw [h] at this
    exact absurd this (by decide)

/-- C53, other pending events: they are lost with it.  An event registered
before is not found after the backend is opened again, although it would have
been without the bad one. -/
theorem C53_loss_refuted :
    ¬ ∀ (conf c : Conf) (good bad : Event), LookupLaw c → Storable good →
      IdRange bad.id → TimeRange bad.timestamp →
      ((Backend.new conf).run [.reopen c, .register [good], .flush, .reopen c]).query (.latest none) =
        .ok ⟨[good], false⟩ →
      ((Backend.new conf).run [.reopen c, .register [good], .register [bad], .flush, .reopen c]).query
        (.latest none) ≠ .ok ⟨[], false⟩ := by
  intro h
  refine h (exConf none []) (exConf none exPartitions) (exE 1 1 1 ["a"] 1 (some 1))
    (exE 1 2 1 ["a"] 2 (some (2 ^ 63))) (exConf_lookup _ _) ?_ ?_ ?_ (by rfl) (by rfl)
  · simp [exE, Storable, IdRange, U64, TimeRange]
  · simp [exE, IdRange, U64]
  · simp [exE, TimeRange]

/-! ## Example -/

theorem exHistory_storable : StorableOps exHistory := by
  refine ⟨?_, ?_⟩
  · intro es hes e he
    simp only [exHistory, List.mem_cons, BackendOp.register.injEq, reduceCtorEq, List.not_mem_nil, or_false,
      false_or] at hes
    rcases hes with rfl | rfl <;>
    · simp only [List.mem_cons, List.not_mem_nil, or_false] at he
      rcases he with rfl | rfl | rfl <;> simp [exE, Storable, IdRange, U64, TimeRange]
  · intro p hp
    simp [exHistory] at hp

example : ((Backend.new (exConf none [])).run (exHistory ++ [.flush])).mem ≠ none :=
  C53_partial (exConf none []) exHistory exHistory_laws exHistory_storable (by decide) exBackend_open

end HatEvent
