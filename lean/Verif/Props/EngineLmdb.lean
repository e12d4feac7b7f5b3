import Verif.Props.Engine
import Verif.Props.LmdbRecovery
import Verif.Props.LmdbLatest

/-!
# C50: event ids across engine runs on one database
-/

namespace HatEvent
open Spec

/-- The calls of `Backend.register` made by an engine so far. -/
def Spec.calls (s : Engine) : List BackendOp := s.sent.map .register

/-- **C50** for events that were stored (missing: those that were not, see `C50_refuted` and
`C50_crash_refuted`): an event created by an engine has an id different from those of all events any query on
the database returned when the engine was created. -/
theorem C50_stored_partial (conf : Conf) (ops : List BackendOp) (hl : LookupLaws ops)
    (p : QueryParams) (r : QueryResult) (hr : ((Backend.new conf).run ops).query p = .ok r)
    (old : Event) (ho : old ∈ r.events)
    (econf : EngineConf) (last : EventId)
    (hlast : ((Backend.new conf).run ops).getLastEventId econf.serverId = .ok last) (acts : List EngineAct)
    (new : Event) (hn : new ∈ ((Engine.create econf last).run acts).created) (hs : last.server = econf.serverId) :
    new.id.server = econf.serverId ∧ new.id ≠ old.id ∧ (old.id.server = econf.serverId → IdLt old.id new.id) := by
  have hnew := (C18_increasing econf last acts).2 new hn
  have hsrv : new.id.server = econf.serverId := by
    rw [← hs]; exact (ids_run econf last acts).servers new hn
  have key : old.id.server = econf.serverId → IdLt old.id new.id := by
    intro h
    obtain ⟨_, _, l, h1, h2⟩ := C23_forward conf ops hl p p r r hr hr old old ho ho
    rw [h, hlast] at h1
    cases h1
    exact h2.trans_lt hnew
  refine ⟨hsrv, ?_, key⟩
  intro heq
  have := key (by rw [← heq, hsrv])
  exact this.ne heq.symm

/-- **C50** for runs whose last event was stored (missing: see `C50_refuted` and `C50_crash_refuted`): if the last event
an engine created can be found in the database, all ids of an engine created later on that database
are greater than all ids of the first one. -/
theorem C50_runs_partial (conf : Conf) (ops : List BackendOp) (hl : LookupLaws ops)
    (econf econf' : EngineConf) (hsame : econf'.serverId = econf.serverId)
    (first : EventId) (hf : first.server = econf.serverId) (acts acts' : List EngineAct) (final : Event)
    (hfinal : ((Engine.create econf first).run acts).created.getLast? = some final)
    (p : QueryParams) (r : QueryResult) (hr : ((Backend.new conf).run ops).query p = .ok r) (ho : final ∈ r.events)
    (last : EventId) (hlast : ((Backend.new conf).run ops).getLastEventId econf'.serverId = .ok last)
    (a b : Event) (ha : a ∈ ((Engine.create econf first).run acts).created)
    (hb : b ∈ ((Engine.create econf' last).run acts').created) : IdLt a.id b.id := by
  have hfin := List.mem_of_getLast? hfinal
  have hsrv : final.id.server = econf'.serverId := by
    rw [hsame, ← hf]; exact (ids_run econf first acts).servers final hfin
  obtain ⟨_, _, l, h1, h2⟩ := C23_forward conf ops hl p p r r hr hr final final ho ho
  rw [hsrv, hlast] at h1
  cases h1
  have h3 := (C18_increasing econf' last acts').2 b hb
  have h4 : IdLe a.id final.id := by
    obtain ⟨pre, hpre⟩ := List.getLast?_eq_some_iff.1 hfinal
    have hsorted := (C18_increasing econf first acts).1
    rw [hpre] at ha hsorted
    rcases List.mem_append.1 ha with h | h
    · exact .inl ((List.pairwise_append.1 hsorted).2.2 a h final (by simp))
    · rw [List.mem_singleton.1 h]; exact .inr rfl
  exact (h4.trans h2).trans_lt h3

/-- Everything is stored. -/
def exKeep : Conf := { exConf none [] with latestSub := .py (.mk false [("*", .mk true [])]) }

/-- An engine run on a new database and a flush. -/
def exRan : Engine := (Engine.create exEngineConf ⟨7, 0, 0⟩).run (exFirst ++ [.close (exAt 5)])

example : ∃ e r, exRan.created.getLast? = some e ∧
    ((Backend.new exKeep).run ([.reopen exKeep] ++ calls exRan ++ [.flush, .reopen exKeep])).query (.latest none) = .ok r ∧
    e ∈ r.events ∧
    ((Backend.new exKeep).run ([.reopen exKeep] ++ calls exRan ++ [.flush, .reopen exKeep])).getLastEventId 7 =
      .ok ⟨7, 2, 1⟩ :=
  ⟨_, _, rfl, rfl, List.mem_cons_self, rfl⟩

/-- **C50 does not hold**: an engine whose events are not of interest to the database (its configuration selects
other event types) is started, stopped and started again, with a flush between; both runs use the same ids for
different events. -/
theorem C50_refuted : ∃ (conf : Conf) (econf : EngineConf) (acts acts' : List EngineAct) (first last : EventId),
    let start := (Backend.new conf).run [.reopen conf]
    let s := (Engine.create econf first).run acts
    let later := start.run (calls s ++ [.flush, .reopen conf])
    let s' := (Engine.create econf last).run acts'
    start.getLastEventId econf.serverId = .ok first ∧ s.phase = .closed ∧
      later.getLastEventId econf.serverId = .ok last ∧
      ∃ a ∈ s.sent.flatten, ∃ b ∈ s'.sent.flatten, a.id = b.id ∧ a.type ≠ b.type := by
  refine ⟨exConf none [], exEngineConf,
    exFirst ++ [.close (exAt 5), .finished],
    exFirst ++ [.register ⟨.eventer, 3⟩ [⟨["b"], none, none⟩], .take (exAt 2), .told, .told, .next, .processed [],
      .next, .told, .told, .next], ⟨7, 0, 0⟩, ⟨7, 0, 0⟩, rfl, rfl, rfl, ?_⟩
  refine ⟨⟨⟨7, 2, 1⟩, ["event", "7", "engine"], exAt 5, none, some (.json (.str "STOPPED"))⟩, ?_,
    ⟨⟨7, 2, 1⟩, ["b"], exAt 2, none, none⟩, ?_, rfl, by decide⟩
  · exact List.mem_flatten.2 ⟨_, List.mem_of_getElem? (i := 1) rfl, List.mem_cons_self⟩
  · exact List.mem_flatten.2 ⟨_, List.mem_of_getElem? (i := 1) rfl, List.mem_cons_self⟩

/-- **C50 does not hold**: a request is answered with registered events, then the process ends before they are flushed;
the next engine uses their ids for other events, although the database keeps all events. -/
theorem C50_crash_refuted : ∃ (conf : Conf) (econf : EngineConf) (acts acts' : List EngineAct) (first last : EventId),
    let start := (Backend.new conf).run [.reopen conf]
    let s := (Engine.create econf first).run acts
    let later := start.run (calls s ++ [.reopen conf])
    let s' := (Engine.create econf last).run acts'
    (∀ e, Visible conf e) ∧ start.getLastEventId econf.serverId = .ok first ∧
      later.getLastEventId econf.serverId = .ok last ∧
      ∃ l, (0, .result (some l)) ∈ s.outcomes ∧ ∃ a ∈ l, ∃ b ∈ s'.sent.flatten, a.id = b.id ∧ a.type ≠ b.type := by
  refine ⟨exKeep, exEngineConf, exFirst ++ exRequest, exFirst ++ [.close (exAt 5)], ⟨7, 0, 0⟩, ⟨7, 0, 0⟩, ?_, rfl, rfl, ?_⟩
  · intro e
    exact ⟨rfl, by show nodeMatches e.type _ = true; cases e.type <;> rfl⟩
  refine ⟨_, List.mem_of_getElem? (i := 0) rfl, ⟨⟨7, 2, 1⟩, ["a"], exAt 2, none, none⟩, List.mem_cons_self,
    ⟨⟨7, 2, 1⟩, ["event", "7", "engine"], exAt 5, none, some (.json (.str "STOPPED"))⟩, ?_, rfl, by decide⟩
  exact List.mem_flatten.2 ⟨_, List.mem_of_getElem? (i := 1) rfl, List.mem_cons_self⟩

end HatEvent
