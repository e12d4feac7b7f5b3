import Verif.Proof.Engine
import Verif.Proof.Event

/-!
# Identifiers and calls of the engine
-/

namespace HatEvent
open Spec

/-! ### Identifiers -/

/-- Identifiers of created events increase. -/
structure Ids (last : EventId) (s : Engine) : Prop where
  le : IdLe last s.lastId
  created : ∀ e ∈ s.created, IdLt last e.id ∧ IdLe e.id s.lastId
  sorted : s.created.Pairwise fun a b => IdLt a.id b.id
  server : s.lastId.server = last.server
  servers : ∀ e ∈ s.created, e.id.server = last.server

theorem Ids.congr {last : EventId} {s s' : Engine} (h : Ids last s) (h1 : s'.lastId = s.lastId)
    (h2 : s'.created = s.created) : Ids last s' :=
  ⟨by rw [h1]; exact h.le, by rw [h1, h2]; exact h.created, by rw [h2]; exact h.sorted,
    by rw [h1]; exact h.server, by rw [h2]; exact h.servers⟩

theorem Ids.session {last : EventId} {s : Engine} (h : Ids last s) : Ids last s.createSession := by
  have hl : IdLt s.lastId s.createSession.lastId := by
    simp [IdLt, Engine.createSession]
  exact ⟨.inl (h.le.trans_lt hl), fun e he => ⟨(h.created e he).1, .inl ((h.created e he).2.trans_lt hl)⟩, h.sorted,
    h.server, h.servers⟩

theorem Ids.event {last : EventId} {s : Engine} (h : Ids last s) (ts : Timestamp) (r : RegisterEvent) :
    Ids last (s.createEvent ts r).1 := by
  have hl : IdLt s.lastId (s.createEvent ts r).1.lastId := by
    simp [IdLt, Engine.createEvent]
  refine ⟨.inl (h.le.trans_lt hl), ?_, ?_, h.server, ?_⟩
  · intro e he
    simp only [Engine.createEvent, List.mem_append, List.mem_singleton] at he
    rcases he with he | rfl
    · exact ⟨(h.created e he).1, .inl ((h.created e he).2.trans_lt hl)⟩
    · exact ⟨h.le.trans_lt hl, .inr rfl⟩
  · simp only [Engine.createEvent]
    rw [List.pairwise_append]
    refine ⟨h.sorted, by simp, ?_⟩
    intro a ha b hb
    obtain rfl := List.mem_singleton.1 hb
    exact (h.created a ha).2.trans_lt hl
  · intro e he
    simp only [Engine.createEvent, List.mem_append, List.mem_singleton] at he
    rcases he with he | rfl
    · exact h.servers e he
    · exact h.server

theorem Ids.events {last : EventId} {s : Engine} (h : Ids last s) (ts : Timestamp) (l : List RegisterEvent) :
    Ids last (s.createEvents ts l).1 := by
  induction l generalizing s with
  | nil => exact h
  | cons r l ih => exact ih (h.event ts r)

theorem Ids.finalize {last : EventId} {s : Engine} (h : Ids last s) (now : Timestamp) :
    Ids last (s.finalize now) := by
  obtain ⟨h1, _⟩ := resolveAll_core s (s.phase.current.toList ++ s.queue) .closed
  unfold Engine.finalize
  simp only
  have h2 : Ids last (resolveAll s (s.phase.current.toList ++ s.queue) .closed) := h.congr h1.lastId h1.created
  have h3 : Ids last { resolveAll s (s.phase.current.toList ++ s.queue) .closed with
      queue := [], queueClosed := true, phase := .finishing } := h2.congr rfl rfl
  exact (h3.session.event now _).congr rfl rfl

theorem Ids.processed {last : EventId} {s : Engine} (h : Ids last s) (r : EngineRequest) (ts : Timestamp)
    (events : List Event) (c : Nat × Source × Event) (pending : List (Nat × Source × Event))
    (outputs : List (Source × Event)) (outs : List RegisterEvent) :
    Ids last (s.processed r ts events c pending outputs outs) := by
  unfold Engine.processed
  simp only
  have h1 : Ids last { s with
    seen := s.seen ++ [c]
    made := s.made ++ outs.map fun o => (s.lastId.session, moduleSource c.1, o) } := h.congr rfl rfl
  exact (h1.events ts outs).congr rfl rfl

theorem ids_step {last : EventId} {s : Engine} (h : Ids last s) (a : EngineAct) : Ids last (s.step a) := by
  cases a with
  | spawn => simp only [Engine.step]; split <;> exact h.congr rfl rfl
  | register source events =>
    simp only [Engine.step, Engine.register]
    have h0 : Ids last { s with requests := s.requests ++ [(source, events)] } := h.congr rfl rfl
    split
    · exact h0.congr (resolve_core _ _ _).1.lastId (resolve_core _ _ _).1.created
    · exact h0.congr (put_core _ _).1.lastId (put_core _ _).1.created
  | wake i =>
    simp only [Engine.step, Engine.wake]
    split
    · exact h
    · have h0 : Ids last { s with putters := s.putters.eraseIdx i } := h.congr rfl rfl
      exact h0.congr (put_core _ _).1.lastId (put_core _ _).1.created
  | cancel i =>
    simp only [Engine.step, Engine.cancel]
    split
    · exact h.congr (resolve_core s _ _).1.lastId (resolve_core s _ _).1.created
    · exact h
  | take now =>
    simp only [Engine.step, Engine.take]
    split
    · exact h.session.congr rfl rfl
    · exact h
  | told => simp only [Engine.step, Engine.told]; split <;> exact h.congr rfl rfl
  | processed outs =>
    simp only [Engine.step, Engine.processedAct]
    split
    · exact h.processed _ _ _ _ _ _ _
    · exact h
  | next =>
    simp only [Engine.step, Engine.next]
    split
    · exact (h.events _ _).congr rfl rfl
    · exact h.congr rfl rfl
    · exact h.congr rfl rfl
    · exact h.congr rfl rfl
    · exact h
  | registered reply now =>
    simp only [Engine.step, Engine.registered]
    split
    · split
      · exact h.finalize now
      · exact h.congr (resolve_core s _ _).1.lastId (resolve_core s _ _).1.created
      · exact h.congr (resolve_core s _ _).1.lastId (resolve_core s _ _).1.created
    · exact h.congr rfl rfl
    · exact h
  | raise outs now =>
    simp only [Engine.step, Engine.raise]
    split
    · exact h.finalize now
    · exact (h.processed _ _ _ _ _ _ _).finalize now
    · exact h.finalize now
    · exact h
  | close now =>
    simp only [Engine.step, Engine.close]
    split
    · exact h.congr rfl rfl
    · exact h.congr rfl rfl
    · exact h
    · exact h.finalize now
  | finished => simp only [Engine.step]; split <;> exact h.congr rfl rfl

theorem ids_run (conf : EngineConf) (last : EventId) (acts : List EngineAct) :
    Ids last ((Engine.create conf last).run acts) := by
  induction acts using List.reverseRecOn with
  | nil => exact ⟨.inr rfl, by simp [Engine.run, Engine.create], by simp [Engine.run, Engine.create], rfl,
      by simp [Engine.run, Engine.create]⟩
  | append_singleton acts a ih => rw [engine_snoc]; exact ids_step ih a

/-! ### Registered events are created events -/

/-- Events of the session in progress. -/
def EnginePhase.events : EnginePhase → List Event
  | .processing _ _ events _ _ => events
  | .stopping _ events _ => events
  | _ => []

/-- Events passed to the backend, and those of the current session, in the order of creation. -/
def Listed (s : Engine) : Prop := (s.sent.flatten ++ s.phase.events).Sublist s.created

theorem Listed.finalize {s : Engine} (h : Listed s) (now : Timestamp) : Listed (s.finalize now) := by
  obtain ⟨h1, h2, h3, h4, _⟩ := resolveAll_core s (s.phase.current.toList ++ s.queue) .closed
  unfold Engine.finalize Listed
  simp only
  rw [show ((s.phase.current.toList ++ s.queue).foldl (fun s r => s.resolve r.future .closed) s) =
    resolveAll s (s.phase.current.toList ++ s.queue) .closed from rfl]
  generalize resolveAll s (s.phase.current.toList ++ s.queue) .closed = s1 at *
  simp only [Engine.createSession, Engine.createEvent, EnginePhase.events, List.append_nil, h1.sent, h1.created,
    List.flatten_append, List.flatten_cons, List.flatten_nil]
  exact ((List.sublist_append_left _ _).trans h).append (List.Sublist.refl _)

theorem Listed.processed {s : Engine} {r : EngineRequest} {ts : Timestamp}
    {events : List Event} {c : Nat × Source × Event} {pending : List (Nat × Source × Event)}
    {outputs : List (Source × Event)} (outs : List RegisterEvent) (h : Listed s)
    (hp : s.phase = .processing r ts events (c :: pending) outputs) :
    Listed (s.processed r ts events c pending outputs outs) := by
  unfold Listed at h ⊢
  rw [hp] at h
  simp only [Engine.processed, createEvents_eq, EnginePhase.events] at h ⊢
  rw [← List.append_assoc]
  exact h.append (List.Sublist.refl _)

theorem Listed.congr {s s' : Engine} (h : Listed s) (h1 : s'.sent = s.sent) (h2 : s'.created = s.created)
    (h3 : s'.phase.events.Sublist s.phase.events) : Listed s' := by
  unfold Listed
  rw [h1, h2]
  exact ((List.Sublist.refl _).append h3).trans h

theorem listed_step {s : Engine} (h : Listed s) (a : EngineAct) : Listed (s.step a) := by
  cases a with
  | spawn =>
    simp only [Engine.step]; split
    · exact h.congr rfl rfl (by simp [EnginePhase.events])
    · exact h
  | register source events =>
    simp only [Engine.step, Engine.register]
    have h0 : Listed { s with requests := s.requests ++ [(source, events)] } := h
    split
    · refine h0.congr (resolve_core _ _ _).1.sent (resolve_core _ _ _).1.created ?_
      rw [(resolve_core _ _ _).2.2.2.1]
      exact .refl _
    · refine h0.congr (put_core _ _).1.sent (put_core _ _).1.created ?_
      rw [(put_core _ _).2.1]
      exact .refl _
  | wake i =>
    simp only [Engine.step, Engine.wake]
    split
    · exact h
    · have h0 : Listed { s with putters := s.putters.eraseIdx i } := h
      refine h0.congr (put_core _ _).1.sent (put_core _ _).1.created ?_
      rw [(put_core _ _).2.1]
      exact .refl _
  | cancel i =>
    simp only [Engine.step, Engine.cancel]
    split
    · refine h.congr (resolve_core s _ _).1.sent (resolve_core s _ _).1.created ?_
      simp only [(resolve_core s _ _).2.2.2.1]
      exact .refl _
    · exact h
  | take now =>
    simp only [Engine.step, Engine.take]
    split
    · exact h.congr rfl rfl (by simp [EnginePhase.events])
    · exact h
  | told =>
    simp only [Engine.step, Engine.told]
    generalize hp : s.phase = p
    split
    · exact h.congr rfl rfl (by simp [EnginePhase.events])
    · exact h.congr rfl rfl (by rw [hp]; exact .refl _)
    · exact h
  | processed outs =>
    simp only [Engine.step, Engine.processedAct]
    split
    · next hp => exact h.processed _ hp
    · exact h
  | next =>
    simp only [Engine.step, Engine.next]
    have h' := h
    unfold Listed at h'
    split
    · next hp =>
      rw [hp] at h'
      simp only [EnginePhase.events, List.append_nil] at h'
      unfold Listed
      simp only [createEvents_eq, EnginePhase.events]
      exact h'.append (List.Sublist.refl _)
    · next hp => exact h.congr rfl rfl (by rw [hp]; exact .refl _)
    · next hp => exact h.congr rfl rfl (by rw [hp]; exact .refl _)
    · next hp =>
      rw [hp] at h'
      unfold Listed
      simp only [EnginePhase.events, List.append_nil, List.flatten_append, List.flatten_cons, List.flatten_nil] at h' ⊢
      exact h'
    · exact h
  | registered reply now =>
    simp only [Engine.step, Engine.registered]
    split
    · split
      · exact h.finalize now
      · exact h.congr (resolve_core s _ _).1.sent (resolve_core s _ _).1.created (by simp [EnginePhase.events])
      · exact h.congr (resolve_core s _ _).1.sent (resolve_core s _ _).1.created (by simp [EnginePhase.events])
    · exact h.congr rfl rfl (by simp [EnginePhase.events])
    · exact h
  | raise outs now =>
    simp only [Engine.step, Engine.raise]
    split
    · exact h.finalize now
    · next hp => exact (h.processed _ hp).finalize now
    · exact h.finalize now
    · exact h
  | close now =>
    simp only [Engine.step, Engine.close]
    split
    · exact h.congr rfl rfl (by simp [EnginePhase.events])
    · exact h.congr rfl rfl (by simp [EnginePhase.events])
    · exact h
    · exact h.finalize now
  | finished =>
    simp only [Engine.step]; split
    · exact h.congr rfl rfl (by simp [EnginePhase.events])
    · exact h

theorem listed_run (conf : EngineConf) (last : EventId) (acts : List EngineAct) :
    Listed ((Engine.create conf last).run acts) := by
  induction acts using List.reverseRecOn with
  | nil => simp [Listed, Engine.run, Engine.create, EnginePhase.events]
  | append_singleton acts a ih => rw [engine_snoc]; exact listed_step ih a

/-! ### Calls -/

/-- Requests that are not finished. -/
def Engine.open_ (s : Engine) : List EngineRequest := s.phase.current.toList ++ s.queue ++ s.putters

/-- Calls of `register` and their outcomes; `F` are the requests that are not finished. -/
structure Calls (s : Engine) (F : List EngineRequest) : Prop where
  once : (s.outcomes.map Prod.fst).Nodup
  all : ∀ i < s.requests.length, (∃ o, (i, o) ∈ s.outcomes) ∨ ∃ r ∈ F, r.future = some i
  content : ∀ r ∈ F, ∀ i, r.future = some i → s.requests[i]? = some (r.source, r.events)
  known : ∀ i o, (i, o) ∈ s.outcomes → i < s.requests.length
  closed : ∀ i, (i, EngineOutcome.closed) ∈ s.outcomes → s.queueClosed = true
  result : ∀ i l, (i, EngineOutcome.result (some l)) ∈ s.outcomes → ∃ src es, s.requests[i]? = some (src, es) ∧
    ((es = [] ∧ l = []) ∨ ∃ (k : Nat) (whole : List Event), s.sent[k]? = some whole ∧
      s.accepted[k]? = some ⟨some i, src, es⟩ ∧ l = whole.take es.length ∧
        ∃ server session timestamp more, whole = numbered server session timestamp 0 (es ++ more))

theorem mem_fst_outcomes {s : Engine} {i : Nat} : i ∈ s.outcomes.map Prod.fst ↔ ∃ o, (i, o) ∈ s.outcomes := by
  simp

theorem resolve_cases (s : Engine) (f : Option Nat) (o : EngineOutcome) :
    (s.resolve f o = s ∧ ∀ i, f = some i → ∃ o', (i, o') ∈ s.outcomes) ∨
    ∃ i, f = some i ∧ i ∉ s.outcomes.map Prod.fst ∧ s.resolve f o = { s with outcomes := s.outcomes ++ [(i, o)] } := by
  unfold Engine.resolve
  cases f with
  | none => exact .inl ⟨rfl, by simp⟩
  | some f =>
    simp only
    by_cases h : f ∈ s.outcomes.map Prod.fst
    · left
      rw [if_pos (show s.isDone f = true by simpa [Engine.isDone] using h)]
      refine ⟨rfl, ?_⟩
      rintro i ⟨⟩
      exact mem_fst_outcomes.1 h
    · right
      rw [if_neg (show ¬ s.isDone f = true by simpa [Engine.isDone] using h)]
      exact ⟨f, rfl, h, rfl⟩

theorem Calls.resolve {s : Engine} {F : List EngineRequest} (h : Calls s F) (f : Option Nat) (o : EngineOutcome)
    (hk : ∀ i, f = some i → i < s.requests.length) (hc : o = .closed → s.queueClosed = true)
    (hr : ∀ i l, f = some i → o = .result (some l) → ∃ src es, s.requests[i]? = some (src, es) ∧
      ((es = [] ∧ l = []) ∨ ∃ (k : Nat) (whole : List Event), s.sent[k]? = some whole ∧
        s.accepted[k]? = some ⟨some i, src, es⟩ ∧ l = whole.take es.length ∧
        ∃ server session timestamp more, whole = numbered server session timestamp 0 (es ++ more))) :
    Calls (s.resolve f o) F := by
  rcases resolve_cases s f o with ⟨h1, _⟩ | ⟨i, h1, h2, h3⟩
  · rw [h1]; exact h
  · rw [h3]
    refine ⟨?_, ?_, h.content, ?_, ?_, ?_⟩
    · rw [List.map_append, List.nodup_append]
      refine ⟨h.once, by simp, ?_⟩
      rintro a ha b hb rfl
      simp only [List.map_cons, List.map_nil, List.mem_singleton] at hb
      exact h2 (hb ▸ ha)
    · intro j hj
      rcases h.all j hj with ⟨o', ho⟩ | hh
      · exact .inl ⟨o', List.mem_append_left _ ho⟩
      · exact .inr hh
    · intro j o' ho
      rcases List.mem_append.1 ho with ho | ho
      · exact h.known j o' ho
      · simp only [List.mem_singleton, Prod.mk.injEq] at ho
        rw [ho.1]; exact hk i h1
    · intro j ho
      rcases List.mem_append.1 ho with ho | ho
      · exact h.closed j ho
      · simp only [List.mem_singleton, Prod.mk.injEq] at ho
        exact hc ho.2.symm
    · intro j l ho
      rcases List.mem_append.1 ho with ho | ho
      · exact h.result j l ho
      · simp only [List.mem_singleton, Prod.mk.injEq] at ho
        obtain ⟨hj, ho⟩ := ho
        rw [hj]
        exact hr i l h1 ho.symm

theorem resolve_done {s : Engine} (f : Option Nat) (o : EngineOutcome) {i : Nat} (h : f = some i) :
    ∃ o', (i, o') ∈ (s.resolve f o).outcomes := by
  rcases resolve_cases s f o with ⟨h1, h2⟩ | ⟨j, h1, h2, h3⟩
  · rw [h1]; exact h2 i h
  · rw [h3]
    rw [h1] at h
    cases h
    exact ⟨o, by simp⟩

theorem resolve_keeps {s : Engine} (f : Option Nat) (o : EngineOutcome) {i : Nat} {o' : EngineOutcome}
    (h : (i, o') ∈ s.outcomes) : (i, o') ∈ (s.resolve f o).outcomes := by
  rcases resolve_cases s f o with ⟨h1, _⟩ | ⟨j, h1, h2, h3⟩
  · rw [h1]; exact h
  · rw [h3]; exact List.mem_append_left _ h

theorem Calls.drop {s : Engine} {F F' : List EngineRequest} (h : Calls s F)
    (h1 : ∀ r ∈ F, r ∈ F' ∨ ∀ i, r.future = some i → ∃ o, (i, o) ∈ s.outcomes) (h2 : ∀ r ∈ F', r ∈ F) :
    Calls s F' := by
  refine ⟨h.once, ?_, fun r hr => h.content r (h2 r hr), h.known, h.closed, h.result⟩
  intro i hi
  rcases h.all i hi with h3 | ⟨r, h3, h4⟩
  · exact .inl h3
  · rcases h1 r h3 with h5 | h5
    · exact .inr ⟨r, h5, h4⟩
    · exact .inl (h5 i h4)

theorem Calls.same {s : Engine} {F F' : List EngineRequest} (h : Calls s F) (h1 : ∀ r, r ∈ F' ↔ r ∈ F) :
    Calls s F' := h.drop (fun r hr => .inl ((h1 r).2 hr)) fun r hr => (h1 r).1 hr

theorem prefix_get {l l' : List α} (h : l <+: l') {k : Nat} {x : α} (hk : l[k]? = some x) : l'[k]? = some x := by
  obtain ⟨t, rfl⟩ := h
  rw [List.getElem?_append_left (List.getElem?_eq_some_iff.1 hk).1, hk]

theorem Calls.congr {s s' : Engine} {F : List EngineRequest} (h : Calls s F) (h1 : s'.outcomes = s.outcomes)
    (h2 : s'.requests = s.requests) (h3 : s.queueClosed = true → s'.queueClosed = true) (h4 : s.sent <+: s'.sent)
    (h5 : s.accepted <+: s'.accepted) : Calls s' F := by
  refine ⟨by rw [h1]; exact h.once, by rw [h1, h2]; exact h.all, by rw [h2]; exact h.content,
    by rw [h1, h2]; exact h.known, by rw [h1]; exact fun i hi => h3 (h.closed i hi), ?_⟩
  rw [h1, h2]
  intro i l hl
  obtain ⟨src, es, g1, g2⟩ := h.result i l hl
  refine ⟨src, es, g1, ?_⟩
  rcases g2 with g2 | ⟨k, w, g2, g3, g4⟩
  · exact .inl g2
  · exact .inr ⟨k, w, prefix_get h4 g2, prefix_get h5 g3, g4⟩

/-- A new call. -/
theorem Calls.add {s : Engine} {F : List EngineRequest} (h : Calls s F) (src : Source) (es : List RegisterEvent) :
    Calls { s with requests := s.requests ++ [(src, es)] } (⟨some s.requests.length, src, es⟩ :: F) := by
  refine ⟨h.once, ?_, ?_, ?_, h.closed, ?_⟩
  · intro i hi
    simp only [List.length_append, List.length_singleton] at hi
    by_cases hi' : i < s.requests.length
    · rcases h.all i hi' with h1 | ⟨r, h1, h2⟩
      · exact .inl h1
      · exact .inr ⟨r, by simp [h1], h2⟩
    · right
      exact ⟨_, List.mem_cons_self, by simp; omega⟩
  · intro r hr i hi
    rcases List.mem_cons.1 hr with rfl | hr
    · simp only [Option.some.injEq] at hi
      subst hi
      simp
    · exact prefix_get (List.prefix_append _ _) (h.content r hr i hi)
  · intro i o ho
    have := h.known i o ho
    simp only [List.length_append, List.length_singleton]; omega
  · intro i l hl
    obtain ⟨src', es', g1, g2⟩ := h.result i l hl
    exact ⟨src', es', prefix_get (List.prefix_append _ _) g1, g2⟩

theorem Calls.put {s : Engine} {r : EngineRequest} (h : Calls s (r :: s.open_)) : Calls (s.put r) (s.put r).open_ := by
  unfold Engine.put
  have hk : ∀ i, r.future = some i → i < s.requests.length := fun i hi =>
    (List.getElem?_eq_some_iff.1 (h.content r (by simp) i hi)).1
  split
  · next hc =>
    obtain ⟨h1, h2, h3, h4, h5, h6⟩ := resolve_core s r.future .closed
    have := h.resolve r.future .closed hk (fun _ => hc) (by simp)
    refine this.drop ?_ ?_
    · intro r' hr'
      rcases List.mem_cons.1 hr' with rfl | hr'
      · exact .inr fun i hi => resolve_done _ _ hi
      · left; unfold Engine.open_ at *; rw [h2, h4, h5]; exact hr'
    · intro r' hr'
      right; unfold Engine.open_ at *; rw [h2, h4, h5] at hr'; exact hr'
  · split
    · refine (h.congr (s' := { s with queue := s.queue ++ [r], accepted := s.accepted ++ [r] }) rfl rfl (fun x => x)
        List.prefix_rfl (List.prefix_append _ _)).same ?_
      intro r'
      simp only [Engine.open_, List.mem_append, List.mem_cons, List.not_mem_nil, or_false]
      tauto
    · refine (h.congr (s' := { s with putters := s.putters ++ [r] }) rfl rfl (fun x => x)
        List.prefix_rfl List.prefix_rfl).same ?_
      intro r'
      simp only [Engine.open_, List.mem_append, List.mem_cons, List.not_mem_nil, or_false]
      tauto

theorem Calls.resolveAll {s : Engine} {F : List EngineRequest} (h : Calls s F) (l : List EngineRequest)
    (hl : ∀ r ∈ l, r ∈ F) (hc : s.queueClosed = true) : Calls (resolveAll s l .closed) F ∧
      (∀ r ∈ l, ∀ i, r.future = some i → ∃ o, (i, o) ∈ (HatEvent.resolveAll s l .closed).outcomes) ∧
      ∀ x ∈ s.outcomes, x ∈ (HatEvent.resolveAll s l .closed).outcomes := by
  induction l generalizing s with
  | nil => exact ⟨h, by simp, fun x hx => hx⟩
  | cons r l ih =>
    have hk : ∀ i, r.future = some i → i < s.requests.length := fun i hi =>
      (List.getElem?_eq_some_iff.1 (h.content r (hl r (by simp)) i hi)).1
    have h1 := h.resolve r.future .closed hk (fun _ => hc) (by simp)
    obtain ⟨g1, g2, g3⟩ := ih h1 (fun r' hr' => hl r' (by simp [hr'])) (by rw [(resolve_core _ _ _).1.queueClosed]; exact hc)
    refine ⟨g1, ?_, fun x hx => g3 x (resolve_keeps _ _ hx)⟩
    intro r' hr' i hi
    rcases List.mem_cons.1 hr' with rfl | hr'
    · obtain ⟨o, ho⟩ := resolve_done (s := s) r'.future .closed hi
      exact ⟨o, g3 _ ho⟩
    · exact g2 r' hr' i hi

theorem resolveAll_closedFlag (s : Engine) (l : List EngineRequest) :
    { resolveAll s l .closed with queueClosed := true } = resolveAll { s with queueClosed := true } l .closed := by
  induction l generalizing s with
  | nil => rfl
  | cons r l ih =>
    have : { s.resolve r.future .closed with queueClosed := true } =
        Engine.resolve { s with queueClosed := true } r.future .closed := by
      unfold Engine.resolve
      split
      · rfl
      · next f _ =>
        have : Engine.isDone { s with queueClosed := true } f = s.isDone f := rfl
        rw [this]
        split <;> rfl
    show { resolveAll (s.resolve r.future .closed) l .closed with queueClosed := true } = _
    rw [ih, this]
    rfl

theorem Calls.finalize {s : Engine} (h : Calls s s.open_) (now : Timestamp) :
    Calls (s.finalize now) (s.finalize now).open_ := by
  have hq : Calls { s with queueClosed := true } s.open_ :=
    h.congr rfl rfl (fun _ => rfl) List.prefix_rfl List.prefix_rfl
  obtain ⟨h1, h2, h3⟩ := hq.resolveAll (s.phase.current.toList ++ s.queue)
    (fun r hr => by unfold Engine.open_; exact List.mem_append_left _ hr) rfl
  rw [← resolveAll_closedFlag] at h1 h2 h3
  obtain ⟨c1, c2, c3, c4, c5, c6⟩ := resolveAll_core s (s.phase.current.toList ++ s.queue) .closed
  unfold Engine.finalize
  simp only
  rw [show ((s.phase.current.toList ++ s.queue).foldl (fun s r => s.resolve r.future .closed) s) =
    HatEvent.resolveAll s (s.phase.current.toList ++ s.queue) .closed from rfl]
  generalize HatEvent.resolveAll s (s.phase.current.toList ++ s.queue) .closed = s1 at *
  have h4 : Calls { s1 with queueClosed := true } s.putters := by
    refine h1.drop ?_ ?_
    · intro r hr
      unfold Engine.open_ at hr
      rcases List.mem_append.1 hr with hr | hr
      · exact .inr (h2 r hr)
      · exact .inl hr
    · intro r hr
      unfold Engine.open_
      exact List.mem_append_right _ hr
  have h5 : Calls _ s.putters := h4.congr (s' := { ({ s1 with
      queue := [], queueClosed := true, phase := .finishing } : Engine).createSession.createEvent now
        (statusRegEvent s1.conf.serverId "STOPPED") |>.1 with
      sent := s1.sent ++ [[(({ s1 with
      queue := [], queueClosed := true, phase := .finishing } : Engine).createSession.createEvent now
        (statusRegEvent s1.conf.serverId "STOPPED")).2]] })
    rfl rfl (fun _ => rfl) (List.prefix_append _ _) List.prefix_rfl
  refine h5.same ?_
  intro r
  simp only [Engine.open_, Engine.createSession, Engine.createEvent, EnginePhase.current, c5]
  simp

theorem Calls.processed {s : Engine} {F : List EngineRequest} (h : Calls s F) (r : EngineRequest) (ts : Timestamp)
    (events : List Event) (c : Nat × Source × Event) (pending : List (Nat × Source × Event))
    (outputs : List (Source × Event)) (outs : List RegisterEvent) :
    Calls (s.processed r ts events c pending outputs outs) F := by
  unfold Engine.processed
  simp only [createEvents_eq]
  exact h.congr rfl rfl (fun x => x) List.prefix_rfl List.prefix_rfl

theorem calls_step' {last : EventId} {s : Engine} (h : Calls s s.open_) (hp : PhaseOk last s s.phase) (a : EngineAct) :
    Calls (s.step a) (s.step a).open_ := by
  cases a with
  | spawn =>
    simp only [Engine.step]
    split
    · next hq =>
      refine Calls.same (h.congr rfl rfl (fun x => x) List.prefix_rfl List.prefix_rfl) ?_
      intro r; simp [Engine.open_, hq, EnginePhase.current]
    · exact h
  | register source events =>
    simp only [Engine.step, Engine.register]
    have h0 := h.add source events
    split
    · have h1 := h0.resolve (some s.requests.length) (.result (some [])) (by simp) (by simp) (by
        rintro i l ⟨⟩ ho
        simp only [EngineOutcome.result.injEq, Option.some.injEq] at ho
        exact ⟨source, [], by simp, .inl ⟨rfl, ho.symm⟩⟩)
      obtain ⟨_, c2, _, c4, c5, _⟩ := resolve_core { s with requests := s.requests ++ [(source, ([] : List RegisterEvent))] }
        (some s.requests.length) (.result (some []))
      refine h1.drop ?_ ?_
      · intro r hr
        rcases List.mem_cons.1 hr with rfl | hr
        · exact .inr fun i hi => resolve_done _ _ hi
        · left; unfold Engine.open_ at *; rw [c2, c4, c5]; exact hr
      · intro r hr
        right; unfold Engine.open_ at *; rw [c2, c4, c5] at hr; exact hr
    · exact Calls.put h0
  | wake i =>
    simp only [Engine.step, Engine.wake]
    split
    · exact h
    · next r hr =>
      have hm : ∀ x, x ∈ s.putters ↔ x = r ∨ x ∈ s.putters.eraseIdx i := by
        intro x
        obtain ⟨hi, hr'⟩ := List.getElem?_eq_some_iff.1 hr
        constructor
        · intro hx
          obtain ⟨j, hj, rfl⟩ := List.getElem_of_mem hx
          by_cases hij : j = i
          · subst hij; exact .inl hr'
          · exact .inr (List.mem_eraseIdx_iff_getElem.2 ⟨j, hj, hij, rfl⟩)
        · rintro (rfl | hx)
          · rw [← hr']; exact List.getElem_mem hi
          · exact List.mem_of_mem_eraseIdx hx
      refine Calls.put ((h.congr (s' := { s with putters := s.putters.eraseIdx i }) rfl rfl (fun x => x)
        List.prefix_rfl List.prefix_rfl).same ?_)
      intro x
      simp only [Engine.open_, List.mem_append, List.mem_cons, hm]
      tauto
  | cancel i =>
    simp only [Engine.step, Engine.cancel]
    split
    · next hi =>
      have h1 := h.resolve (some i) .cancelled (by rintro j ⟨⟩; exact hi) (by simp) (by simp)
      obtain ⟨_, c2, _, c4, c5, _⟩ := resolve_core s (some i) .cancelled
      refine (h1.drop (F' := s.phase.current.toList ++ s.queue ++ s.putters.filter fun r => r.future ≠ some i)
        ?_ ?_).congr (s' := { s.resolve (some i) .cancelled with
          putters := s.putters.filter fun r => r.future ≠ some i }) rfl rfl (fun x => x) List.prefix_rfl List.prefix_rfl
        |>.same ?_
      · intro r hr
        by_cases hri : r.future = some i
        · right
          intro j hj
          exact resolve_done _ _ (hri ▸ hj)
        · left
          simp only [Engine.open_, List.mem_append, List.mem_filter, decide_not, Bool.not_eq_true',
            decide_eq_false_iff_not] at hr ⊢
          tauto
      · intro r hr
        simp only [Engine.open_, List.mem_append, List.mem_filter] at hr ⊢
        tauto
      · intro r
        simp only [Engine.open_, c2, c4]
    · exact h
  | take now =>
    simp only [Engine.step, Engine.take]
    split
    · next r q hq1 hq2 =>
      refine Calls.same (h.congr rfl rfl (fun x => x) List.prefix_rfl List.prefix_rfl) ?_
      intro x
      simp [Engine.open_, hq1, hq2, EnginePhase.current, Engine.createSession]
    · exact h
  | told =>
    simp only [Engine.step, Engine.told]
    split
    · next hq =>
      refine Calls.same (h.congr rfl rfl (fun x => x) List.prefix_rfl List.prefix_rfl) ?_
      intro x; simp [Engine.open_, hq, EnginePhase.current]
    · next hq =>
      refine Calls.same (h.congr rfl rfl (fun x => x) List.prefix_rfl List.prefix_rfl) ?_
      intro x; simp [Engine.open_, hq, EnginePhase.current]
    · exact h
  | processed outs =>
    simp only [Engine.step, Engine.processedAct]
    split
    · next hq =>
      refine (h.processed _ _ _ _ _ _ _).same ?_
      intro x
      simp only [Engine.open_, hq, Engine.processed, createEvents_eq, EnginePhase.current]
    · exact h
  | next =>
    simp only [Engine.step, Engine.next]
    split
    · next hq =>
      simp only [createEvents_eq]
      refine Calls.same (h.congr rfl rfl (fun x => x) List.prefix_rfl List.prefix_rfl) ?_
      intro x; simp [Engine.open_, hq, EnginePhase.current]
    · next hq =>
      refine Calls.same (h.congr rfl rfl (fun x => x) List.prefix_rfl List.prefix_rfl) ?_
      intro x; simp [Engine.open_, hq, EnginePhase.current]
    · next hq =>
      refine Calls.same (h.congr rfl rfl (fun x => x) List.prefix_rfl List.prefix_rfl) ?_
      intro x; simp [Engine.open_, hq, EnginePhase.current]
    · next hq =>
      refine Calls.same (h.congr rfl rfl (fun x => x) (List.prefix_append _ _) List.prefix_rfl) ?_
      intro x; simp [Engine.open_, hq, EnginePhase.current]
    · exact h
  | registered reply now =>
    simp only [Engine.step, Engine.registered]
    split
    · next r events hq =>
      rw [hq] at hp
      obtain ⟨n, hn, ha, hs⟩ := hp
      have hro : r ∈ s.open_ := by simp [Engine.open_, hq, EnginePhase.current]
      have hk : ∀ i, r.future = some i → i < s.requests.length := fun i hi =>
        (List.getElem?_eq_some_iff.1 (h.content r hro i hi)).1
      have fin : ∀ o, Calls (s.resolve r.future o) s.open_ →
          Calls { s.resolve r.future o with phase := .idle }
            ({ s.resolve r.future o with phase := .idle } : Engine).open_ := by
        intro o ho
        obtain ⟨_, c2, _, c4, c5, _⟩ := resolve_core s r.future o
        refine Calls.same (F := s.queue ++ s.putters) ((ho.drop (F' := s.queue ++ s.putters) ?_ ?_).congr rfl rfl
          (fun x => x) List.prefix_rfl List.prefix_rfl) ?_
        · intro x hx
          simp only [Engine.open_, hq, EnginePhase.current, List.mem_append, Option.toList_some,
            List.mem_singleton] at hx ⊢
          rcases hx with (rfl | hx) | hx
          · exact .inr fun i hi => resolve_done _ _ hi
          · exact .inl (.inl hx)
          · exact .inl (.inr hx)
        · intro x hx
          simp only [Engine.open_, List.mem_append] at hx ⊢
          tauto
        · intro x
          simp [Engine.open_, EnginePhase.current, c2, c5]
      split
      · exact h.finalize now
      · exact fin _ (h.resolve _ _ hk (by simp) (by simp))
      · refine fin _ (h.resolve _ _ hk (by simp) ?_)
        intro i l hi ho
        simp only [EngineOutcome.result.injEq, Option.some.injEq] at ho
        refine ⟨r.source, r.events, h.content r hro i hi, .inr ⟨n, events, hs, ?_, ?_, ?_⟩⟩
        · rw [ha, ← hi]
        · rw [← ho]
          clear * -
          generalize r.events = l
          induction events generalizing l with
          | nil => simp
          | cons e es ih => cases l with
            | nil => simp
            | cons x l => simp [ih]
        · obtain ⟨r', hr', hw⟩ := hn.sent.whole n events hs
          rw [ha] at hr'
          cases hr'
          obtain ⟨ts, hc⟩ := hw.content
          exact ⟨_, _, ts, _, by rw [hc, sourced, List.map_append, List.map_map]; congr 2; simp [Function.comp_def]⟩
    · next hq =>
      refine Calls.same (h.congr rfl rfl (fun x => x) List.prefix_rfl List.prefix_rfl) ?_
      intro x; simp [Engine.open_, hq, EnginePhase.current]
    · exact h
  | raise outs now =>
    simp only [Engine.step, Engine.raise]
    split
    · exact h.finalize now
    · next hq =>
      refine Calls.finalize ?_ now
      refine (h.processed _ _ _ _ _ _ _).same ?_
      intro x
      simp only [Engine.open_, hq, Engine.processed, createEvents_eq, EnginePhase.current]
    · exact h.finalize now
    · exact h
  | close now =>
    simp only [Engine.step, Engine.close]
    split
    · next hq =>
      refine Calls.same (h.congr rfl rfl (fun x => x) List.prefix_rfl List.prefix_rfl) ?_
      intro x; simp [Engine.open_, hq, EnginePhase.current]
    · next hq =>
      refine Calls.same (h.congr rfl rfl (fun x => x) List.prefix_rfl List.prefix_rfl) ?_
      intro x; simp [Engine.open_, hq, EnginePhase.current]
    · exact h
    · exact h.finalize now
  | finished =>
    simp only [Engine.step]
    split
    · next hq =>
      refine Calls.same (h.congr rfl rfl (fun x => x) List.prefix_rfl List.prefix_rfl) ?_
      intro x; simp [Engine.open_, hq, EnginePhase.current]
    · exact h

theorem calls_run (conf : EngineConf) (last : EventId) (acts : List EngineAct) :
    Calls ((Engine.create conf last).run acts) ((Engine.create conf last).run acts).open_ := by
  induction acts using List.reverseRecOn with
  | nil =>
    refine ⟨?_, ?_, ?_, ?_, ?_, ?_⟩ <;> simp [Engine.run, Engine.create, Engine.open_, EnginePhase.current]
  | append_singleton acts a ih => rw [engine_snoc]; exact calls_step' ih (phase_run conf last acts) a

end HatEvent
