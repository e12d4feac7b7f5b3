import Verif.Proof.EngineCalls
import Verif.Spec.Plant

/-!
# Timestamps of the events of an engine
-/

namespace HatEvent
open Spec

/-- The timestamp of the session in progress, if it may have more events. -/
def EnginePhase.time : EnginePhase → Option Timestamp
  | .starting _ t _ => some t
  | .processing _ t _ _ _ => some t
  | _ => none

/-- Timestamps of created events do not decrease; `since` are the times read from the clock. -/
structure Times (since : List Timestamp) (s : Engine) : Prop where
  sorted : s.created.Pairwise fun a b => TimeLe a.timestamp b.timestamp
  within : ∀ e ∈ s.created, e.timestamp ∈ since
  session : ∀ t, s.phase.time = some t → t ∈ since ∧ ∀ e ∈ s.created, TimeLe e.timestamp t

theorem Times.congr {since : List Timestamp} {s s' : Engine} (h : Times since s) (h1 : s'.created = s.created)
    (h2 : ∀ t, s'.phase.time = some t → s.phase.time = some t) : Times since s' :=
  ⟨by rw [h1]; exact h.sorted, by rw [h1]; exact h.within, fun t ht => by rw [h1]; exact h.session t (h2 t ht)⟩

theorem Times.more {since : List Timestamp} {s : Engine} (h : Times since s) (l : List Timestamp) :
    Times (since ++ l) s :=
  ⟨h.sorted, fun e he => List.mem_append_left _ (h.within e he),
    fun t ht => ⟨List.mem_append_left _ (h.session t ht).1, (h.session t ht).2⟩⟩

/-- Events with a time that is not before the others are created. -/
theorem Times.add {since : List Timestamp} {s s' : Engine} (h : Times since s) {t : Timestamp} (ht : t ∈ since)
    (hle : ∀ e ∈ s.created, TimeLe e.timestamp t) {new : List Event} (hnew : ∀ e ∈ new, e.timestamp = t)
    (h1 : s'.created = s.created ++ new) (h2 : ∀ t', s'.phase.time = some t' → t' = t) : Times since s' := by
  refine ⟨?_, ?_, ?_⟩
  · rw [h1, List.pairwise_append]
    refine ⟨h.sorted, List.pairwise_iff_forall_sublist.2 fun {a b} hab => ?_, fun a ha b hb => ?_⟩
    · rw [hnew a (hab.subset (by simp)), hnew b (hab.subset (by simp))]; exact .refl
    · rw [hnew b hb]; exact hle a ha
  · intro e he
    rw [h1] at he
    rcases List.mem_append.1 he with he | he
    · exact h.within e he
    · rw [hnew e he]; exact ht
  · intro t' ht'
    obtain rfl := h2 t' ht'
    refine ⟨ht, fun e he => ?_⟩
    rw [h1] at he
    rcases List.mem_append.1 he with he | he
    · exact hle e he
    · rw [hnew e he]; exact .refl

theorem timestamp_numbered {server session : Int} {ts : Timestamp} {l : List RegisterEvent} {n : Int} {e : Event}
    (h : e ∈ numbered server session ts n l) : e.timestamp = ts := by
  induction l generalizing n with
  | nil => simp [numbered] at h
  | cons r l ih =>
    simp only [numbered, List.mem_cons] at h
    rcases h with rfl | h
    · rfl
    · exact ih h

theorem Times.processed {since : List Timestamp} {s : Engine} (h : Times since s) {r : EngineRequest} {ts : Timestamp}
    {events : List Event} {c : Nat × Source × Event} {pending : List (Nat × Source × Event)}
    {outputs : List (Source × Event)} (outs : List RegisterEvent)
    (hp : s.phase = .processing r ts events (c :: pending) outputs) :
    Times since (s.processed r ts events c pending outputs outs) := by
  have ht : s.phase.time = some ts := by rw [hp]; rfl
  refine h.add (h.session ts ht).1 (h.session ts ht).2
    (new := numbered s.lastId.server s.lastId.session ts s.lastId.instance_ outs) (fun e he => timestamp_numbered he) ?_ ?_
  · simp only [Engine.processed, createEvents_eq]
  · intro t' h'
    simp only [Engine.processed, EnginePhase.time, Option.some.injEq] at h'
    exact h'.symm

theorem finalize_adds (s : Engine) (now : Timestamp) :
    ∃ e : Event, e.timestamp = now ∧ (s.finalize now).created = s.created ++ [e] ∧
      (s.finalize now).sent = s.sent ++ [[e]] := by
  obtain ⟨h1, _⟩ := resolveAll_core s (s.phase.current.toList ++ s.queue) .closed
  unfold Engine.finalize
  simp only [Engine.createSession, Engine.createEvent]
  rw [show ((s.phase.current.toList ++ s.queue).foldl (fun s r => s.resolve r.future .closed) s) =
    resolveAll s (s.phase.current.toList ++ s.queue) .closed from rfl, h1.created, h1.sent]
  exact ⟨_, rfl, rfl, rfl⟩

theorem Times.finalize {since : List Timestamp} {s : Engine} {now : Timestamp} (h : Times since s) (hn : now ∈ since)
    (hle : ∀ e ∈ s.created, TimeLe e.timestamp now) : Times since (s.finalize now) := by
  obtain ⟨e, h1, h2, _⟩ := finalize_adds s now
  refine h.add hn hle (new := [e]) (fun x hx => by rw [List.mem_singleton.1 hx]; exact h1) h2 ?_
  intro t' h'
  simp [Engine.finalize, Engine.createSession, Engine.createEvent, EnginePhase.time] at h'

theorem times_step {since : List Timestamp} {s : Engine} (h : Times since s) (a : EngineAct)
    (hs : (since ++ (readsClock a).toList).Pairwise TimeLe) : Times (since ++ (readsClock a).toList) (s.step a) := by
  have hnow : ∀ now, readsClock a = some now → now ∈ since ++ (readsClock a).toList ∧
      ∀ e ∈ s.created, TimeLe e.timestamp now := by
    intro now hn
    rw [hn] at hs ⊢
    refine ⟨by simp, fun e he => (List.pairwise_append.1 hs).2.2 _ (h.within e he) now (by simp)⟩
  have hm := h.more (readsClock a).toList
  have hfin : ∀ now, readsClock a = some now → Times (since ++ (readsClock a).toList) (s.finalize now) :=
    fun now hn => hm.finalize (hnow now hn).1 (hnow now hn).2
  have hfin' : ∀ now s', readsClock a = some now → Times (since ++ (readsClock a).toList) s' →
      (∀ e ∈ s'.created, e.timestamp ∈ since) → Times (since ++ (readsClock a).toList) (s'.finalize now) := by
    intro now s' hn h' hw
    refine h'.finalize (hnow now hn).1 fun e he => ?_
    rw [hn] at hs
    exact (List.pairwise_append.1 hs).2.2 _ (hw e he) now (by simp)
  generalize hl : since ++ (readsClock a).toList = since' at hm hfin hfin' hnow ⊢
  cases a with
  | spawn =>
    simp only [Engine.step]; split
    · exact hm.congr rfl (by simp [EnginePhase.time])
    · exact hm
  | register source events =>
    simp only [Engine.step, Engine.register]
    have h0 : Times since' { s with requests := s.requests ++ [(source, events)] } := hm.congr rfl fun _ h => h
    split
    · exact h0.congr (resolve_core _ _ _).1.created fun t ht => by rwa [(resolve_core _ _ _).2.2.2.1] at ht
    · exact h0.congr (put_core _ _).1.created fun t ht => by rwa [(put_core _ _).2.1] at ht
  | wake i =>
    simp only [Engine.step, Engine.wake]
    split
    · exact hm
    · have h0 : Times since' { s with putters := s.putters.eraseIdx i } := hm.congr rfl fun _ h => h
      exact h0.congr (put_core _ _).1.created fun t ht => by rwa [(put_core _ _).2.1] at ht
  | cancel i =>
    simp only [Engine.step, Engine.cancel]
    split
    · exact hm.congr (resolve_core s _ _).1.created fun t ht => by
        simpa only [(resolve_core s _ _).2.2.2.1] using ht
    · exact hm
  | take now =>
    simp only [Engine.step, Engine.take]
    split
    · obtain ⟨h1, h2⟩ := hnow now rfl
      exact hm.add h1 h2 (new := []) (by simp) (by simp [Engine.createSession])
        (by simp [EnginePhase.time, Engine.createSession])
    · exact hm
  | told =>
    simp only [Engine.step, Engine.told]
    split
    · next hp => exact hm.congr rfl (by rw [hp]; simp [EnginePhase.time])
    · exact hm.congr rfl (by simp [EnginePhase.time])
    · exact hm
  | processed outs =>
    simp only [Engine.step, Engine.processedAct]
    split
    · next hp => exact hm.processed _ hp
    · exact hm
  | next =>
    simp only [Engine.step, Engine.next]
    split
    · next r ts hp =>
      have ht : s.phase.time = some ts := by rw [hp]; rfl
      refine hm.add (hm.session ts ht).1 (hm.session ts ht).2
        (new := numbered s.lastId.server s.lastId.session ts s.lastId.instance_ r.events)
        (fun e he => timestamp_numbered he) (by simp only [createEvents_eq]) ?_
      intro t' h'
      simp only [EnginePhase.time, Option.some.injEq] at h'
      exact h'.symm
    · exact hm.congr rfl (by simp [EnginePhase.time])
    · next hp => exact hm.congr rfl (by rw [hp]; simp [EnginePhase.time])
    · exact hm.congr rfl (by simp [EnginePhase.time])
    · exact hm
  | registered reply now =>
    simp only [Engine.step, Engine.registered]
    split
    · split
      · exact hfin now rfl
      · exact hm.congr (resolve_core s _ _).1.created (by simp [EnginePhase.time])
      · exact hm.congr (resolve_core s _ _).1.created (by simp [EnginePhase.time])
    · exact hm.congr rfl (by simp [EnginePhase.time])
    · exact hm
  | raise outs now =>
    simp only [Engine.step, Engine.raise]
    split
    · exact hfin now rfl
    · next hp => exact hfin' now _ rfl (hm.processed _ hp) (h.processed _ hp).within
    · exact hfin now rfl
    · exact hm
  | close now =>
    simp only [Engine.step, Engine.close]
    split
    · exact hm.congr rfl (by simp [EnginePhase.time])
    · exact hm.congr rfl (by simp [EnginePhase.time])
    · exact hm
    · exact hfin now rfl
  | finished =>
    simp only [Engine.step]; split
    · exact hm.congr rfl (by simp [EnginePhase.time])
    · exact hm

theorem times_run (conf : EngineConf) (last : EventId) (acts : List EngineAct)
    (hs : (acts.filterMap readsClock).Pairwise TimeLe) :
    Times (acts.filterMap readsClock) ((Engine.create conf last).run acts) := by
  induction acts using List.reverseRecOn with
  | nil => exact ⟨by simp [Engine.run, Engine.create], by simp [Engine.run, Engine.create],
      by simp [Engine.run, Engine.create, EnginePhase.time]⟩
  | append_singleton acts a ih =>
    rw [engine_snoc]
    have heq : (acts ++ [a]).filterMap readsClock = acts.filterMap readsClock ++ (readsClock a).toList := by
      rw [List.filterMap_append]
      cases h : readsClock a <;> simp [h]
    rw [heq] at hs ⊢
    exact times_step (ih (List.pairwise_append.1 hs).1) a hs

/-- An action makes at most one call of `Backend.register`. -/
theorem sent_step (s : Engine) (a : EngineAct) :
    (s.step a).sent = s.sent ∨ ∃ es, (s.step a).sent = s.sent ++ [es] := by
  have hfin' : ∀ (s' : Engine) now, s'.sent = s.sent → ∃ es, (s'.finalize now).sent = s.sent ++ [es] := by
    intro s' now heq
    obtain ⟨e, _, _, h⟩ := finalize_adds s' now
    exact ⟨[e], by rw [h, heq]⟩
  have hfin := fun now => hfin' s now rfl
  cases a with
  | spawn => left; simp only [Engine.step]; split <;> rfl
  | register source events =>
    left
    simp only [Engine.step, Engine.register]
    split
    · exact (resolve_core _ _ _).1.sent
    · exact (put_core _ _).1.sent
  | wake i =>
    left
    simp only [Engine.step, Engine.wake]
    split
    · rfl
    · exact (put_core _ _).1.sent
  | cancel i =>
    left
    simp only [Engine.step, Engine.cancel]
    split
    · exact (resolve_core s _ _).1.sent
    · rfl
  | take now => left; simp only [Engine.step, Engine.take]; split <;> rfl
  | told => left; simp only [Engine.step, Engine.told]; split <;> rfl
  | processed outs =>
    left
    simp only [Engine.step, Engine.processedAct]
    split
    · simp only [Engine.processed, createEvents_eq]
    · rfl
  | next =>
    simp only [Engine.step, Engine.next]
    split
    · left; simp only [createEvents_eq]
    · exact .inl rfl
    · exact .inl rfl
    · exact .inr ⟨_, rfl⟩
    · exact .inl rfl
  | registered reply now =>
    simp only [Engine.step, Engine.registered]
    split
    · split
      · exact .inr (hfin now)
      · exact .inl (resolve_core s _ _).1.sent
      · exact .inl (resolve_core s _ _).1.sent
    · exact .inl rfl
    · exact .inl rfl
  | raise outs now =>
    simp only [Engine.step, Engine.raise]
    split
    · exact .inr (hfin now)
    · refine .inr (hfin' _ now ?_)
      simp only [Engine.processed, createEvents_eq]
    · exact .inr (hfin now)
    · exact .inl rfl
  | close now =>
    simp only [Engine.step, Engine.close]
    split
    · exact .inl rfl
    · exact .inl rfl
    · exact .inl rfl
    · exact .inr (hfin now)
  | finished => left; simp only [Engine.step]; split <;> rfl

end HatEvent
