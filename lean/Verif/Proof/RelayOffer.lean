import Verif.Proof.RelayBlocks

/-!
# Engines in calls of `Backend.register`
-/

namespace HatEvent
open Spec

theorem finalize_made (s : Engine) (now : Timestamp) : (s.finalize now).made = s.made :=
  (resolveAll_core s (s.phase.current.toList ++ s.queue) .closed).1.made

/-- What modules have returned stays. -/
theorem module_events_step (s : Engine) (a : EngineAct) : s.made <+: (s.step a).made := by
  have heq : ∀ {s' : Engine}, s'.made = s.made → s.made <+: s'.made := fun h => by rw [h]; exact List.prefix_rfl
  have hproc : ∀ r ts evs c pending outs outs', s.made <+: (s.processed r ts evs c pending outs outs').made := by
    intro r ts evs c pending outs outs'
    simp only [Engine.processed, createEvents_eq]
    exact List.prefix_append _ _
  cases a with
  | spawn => simp only [Engine.step]; split <;> exact heq rfl
  | register source events =>
    simp only [Engine.step, Engine.register]
    split
    · exact heq (resolve_core _ _ _).1.made
    · exact heq (put_core _ _).1.made
  | wake i =>
    simp only [Engine.step, Engine.wake]
    split
    · exact heq rfl
    · exact heq (put_core _ _).1.made
  | cancel i =>
    simp only [Engine.step, Engine.cancel]
    split
    · exact heq (resolve_core s _ _).1.made
    · exact heq rfl
  | take now => simp only [Engine.step, Engine.take]; split <;> exact heq rfl
  | told => simp only [Engine.step, Engine.told]; split <;> exact heq rfl
  | processed outs =>
    simp only [Engine.step, Engine.processedAct]
    split
    · exact hproc _ _ _ _ _ _ _
    · exact heq rfl
  | next =>
    simp only [Engine.step, Engine.next]
    split
    · exact heq (by simp only [createEvents_eq])
    all_goals exact heq rfl
  | registered reply now =>
    simp only [Engine.step, Engine.registered]
    split
    · split
      · exact heq (finalize_made s now)
      · exact heq (resolve_core s _ _).1.made
      · exact heq (resolve_core s _ _).1.made
    · exact heq rfl
    · exact heq rfl
  | raise outs now =>
    simp only [Engine.step, Engine.raise]
    split
    · exact heq (finalize_made s now)
    · rw [finalize_made]; exact hproc _ _ _ _ _ _ _
    · exact heq (finalize_made s now)
    · exact heq rfl
  | close now =>
    simp only [Engine.step, Engine.close]
    split
    · exact heq rfl
    · exact heq rfl
    · exact heq rfl
    · exact heq (finalize_made s now)
  | finished => simp only [Engine.step]; split <;> exact heq rfl

theorem module_events_run (s : Engine) (l : List EngineAct) : s.made <+: (s.run l).made := by
  induction l using List.reverseRecOn with
  | nil => exact List.prefix_rfl
  | append_singleton l a ih => rw [engine_snoc]; exact ih.trans (module_events_step _ a)

theorem madeIn_le {s s' : Engine} (h : s.made <+: s'.made) (session : Int) : (madeIn s session).length ≤ (madeIn s' session).length := by
  unfold madeIn
  obtain ⟨r, hr⟩ := h
  rw [← hr, List.filter_append]
  simp

/-- Nothing of the loop changes. -/
theorem calm_acts (s : Engine) (a : EngineAct) (h : (∃ src es, a = .register src es) ∨ (∃ i, a = .wake i) ∨ ∃ i, a = .cancel i) :
    (s.step a).phase = s.phase ∧ (s.step a).sent = s.sent := by
  refine ⟨(sameSession_other s a h).phase, ?_⟩
  rcases h with ⟨src, es, rfl⟩ | ⟨i, rfl⟩ | ⟨i, rfl⟩
  · exact register_sent s src es
  · simp only [Engine.step, Engine.wake]
    split
    · rfl
    · exact (put_core _ _).1.sent
  · simp only [Engine.step, Engine.cancel]
    split
    · exact (resolve_core s _ _).1.sent
    · rfl

/-- In a call of `Backend.register`, which does not return. -/
theorem registering_stays {s : Engine} {r : EngineRequest} {evs : List Event} (h : s.phase = .registering r evs) {a : EngineAct}
    (ha : ∀ rep now, a ≠ .registered rep now) :
    ((s.step a).phase = .registering r evs ∧ (s.step a).sent = s.sent) ∨ (s.step a).phase = .finishing := by
  have calm : ((∃ src es, a = .register src es) ∨ (∃ i, a = .wake i) ∨ ∃ i, a = .cancel i) →
      ((s.step a).phase = .registering r evs ∧ (s.step a).sent = s.sent) ∨ (s.step a).phase = .finishing := by
    intro hc
    obtain ⟨h1, h2⟩ := calm_acts s a hc
    exact .inl ⟨h1.trans h, h2⟩
  cases a with
  | register src es => exact calm (.inl ⟨_, _, rfl⟩)
  | wake i => exact calm (.inr (.inl ⟨_, rfl⟩))
  | cancel i => exact calm (.inr (.inr ⟨_, rfl⟩))
  | registered rep now => exact absurd rfl (ha rep now)
  | spawn => left; simp only [Engine.step, h]; exact ⟨trivial, trivial⟩
  | take now => left; simp only [Engine.step, Engine.take, h]; exact ⟨trivial, trivial⟩
  | told => left; simp only [Engine.step, Engine.told, h]; exact ⟨trivial, trivial⟩
  | processed outs => left; simp only [Engine.step, Engine.processedAct, h]; exact ⟨trivial, trivial⟩
  | next => left; simp only [Engine.step, Engine.next, h]; exact ⟨trivial, trivial⟩
  | raise outs now => left; simp only [Engine.step, Engine.raise, h]; exact ⟨trivial, trivial⟩
  | close now => right; simp only [Engine.step, Engine.close, h]; rfl
  | finished => left; simp only [Engine.step, h]; exact ⟨trivial, trivial⟩

/-- In the last call of `Backend.register`, which does not return. -/
theorem finishing_stays {s : Engine} (h : s.phase = .finishing) {a : EngineAct} (ha : ∀ rep now, a ≠ .registered rep now) :
    ((s.step a).phase = .finishing ∧ (s.step a).sent = s.sent) ∨ (s.step a).phase = .closed := by
  have calm : ((∃ src es, a = .register src es) ∨ (∃ i, a = .wake i) ∨ ∃ i, a = .cancel i) →
      ((s.step a).phase = .finishing ∧ (s.step a).sent = s.sent) ∨ (s.step a).phase = .closed := by
    intro hc
    obtain ⟨h1, h2⟩ := calm_acts s a hc
    exact .inl ⟨h1.trans h, h2⟩
  cases a with
  | register src es => exact calm (.inl ⟨_, _, rfl⟩)
  | wake i => exact calm (.inr (.inl ⟨_, rfl⟩))
  | cancel i => exact calm (.inr (.inr ⟨_, rfl⟩))
  | registered rep now => exact absurd rfl (ha rep now)
  | spawn => left; simp only [Engine.step, h]; exact ⟨trivial, trivial⟩
  | take now => left; simp only [Engine.step, Engine.take, h]; exact ⟨trivial, trivial⟩
  | told => left; simp only [Engine.step, Engine.told, h]; exact ⟨trivial, trivial⟩
  | processed outs => left; simp only [Engine.step, Engine.processedAct, h]; exact ⟨trivial, trivial⟩
  | next => left; simp only [Engine.step, Engine.next, h]; exact ⟨trivial, trivial⟩
  | raise outs now => left; simp only [Engine.step, Engine.raise, h]; exact ⟨trivial, trivial⟩
  | close now => right; simp only [Engine.step, Engine.close, h]
  | finished => right; simp only [Engine.step, h]

/-- The call of `Backend.register` an engine is in goes on, or the engine goes to its end. -/
inductive OfferStep (s s' : Engine) : Prop
  | same : s'.phase = s.phase → s'.sent = s.sent → OfferStep s s'
  | finishing : (∀ r evs, s.phase = .registering r evs → s'.phase = .finishing) → (∃ r evs, s.phase = .registering r evs) → OfferStep s s'
  | closed : s'.phase = .closed → OfferStep s s'

/-- An engine is in a call of `Backend.register`. -/
def Offers (s : Engine) : Prop := (∃ r evs, s.phase = .registering r evs) ∨ s.phase = .finishing

theorem offerStep_run {s : Engine} (h : Offers s) (l : List EngineAct) (hl : ∀ a ∈ l, ∀ rep now, a ≠ .registered rep now) : OfferStep s (s.run l) := by
  induction l using List.reverseRecOn with
  | nil => exact .same rfl rfl
  | append_singleton l a ih =>
    rw [engine_snoc]
    have ha := hl a (by simp)
    rcases ih fun x hx => hl x (by simp [hx]) with ⟨h1, h2⟩ | ⟨h1, r, evs, h2⟩ | h1
    · rcases h with ⟨r, evs, hr⟩ | hf
      · rcases registering_stays (h1.trans hr) ha with ⟨g1, g2⟩ | g
        · exact .same (g1.trans hr.symm) (g2.trans h2)
        · exact .finishing (fun _ _ _ => g) ⟨r, evs, hr⟩
      · rcases finishing_stays (h1.trans hf) ha with ⟨g1, g2⟩ | g
        · exact .same (g1.trans hf.symm) (g2.trans h2)
        · exact .closed g
    · rcases finishing_stays (h1 r evs h2) ha with ⟨g1, g2⟩ | g
      · exact .finishing (fun _ _ _ => g1) ⟨r, evs, h2⟩
      · exact .closed g
    · exact .closed (closed_engine _ a h1).1

theorem offers_iff {s : Engine} (hs : s.phase = .finishing → s.sent ≠ []) : Offers s ↔ Relay.offered s ≠ none := by
  unfold Offers Relay.offered
  split
  · next r evs hp => exact ⟨(fun _ h => nomatch h), fun _ => .inl ⟨r, evs, hp⟩⟩
  · next hp => exact ⟨fun _ h => hs hp (List.getLast?_eq_none_iff.1 h), fun _ => .inr hp⟩
  · next h1 h2 =>
    constructor
    · rintro (⟨r, evs, h⟩ | h)
      · exact absurd h (h1 r evs)
      · exact absurd h h2
    · exact fun h => absurd rfl h

theorem closed_run {s : Engine} (h : s.phase = .closed) (l : List EngineAct) : (s.run l).phase = .closed := by
  induction l using List.reverseRecOn with
  | nil => exact h
  | append_singleton l a ih => rw [engine_snoc]; exact (closed_engine _ a ih).1

end HatEvent
