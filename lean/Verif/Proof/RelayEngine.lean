import Verif.Model.Relay
import Verif.Proof.StationCalls
import Verif.Proof.Publish
import Verif.Props.EventerServer

/-!
# Engines of an event server that notifies
-/

namespace HatEvent
open Spec

/-! ### Steps of an engine -/

theorem mem_resolve {s : Engine} {f : Option Nat} {o : EngineOutcome} {p : Nat × EngineOutcome} (h : p ∈ (s.resolve f o).outcomes) :
    p ∈ s.outcomes ∨ (f = some p.1 ∧ p.2 = o) := by
  rcases resolve_cases s f o with ⟨h1, _⟩ | ⟨i, h1, _, h2⟩
  · rw [h1] at h; exact .inl h
  · rw [h2] at h
    rcases List.mem_append.1 h with h | h
    · exact .inl h
    · rw [List.mem_singleton.1 h]; exact .inr ⟨h1, rfl⟩

theorem mem_finalize {s : Engine} {now : Timestamp} {k : Nat} {es : List Event}
    (h : (k, EngineOutcome.result (some es)) ∈ (s.finalize now).outcomes) : (k, EngineOutcome.result (some es)) ∈ s.outcomes := by
  have key : ∀ (l : List EngineRequest) (t : Engine), (k, EngineOutcome.result (some es)) ∈
      (l.foldl (fun s r => s.resolve r.future .closed) t).outcomes → (k, EngineOutcome.result (some es)) ∈ t.outcomes := by
    intro l
    induction l with
    | nil => intro t h; exact h
    | cons r l ih =>
      intro t h
      rcases mem_resolve (ih _ h) with h | ⟨_, h⟩
      · exact h
      · cases h
  exact key _ s h

theorem mem_put {s : Engine} {r : EngineRequest} {k : Nat} {es : List Event}
    (h : (k, EngineOutcome.result (some es)) ∈ (s.put r).outcomes) : (k, EngineOutcome.result (some es)) ∈ s.outcomes := by
  unfold Engine.put at h
  split at h
  · rcases mem_resolve h with h | ⟨_, h⟩
    · exact h
    · cases h
  · split at h <;> exact h

theorem createEvents_outcomes (s : Engine) (ts : Timestamp) (l : List RegisterEvent) : (s.createEvents ts l).1.outcomes = s.outcomes := by
  rw [createEvents_eq]

theorem resolve_phase (s : Engine) (f : Option Nat) (o : EngineOutcome) : (s.resolve f o).phase = s.phase := by
  rcases resolve_cases s f o with ⟨h, _⟩ | ⟨_, _, _, h⟩ <;> rw [h]

theorem put_phase (s : Engine) (r : EngineRequest) : (s.put r).phase = s.phase := by
  unfold Engine.put
  split
  · exact resolve_phase _ _ _
  · split <;> rfl

/-- Where a result comes from. -/
theorem result_step {s : Engine} {a : EngineAct} {k : Nat} {es : List Event}
    (h : (k, EngineOutcome.result (some es)) ∈ (s.step a).outcomes) :
    (k, EngineOutcome.result (some es)) ∈ s.outcomes ∨ es = [] ∨
      ∃ now r evs, a = .registered .same now ∧ s.phase = .registering r evs ∧ r.future = some k ∧ ∀ x ∈ es, x ∈ evs := by
  cases a with
  | spawn => simp only [Engine.step] at h; split at h <;> exact .inl h
  | register source events =>
    simp only [Engine.step, Engine.register] at h
    split at h
    · rcases mem_resolve h with h | ⟨_, h⟩
      · exact .inl h
      · cases h; exact .inr (.inl rfl)
    · exact .inl (mem_put (s := { s with requests := s.requests ++ [(source, _)] }) h)
  | wake i =>
    simp only [Engine.step, Engine.wake] at h
    split at h
    · exact .inl h
    · exact .inl (mem_put (s := { s with putters := s.putters.eraseIdx i }) h)
  | cancel i =>
    simp only [Engine.step, Engine.cancel] at h
    split at h
    · rcases mem_resolve (s := s) h with h | ⟨_, h⟩
      · exact .inl h
      · cases h
    · exact .inl h
  | take now => simp only [Engine.step, Engine.take] at h; split at h <;> exact .inl h
  | told => simp only [Engine.step, Engine.told] at h; split at h <;> exact .inl h
  | processed outputs =>
    simp only [Engine.step, Engine.processedAct] at h
    split at h
    · left
      simp only [Engine.processed, createEvents_outcomes] at h
      exact h
    · exact .inl h
  | next =>
    simp only [Engine.step, Engine.next] at h
    split at h
    · left
      simp only [createEvents_outcomes] at h
      exact h
    all_goals exact .inl h
  | registered reply now =>
    simp only [Engine.step, Engine.registered] at h
    split at h
    · next r evs hp =>
      split at h
      · exact .inl (mem_finalize h)
      · rcases mem_resolve (s := s) h with h | ⟨_, h⟩
        · exact .inl h
        · cases h
      · rcases mem_resolve (s := s) h with h | ⟨hf, h⟩
        · exact .inl h
        · cases h
          refine .inr (.inr ⟨now, r, evs, rfl, hp, hf, fun x hx => ?_⟩)
          obtain ⟨p, hp, rfl⟩ := List.mem_map.1 hx
          exact (List.of_mem_zip hp).1
    · exact .inl h
    · exact .inl h
  | raise outputs now =>
    simp only [Engine.step, Engine.raise] at h
    split at h
    · exact .inl (mem_finalize h)
    · have := mem_finalize h
      left
      simp only [Engine.processed, createEvents_outcomes] at this
      exact this
    · exact .inl (mem_finalize h)
    · exact .inl h
  | close now =>
    simp only [Engine.step, Engine.close] at h
    split at h
    · exact .inl h
    · exact .inl h
    · exact .inl h
    · exact .inl (mem_finalize h)
  | finished => simp only [Engine.step] at h; split at h <;> exact .inl h

/-- A register loop that is in `Backend.register` was in it before, or has just called it. -/
theorem engine_registering_step {s : Engine} {a : EngineAct} {r : EngineRequest} {evs : List Event} (h : (s.step a).phase = .registering r evs) :
    s.phase = .registering r evs ∨ (s.step a).sent = s.sent ++ [evs] := by
  cases a with
  | spawn =>
    simp only [Engine.step] at h
    split at h
    · cases h
    · exact .inl h
  | register source events =>
    left
    simp only [Engine.step, Engine.register] at h
    split at h
    · rw [resolve_phase] at h; exact h
    · rw [put_phase] at h; exact h
  | wake i =>
    left
    simp only [Engine.step, Engine.wake] at h
    split at h
    · exact h
    · rw [put_phase] at h; exact h
  | cancel i =>
    left
    simp only [Engine.step, Engine.cancel] at h
    split at h
    · have h : (s.resolve (some i) .cancelled).phase = _ := h
      rw [resolve_phase] at h; exact h
    · exact h
  | take now =>
    simp only [Engine.step, Engine.take] at h
    split at h
    · cases h
    · exact .inl h
  | told =>
    simp only [Engine.step, Engine.told] at h
    split at h
    · cases h
    · cases h
    · exact .inl h
  | processed outputs =>
    simp only [Engine.step, Engine.processedAct] at h
    split at h
    · cases h
    · exact .inl h
  | next =>
    simp only [Engine.step, Engine.next] at h ⊢
    split at h
    · cases h
    · cases h
    · cases h
    · cases h
      exact .inr rfl
    · exact .inl h
  | registered reply now =>
    simp only [Engine.step, Engine.registered] at h
    split at h
    · split at h
      · cases h
      · cases h
      · cases h
    · cases h
    · exact .inl h
  | raise outputs now =>
    simp only [Engine.step, Engine.raise] at h
    split at h
    · cases h
    · cases h
    · cases h
    · exact .inl h
  | close now =>
    simp only [Engine.step, Engine.close] at h
    split at h
    · cases h
    · cases h
    · exact .inl h
    · cases h
  | finished =>
    simp only [Engine.step] at h
    split at h
    · cases h
    · exact .inl h

/-- A request that was not finished is one that was made. -/
theorem future_known {s : Engine} (h : Calls s s.open_) {r : EngineRequest} {evs : List Event} (hp : s.phase = .registering r evs) {k : Nat}
    (hf : r.future = some k) : k < s.requests.length := by
  have := h.content r (by simp [Engine.open_, hp, EnginePhase.current]) k hf
  exact (List.getElem?_eq_some_iff.1 this).1

namespace Station

/-- Engines are what they can become. -/
def Made (s : Station) : Prop := ∀ engine ∈ s.engines, ∃ conf last acts, engine = (Engine.create conf last).run acts

theorem made_set {s : Station} (h : Made s) {e : Nat} {engine : Engine} (he : s.engines[e]? = some engine) (a : EngineAct) :
    ∀ x ∈ s.engines.set e (engine.step a), ∃ conf last acts, x = (Engine.create conf last).run acts := by
  intro x hx
  rcases mem_set_engine hx with hx | rfl
  · exact h x hx
  · obtain ⟨conf, last, acts, rfl⟩ := h engine (List.mem_of_getElem? he)
    exact ⟨conf, last, acts ++ [a], by simp [Engine.run]⟩

theorem made_host {cf : StationConf} {s : Station} (h : Made s) (a : HostAct) : Made (s.hostStep cf a) := by
  have key : ∀ (l : List HostEntry) (t : Station), Made t → Made (l.foldl (callEngine cf) t) := by
    intro l
    induction l with
    | nil => intro t ht; exact ht
    | cons x l ih =>
      intro t ht
      refine ih _ ?_
      unfold callEngine
      split
      · next eng he => exact made_set ht he _
      · exact ht
  exact key _ { s with host := s.host.step a } h

theorem made_step {cf : StationConf} {s : Station} (h : Made s) (a : StationAct) : Made (s.step cf a) := by
  cases a with
  | host act =>
    simp only [step]
    split
    · exact made_host h act
    · exact h
  | arrive i =>
    simp only [step, arrive]
    split
    · split
      · exact made_host h _
      · exact h
    · exact h
  | connect i =>
    simp only [step, connect]
    split <;> exact h
  | client i act => cases act <;> exact h
  | deliver i =>
    simp only [step, deliver]
    split
    · split <;> exact h
    · exact h
  | answered i =>
    simp only [step, answered]
    split
    · split
      · exact made_host h _
      · exact h
    · exact h
  | queried i =>
    simp only [step, queried]
    split
    · exact made_host h _
    · exact h
  | start modules =>
    simp only [step, start]
    have key : Made (match (s.backend cf).getLastEventId cf.serverId with
        | .ok last => { s with engines := s.engines ++ [.create ⟨cf.serverId, modules, 1024⟩ last] }
        | .error _ => s) := by
      split
      · next last hlast =>
        intro x hx
        rcases List.mem_append.1 hx with hx | hx
        · exact h x hx
        · obtain rfl := List.mem_singleton.1 hx
          exact ⟨_, last, [], rfl⟩
      · exact h
    split
    · exact key
    · exact key
    · exact h
  | engine e act =>
    simp only [step, engineStep]
    split
    · next eng he => exact made_set h he act
    · exact h
  | keep op => cases op <;> exact h
  | remote events => exact h

theorem made_run (cf : StationConf) (pre : List BackendOp) (acts : List StationAct) : Made ((init cf pre).run cf acts) := by
  induction acts using List.reverseRecOn with
  | nil => intro x hx; cases hx
  | append_singleton acts a ih => rw [run_snoc]; exact made_step ih a

/-- The eventer server goes on. -/
theorem host_step (cf : StationConf) (s : Station) (a : StationAct) (ih : ∃ evs, s.host.server = (EvServer.init cf.useC cf.token).run evs) :
    ∃ evs, (s.step cf a).host.server = (EvServer.init cf.useC cf.token).run evs := by
  have hstep : ∀ (act : HostAct), ∃ evs, (s.hostStep cf act).host.server = (EvServer.init cf.useC cf.token).run evs := by
    intro act
    obtain ⟨evs, he⟩ := ih
    rw [(hostStep_calls cf s act).host]
    obtain ⟨more, hm, _⟩ := Host.reach_step s.host act
    exact ⟨evs ++ more, by rw [EvServer.run_append, ← he]; exact hm⟩
  cases a with
  | host act =>
    simp only [step]
    split
    · exact hstep act
    · exact ih
  | arrive i =>
    simp only [step, arrive]
    split
    · split
      · exact hstep _
      · exact ih
    · exact ih
  | connect i => simp only [step, connect]; split <;> exact ih
  | client i act => cases act <;> exact ih
  | deliver i =>
    simp only [step, deliver]
    split
    · split <;> exact ih
    · exact ih
  | answered i =>
    simp only [step, answered]
    split
    · split
      · exact hstep _
      · exact ih
    · exact ih
  | queried i =>
    simp only [step, queried]
    split
    · exact hstep _
    · exact ih
  | start modules =>
    simp only [step, start]
    split
    · split <;> exact ih
    · split <;> exact ih
    · exact ih
  | engine e act => simp only [step, engineStep]; split <;> exact ih
  | keep op => cases op <;> exact ih
  | remote events => exact ih

/-- The eventer server of a history. -/
theorem host_run (cf : StationConf) (pre : List BackendOp) (acts : List StationAct) :
    ∃ evs, ((init cf pre).run cf acts).host.server = (EvServer.init cf.useC cf.token).run evs := by
  induction acts using List.reverseRecOn with
  | nil => exact ⟨[], rfl⟩
  | append_singleton acts a ih => rw [run_snoc]; exact host_step cf _ a ih

/-- Engines stay. -/
theorem engines_step (cf : StationConf) (s : Station) (a : StationAct) : s.engines.length ≤ (s.step cf a).engines.length := by
  have hstep : ∀ act, s.engines.length ≤ (s.hostStep cf act).engines.length := fun act => Nat.le_of_eq (hostStep_calls cf s act).length.symm
  cases a with
  | host act =>
    simp only [step]
    split
    · exact hstep act
    · exact Nat.le_refl _
  | arrive i =>
    simp only [step, arrive]
    split
    · split
      · exact hstep _
      · exact Nat.le_refl _
    · exact Nat.le_refl _
  | connect i => simp only [step, connect]; split <;> exact Nat.le_refl _
  | client i act => cases act <;> exact Nat.le_refl _
  | deliver i =>
    simp only [step, deliver]
    split
    · split <;> exact Nat.le_refl _
    · exact Nat.le_refl _
  | answered i =>
    simp only [step, answered]
    split
    · split
      · exact hstep _
      · exact Nat.le_refl _
    · exact Nat.le_refl _
  | queried i =>
    simp only [step, queried]
    split
    · exact hstep _
    · exact Nat.le_refl _
  | start modules =>
    simp only [step, start]
    split
    · split
      · simp
      · exact Nat.le_refl _
    · split
      · simp
      · exact Nat.le_refl _
    · exact Nat.le_refl _
  | engine e act =>
    simp only [step, engineStep]
    split
    · simp
    · exact Nat.le_refl _
  | keep op => cases op <;> exact Nat.le_refl _
  | remote events => exact Nat.le_refl _

end Station
end HatEvent
