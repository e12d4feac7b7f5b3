import Verif.Proof.EngineCalls
import Mathlib.Data.List.Perm.Basic

/-!
# Where accepted requests come from
-/

namespace HatEvent
open Spec

/-- Nothing is forgotten. -/
structure Grows (s s' : Engine) : Prop where
  conf : s'.conf = s.conf
  accepted : s.accepted <+: s'.accepted
  sent : s.sent <+: s'.sent
  requests : s.requests <+: s'.requests

theorem Grows.refl (s : Engine) : Grows s s := ⟨rfl, List.prefix_rfl, List.prefix_rfl, List.prefix_rfl⟩

theorem Grows.trans {s s' s'' : Engine} (h : Grows s s') (h' : Grows s' s'') : Grows s s'' :=
  ⟨h'.conf.trans h.conf, h.accepted.trans h'.accepted, h.sent.trans h'.sent, h.requests.trans h'.requests⟩

theorem Grows.of_eq {s s' : Engine} (h1 : s'.conf = s.conf) (h2 : s'.accepted = s.accepted) (h3 : s'.sent = s.sent)
    (h4 : s'.requests = s.requests) : Grows s s' :=
  ⟨h1, by rw [h2]; exact List.prefix_rfl, by rw [h3]; exact List.prefix_rfl, by rw [h4]; exact List.prefix_rfl⟩

theorem grows_resolve (s : Engine) (f : Option Nat) (o : EngineOutcome) : Grows s (s.resolve f o) := by
  obtain ⟨h1, h2, h3, h4, h5, h6⟩ := resolve_core s f o
  exact .of_eq h1.conf h3 h1.sent h6

theorem put_requests (s : Engine) (r : EngineRequest) : (s.put r).requests = s.requests := by
  unfold Engine.put
  split
  · exact (resolve_core s _ _).2.2.2.2.2
  · split <;> rfl

theorem grows_put (s : Engine) (r : EngineRequest) : Grows s (s.put r) := by
  obtain ⟨h1, h2, new, h3, h4, h5⟩ := put_core s r
  exact ⟨h1.conf, by rw [h4]; exact List.prefix_append _ _, by rw [h1.sent]; exact List.prefix_rfl,
    by rw [put_requests]; exact List.prefix_rfl⟩

theorem grows_finalize (s : Engine) (now : Timestamp) : Grows s (s.finalize now) := by
  obtain ⟨c1, c2, c3, c4, c5, c6⟩ := resolveAll_core s (s.phase.current.toList ++ s.queue) .closed
  unfold Engine.finalize
  simp only
  rw [show ((s.phase.current.toList ++ s.queue).foldl (fun s r => s.resolve r.future .closed) s) =
    resolveAll s (s.phase.current.toList ++ s.queue) .closed from rfl]
  generalize resolveAll s (s.phase.current.toList ++ s.queue) .closed = s1 at *
  refine ⟨c1.conf, ?_, ?_, ?_⟩
  · show s.accepted <+: s1.accepted
    rw [c3]; exact List.prefix_rfl
  · show s.sent <+: s1.sent ++ _
    rw [c1.sent]; exact List.prefix_append _ _
  · show s.requests <+: s1.requests
    rw [c6]; exact List.prefix_rfl

theorem grows_processed (s : Engine) (r : EngineRequest) (ts : Timestamp)
    (events : List Event) (c : Nat × Source × Event) (pending : List (Nat × Source × Event))
    (outputs : List (Source × Event)) (outs : List RegisterEvent) :
    Grows s (s.processed r ts events c pending outputs outs) := by
  unfold Engine.processed
  simp only [createEvents_eq]
  exact .of_eq rfl rfl rfl rfl

theorem grows_step (s : Engine) (a : EngineAct) : Grows s (s.step a) := by
  cases a with
  | spawn => simp only [Engine.step]; split; exact .of_eq rfl rfl rfl rfl; exact .refl s
  | register source events =>
    simp only [Engine.step, Engine.register]
    have h0 : Grows s { s with requests := s.requests ++ [(source, events)] } :=
      ⟨rfl, List.prefix_rfl, List.prefix_rfl, List.prefix_append _ _⟩
    split
    · exact h0.trans (grows_resolve _ _ _)
    · exact h0.trans (grows_put _ _)
  | wake i =>
    simp only [Engine.step, Engine.wake]
    split
    · exact .refl s
    · exact Grows.trans (s' := { s with putters := s.putters.eraseIdx i }) (.of_eq rfl rfl rfl rfl) (grows_put _ _)
  | cancel i =>
    simp only [Engine.step, Engine.cancel]
    split
    · exact (grows_resolve s (some i) .cancelled).trans (.of_eq rfl rfl rfl rfl)
    · exact .refl s
  | take now => simp only [Engine.step, Engine.take]; split; exact .of_eq rfl rfl rfl rfl; exact .refl s
  | told =>
    simp only [Engine.step, Engine.told]
    split
    · exact .of_eq rfl rfl rfl rfl
    · exact .of_eq rfl rfl rfl rfl
    · exact .refl s
  | processed outs =>
    simp only [Engine.step, Engine.processedAct]
    split
    · exact grows_processed _ _ _ _ _ _ _ _
    · exact .refl s
  | next =>
    simp only [Engine.step, Engine.next]
    split
    · simp only [createEvents_eq]; exact .of_eq rfl rfl rfl rfl
    · exact .of_eq rfl rfl rfl rfl
    · exact .of_eq rfl rfl rfl rfl
    · exact ⟨rfl, List.prefix_rfl, List.prefix_append _ _, List.prefix_rfl⟩
    · exact .refl s
  | registered reply now =>
    simp only [Engine.step, Engine.registered]
    split
    · split
      · exact grows_finalize _ _
      · exact (grows_resolve s _ _).trans (.of_eq rfl rfl rfl rfl)
      · exact (grows_resolve s _ _).trans (.of_eq rfl rfl rfl rfl)
    · exact .of_eq rfl rfl rfl rfl
    · exact .refl s
  | raise outs now =>
    simp only [Engine.step, Engine.raise]
    split
    · exact grows_finalize _ _
    · exact (grows_processed _ _ _ _ _ _ _ _).trans (grows_finalize _ _)
    · exact grows_finalize _ _
    · exact .refl s
  | close now =>
    simp only [Engine.step, Engine.close]
    split
    · exact .of_eq rfl rfl rfl rfl
    · exact .of_eq rfl rfl rfl rfl
    · exact .refl s
    · exact grows_finalize _ _
  | finished => simp only [Engine.step]; split; exact .of_eq rfl rfl rfl rfl; exact .refl s

theorem grows_run (s : Engine) (acts : List EngineAct) : Grows s (s.run acts) := by
  induction acts generalizing s with
  | nil => exact .refl s
  | cons a acts ih => exact (grows_step s a).trans (ih (s.step a))

/-- Requests of different calls. -/
structure Good (requests : List (Source × List RegisterEvent)) (l : List EngineRequest) : Prop where
  call : ∀ r ∈ l, r.events ≠ [] ∧ ∃ i, r.future = some i ∧ requests[i]? = some (r.source, r.events)
  once : (l.map EngineRequest.future).Nodup

theorem Good.sublist {requests : List (Source × List RegisterEvent)} {l l' : List EngineRequest} (h : Good requests l)
    (hl : l'.Sublist l) : Good requests l' :=
  ⟨fun r hr => h.call r (hl.subset hr), h.once.sublist (hl.map _)⟩

theorem Good.perm {requests : List (Source × List RegisterEvent)} {l l' : List EngineRequest} (h : Good requests l)
    (hl : l'.Perm l) : Good requests l' :=
  ⟨fun r hr => h.call r (hl.subset hr), (hl.map _).nodup_iff.2 h.once⟩

/-- Accepted requests are the one of `create_engine` and those of calls of `register`. -/
def Origin (s : Engine) (more : List EngineRequest) : Prop :=
  ∃ rest, s.accepted = ⟨none, ⟨.engine, 0⟩, [statusRegEvent s.conf.serverId "STARTED"]⟩ :: rest ∧
    Good s.requests (rest ++ s.putters ++ more)

theorem Origin.congr {s s' : Engine} {more : List EngineRequest} (h : Origin s more) (h1 : s'.conf = s.conf)
    (h2 : s'.accepted = s.accepted) (h3 : s'.requests = s.requests) (h4 : s'.putters = s.putters) : Origin s' more := by
  obtain ⟨rest, h5, h6⟩ := h
  exact ⟨rest, by rw [h2, h1, h5], by rw [h3, h4]; exact h6⟩

theorem Origin.put {s : Engine} {r : EngineRequest} (h : Origin s [r]) : Origin (s.put r) [] := by
  obtain ⟨rest, h5, h6⟩ := h
  unfold Engine.put
  split
  · obtain ⟨h1, _, h3, _, h4, h7⟩ := resolve_core s r.future .closed
    refine Origin.congr (s := s) ⟨rest, h5, h6.sublist ?_⟩ h1.conf h3 h7 h4
    rw [List.append_nil]
    exact List.sublist_append_left _ _
  · split
    · refine ⟨rest ++ [r], by simp [h5], h6.perm ?_⟩
      simp only [List.append_nil, List.append_assoc]
      exact List.Perm.append_left _ List.perm_append_comm
    · refine ⟨rest, h5, ?_⟩
      simpa using h6

theorem origin_finalize {s : Engine} (h : Origin s []) (now : Timestamp) : Origin (s.finalize now) [] := by
  obtain ⟨c1, c2, c3, c4, c5, c6⟩ := resolveAll_core s (s.phase.current.toList ++ s.queue) .closed
  refine h.congr c1.conf c3 c6 c5

theorem origin_processed {s : Engine} (h : Origin s []) (r : EngineRequest) (ts : Timestamp)
    (events : List Event) (c : Nat × Source × Event) (pending : List (Nat × Source × Event))
    (outputs : List (Source × Event)) (outs : List RegisterEvent) :
    Origin (s.processed r ts events c pending outputs outs) [] := by
  unfold Engine.processed
  simp only [createEvents_eq]
  exact h.congr rfl rfl rfl rfl

theorem origin_step {s : Engine} (h : Origin s []) (a : EngineAct) : Origin (s.step a) [] := by
  have res : ∀ f o, Origin (s.resolve f o) [] := fun f o => by
    obtain ⟨h1, _, h3, _, h4, h7⟩ := resolve_core s f o
    exact h.congr h1.conf h3 h7 h4
  cases a with
  | spawn => simp only [Engine.step]; split; exact h.congr rfl rfl rfl rfl; exact h
  | register source events =>
    simp only [Engine.step, Engine.register]
    obtain ⟨rest, h5, h6⟩ := h
    have old : Good (s.requests ++ [(source, events)]) (rest ++ s.putters ++ []) :=
      ⟨fun r hr => ⟨(h6.call r hr).1, by
        obtain ⟨i, h1, h2⟩ := (h6.call r hr).2
        exact ⟨i, h1, prefix_get (List.prefix_append _ _) h2⟩⟩, h6.once⟩
    split
    · obtain ⟨h1, _, h3, _, h4, h7⟩ := resolve_core
        { s with requests := s.requests ++ [(source, ([] : List RegisterEvent))] } (some s.requests.length)
        (.result (some []))
      exact Origin.congr (s := { s with requests := s.requests ++ [(source, ([] : List RegisterEvent))] })
        ⟨rest, h5, old⟩ h1.conf h3 h7 h4
    · next e es =>
      refine Origin.put ⟨rest, h5, ?_⟩
      rw [List.append_nil] at old
      refine ⟨?_, ?_⟩
      · intro r hr
        rcases List.mem_append.1 hr with hr | hr
        · exact old.call r hr
        · simp only [List.mem_singleton] at hr
          subst hr
          exact ⟨by simp, s.requests.length, rfl, by simp⟩
      · rw [List.map_append, List.nodup_append]
        refine ⟨old.once, by simp, ?_⟩
        rintro a ha b hb rfl
        simp only [List.map_cons, List.map_nil, List.mem_singleton] at hb
        obtain ⟨r, hr, rfl⟩ := List.mem_map.1 ha
        rw [List.append_nil] at h6
        obtain ⟨i, hi, hi'⟩ := (h6.call r hr).2
        rw [hi] at hb
        cases hb
        simp at hi'
  | wake i =>
    simp only [Engine.step, Engine.wake]
    split
    · exact h
    · next r hr =>
      obtain ⟨rest, h5, h6⟩ := h
      refine Origin.put ⟨rest, h5, h6.perm ?_⟩
      rw [List.append_nil, List.append_assoc]
      refine List.Perm.append_left _ ?_
      obtain ⟨hi, hr'⟩ := List.getElem?_eq_some_iff.1 hr
      subst hr'
      exact List.perm_append_comm.trans (List.getElem_cons_eraseIdx_perm hi)
  | cancel i =>
    simp only [Engine.step, Engine.cancel]
    split
    · obtain ⟨h1, _, h3, _, h4, h7⟩ := resolve_core s (some i) .cancelled
      obtain ⟨rest, h5, h6⟩ := res (some i) .cancelled
      refine ⟨rest, h5, h6.sublist ?_⟩
      rw [List.append_nil, List.append_nil, h4]
      exact (List.Sublist.refl _).append List.filter_sublist
    · exact h
  | take now => simp only [Engine.step, Engine.take]; split; exact h.congr rfl rfl rfl rfl; exact h
  | told =>
    simp only [Engine.step, Engine.told]
    split
    · exact h.congr rfl rfl rfl rfl
    · exact h.congr rfl rfl rfl rfl
    · exact h
  | processed outs =>
    simp only [Engine.step, Engine.processedAct]
    split
    · exact origin_processed h _ _ _ _ _ _ _
    · exact h
  | next =>
    simp only [Engine.step, Engine.next]
    split
    · simp only [createEvents_eq]; exact h.congr rfl rfl rfl rfl
    · exact h.congr rfl rfl rfl rfl
    · exact h.congr rfl rfl rfl rfl
    · exact h.congr rfl rfl rfl rfl
    · exact h
  | registered reply now =>
    simp only [Engine.step, Engine.registered]
    split
    · split
      · exact origin_finalize h _
      · exact (res _ _).congr rfl rfl rfl rfl
      · exact (res _ _).congr rfl rfl rfl rfl
    · exact h.congr rfl rfl rfl rfl
    · exact h
  | raise outs now =>
    simp only [Engine.step, Engine.raise]
    split
    · exact origin_finalize h _
    · exact origin_finalize (origin_processed h _ _ _ _ _ _ _) _
    · exact origin_finalize h _
    · exact h
  | close now =>
    simp only [Engine.step, Engine.close]
    split
    · exact h.congr rfl rfl rfl rfl
    · exact h.congr rfl rfl rfl rfl
    · exact h
    · exact origin_finalize h _
  | finished => simp only [Engine.step]; split; exact h.congr rfl rfl rfl rfl; exact h

theorem origin_run (conf : EngineConf) (last : EventId) (acts : List EngineAct) :
    Origin ((Engine.create conf last).run acts) [] := by
  induction acts using List.reverseRecOn with
  | nil => exact ⟨[], rfl, by simp [Engine.run, Engine.create], by simp [Engine.run, Engine.create]⟩
  | append_singleton acts a ih => rw [engine_snoc]; exact origin_step ih a

end HatEvent
