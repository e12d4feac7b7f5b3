import Verif.Spec.EngineLive
import Verif.Proof.Schedule
import Verif.Props.Engine
import Mathlib.Data.Prod.Lex
import Mathlib.Order.WellFounded
import Mathlib.Data.List.Nodup
import Mathlib.Order.Basic

/-!
# The register loop goes on

Lemmas for C90.
-/

namespace HatEvent
open Spec

/-- What a session waits for. -/
def EnginePhase.need : EnginePhase → LoopStep
  | .starting _ _ 0 => .next
  | .starting _ _ (_ + 1) => .told
  | .processing _ _ _ [] _ => .next
  | .processing _ _ _ (_ :: _) _ => .processed
  | .stopping _ _ 0 => .next
  | .stopping _ _ (_ + 1) => .told
  | .registering _ _ => .registered
  | _ => .finished

/-- What is left of a session: its part, the register events that modules may
still return and those not passed to modules, and the calls in this part. -/
def Engine.rank (N : Nat) (s : Engine) : ℕ ×ₗ ℕ ×ₗ ℕ :=
  match s.phase with
  | .starting _ _ left => toLex (3, toLex (0, left))
  | .processing _ _ _ pending outputs =>
    toLex (2, toLex (N - (madeIn s s.lastId.session).length + outputs.length, pending.length))
  | .stopping _ _ left => toLex (1, toLex (0, left))
  | _ => toLex (0, toLex (0, 0))

theorem lex3_lt {a b c a' b' c' : Nat} (h : a < a' ∨ a = a' ∧ (b < b' ∨ b = b' ∧ c < c')) :
    (toLex (a, toLex (b, c)) : ℕ ×ₗ ℕ ×ₗ ℕ) < toLex (a', toLex (b', c')) := by
  rw [Prod.Lex.toLex_lt_toLex]
  rcases h with h | ⟨h, h'⟩
  · exact .inl h
  · refine .inr ⟨h, ?_⟩
    rw [Prod.Lex.toLex_lt_toLex]
    exact h'

/-- Nothing the session depends on is changed. -/
structure SameSession (s s' : Engine) : Prop where
  phase : s'.phase = s.phase
  lastId : s'.lastId = s.lastId
  made : s'.made = s.made
  queue : s.queue <+: s'.queue

theorem SameSession.rank {s s' : Engine} (h : SameSession s s') (N : Nat) : s'.rank N = s.rank N := by
  unfold Engine.rank madeIn
  rw [h.phase, h.lastId, h.made]

theorem sameSession_resolve (s : Engine) (f : Option Nat) (o : EngineOutcome) : SameSession s (s.resolve f o) := by
  unfold Engine.resolve
  split
  · exact ⟨rfl, rfl, rfl, List.prefix_rfl⟩
  · split <;> exact ⟨rfl, rfl, rfl, List.prefix_rfl⟩

theorem sameSession_put (s : Engine) (r : EngineRequest) : SameSession s (s.put r) := by
  unfold Engine.put
  split
  · exact sameSession_resolve _ _ _
  · split
    · exact ⟨rfl, rfl, rfl, List.prefix_append _ _⟩
    · exact ⟨rfl, rfl, rfl, List.prefix_rfl⟩

/-- Actions that are not steps of the loop. -/
theorem sameSession_other (s : Engine) (a : EngineAct) (h : (∃ src es, a = .register src es) ∨ (∃ i, a = .wake i) ∨
    ∃ i, a = .cancel i) : SameSession s (s.step a) := by
  rcases h with ⟨src, es, rfl⟩ | ⟨i, rfl⟩ | ⟨i, rfl⟩
  · simp only [Engine.step, Engine.register]
    split
    · have := sameSession_resolve { s with requests := s.requests ++ [(src, ([] : List RegisterEvent))] }
        (some s.requests.length) (.result (some []))
      exact ⟨this.1, this.2, this.3, this.4⟩
    · next e es =>
      have := sameSession_put { s with requests := s.requests ++ [(src, e :: es)] } ⟨some s.requests.length, src, e :: es⟩
      exact ⟨this.1, this.2, this.3, this.4⟩
  · simp only [Engine.step, Engine.wake]
    split
    · exact ⟨rfl, rfl, rfl, List.prefix_rfl⟩
    · next r _ =>
      have := sameSession_put { s with putters := s.putters.eraseIdx i } r
      exact ⟨this.1, this.2, this.3, this.4⟩
  · simp only [Engine.step, Engine.cancel]
    split
    · have := sameSession_resolve s (some i) .cancelled
      exact ⟨this.1, this.2, this.3, this.4⟩
    · exact ⟨rfl, rfl, rfl, List.prefix_rfl⟩

theorem finalize_phase (s : Engine) (now : Timestamp) : (s.finalize now).phase = .finishing := rfl

/-- A session: what one action can do to it. -/
inductive SessionStep (N : Nat) (r : EngineRequest) (s : Engine) (a : EngineAct) (s' : Engine) : Prop
  | goes : s'.phase.current = some r → s.queue <+: s'.queue → s'.lastId.session = s.lastId.session →
      (s'.rank N < s.rank N ∨ s'.rank N = s.rank N ∧ loopStep a ≠ some s.phase.need) → SessionStep N r s a s'
  | ends : s'.phase = .idle → s.queue <+: s'.queue → (∀ i, r.future = some i → Answered s' i) → SessionStep N r s a s'
  | over : s'.phase = .finishing → SessionStep N r s a s'

theorem session_step {N : Nat} {r : EngineRequest} {s : Engine} (hr : s.phase.current = some r) (a : EngineAct)
    (hN : (madeIn (s.step a) s.lastId.session).length ≤ N) : SessionStep N r s a (s.step a) := by
  have same : SameSession s (s.step a) → loopStep a ≠ some s.phase.need → SessionStep N r s a (s.step a) := by
    intro h h'
    exact .goes (by rw [h.phase]; exact hr) h.queue (by rw [h.lastId]) (.inr ⟨h.rank N, h'⟩)
  have keep : s.step a = s → loopStep a ≠ some s.phase.need → SessionStep N r s a (s.step a) := by
    intro h
    exact same (by rw [h]; exact ⟨rfl, rfl, rfl, List.prefix_rfl⟩)
  cases a with
  | spawn =>
    refine keep ?_ (by simp [loopStep])
    simp only [Engine.step]
    split
    · next h => rw [h] at hr; simp [EnginePhase.current] at hr
    · rfl
  | register src es => exact same (sameSession_other _ _ (.inl ⟨src, es, rfl⟩)) (by simp [loopStep])
  | wake i => exact same (sameSession_other _ _ (.inr (.inl ⟨i, rfl⟩))) (by simp [loopStep])
  | cancel i => exact same (sameSession_other _ _ (.inr (.inr ⟨i, rfl⟩))) (by simp [loopStep])
  | take now =>
    refine keep ?_ ?_
    · simp only [Engine.step, Engine.take]
      split
      · next h _ => rw [h] at hr; simp [EnginePhase.current] at hr
      · rfl
    · simp only [loopStep]
      unfold EnginePhase.need
      split <;> simp
  | finished =>
    refine keep ?_ ?_
    · simp only [Engine.step]
      split
      · next h => rw [h] at hr; simp [EnginePhase.current] at hr
      · rfl
    · simp only [loopStep]
      cases hp : s.phase with
      | creating => rw [hp] at hr; simp [EnginePhase.current] at hr
      | idle => rw [hp] at hr; simp [EnginePhase.current] at hr
      | finishing => rw [hp] at hr; simp [EnginePhase.current] at hr
      | closed => rw [hp] at hr; simp [EnginePhase.current] at hr
      | starting r t l => cases l <;> simp [EnginePhase.need]
      | processing r t e p o => cases p <;> simp [EnginePhase.need]
      | stopping r e l => cases l <;> simp [EnginePhase.need]
      | registering r e => simp [EnginePhase.need]
  | close now =>
    refine .over ?_
    simp only [Engine.step, Engine.close]
    split
    · next h => rw [h] at hr; simp [EnginePhase.current] at hr
    · next h => rw [h] at hr; simp [EnginePhase.current] at hr
    · next h => rw [h] at hr; simp [EnginePhase.current] at hr
    · rfl
  | raise outs now =>
    cases hp : s.phase with
    | creating => rw [hp] at hr; simp [EnginePhase.current] at hr
    | idle => rw [hp] at hr; simp [EnginePhase.current] at hr
    | finishing => rw [hp] at hr; simp [EnginePhase.current] at hr
    | closed => rw [hp] at hr; simp [EnginePhase.current] at hr
    | starting r t l =>
      cases l with
      | zero => exact keep (by simp [Engine.step, Engine.raise, hp]) (by simp [loopStep])
      | succ l => exact .over (by simp [Engine.step, Engine.raise, hp, finalize_phase])
    | processing r t e p o =>
      cases p with
      | nil => exact keep (by simp [Engine.step, Engine.raise, hp]) (by simp [loopStep])
      | cons c p => exact .over (by simp [Engine.step, Engine.raise, hp, finalize_phase])
    | stopping r e l =>
      cases l with
      | zero => exact keep (by simp [Engine.step, Engine.raise, hp]) (by simp [loopStep])
      | succ l => exact .over (by simp [Engine.step, Engine.raise, hp, finalize_phase])
    | registering r e => exact keep (by simp [Engine.step, Engine.raise, hp]) (by simp [loopStep])
  | told =>
    cases hp : s.phase with
    | creating => rw [hp] at hr; simp [EnginePhase.current] at hr
    | idle => rw [hp] at hr; simp [EnginePhase.current] at hr
    | finishing => rw [hp] at hr; simp [EnginePhase.current] at hr
    | closed => rw [hp] at hr; simp [EnginePhase.current] at hr
    | starting r' t l =>
      rw [hp] at hr
      cases l with
      | zero => exact keep (by simp [Engine.step, Engine.told, hp]) (by simp [loopStep, hp, EnginePhase.need])
      | succ l =>
        have he : s.step .told = { s with phase := .starting r' t l } := by simp [Engine.step, Engine.told, hp]
        rw [he]
        refine .goes hr List.prefix_rfl rfl (.inl ?_)
        simp only [Engine.rank, hp]
        exact lex3_lt (by omega)
    | processing r t e p o =>
      refine keep (by simp [Engine.step, Engine.told, hp]) ?_
      rw [hp]; cases p <;> simp [loopStep, EnginePhase.need]
    | stopping r' e l =>
      rw [hp] at hr
      cases l with
      | zero => exact keep (by simp [Engine.step, Engine.told, hp]) (by simp [loopStep, hp, EnginePhase.need])
      | succ l =>
        have he : s.step .told = { s with phase := .stopping r' e l } := by simp [Engine.step, Engine.told, hp]
        rw [he]
        refine .goes hr List.prefix_rfl rfl (.inl ?_)
        simp only [Engine.rank, hp]
        exact lex3_lt (by omega)
    | registering r e => exact keep (by simp [Engine.step, Engine.told, hp]) (by simp [loopStep, hp, EnginePhase.need])
  | processed outs =>
    cases hp : s.phase with
    | creating => rw [hp] at hr; simp [EnginePhase.current] at hr
    | idle => rw [hp] at hr; simp [EnginePhase.current] at hr
    | finishing => rw [hp] at hr; simp [EnginePhase.current] at hr
    | closed => rw [hp] at hr; simp [EnginePhase.current] at hr
    | starting r t l =>
      refine keep (by simp [Engine.step, Engine.processedAct, hp]) ?_
      rw [hp]; cases l <;> simp [loopStep, EnginePhase.need]
    | processing r' t e p o =>
      rw [hp] at hr
      cases p with
      | nil => exact keep (by simp [Engine.step, Engine.processedAct, hp]) (by simp [loopStep, hp, EnginePhase.need])
      | cons c p =>
        have he : s.step (.processed outs) = s.processed r' t e c p o outs := by
          simp [Engine.step, Engine.processedAct, hp]
        rw [he] at hN ⊢
        have hm : madeIn (s.processed r' t e c p o outs) s.lastId.session =
            madeIn s s.lastId.session ++ outs.map fun o => (moduleSource c.1, o) := by
          unfold Engine.processed madeIn
          simp only [createEvents_eq, List.filter_append, List.map_append]
          congr 1
          rw [List.filter_eq_self.2]
          · simp
          · intro x hx
            obtain ⟨o, _, rfl⟩ := List.mem_map.1 hx
            simp
        have hl : (s.processed r' t e c p o outs).lastId.session = s.lastId.session := by
          unfold Engine.processed
          simp only [createEvents_eq]
        refine .goes ?_ ?_ hl (.inl ?_)
        · rw [← hr]; rfl
        · unfold Engine.processed
          simp only [createEvents_eq]
          exact List.prefix_rfl
        · have hph : (s.processed r' t e c p o outs).phase = .processing r' t
              (e ++ (Engine.createEvents _ t outs).2) p
              (o ++ (Engine.createEvents _ t outs).2.map fun e => (moduleSource c.1, e)) := rfl
          unfold Engine.rank
          rw [hph]
          simp only [hp, hl, hm]
          rw [hm] at hN
          simp only [List.length_append, List.length_map, createEvents_eq, length_numbered, List.length_cons] at hN ⊢
          exact lex3_lt (by omega)
    | stopping r e l =>
      refine keep (by simp [Engine.step, Engine.processedAct, hp]) ?_
      rw [hp]; cases l <;> simp [loopStep, EnginePhase.need]
    | registering r e =>
      exact keep (by simp [Engine.step, Engine.processedAct, hp]) (by simp [loopStep, hp, EnginePhase.need])
  | next =>
    cases hp : s.phase with
    | creating => rw [hp] at hr; simp [EnginePhase.current] at hr
    | idle => rw [hp] at hr; simp [EnginePhase.current] at hr
    | finishing => rw [hp] at hr; simp [EnginePhase.current] at hr
    | closed => rw [hp] at hr; simp [EnginePhase.current] at hr
    | starting r' t l =>
      rw [hp] at hr
      cases l with
      | succ l => exact keep (by simp [Engine.step, Engine.next, hp]) (by simp [loopStep, hp, EnginePhase.need])
      | zero =>
        have he : s.step .next = { (s.createEvents t r'.events).1 with
            phase := .processing r' t (s.createEvents t r'.events).2 (roundCalls s.conf.modules
              ((s.createEvents t r'.events).2.map fun e => (r'.source, e))) [] } := by
          simp [Engine.step, Engine.next, hp]
        rw [he]
        refine .goes hr ?_ ?_ (.inl ?_)
        · simp only [createEvents_eq]; exact List.prefix_rfl
        · simp only [createEvents_eq]
        · simp only [Engine.rank, hp]
          exact lex3_lt (by omega)
    | processing r' t e p o =>
      rw [hp] at hr
      cases p with
      | cons c p => exact keep (by simp [Engine.step, Engine.next, hp]) (by simp [loopStep, hp, EnginePhase.need])
      | nil =>
        cases o with
        | nil =>
          have he : s.step .next = { s with phase := .stopping r' e s.conf.modules.length } := by
            simp [Engine.step, Engine.next, hp]
          rw [he]
          refine .goes hr List.prefix_rfl rfl (.inl ?_)
          simp only [Engine.rank, hp]
          exact lex3_lt (by omega)
        | cons x o =>
          have he : s.step .next = { s with phase := .processing r' t e (roundCalls s.conf.modules (x :: o)) [] } := by
            simp [Engine.step, Engine.next, hp]
          rw [he]
          refine .goes hr List.prefix_rfl rfl (.inl ?_)
          simp only [Engine.rank, hp, List.length_cons, List.length_nil]
          refine lex3_lt (.inr ⟨rfl, .inl ?_⟩)
          show N - (madeIn s s.lastId.session).length + 0 < _
          omega
    | stopping r' e l =>
      rw [hp] at hr
      cases l with
      | succ l => exact keep (by simp [Engine.step, Engine.next, hp]) (by simp [loopStep, hp, EnginePhase.need])
      | zero =>
        have he : s.step .next = { s with phase := .registering r' e, sent := s.sent ++ [e] } := by
          simp [Engine.step, Engine.next, hp]
        rw [he]
        refine .goes hr List.prefix_rfl rfl (.inl ?_)
        simp only [Engine.rank, hp]
        exact lex3_lt (by omega)
    | registering r e => exact keep (by simp [Engine.step, Engine.next, hp]) (by simp [loopStep, hp, EnginePhase.need])
  | registered reply now =>
    cases hp : s.phase with
    | creating => rw [hp] at hr; simp [EnginePhase.current] at hr
    | idle => rw [hp] at hr; simp [EnginePhase.current] at hr
    | finishing => rw [hp] at hr; simp [EnginePhase.current] at hr
    | closed => rw [hp] at hr; simp [EnginePhase.current] at hr
    | starting r t l =>
      refine keep (by simp [Engine.step, Engine.registered, hp]) ?_
      rw [hp]; cases l <;> simp [loopStep, EnginePhase.need]
    | processing r t e p o =>
      refine keep (by simp [Engine.step, Engine.registered, hp]) ?_
      rw [hp]; cases p <;> simp [loopStep, EnginePhase.need]
    | stopping r e l =>
      refine keep (by simp [Engine.step, Engine.registered, hp]) ?_
      rw [hp]; cases l <;> simp [loopStep, EnginePhase.need]
    | registering r' e =>
      rw [hp] at hr
      simp only [EnginePhase.current, Option.some.injEq] at hr
      subst hr
      cases reply with
      | raised => exact .over (by simp [Engine.step, Engine.registered, hp, finalize_phase])
      | none =>
        have he : s.step (.registered .none now) = { s.resolve r'.future (.result none) with phase := .idle } := by
          simp [Engine.step, Engine.registered, hp]
        rw [he]
        exact .ends rfl (sameSession_resolve _ _ _).queue (fun i hi => resolve_done _ _ hi)
      | same =>
        have he : s.step (.registered .same now) =
            { s.resolve r'.future (.result (some ((e.zip r'.events).map Prod.fst))) with phase := .idle } := by
          simp [Engine.step, Engine.registered, hp]
        rw [he]
        exact .ends rfl (sameSession_resolve _ _ _).queue (fun i hi => resolve_done _ _ hi)

/-- The rank tells what the session waits for. -/
theorem need_of_rank {N : Nat} {s s' : Engine} {r r' : EngineRequest} (hr : s.phase.current = some r)
    (hr' : s'.phase.current = some r') (h : s'.rank N = s.rank N) : s'.phase.need = s.phase.need := by
  have inj : ∀ {a b c a' b' c' : Nat}, (toLex (a, toLex (b, c)) : ℕ ×ₗ ℕ ×ₗ ℕ) = toLex (a', toLex (b', c')) →
      a = a' ∧ c = c' := by
    intro a b c a' b' c' h
    have h := congrArg ofLex h
    simp only [ofLex_toLex, Prod.mk.injEq] at h
    refine ⟨h.1, ?_⟩
    have h2 := congrArg ofLex h.2
    simp only [ofLex_toLex, Prod.mk.injEq] at h2
    exact h2.2
  unfold Engine.rank at h
  cases hp : s.phase <;> cases hp' : s'.phase <;> rw [hp] at hr h <;> rw [hp'] at hr' h <;>
    simp only [EnginePhase.current, reduceCtorEq] at hr hr' <;>
    obtain ⟨h1, h2⟩ := inj h <;> try omega
  · rename_i a b l1 a' b' l2
    subst h2
    cases l2 <;> rfl
  · rename_i a b c p1 d a' b' c' p2 d'
    cases p1 <;> cases p2 <;> simp_all [EnginePhase.need]
  · rename_i a b l1 a' b' l2
    subst h2
    cases l2 <;> rfl
  · rfl

/-- What is in the queue has been accepted. -/
theorem queue_accepted {last : EventId} {s : Engine} (h : PhaseOk last s s.phase) :
    ∀ r ∈ s.queue, s.phase ≠ .closed → r ∈ s.accepted := by
  intro r hr hp
  cases hph : s.phase with
  | closed => exact absurd hph hp
  | creating => rw [hph] at h; rw [← h.queue] at hr; exact List.mem_of_mem_drop hr
  | idle => rw [hph] at h; obtain ⟨n, h⟩ := h; rw [← h.queue] at hr; exact List.mem_of_mem_drop hr
  | starting => rw [hph] at h; obtain ⟨n, h, _⟩ := h; rw [← h.queue] at hr; exact List.mem_of_mem_drop hr
  | processing => rw [hph] at h; obtain ⟨n, _, h, _⟩ := h; rw [← h.queue] at hr; exact List.mem_of_mem_drop hr
  | stopping => rw [hph] at h; obtain ⟨n, h, _⟩ := h; rw [← h.queue] at hr; exact List.mem_of_mem_drop hr
  | registering => rw [hph] at h; obtain ⟨n, h, _⟩ := h; rw [← h.queue] at hr; exact List.mem_of_mem_drop hr
  | finishing => rw [hph] at h; obtain ⟨_, _, _, h⟩ := h; rw [h.queue] at hr; simp at hr

/-! ### Schedules -/

section
variable {conf : EngineConf} {last : EventId} {acts : Nat → EngineAct}

theorem engineAt_succ (n : Nat) : engineAt conf last acts (n + 1) = (engineAt conf last acts n).step (acts n) := by
  unfold engineAt
  rw [upTo_succ, engine_snoc]

theorem engineAt_grows {m n : Nat} (h : m ≤ n) : Grows (engineAt conf last acts m) (engineAt conf last acts n) := by
  obtain ⟨l, hl⟩ := upTo_prefix acts h
  unfold engineAt
  rw [← hl, Engine.run, Engine.run, List.foldl_append]
  exact grows_run _ _

/-- The session of `r` is over. -/
def Left (conf : EngineConf) (last : EventId) (acts : Nat → EngineAct) (r : EngineRequest) (n m : Nat) : Prop :=
  ((engineAt conf last acts m).phase = .idle ∧
    (engineAt conf last acts n).queue <+: (engineAt conf last acts m).queue ∧
    ∀ i, r.future = some i → Answered (engineAt conf last acts m) i) ∨
  (engineAt conf last acts m).phase = .finishing

theorem session_stay {N n : Nat} {r : EngineRequest} (hr : (engineAt conf last acts n).phase.current = some r)
    (hN : ∀ m, (madeIn (engineAt conf last acts m) (engineAt conf last acts n).lastId.session).length ≤ N) (d : Nat) :
    (∃ j, n ≤ j ∧ Left conf last acts r n j) ∨
      ((engineAt conf last acts (n + d)).phase.current = some r ∧
        (engineAt conf last acts n).queue <+: (engineAt conf last acts (n + d)).queue ∧
        (engineAt conf last acts (n + d)).lastId.session = (engineAt conf last acts n).lastId.session ∧
        (engineAt conf last acts (n + d)).rank N ≤ (engineAt conf last acts n).rank N) := by
  induction d with
  | zero => exact .inr ⟨hr, List.prefix_rfl, rfl, le_refl _⟩
  | succ d ih =>
    rcases ih with h | ⟨h1, h2, h3, h4⟩
    · exact .inl h
    have hst := session_step (N := N) h1 (acts (n + d)) (by rw [← engineAt_succ, h3]; exact hN _)
    rw [← engineAt_succ] at hst
    cases hst with
    | goes g1 g2 g3 g4 =>
      refine .inr ⟨g1, h2.trans g2, g3.trans h3, le_trans ?_ h4⟩
      rcases g4 with g4 | ⟨g4, _⟩
      · exact g4.le
      · exact g4.le
    | ends g1 g2 g3 => exact .inl ⟨n + d + 1, by omega, .inl ⟨g1, h2.trans g2, g3⟩⟩
    | over g1 => exact .inl ⟨n + d + 1, by omega, .inr g1⟩

/-- Every session ends. -/
theorem session_ends (hf : LoopFair acts) (hc : Calm conf last acts) {n : Nat} {r : EngineRequest}
    (hr : (engineAt conf last acts n).phase.current = some r) : ∃ j, n ≤ j ∧ Left conf last acts r n j := by
  obtain ⟨N, hN⟩ := hc (engineAt conf last acts n).lastId.session
  generalize hρ : (engineAt conf last acts n).rank N = ρ
  induction ρ using WellFoundedLT.induction generalizing n with
  | _ ρ ih =>
    have again : ∀ m, n ≤ m → (engineAt conf last acts m).phase.current = some r →
        (engineAt conf last acts n).queue <+: (engineAt conf last acts m).queue →
        (engineAt conf last acts m).lastId.session = (engineAt conf last acts n).lastId.session →
        (engineAt conf last acts m).rank N < ρ → ∃ j, n ≤ j ∧ Left conf last acts r n j := by
      intro m hm h1 h2 h3 h4
      obtain ⟨j, j1, j2⟩ := ih _ h4 h1 (by rw [h3]; exact hN) rfl
      refine ⟨j, by omega, ?_⟩
      rcases j2 with ⟨k1, k2, k3⟩ | k
      · exact .inl ⟨k1, h2.trans k2, k3⟩
      · exact .inr k
    obtain ⟨m, hm, hk⟩ := hf (engineAt conf last acts n).phase.need n
    obtain ⟨d, rfl⟩ := Nat.exists_eq_add_of_le hm
    rcases session_stay hr hN d with h | ⟨h1, h2, h3, h4⟩
    · exact h
    rw [hρ] at h4
    rcases h4.lt_or_eq with h4 | h4
    · exact again _ hm h1 h2 h3 h4
    have hneed := need_of_rank hr h1 (h4.trans hρ.symm)
    have hst := session_step (N := N) h1 (acts (n + d)) (by rw [← engineAt_succ, h3]; exact hN _)
    rw [← engineAt_succ] at hst
    cases hst with
    | goes g1 g2 g3 g4 =>
      refine again (n + d + 1) (by omega) g1 (h2.trans g2) (g3.trans h3) ?_
      rcases g4 with g4 | ⟨_, g5⟩
      · rw [← h4]; exact g4
      · rw [hneed] at g5; exact absurd hk g5
    | ends g1 g2 g3 => exact ⟨n + d + 1, by omega, .inl ⟨g1, h2.trans g2, g3⟩⟩
    | over g1 => exact ⟨n + d + 1, by omega, .inr g1⟩

/-- What one action can do to an idle loop. -/
inductive IdleStep (s : Engine) (a : EngineAct) (s' : Engine) : Prop
  | stays : s'.phase = .idle → s.queue <+: s'.queue → (loopStep a = some .take → s.queue = []) → IdleStep s a s'
  | takes (r q) : s.queue = r :: q → s'.phase.current = some r → s'.queue = q → IdleStep s a s'
  | over : s'.phase = .finishing → IdleStep s a s'

theorem idle_step {s : Engine} (hp : s.phase = .idle) (a : EngineAct) : IdleStep s a (s.step a) := by
  have same : SameSession s (s.step a) → loopStep a ≠ some .take → IdleStep s a (s.step a) := by
    intro h h'
    exact .stays (by rw [h.phase]; exact hp) h.queue (fun h => absurd h h')
  have keep : s.step a = s → loopStep a ≠ some .take → IdleStep s a (s.step a) := by
    intro h
    exact same (by rw [h]; exact ⟨rfl, rfl, rfl, List.prefix_rfl⟩)
  cases a with
  | spawn => exact keep (by simp [Engine.step, hp]) (by simp [loopStep])
  | register src es => exact same (sameSession_other _ _ (.inl ⟨src, es, rfl⟩)) (by simp [loopStep])
  | wake i => exact same (sameSession_other _ _ (.inr (.inl ⟨i, rfl⟩))) (by simp [loopStep])
  | cancel i => exact same (sameSession_other _ _ (.inr (.inr ⟨i, rfl⟩))) (by simp [loopStep])
  | told => exact keep (by simp [Engine.step, Engine.told, hp]) (by simp [loopStep])
  | processed o => exact keep (by simp [Engine.step, Engine.processedAct, hp]) (by simp [loopStep])
  | next => exact keep (by simp [Engine.step, Engine.next, hp]) (by simp [loopStep])
  | registered r now => exact keep (by simp [Engine.step, Engine.registered, hp]) (by simp [loopStep])
  | raise o now => exact keep (by simp [Engine.step, Engine.raise, hp]) (by simp [loopStep])
  | finished => exact keep (by simp [Engine.step, hp]) (by simp [loopStep])
  | close now => exact .over (by simp [Engine.step, Engine.close, hp, finalize_phase])
  | take now =>
    cases hq : s.queue with
    | nil =>
      have : s.step (.take now) = s := by simp [Engine.step, Engine.take, hp, hq]
      rw [this]
      exact .stays hp List.prefix_rfl (fun _ => hq)
    | cons r q =>
      have : s.step (.take now) = { s.createSession with queue := q, phase := .starting r now s.conf.modules.length } := by
        simp [Engine.step, Engine.take, hp, hq]
      rw [this]
      exact .takes r q hq rfl rfl

/-- A request in the queue of an idle loop is taken. -/
theorem idle_takes (hf : LoopFair acts) {n : Nat} {r : EngineRequest} {q : List EngineRequest}
    (hp : (engineAt conf last acts n).phase = .idle) (hq : (engineAt conf last acts n).queue = r :: q) :
    ∃ m, n ≤ m ∧ ((engineAt conf last acts m).phase = .finishing ∨
      (engineAt conf last acts m).phase.current = some r ∧ q <+: (engineAt conf last acts m).queue ∧
        ∃ j, m = j + 1 ∧ n ≤ j ∧ (engineAt conf last acts j).queue = r :: (engineAt conf last acts m).queue) := by
  obtain ⟨m, hm, hk⟩ := hf .take n
  obtain ⟨d, rfl⟩ := Nat.exists_eq_add_of_le hm
  have stay : ∀ d, (∃ m, n ≤ m ∧ ((engineAt conf last acts m).phase = .finishing ∨
      (engineAt conf last acts m).phase.current = some r ∧ q <+: (engineAt conf last acts m).queue ∧
        ∃ j, m = j + 1 ∧ n ≤ j ∧ (engineAt conf last acts j).queue = r :: (engineAt conf last acts m).queue)) ∨
      ((engineAt conf last acts (n + d)).phase = .idle ∧
        (engineAt conf last acts n).queue <+: (engineAt conf last acts (n + d)).queue ∧
        (d ≠ 0 → loopStep (acts (n + d - 1)) ≠ some .take)) := by
    intro d
    induction d with
    | zero => exact .inr ⟨hp, List.prefix_rfl, fun h => absurd rfl h⟩
    | succ d ih =>
      rcases ih with h | ⟨h1, h2, _⟩
      · exact .inl h
      have hne : ∃ t, (engineAt conf last acts (n + d)).queue = r :: t := by
        obtain ⟨t, ht⟩ := h2
        exact ⟨q ++ t, by rw [← ht, hq]; rfl⟩
      have hst := idle_step h1 (acts (n + d))
      rw [← engineAt_succ] at hst
      cases hst with
      | stays g1 g2 g3 =>
        refine .inr ⟨g1, h2.trans g2, fun _ h => ?_⟩
        have := g3 (by simpa using h)
        obtain ⟨t, ht⟩ := hne
        rw [ht] at this; simp at this
      | takes r' q' g1 g2 g3 =>
        left
        refine ⟨n + d + 1, by omega, .inr ?_⟩
        rw [g1, hq] at h2
        obtain ⟨t, ht⟩ := h2
        simp only [List.cons_append, List.cons.injEq] at ht
        refine ⟨by rw [g2, ht.1], ?_, n + d, rfl, by omega, by rw [g1, g3, ht.1]⟩
        rw [g3, ← ht.2]; exact List.prefix_append _ _
      | over g1 => exact .inl ⟨n + d + 1, by omega, .inl g1⟩
  rcases stay (d + 1) with h | ⟨_, _, h⟩
  · exact h
  · exact absurd hk (h (by simp))

/-- The engine has stopped: all accepted requests have outcomes. -/
theorem over_answered {acts : List EngineAct} {r : EngineRequest} {i : Nat}
    (h : ∃ n pre e, Over last ((Engine.create conf last).run acts) n pre e)
    (hp : ((Engine.create conf last).run acts).phase = .finishing ∨ ((Engine.create conf last).run acts).phase = .closed)
    (hr : r ∈ ((Engine.create conf last).run acts).accepted) (hi : r.future = some i) :
    Answered ((Engine.create conf last).run acts) i := by
  have hcalls := calls_run conf last acts
  obtain ⟨rest, h5, h6⟩ := origin_run conf last acts
  generalize (Engine.create conf last).run acts = s at *
  obtain ⟨n, pre, e, ho⟩ := h
  have hr' : r ∈ rest := by
    rw [h5] at hr
    rcases List.mem_cons.1 hr with rfl | hr
    · simp at hi
    · exact hr
  obtain ⟨_, j, hj, hj'⟩ := h6.call r (by simp [hr'])
  rw [hi] at hj; cases hj
  rcases hcalls.all i (List.getElem?_eq_some_iff.1 hj').1 with h | ⟨r', h1, h2⟩
  · exact h
  · exfalso
    have hput : r' ∈ s.putters := by
      unfold Engine.open_ at h1
      rw [ho.queue] at h1
      rcases hp with hp | hp <;> rw [hp] at h1 <;> simpa [EnginePhase.current] using h1
    have := h6.once
    rw [List.append_nil, List.map_append, List.nodup_append] at this
    exact this.2.2 _ (List.mem_map.2 ⟨r, hr', rfl⟩) _ (List.mem_map.2 ⟨r', hput, rfl⟩) (by rw [hi, h2])

/-- After the start of the loop. -/
theorem started_at {k n : Nat} (hk : (engineAt conf last acts k).phase = .creating) (hs : acts k = .spawn) (hn : k < n) :
    Spawned (engineAt conf last acts n) := by
  obtain ⟨l, hl⟩ := upTo_prefix acts (show k + 1 ≤ n from hn)
  unfold engineAt
  rw [← hl, upTo_succ, hs, List.append_assoc]
  exact spawned_run conf last _ l hk

/-- A request that is accepted will have an outcome. -/
theorem accepted_answered (hf : LoopFair acts) (hc : Calm conf last acts) (hs : Started conf last acts) {n : Nat}
    {r : EngineRequest} {i : Nat} (hr : r ∈ (engineAt conf last acts n).accepted) (hi : r.future = some i) :
    ∃ m, n ≤ m ∧ Answered (engineAt conf last acts m) i := by
  obtain ⟨k, hk, hsp⟩ := hs
  -- once it has stopped
  have fin : ∀ m, n ≤ m → (engineAt conf last acts m).phase = .finishing ∨ (engineAt conf last acts m).phase = .closed ∧ k < m →
      ∃ m, n ≤ m ∧ Answered (engineAt conf last acts m) i := by
    intro m hm hph
    have hacc : r ∈ (engineAt conf last acts m).accepted := (engineAt_grows hm).accepted.subset hr
    refine ⟨m, hm, over_answered (r := r) ?_ (hph.imp id (·.1)) hacc hi⟩
    rcases whole_or_over (phase_run conf last (upTo acts m)) with ⟨_, h'⟩ | ⟨_, h'⟩
    · exfalso
      rcases hph with hph | ⟨hph, hkm⟩
      · have := phase_run conf last (upTo acts m)
        rw [show ((Engine.create conf last).run (upTo acts m)).phase = .finishing from hph] at this
        obtain ⟨_, _, _, ho⟩ := this
        rw [ho.closed] at h'; simp at h'
      · have := (started_at hk hsp hkm).2 hph
        rw [show (engineAt conf last acts m).queueClosed = false from h'] at this; simp at this
    · exact h'
  -- in the queue
  have queued : ∀ (p m : Nat), n ≤ m → k < m → (engineAt conf last acts m).queue[p]? = some r →
      ∃ m, n ≤ m ∧ Answered (engineAt conf last acts m) i := by
    intro p
    induction p with
    | zero =>
      intro m hm hkm hq
      have idle : ∀ m, n ≤ m → (engineAt conf last acts m).phase = .idle → (engineAt conf last acts m).queue[0]? = some r →
          ∃ m, n ≤ m ∧ Answered (engineAt conf last acts m) i := by
        intro m hm hp hq
        cases hqq : (engineAt conf last acts m).queue with
        | nil => rw [hqq] at hq; simp at hq
        | cons x q =>
          rw [hqq] at hq
          simp only [List.getElem?_cons_zero, Option.some.injEq] at hq
          subst hq
          obtain ⟨j, hj, h | ⟨h1, _⟩⟩ := idle_takes hf hp hqq
          · exact fin j (by omega) (.inl h)
          · obtain ⟨j', hj', h | h⟩ := session_ends hf hc h1
            · exact ⟨j', by omega, h.2.2 i hi⟩
            · exact fin j' (by omega) (.inl h)
      cases hcur : (engineAt conf last acts m).phase.current with
      | some r' =>
        obtain ⟨j, hj, h | h⟩ := session_ends hf hc hcur
        · exact idle j (by omega) h.1 (prefix_get h.2.1 hq)
        · exact fin j (by omega) (.inl h)
      | none =>
        have hsp' := started_at hk hsp hkm
        cases hp : (engineAt conf last acts m).phase with
        | creating => exact absurd hp hsp'.1
        | idle => exact idle m hm hp hq
        | finishing => exact fin m hm (.inl hp)
        | closed => exact fin m hm (.inr ⟨hp, hkm⟩)
        | starting => rw [hp] at hcur; simp [EnginePhase.current] at hcur
        | processing => rw [hp] at hcur; simp [EnginePhase.current] at hcur
        | stopping => rw [hp] at hcur; simp [EnginePhase.current] at hcur
        | registering => rw [hp] at hcur; simp [EnginePhase.current] at hcur
    | succ p ih =>
      intro m hm hkm hq
      have idle : ∀ m, n ≤ m → k < m → (engineAt conf last acts m).phase = .idle →
          (engineAt conf last acts m).queue[p + 1]? = some r →
          ∃ m, n ≤ m ∧ Answered (engineAt conf last acts m) i := by
        intro m hm hkm hp hq
        cases hqq : (engineAt conf last acts m).queue with
        | nil => rw [hqq] at hq; simp at hq
        | cons x q =>
          rw [hqq] at hq
          simp only [List.getElem?_cons_succ] at hq
          obtain ⟨j, hj, h | ⟨_, h2⟩⟩ := idle_takes hf hp hqq
          · exact fin j (by omega) (.inl h)
          · exact ih j (by omega) (by omega) (prefix_get h2.1 hq)
      cases hcur : (engineAt conf last acts m).phase.current with
      | some r' =>
        obtain ⟨j, hj, h | h⟩ := session_ends hf hc hcur
        · exact idle j (by omega) (by omega) h.1 (prefix_get h.2.1 hq)
        · exact fin j (by omega) (.inl h)
      | none =>
        have hsp' := started_at hk hsp hkm
        cases hp : (engineAt conf last acts m).phase with
        | creating => exact absurd hp hsp'.1
        | idle => exact idle m hm hkm hp hq
        | finishing => exact fin m hm (.inl hp)
        | closed => exact fin m hm (.inr ⟨hp, hkm⟩)
        | starting => rw [hp] at hcur; simp [EnginePhase.current] at hcur
        | processing => rw [hp] at hcur; simp [EnginePhase.current] at hcur
        | stopping => rw [hp] at hcur; simp [EnginePhase.current] at hcur
        | registering => rw [hp] at hcur; simp [EnginePhase.current] at hcur
  -- from a time after the start on
  obtain ⟨m, hm, hkm⟩ : ∃ m, n ≤ m ∧ k < m := ⟨n + k + 1, by omega, by omega⟩
  have hacc : r ∈ (engineAt conf last acts m).accepted := (engineAt_grows hm).accepted.subset hr
  have hcalls : Calls _ _ := calls_run conf last (upTo acts m)
  obtain ⟨rest, h5, h6⟩ := origin_run conf last (upTo acts m)
  change Calls (engineAt conf last acts m) _ at hcalls
  change (engineAt conf last acts m).accepted = _ at h5
  change Good (engineAt conf last acts m).requests (rest ++ (engineAt conf last acts m).putters ++ []) at h6
  have hr' : r ∈ rest := by
    rw [h5] at hacc
    rcases List.mem_cons.1 hacc with rfl | hr
    · simp at hi
    · exact hr
  obtain ⟨_, j, hj, hj'⟩ := h6.call r (by simp [hr'])
  rw [hi] at hj; cases hj
  rcases hcalls.all i (List.getElem?_eq_some_iff.1 hj').1 with h | ⟨r', h1, h2⟩
  · exact ⟨m, hm, h⟩
  have h1 : r' ∈ (engineAt conf last acts m).open_ := h1
  unfold Engine.open_ at h1
  rw [List.mem_append, List.mem_append] at h1
  rcases h1 with (h1 | h1) | h1
  · have hcur : (engineAt conf last acts m).phase.current = some r' := by simpa using h1
    obtain ⟨j, hj, h | h⟩ := session_ends hf hc hcur
    · exact ⟨j, by omega, h.2.2 i h2⟩
    · exact fin j (by omega) (.inl h)
  · by_cases hcl : (engineAt conf last acts m).phase = .closed
    · exact fin m hm (.inr ⟨hcl, hkm⟩)
    have heq : r' = r := by
      have hacc' : r' ∈ rest := by
        have hsub := queue_accepted (phase_run conf last (upTo acts m)) r' h1 hcl
        rw [show ((Engine.create conf last).run (upTo acts m)).accepted = _ from h5] at hsub
        rcases List.mem_cons.1 hsub with rfl | hr
        · simp at h2
        · exact hr
      have := h6.once
      rw [List.append_nil, List.map_append] at this
      have := (List.nodup_append.1 this).1
      exact List.inj_on_of_nodup_map this hacc' hr' (by rw [hi, h2])
    subst heq
    obtain ⟨p, hp, hp'⟩ := List.getElem_of_mem h1
    exact queued p m hm hkm (by rw [List.getElem?_eq_getElem hp, hp'])
  · exfalso
    have := h6.once
    rw [List.append_nil, List.map_append, List.nodup_append] at this
    exact this.2.2 _ (List.mem_map.2 ⟨r, hr', rfl⟩) _ (List.mem_map.2 ⟨r', h1, rfl⟩) (by rw [hi, h2])

/-! ### Calls that wait for a full queue -/

/-- Waiting calls and what one action that is not a new call does to them. -/
structure WaitStep (s s' : Engine) : Prop where
  length : s'.putters.length ≤ s.putters.length
  kept : ∀ r ∈ s.putters, r ∈ s'.putters ∨ r ∈ s'.accepted ∨ ∀ i, r.future = some i → Answered s' i
  queue : s'.putters.length = s.putters.length → s'.queue <:+ s.queue

theorem waitStep_of {s s' : Engine} (h1 : s'.putters = s.putters) (h2 : s'.queue <:+ s.queue) : WaitStep s s' :=
  ⟨by rw [h1], fun r hr => .inl (by rw [h1]; exact hr), fun _ => h2⟩

theorem finalize_wait (s : Engine) (now : Timestamp) : (s.finalize now).putters = s.putters ∧ (s.finalize now).queue = [] := by
  obtain ⟨_, _, _, _, c5, _⟩ := resolveAll_core s (s.phase.current.toList ++ s.queue) .closed
  exact ⟨c5, rfl⟩

theorem wait_step (s : Engine) (a : EngineAct) (ha : ∀ src es, a ≠ .register src es) : WaitStep s (s.step a) := by
  have fin : ∀ (s' : Engine) now, s'.putters = s.putters → WaitStep s (s'.finalize now) := by
    intro s' now h
    obtain ⟨h1, h2⟩ := finalize_wait s' now
    exact waitStep_of (h1.trans h) (by rw [h2]; exact List.nil_suffix)
  have keep : WaitStep s s := waitStep_of rfl List.suffix_rfl
  cases a with
  | register src es => exact absurd rfl (ha src es)
  | spawn => simp only [Engine.step]; split; exact waitStep_of rfl List.suffix_rfl; exact keep
  | wake j =>
    simp only [Engine.step, Engine.wake]
    split
    · exact keep
    · next r hr =>
      obtain ⟨hj, hr'⟩ := List.getElem?_eq_some_iff.1 hr
      have hm : ∀ x ∈ s.putters, x = r ∨ x ∈ s.putters.eraseIdx j := by
        intro x hx
        obtain ⟨j', hj', rfl⟩ := List.getElem_of_mem hx
        by_cases hij : j' = j
        · subst hij; exact .inl hr'
        · exact .inr (List.mem_eraseIdx_iff_getElem.2 ⟨j', hj', hij, rfl⟩)
      have hlen := List.length_eraseIdx_of_lt hj
      unfold Engine.put
      split
      · obtain ⟨_, c4, _, _, c5, _⟩ := resolve_core { s with putters := s.putters.eraseIdx j } r.future .closed
        refine ⟨by rw [c5]; simp only; omega, ?_, fun _ => by show (Engine.resolve _ _ _).queue <:+ _; rw [c4]; exact List.suffix_rfl⟩
        intro x hx
        rcases hm x hx with rfl | hx
        · exact .inr (.inr fun i hi => resolve_done _ _ hi)
        · left; rw [c5]; exact hx
      · split
        · refine ⟨by simp only; omega, ?_, fun h => by simp only at h; omega⟩
          intro x hx
          rcases hm x hx with rfl | hx
          · exact .inr (.inl (by simp))
          · exact .inl hx
        · refine ⟨by simp only [List.length_append, List.length_singleton]; omega, ?_, fun _ => List.suffix_rfl⟩
          intro x hx
          rcases hm x hx with rfl | hx
          · exact .inl (by simp)
          · exact .inl (by simp [hx])
  | cancel j =>
    simp only [Engine.step, Engine.cancel]
    split
    · obtain ⟨_, c4, _, _, c5, _⟩ := resolve_core s (some j) .cancelled
      refine ⟨List.length_filter_le _ _, ?_, fun _ => by show (Engine.resolve _ _ _).queue <:+ _; rw [c4]; exact List.suffix_rfl⟩
      intro x hx
      by_cases hxj : x.future = some j
      · right; right
        intro i hi
        rw [hxj] at hi; cases hi
        exact resolve_done (s := s) (some j) .cancelled rfl
      · left
        simp only [List.mem_filter]
        exact ⟨hx, by simpa using hxj⟩
    · exact keep
  | take now =>
    simp only [Engine.step, Engine.take]
    split
    · next r q _ hq => exact waitStep_of rfl (by rw [hq]; exact List.suffix_cons _ _)
    · exact keep
  | told => simp only [Engine.step, Engine.told]; split <;> exact waitStep_of rfl List.suffix_rfl
  | processed o =>
    simp only [Engine.step, Engine.processedAct]
    split
    · unfold Engine.processed
      simp only [createEvents_eq]
      exact waitStep_of rfl List.suffix_rfl
    · exact keep
  | next =>
    simp only [Engine.step, Engine.next]
    split
    · simp only [createEvents_eq]; exact waitStep_of rfl List.suffix_rfl
    · exact waitStep_of rfl List.suffix_rfl
    · exact waitStep_of rfl List.suffix_rfl
    · exact waitStep_of rfl List.suffix_rfl
    · exact keep
  | registered reply now =>
    simp only [Engine.step, Engine.registered]
    split
    · next r e _ =>
      split
      · exact fin s now rfl
      · obtain ⟨_, c4, _, _, c5, _⟩ := resolve_core s r.future (.result none)
        exact waitStep_of c5 (by show (s.resolve r.future (.result none)).queue <:+ _; rw [c4]; exact List.suffix_rfl)
      · obtain ⟨_, c4, _, _, c5, _⟩ := resolve_core s r.future (.result (some ((e.zip r.events).map Prod.fst)))
        exact waitStep_of c5 (by show (s.resolve r.future _).queue <:+ _; rw [c4]; exact List.suffix_rfl)
    · exact waitStep_of rfl List.suffix_rfl
    · exact keep
  | raise o now =>
    simp only [Engine.step, Engine.raise]
    split
    · exact fin s now rfl
    · refine fin _ now ?_
      unfold Engine.processed
      simp only [createEvents_eq]
    · exact fin s now rfl
    · exact keep
  | close now =>
    simp only [Engine.step, Engine.close]
    split
    · exact waitStep_of rfl List.suffix_rfl
    · exact waitStep_of rfl List.suffix_rfl
    · exact keep
    · exact fin s now rfl
  | finished => simp only [Engine.step]; split; exact waitStep_of rfl List.suffix_rfl; exact keep

/-- A waiting call that tries again when there is room, or the queue is closed. -/
theorem wake_room {s : Engine} (hp : s.putters ≠ []) (hq : s.queueClosed = true ∨ s.queue.length < s.conf.queueSize) :
    (s.step (.wake 0)).putters.length < s.putters.length := by
  cases hl : s.putters with
  | nil => exact absurd hl hp
  | cons r l =>
    simp only [Engine.step, Engine.wake, hl, List.getElem?_cons_zero, List.eraseIdx_zero, List.tail_cons]
    unfold Engine.put
    split
    · obtain ⟨_, _, _, _, c5, _⟩ := resolve_core { s with putters := l } r.future .closed
      rw [c5]; simp
    · next hc =>
      rw [if_pos]
      · simp
      · rcases hq with h | h
        · exact absurd h hc
        · exact h

/-- The loop empties a queue to which nothing is added, or stops. -/
theorem queue_empties (hf : LoopFair acts) (hc : Calm conf last acts) (hs : Started conf last acts) {T : Nat}
    (hT : ∀ n, T ≤ n → (engineAt conf last acts (n + 1)).queue <:+ (engineAt conf last acts n).queue) :
    ∃ m, T ≤ m ∧ (engineAt conf last acts m).queue = [] := by
  obtain ⟨k, hk, hsp⟩ := hs
  have mono : ∀ {a b : Nat}, T ≤ a → a ≤ b → (engineAt conf last acts b).queue <:+ (engineAt conf last acts a).queue := by
    intro a b ha hab
    obtain ⟨d, rfl⟩ := Nat.exists_eq_add_of_le hab
    clear hab
    induction d with
    | zero => exact List.suffix_rfl
    | succ d ih => exact (hT (a + d) (by omega)).trans ih
  have main : ∀ (L n : Nat), T ≤ n → k < n → (engineAt conf last acts n).queue.length = L →
      ∃ m, T ≤ m ∧ (engineAt conf last acts m).queue = [] := by
    intro L
    induction L using Nat.strong_induction_on with
    | _ L ih =>
      intro n hn hkn hL
      have idle : ∀ m, n ≤ m → (engineAt conf last acts m).phase = .idle →
          ∃ m, T ≤ m ∧ (engineAt conf last acts m).queue = [] := by
        intro m hm hp
        cases hq : (engineAt conf last acts m).queue with
        | nil => exact ⟨m, by omega, hq⟩
        | cons r q =>
          have hlen : (engineAt conf last acts m).queue.length ≤ L := by
            rw [← hL]; exact (mono hn hm).length_le
          obtain ⟨j, hj, h | ⟨h1, h2⟩⟩ := idle_takes hf hp hq
          · have := phase_run conf last (upTo acts j)
            rw [show ((Engine.create conf last).run (upTo acts j)).phase = .finishing from h] at this
            obtain ⟨_, _, _, ho⟩ := this
            exact ⟨j, by omega, ho.queue⟩
          · obtain ⟨i, rfl, hi, hi'⟩ := h2.2
            have hlt := (mono (by omega : T ≤ m) hi).length_le
            rw [hi', List.length_cons] at hlt
            exact ih _ (by omega) (i + 1) (by omega) (by omega) rfl
      cases hcur : (engineAt conf last acts n).phase.current with
      | some r' =>
        obtain ⟨j, hj, h | h⟩ := session_ends hf hc hcur
        · exact idle j (by omega) h.1
        · have := phase_run conf last (upTo acts j)
          rw [show ((Engine.create conf last).run (upTo acts j)).phase = .finishing from h] at this
          obtain ⟨_, _, _, ho⟩ := this
          exact ⟨j, by omega, ho.queue⟩
      | none =>
        have hsp' := started_at hk hsp hkn
        have hpr := phase_run conf last (upTo acts n)
        cases hp : (engineAt conf last acts n).phase with
        | creating => exact absurd hp hsp'.1
        | idle => exact idle n (le_refl _) hp
        | finishing =>
          rw [show ((Engine.create conf last).run (upTo acts n)).phase = .finishing from hp] at hpr
          obtain ⟨_, _, _, ho⟩ := hpr
          exact ⟨n, hn, ho.queue⟩
        | closed =>
          rw [show ((Engine.create conf last).run (upTo acts n)).phase = .closed from hp] at hpr
          have hqc : (engineAt conf last acts n).queueClosed = true := hsp'.2 hp
          rcases hpr with ⟨_, h⟩ | ⟨_, _, _, ho⟩
          · rw [show (engineAt conf last acts n).queueClosed = false from h] at hqc; simp at hqc
          · exact ⟨n, hn, ho.queue⟩
        | starting => rw [hp] at hcur; simp [EnginePhase.current] at hcur
        | processing => rw [hp] at hcur; simp [EnginePhase.current] at hcur
        | stopping => rw [hp] at hcur; simp [EnginePhase.current] at hcur
        | registering => rw [hp] at hcur; simp [EnginePhase.current] at hcur
  exact main _ (T + k + 1) (by omega) (by omega) rfl

/-- After some time there are no new calls. -/
theorem calls_end (hb : ∃ N, ∀ n, (engineAt conf last acts n).requests.length ≤ N) :
    ∃ T, ∀ n, T ≤ n → ∀ src es, acts n ≠ .register src es := by
  obtain ⟨N, hN⟩ := hb
  by_contra hcon
  push_neg at hcon
  have grow : ∀ k, ∃ n, k ≤ (engineAt conf last acts n).requests.length := by
    intro k
    induction k with
    | zero => exact ⟨0, by omega⟩
    | succ k ih =>
      obtain ⟨n, hn⟩ := ih
      obtain ⟨m, hm, src, es, ha⟩ := hcon n
      have h1 : k ≤ (engineAt conf last acts m).requests.length := le_trans hn (engineAt_grows hm).requests.length_le
      refine ⟨m + 1, ?_⟩
      rw [engineAt_succ, ha]
      simp only [Engine.step, Engine.register]
      split
      · obtain ⟨_, _, _, _, _, c6⟩ := resolve_core
          { engineAt conf last acts m with requests := (engineAt conf last acts m).requests ++ [(src, ([] : List RegisterEvent))] }
          (some (engineAt conf last acts m).requests.length) (.result (some []))
        rw [c6]; simp; omega
      · rw [put_requests]; simp; omega
  obtain ⟨n, hn⟩ := grow (N + 1)
  have := hN n
  omega

/-- A call that waits will have an outcome if there are no calls any more. -/
theorem waiting_answered (hf : LoopFair acts) (hw : Often acts (.wake 0)) (hc : Calm conf last acts)
    (hs : Started conf last acts) (hq : 0 < conf.queueSize) {T : Nat}
    (hT : ∀ n, T ≤ n → ∀ src es, acts n ≠ .register src es) {n : Nat} (hn : T ≤ n) {r : EngineRequest} {i : Nat}
    (hr : r ∈ (engineAt conf last acts n).putters) (hi : r.future = some i) :
    ∃ m, n ≤ m ∧ Answered (engineAt conf last acts m) i := by
  generalize hL : (engineAt conf last acts n).putters.length = L
  induction L using Nat.strong_induction_on generalizing n with
  | _ L ih =>
    by_contra hcon
    push_neg at hcon
    have still : ∀ d, r ∈ (engineAt conf last acts (n + d)).putters ∧ (engineAt conf last acts (n + d)).putters.length = L := by
      intro d
      induction d with
      | zero => exact ⟨hr, hL⟩
      | succ d ihd =>
        have hst := wait_step (engineAt conf last acts (n + d)) (acts (n + d)) (hT _ (by omega))
        rw [← engineAt_succ] at hst
        have hrin : r ∈ (engineAt conf last acts (n + d + 1)).putters := by
          rcases hst.kept r ihd.1 with h | h | h
          · exact h
          · obtain ⟨m, hm, h⟩ := accepted_answered hf hc hs h hi
            exact absurd h (hcon m (by omega))
          · exact absurd (h i hi) (hcon (n + d + 1) (by omega))
        refine ⟨hrin, ?_⟩
        by_contra hne
        have hlt : (engineAt conf last acts (n + d + 1)).putters.length < L := by
          have := hst.length
          rw [ihd.2] at this
          have h2 : (engineAt conf last acts (n + d + 1)).putters.length ≠ L := hne
          omega
        obtain ⟨m, hm, h⟩ := ih _ hlt (by omega) hrin rfl
        exact hcon m (by omega) h
    have still' : ∀ m, n ≤ m → r ∈ (engineAt conf last acts m).putters ∧ (engineAt conf last acts m).putters.length = L := by
      intro m hm
      obtain ⟨d, rfl⟩ := Nat.exists_eq_add_of_le hm
      exact still d
    have hsuf : ∀ m, n ≤ m → (engineAt conf last acts (m + 1)).queue <:+ (engineAt conf last acts m).queue := by
      intro m hm
      have hst := wait_step (engineAt conf last acts m) (acts m) (hT _ (by omega))
      rw [← engineAt_succ] at hst
      exact hst.queue (by rw [(still' m hm).2, (still' (m + 1) (by omega)).2])
    obtain ⟨m, hm, hqm⟩ := queue_empties hf hc hs hsuf
    obtain ⟨m', hm', ha⟩ := hw m
    have hqm' : (engineAt conf last acts m').queue = [] := by
      obtain ⟨d, rfl⟩ := Nat.exists_eq_add_of_le hm'
      clear hm' ha
      induction d with
      | zero => exact hqm
      | succ d ihd =>
        have := hsuf (m + d) (by omega)
        rw [ihd] at this
        exact List.suffix_nil.1 this
    have h1 := wake_room (s := engineAt conf last acts m')
      (List.ne_nil_of_mem (still' m' (by omega)).1) (.inr (by
        rw [hqm', show (engineAt conf last acts m').conf = conf from (grows_run (Engine.create conf last) _).conf]
        exact hq))
    rw [← ha, ← engineAt_succ, (still' m' (by omega)).2, (still' (m' + 1) (by omega)).2] at h1
    omega

/-- The engine is closed, or waits for the backend before it is. -/
structure Shut (s : Engine) : Prop where
  closed : s.queueClosed = true
  phase : s.phase = .finishing ∨ s.phase = .closed

/-- Nothing changes except that calls get outcomes, and that the loop ends. -/
structure ShutStep (s s' : Engine) : Prop where
  shut : Shut s'
  stays : s.phase = .closed → s'.phase = .closed
  length : s'.putters.length ≤ s.putters.length

theorem shut_same {s s' : Engine} (h : Shut s) (h1 : s'.queueClosed = s.queueClosed) (h2 : s'.phase = s.phase)
    (h3 : s'.putters.length ≤ s.putters.length) : ShutStep s s' :=
  ⟨⟨h1.trans h.closed, by rw [h2]; exact h.phase⟩, fun hp => h2.trans hp, h3⟩

theorem shut_resolve {s : Engine} (h : Shut s) (f : Option Nat) (o : EngineOutcome) : ShutStep s (s.resolve f o) := by
  obtain ⟨c1, _, _, c4, c5, _⟩ := resolve_core s f o
  exact shut_same h c1.queueClosed c4 (by rw [c5])

theorem shut_step {s : Engine} (h : Shut s) (a : EngineAct) : ShutStep s (s.step a) := by
  have keep : ShutStep s s := shut_same h rfl rfl (Nat.le_refl _)
  have close : ShutStep s { s with phase := .closed } := ⟨⟨h.closed, .inr rfl⟩, fun _ => rfl, Nat.le_refl _⟩
  cases a with
  | spawn => simp only [Engine.step]; rcases h.phase with hp | hp <;> rw [hp] <;> exact keep
  | register src es =>
    simp only [Engine.step, Engine.register]
    have h0 : Shut { s with requests := s.requests ++ [(src, es)] } := ⟨h.closed, h.phase⟩
    cases es with
    | nil =>
      have := shut_resolve h0 (some s.requests.length) (.result (some []))
      exact ⟨this.shut, this.stays, this.length⟩
    | cons e es =>
      simp only [Engine.put]
      rw [if_pos h.closed]
      have := shut_resolve h0 (some s.requests.length) .closed
      exact ⟨this.shut, this.stays, this.length⟩
  | wake j =>
    simp only [Engine.step, Engine.wake]
    split
    · exact keep
    · next r hr =>
      simp only [Engine.put]
      rw [if_pos h.closed]
      have h0 : Shut { s with putters := s.putters.eraseIdx j } := ⟨h.closed, h.phase⟩
      have := shut_resolve h0 r.future .closed
      exact ⟨this.shut, this.stays, Nat.le_trans this.length (List.length_eraseIdx_le _ _)⟩
  | cancel j =>
    simp only [Engine.step, Engine.cancel]
    split
    · have := shut_resolve h (some j) .cancelled
      exact ⟨⟨this.shut.closed, this.shut.phase⟩, this.stays, List.length_filter_le _ _⟩
    · exact keep
  | take now => simp only [Engine.step, Engine.take]; rcases h.phase with hp | hp <;> rw [hp] <;> exact keep
  | told => simp only [Engine.step, Engine.told]; rcases h.phase with hp | hp <;> rw [hp] <;> exact keep
  | processed o => simp only [Engine.step, Engine.processedAct]; rcases h.phase with hp | hp <;> rw [hp] <;> exact keep
  | next => simp only [Engine.step, Engine.next]; rcases h.phase with hp | hp <;> rw [hp] <;> exact keep
  | registered rep now =>
    simp only [Engine.step, Engine.registered]
    rcases h.phase with hp | hp <;> rw [hp]
    · exact close
    · exact keep
  | raise o now => simp only [Engine.step, Engine.raise]; rcases h.phase with hp | hp <;> rw [hp] <;> exact keep
  | close now =>
    simp only [Engine.step, Engine.close]
    rcases h.phase with hp | hp <;> rw [hp]
    · exact close
    · exact keep
  | finished =>
    simp only [Engine.step]
    rcases h.phase with hp | hp <;> rw [hp]
    · exact close
    · exact keep

theorem shut_after {n : Nat} (h : Shut (engineAt conf last acts n)) {m : Nat} (hm : n ≤ m) : Shut (engineAt conf last acts m) := by
  obtain ⟨d, rfl⟩ := Nat.exists_eq_add_of_le hm
  clear hm
  induction d with
  | zero => exact h
  | succ d ih => rw [← Nat.add_assoc, engineAt_succ]; exact (shut_step ih _).shut

theorem shut_over {n : Nat} (h : Shut (engineAt conf last acts n)) :
    ∃ k pre e, Over last ((Engine.create conf last).run (upTo acts n)) k pre e := by
  rcases whole_or_over (phase_run conf last (upTo acts n)) with ⟨_, h'⟩ | ⟨_, h'⟩
  · have := h.closed
    rw [show (engineAt conf last acts n).queueClosed = false from h'] at this; simp at this
  · exact h'

theorem shut_closes (hf : LoopFair acts) {n : Nat} (h : Shut (engineAt conf last acts n)) :
    ∃ m, n ≤ m ∧ ∀ j, m ≤ j → (engineAt conf last acts j).phase = .closed := by
  obtain ⟨m, hm, hk⟩ := hf .finished n
  have ha : acts m = .finished := by
    cases hacts : acts m <;> rw [hacts] at hk <;> simp [loopStep] at hk
  refine ⟨m + 1, by omega, fun j hj => ?_⟩
  obtain ⟨d, rfl⟩ := Nat.exists_eq_add_of_le hj
  clear hj
  induction d with
  | zero =>
    rw [Nat.add_zero, engineAt_succ, ha]
    simp only [Engine.step]
    rcases (shut_after h hm).phase with hp | hp <;> rw [hp]
    exact hp
  | succ d ih =>
    rw [← Nat.add_assoc, engineAt_succ]
    exact (shut_step (shut_after h (by omega)) _).stays ih

theorem shut_kept {n : Nat} (h : Shut (engineAt conf last acts n)) {r : EngineRequest} {i : Nat}
    (hr : r ∈ (engineAt conf last acts n).putters) (hi : r.future = some i) :
    r ∈ (engineAt conf last acts (n + 1)).putters ∨ Answered (engineAt conf last acts (n + 1)) i := by
  have hsh := shut_after h (Nat.le_succ n)
  by_cases ha : ∃ src es, acts n = .register src es
  · obtain ⟨src, es, ha⟩ := ha
    left
    rw [engineAt_succ, ha]
    simp only [Engine.step, Engine.register]
    cases es with
    | nil => obtain ⟨_, _, _, _, c5, _⟩ := resolve_core { engineAt conf last acts n with
               requests := (engineAt conf last acts n).requests ++ [(src, [])] }
               (some (engineAt conf last acts n).requests.length) (.result (some []))
             simp only
             rw [c5]; exact hr
    | cons e es =>
      simp only [Engine.put]
      rw [if_pos h.closed]
      obtain ⟨_, _, _, _, c5, _⟩ := resolve_core { engineAt conf last acts n with
               requests := (engineAt conf last acts n).requests ++ [(src, e :: es)] }
               (some (engineAt conf last acts n).requests.length) .closed
      rw [c5]; exact hr
  · push_neg at ha
    have hst := wait_step (engineAt conf last acts n) (acts n) ha
    rw [← engineAt_succ] at hst
    rcases hst.kept r hr with h' | h' | h'
    · exact .inl h'
    · exact .inr (over_answered (shut_over hsh) hsh.phase h' hi)
    · exact .inr (h' i hi)

theorem shut_waiting (hw : Often acts (.wake 0)) {n : Nat} (h : Shut (engineAt conf last acts n)) {r : EngineRequest} {i : Nat}
    (hr : r ∈ (engineAt conf last acts n).putters) (hi : r.future = some i) :
    ∃ m, n ≤ m ∧ Answered (engineAt conf last acts m) i := by
  generalize hL : (engineAt conf last acts n).putters.length = L
  induction L using Nat.strong_induction_on generalizing n with
  | _ L ih =>
    obtain ⟨m, hm, ha⟩ := hw n
    have go : ∀ d, n + d ≤ m → (∃ m, n ≤ m ∧ Answered (engineAt conf last acts m) i) ∨
        (r ∈ (engineAt conf last acts (n + d)).putters ∧ (engineAt conf last acts (n + d)).putters.length ≤ L) := by
      intro d
      induction d with
      | zero => intro _; exact .inr ⟨hr, by rw [Nat.add_zero, hL]⟩
      | succ d ihd =>
        intro hd
        rcases ihd (by omega) with h' | ⟨h1, h2⟩
        · exact .inl h'
        · have hs := shut_after h (show n ≤ n + d by omega)
          rcases shut_kept hs h1 hi with h3 | h3
          · refine .inr ⟨h3, ?_⟩
            have := (shut_step hs (acts (n + d))).length
            rw [← engineAt_succ] at this
            exact Nat.le_trans this h2
          · exact .inl ⟨_, by omega, h3⟩
    obtain ⟨d, rfl⟩ := Nat.exists_eq_add_of_le hm
    rcases go d (Nat.le_refl _) with h' | ⟨h1, h2⟩
    · exact h'
    · have hs := shut_after h hm
      have hlt := wake_room (List.ne_nil_of_mem h1) (.inl hs.closed)
      rw [← ha, ← engineAt_succ] at hlt
      rcases shut_kept hs h1 hi with h3 | h3
      · obtain ⟨m', hm', h'⟩ := ih _ (by omega) (shut_after h (by omega)) h3 rfl
        exact ⟨m', by omega, h'⟩
      · exact ⟨_, by omega, h3⟩

/-- Whatever is called, at whatever time, if the engine is closed at some time. -/
theorem shut_all (hw : Often acts (.wake 0)) {n : Nat} (h : Shut (engineAt conf last acts n)) {k i : Nat}
    (hi : i < (engineAt conf last acts k).requests.length) : ∃ m, k ≤ m ∧ Answered (engineAt conf last acts m) i := by
  have hk : i < (engineAt conf last acts (max n k)).requests.length :=
    Nat.lt_of_lt_of_le hi (engineAt_grows (Nat.le_max_right n k)).requests.length_le
  have hs := shut_after h (Nat.le_max_left n k)
  rcases (calls_run conf last (upTo acts (max n k))).all i hk with h' | ⟨r, hr, hri⟩
  · exact ⟨_, Nat.le_max_right _ _, h'⟩
  · obtain ⟨_, _, _, ho⟩ := shut_over hs
    have hcur : (engineAt conf last acts (max n k)).phase.current = none := by
      rcases hs.phase with hp | hp <;> rw [hp] <;> rfl
    change r ∈ (engineAt conf last acts (max n k)).phase.current.toList ++ (engineAt conf last acts (max n k)).queue ++
      (engineAt conf last acts (max n k)).putters at hr
    rw [hcur, show (engineAt conf last acts (max n k)).queue = [] from ho.queue] at hr
    obtain ⟨m, hm, h'⟩ := shut_waiting hw hs (r := r) (by simpa using hr) hri
    exact ⟨m, Nat.le_trans (Nat.le_max_right _ _) hm, h'⟩

theorem current_accepted {last : EventId} {s : Engine} (h : PhaseOk last s s.phase) {r : EngineRequest}
    (hr : s.phase.current = some r) : r ∈ s.accepted := by
  cases hph : s.phase with
  | creating => rw [hph] at hr; simp [EnginePhase.current] at hr
  | idle => rw [hph] at hr; simp [EnginePhase.current] at hr
  | finishing => rw [hph] at hr; simp [EnginePhase.current] at hr
  | closed => rw [hph] at hr; simp [EnginePhase.current] at hr
  | starting r' =>
    rw [hph] at h hr
    obtain ⟨n, h, _⟩ := h
    simp only [EnginePhase.current, Option.some.injEq] at hr; subst hr
    exact List.mem_of_getElem? h.request
  | processing r' =>
    rw [hph] at h hr
    obtain ⟨n, _, h, _⟩ := h
    simp only [EnginePhase.current, Option.some.injEq] at hr; subst hr
    exact List.mem_of_getElem? h.request
  | stopping r' =>
    rw [hph] at h hr
    obtain ⟨n, h, _⟩ := h
    simp only [EnginePhase.current, Option.some.injEq] at hr; subst hr
    exact List.mem_of_getElem? h.request
  | registering r' =>
    rw [hph] at h hr
    obtain ⟨n, _, h, _⟩ := h
    simp only [EnginePhase.current, Option.some.injEq] at hr; subst hr
    exact List.mem_of_getElem? h

end

end HatEvent
