import Verif.Proof.EngineOrigin

/-!
# C18–C22: the engine

`(Engine.create conf last).run acts` is an engine after any history of calls, module and backend
behaviour, cancellations and closing; `last` is what `get_last_event_id` returned.
-/

namespace HatEvent
open Spec

/-! ### Phases after the start and after the end -/

theorem whole_or_over {last : EventId} {s : Engine} (h : PhaseOk last s s.phase) :
    ((∀ k es, s.sent[k]? = some es → Whole last s k es) ∧ s.queueClosed = false) ∨
      ((s.phase = .finishing ∨ s.phase = .closed) ∧ ∃ n pre e, Over last s n pre e) := by
  by_cases h1 : s.phase = .creating
  · rw [h1] at h; exact .inl ⟨h.sent.whole, h.isOpen⟩
  by_cases h2 : s.phase = .finishing
  · right
    refine ⟨.inl h2, ?_⟩
    rw [h2] at h; exact h
  by_cases h3 : s.phase = .closed
  · rw [h3] at h
    rcases h with ⟨h4, h5⟩ | h
    · left
      rw [h4]; exact ⟨by simp, h5⟩
    · exact .inr ⟨.inr h3, h⟩
  rcases loop_cases h h1 h2 h3 with ⟨n, h⟩ | ⟨n, r, h⟩
  · exact .inl ⟨h.sent.whole, h.isOpen⟩
  · exact .inl ⟨h.sent.whole, h.isOpen⟩

/-- The register loop was started. -/
def Spawned (s : Engine) : Prop := s.phase ≠ .creating ∧ (s.phase = .closed → s.queueClosed = true)

theorem spawned_finalize (s : Engine) (now : Timestamp) : Spawned (s.finalize now) := by
  have : (s.finalize now).phase = .finishing := rfl
  exact ⟨by rw [this]; simp, by rw [this]; simp⟩

theorem spawned_step {last : EventId} {s : Engine} (h : Spawned s) (hp : PhaseOk last s s.phase) (a : EngineAct) :
    Spawned (s.step a) := by
  have keep : ∀ s' : Engine, s'.phase = s.phase → s'.queueClosed = s.queueClosed → Spawned s' := by
    intro s' h1 h2
    exact ⟨by rw [h1]; exact h.1, by rw [h1, h2]; exact h.2⟩
  have simple : ∀ s' : Engine, s'.phase ≠ .creating → s'.phase ≠ .closed → Spawned s' :=
    fun s' h1 h2 => ⟨h1, fun h3 => absurd h3 h2⟩
  have ended : s.phase = .finishing → s.queueClosed = true := by
    intro hf
    rw [hf] at hp
    obtain ⟨_, _, _, ho⟩ := hp
    exact ho.closed
  cases a with
  | spawn => simp only [Engine.step]; split; (next hq => exact absurd hq h.1); exact h
  | register source events =>
    simp only [Engine.step, Engine.register]
    split
    · exact keep _ (resolve_core _ _ _).2.2.2.1 (resolve_core _ _ _).1.queueClosed
    · exact keep _ (put_core _ _).2.1 (put_core _ _).1.queueClosed
  | wake i =>
    simp only [Engine.step, Engine.wake]
    split
    · exact h
    · exact keep _ (put_core _ _).2.1 (put_core _ _).1.queueClosed
  | cancel i =>
    simp only [Engine.step, Engine.cancel]
    split
    · exact keep _ (resolve_core s _ _).2.2.2.1 (resolve_core s _ _).1.queueClosed
    · exact h
  | take now => simp only [Engine.step, Engine.take]; split; exact simple _ (by simp) (by simp); exact h
  | told =>
    simp only [Engine.step, Engine.told]
    split
    · exact simple _ (by simp) (by simp)
    · exact simple _ (by simp) (by simp)
    · exact h
  | processed outs =>
    simp only [Engine.step, Engine.processedAct]
    split
    · exact simple _ (by simp [Engine.processed]) (by simp [Engine.processed])
    · exact h
  | next =>
    simp only [Engine.step, Engine.next]
    split
    · exact simple _ (by simp) (by simp)
    · exact simple _ (by simp) (by simp)
    · exact simple _ (by simp) (by simp)
    · exact simple _ (by simp) (by simp)
    · exact h
  | registered reply now =>
    simp only [Engine.step, Engine.registered]
    split
    · split
      · exact spawned_finalize _ _
      · exact simple _ (by simp) (by simp)
      · exact simple _ (by simp) (by simp)
    · next hf => exact ⟨by simp, fun _ => ended hf⟩
    · exact h
  | raise outs now =>
    simp only [Engine.step, Engine.raise]
    split
    · exact spawned_finalize _ _
    · exact spawned_finalize _ _
    · exact spawned_finalize _ _
    · exact h
  | close now =>
    simp only [Engine.step, Engine.close]
    split
    · next hq => exact absurd hq h.1
    · next hf => exact ⟨by simp, fun _ => ended hf⟩
    · exact h
    · exact spawned_finalize _ _
  | finished =>
    simp only [Engine.step]
    split
    · next hf => exact ⟨by simp, fun _ => ended hf⟩
    · exact h

theorem engine_append (s : Engine) (l l' : List EngineAct) : s.run (l ++ l') = (s.run l).run l' := by
  simp [Engine.run]

theorem spawned_run (conf : EngineConf) (last : EventId) (before after : List EngineAct)
    (hb : ((Engine.create conf last).run before).phase = .creating) :
    Spawned ((Engine.create conf last).run (before ++ .spawn :: after)) := by
  induction after using List.reverseRecOn with
  | nil =>
    rw [engine_snoc]
    simp only [Engine.step, hb]
    exact ⟨by simp, by simp⟩
  | append_singleton after a ih =>
    rw [show before ++ EngineAct.spawn :: (after ++ [a]) = (before ++ .spawn :: after) ++ [a] by simp, engine_snoc]
    exact spawned_step ih (phase_run conf last _) a

theorem numbered_get (server session : Int) (ts : Timestamp) (l : List RegisterEvent) (n : Int) (j : Nat) (e : Event)
    (h : (numbered server session ts n l)[j]? = some e) :
    e.id = ⟨server, session, n + j + 1⟩ ∧ e.timestamp = ts ∧ ∃ r, l[j]? = some r ∧ e.type = r.type ∧
      e.sourceTimestamp = r.sourceTimestamp ∧ e.payload = r.payload := by
  induction l generalizing n j with
  | nil => simp [numbered] at h
  | cons r l ih =>
    cases j with
    | zero =>
      simp only [numbered, List.getElem?_cons_zero, Option.some.injEq] at h
      subst h
      exact ⟨by simp, rfl, r, rfl, rfl, rfl, rfl⟩
    | succ j =>
      simp only [numbered, List.getElem?_cons_succ] at h
      obtain ⟨h1, h2, h3⟩ := ih (n + 1) j h
      refine ⟨?_, h2, h3⟩
      rw [h1]
      congr 1
      push_cast; omega

/-! ### Examples -/

/-- Two modules, one for `a` and one for everything. -/
def exEngineConf : EngineConf where
  serverId := 7
  modules := [.py (.mk false [("a", .mk true [])]), .py (.mk false [("*", .mk true [])])]

/-- Time used in examples. -/
def exAt (n : Int) : Timestamp := ⟨n, 0⟩

/-- The first session, with nothing returned by modules. -/
def exFirst : List EngineAct :=
  [.spawn, .take (exAt 1), .told, .told, .next, .processed [], .next, .told, .told, .next, .registered .same (exAt 1)]

/-- A request for `a` and `b`; the first module answers `a` with `c`. -/
def exRequest : List EngineAct :=
  [.register ⟨.eventer, 3⟩ [⟨["a"], none, none⟩, ⟨["b"], some (exAt 0), none⟩], .take (exAt 2), .told, .told, .next,
    .processed [⟨["c"], none, none⟩], .processed [], .processed [], .next, .processed [], .next, .told, .told, .next,
    .registered .same (exAt 2)]

/-- An engine that served a request. -/
def exServed : Engine := (Engine.create exEngineConf ⟨7, 4, 9⟩).run (exFirst ++ exRequest)

/-- An engine closed during its second session, with a request in the queue. -/
def exBusy : List EngineAct :=
  exFirst ++ [.register ⟨.eventer, 3⟩ [⟨["a"], none, none⟩], .register ⟨.eventer, 4⟩ [⟨["b"], none, none⟩],
    .take (exAt 2), .told, .close (exAt 3)]

/-! ## C18 -/

/-- **C18**: every list of events passed to the backend is one session, its ids are counted from one and
it has one timestamp; sessions follow each other without gaps, except that the last event
of an engine may follow an interrupted session. -/
theorem C18_sessions (conf : EngineConf) (last : EventId) (hl : last.server = conf.serverId) (acts : List EngineAct) :
    let s := (Engine.create conf last).run acts
    ∀ (k : Nat) (es : List Event), s.sent[k]? = some es → ∃ session timestamp,
      (∀ (j : Nat) (e : Event), es[j]? = some e → e.id = ⟨conf.serverId, session, j + 1⟩ ∧ e.timestamp = timestamp) ∧
      (session = last.session + 1 + k ∨
        session = last.session + 2 + k ∧ k + 1 = s.sent.length ∧ (s.phase = .finishing ∨ s.phase = .closed)) := by
  intro s k es hk
  have whole : ∀ es', Whole last s k es' → ∃ session timestamp,
      (∀ (j : Nat) (e : Event), es'[j]? = some e →
        e.id = ⟨conf.serverId, session, j + 1⟩ ∧ e.timestamp = timestamp) ∧ session = last.session + 1 + k := by
    rintro es' ⟨r, _, hs⟩
    obtain ⟨ts, hc⟩ := hs.content
    refine ⟨last.session + 1 + k, ts, fun j e he => ?_, rfl⟩
    rw [hc] at he
    obtain ⟨h1, h2, _⟩ := numbered_get _ _ _ _ _ _ _ he
    refine ⟨?_, h2⟩
    rw [h1, hl]; simp
  rcases whole_or_over (phase_run conf last acts) with ⟨h, _⟩ | ⟨hp, n, pre, e, ho⟩
  · obtain ⟨session, ts, h1, h2⟩ := whole es (h k es hk)
    exact ⟨session, ts, h1, .inl h2⟩
  · have hsent : s.sent = pre ++ [[e]] := ho.sent
    rw [hsent] at hk
    rcases Nat.lt_or_ge k pre.length with hlt | hge
    · rw [List.getElem?_append_left hlt] at hk
      obtain ⟨session, ts, h1, h2⟩ := whole es (ho.whole k es hk)
      exact ⟨session, ts, h1, .inl h2⟩
    · have hk' : k = pre.length := by
        have := List.getElem?_eq_some_iff.1 hk |>.1
        simp at this; omega
      rw [hk', List.getElem?_append_right (Nat.le_refl _)] at hk
      simp only [Nat.sub_self, List.getElem?_cons_zero, Option.some.injEq] at hk
      obtain ⟨now, hc⟩ := ho.content
      refine ⟨last.session + n + 1, now, ?_, ?_⟩
      · intro j e' he
        rw [← hk] at he
        cases j with
        | zero =>
          simp only [List.getElem?_cons_zero, Option.some.injEq] at he
          rw [← he, hc, hl]; simp
        | succ j => simp at he
      · have hlen := ho.length
        rcases hlen with h | h
        · left; omega
        · right; exact ⟨by omega, by rw [hsent]; simp [hk'], hp⟩

/-- **C18**: events created by an engine, whether or not they get to the backend, have increasing ids, all greater
than the last id known to the backend. -/
theorem C18_increasing (conf : EngineConf) (last : EventId) (acts : List EngineAct) :
    let s := (Engine.create conf last).run acts
    s.created.Pairwise (fun a b => IdLt a.id b.id) ∧ ∀ e ∈ s.created, IdLt last e.id :=
  ⟨(ids_run conf last acts).sorted, fun e he => ((ids_run conf last acts).created e he).1⟩

/-- **C18**: no two events passed to the backend have the same id, and they are passed in the order of ids. -/
theorem C18_unique (conf : EngineConf) (last : EventId) (acts : List EngineAct) :
    let s := (Engine.create conf last).run acts
    s.sent.flatten.Pairwise (fun a b => IdLt a.id b.id) ∧ (s.sent.flatten.map Event.id).Nodup := by
  intro s
  have hsub : s.sent.flatten.Sublist s.created := (List.sublist_append_left _ _).trans (listed_run conf last acts)
  have h1 := (ids_run conf last acts).sorted.sublist hsub
  refine ⟨h1, ?_⟩
  rw [List.Nodup, List.pairwise_map]
  exact h1.imp fun h => h.ne

example : exServed.sent.map (fun es => es.map Event.id) =
    [[⟨7, 5, 1⟩], [⟨7, 6, 1⟩, ⟨7, 6, 2⟩, ⟨7, 6, 3⟩]] := by rfl

/-- The session after an interrupted one. -/
example : ((Engine.create exEngineConf ⟨7, 4, 9⟩).run exBusy).sent.map (fun es => es.map Event.id) =
    [[⟨7, 5, 1⟩], [⟨7, 7, 1⟩]] := by rfl

/-! ## C19 -/

/-- **C19**: the result of a call of `register` has one event for each register event of the call, with its type,
source timestamp and payload. -/
theorem C19_result (conf : EngineConf) (last : EventId) (acts : List EngineAct) :
    let s := (Engine.create conf last).run acts
    ∀ i l, (i, EngineOutcome.result (some l)) ∈ s.outcomes → ∃ source events,
      s.requests[i]? = some (source, events) ∧ l.length = events.length ∧
      ∀ (j : Nat) (e : Event) (r : RegisterEvent), l[j]? = some e → events[j]? = some r →
        e.type = r.type ∧ e.sourceTimestamp = r.sourceTimestamp ∧ e.payload = r.payload := by
  intro s i l hi
  obtain ⟨src, es, h1, h2⟩ := (calls_run conf last acts).result i l hi
  refine ⟨src, es, h1, ?_⟩
  rcases h2 with ⟨rfl, rfl⟩ | ⟨k, whole, hk, ha, rfl, server, session, ts, more, rfl⟩
  · simp
  · refine ⟨by simp [length_numbered], fun j e r he hr => ?_⟩
    have hj : j < es.length := (List.getElem?_eq_some_iff.1 hr).1
    rw [List.getElem?_take_of_lt hj] at he
    obtain ⟨_, _, r', hr', h⟩ := numbered_get _ _ _ _ _ _ _ he
    rw [List.getElem?_append_left hj, hr] at hr'
    cases hr'
    exact h

example : ∃ l, exServed.outcomes = [(0, .result (some l))] ∧ l.map Event.type = [["a"], ["b"]] := ⟨_, rfl, rfl⟩

/-- **C19**: the result is the beginning of one list that was passed to the backend. -/
theorem C19_registered (conf : EngineConf) (last : EventId) (acts : List EngineAct) :
    let s := (Engine.create conf last).run acts
    ∀ i l, (i, EngineOutcome.result (some l)) ∈ s.outcomes → l = [] ∨ ∃ es ∈ s.sent, l <+: es := by
  intro s i l hi
  obtain ⟨src, es, h1, h2⟩ := (calls_run conf last acts).result i l hi
  rcases h2 with ⟨rfl, rfl⟩ | ⟨k, whole, hk, ha, rfl, _⟩
  · exact .inl rfl
  · exact .inr ⟨whole, List.mem_of_getElem? hk, List.take_prefix _ _⟩

/-! ## C20 -/

/-- **C20**: no call of `register` is answered twice, and only calls are answered. -/
theorem C20_once (conf : EngineConf) (last : EventId) (acts : List EngineAct) :
    let s := (Engine.create conf last).run acts
    (s.outcomes.map Prod.fst).Nodup ∧ ∀ i o, (i, o) ∈ s.outcomes → i < s.requests.length :=
  ⟨(calls_run conf last acts).once, (calls_run conf last acts).known⟩

/-- **C20**: a call gets an error only from an engine that has stopped. -/
theorem C20_error (conf : EngineConf) (last : EventId) (acts : List EngineAct) :
    let s := (Engine.create conf last).run acts
    ∀ i, (i, EngineOutcome.closed) ∈ s.outcomes → s.phase = .finishing ∨ s.phase = .closed := by
  intro s i hi
  have h := (calls_run conf last acts).closed i hi
  rcases whole_or_over (phase_run conf last acts) with ⟨_, h'⟩ | ⟨h', _⟩
  · rw [h'] at h; simp at h
  · exact h'

/-- The calls of `register` without outcome. -/
def Spec.unanswered (s : Engine) : List Nat :=
  (List.range s.requests.length).filter fun i => i ∉ s.outcomes.map Prod.fst

/-- All calls waiting for a full queue try again. -/
def Spec.wakeAll (s : Engine) : Engine := s.run (List.replicate s.putters.length (.wake 0))

theorem wake_closed {s : Engine} (hc : s.queueClosed = true) {r : EngineRequest} {l : List EngineRequest}
    (hp : s.putters = r :: l) : s.step (.wake 0) = Engine.resolve { s with putters := l } r.future .closed := by
  simp [Engine.step, Engine.wake, hp, Engine.put, hc]

theorem wakeAll_done {s : Engine} (hc : s.queueClosed = true) (l : List EngineRequest) (hl : s.putters = l) :
    let s' := s.run (List.replicate l.length (.wake 0))
    s'.requests = s.requests ∧ (∀ x ∈ s.outcomes, x ∈ s'.outcomes) ∧
      ∀ r ∈ l, ∀ i, r.future = some i → ∃ o, (i, o) ∈ s'.outcomes := by
  induction l generalizing s with
  | nil => exact ⟨rfl, fun x hx => hx, by simp⟩
  | cons r l ih =>
    intro s'
    have h1 := wake_closed hc hl
    obtain ⟨c1, c2, c3, c4, c5, c6⟩ := resolve_core { s with putters := l } r.future .closed
    obtain ⟨g1, g2, g3⟩ := ih (s := s.step (.wake 0)) (by rw [h1, c1.queueClosed]; exact hc) (by rw [h1, c5])
    have hs' : s' = (s.step (.wake 0)).run (List.replicate l.length (.wake 0)) := rfl
    rw [← hs'] at g1 g2 g3
    refine ⟨by rw [g1, h1, c6], fun x hx => g2 x ?_, ?_⟩
    · rw [h1]
      exact resolve_keeps (s := { s with putters := l }) _ _ hx
    · intro r' hr' i hi
      rcases List.mem_cons.1 hr' with rfl | hr'
      · obtain ⟨o, ho⟩ := resolve_done (s := { s with putters := l }) r'.future .closed hi
        exact ⟨o, g2 _ (by rw [h1]; exact ho)⟩
      · exact g3 r' hr' i hi

/-- **C20** for engines whose register loop was started (missing: engines that are closed before, see
`C20_refuted`): after the loop has ended no queued call is without an outcome, and calls that
wait for a full queue get an outcome as soon as they run. -/
theorem C20_partial (conf : EngineConf) (last : EventId) (before after : List EngineAct)
    (hb : ((Engine.create conf last).run before).phase = .creating) :
    let s := (Engine.create conf last).run (before ++ .spawn :: after)
    (s.phase = .finishing ∨ s.phase = .closed) →
      (∀ i ∈ unanswered s, ∃ r ∈ s.putters, r.future = some i) ∧ unanswered (wakeAll s) = [] := by
  intro s hp
  have hsp := spawned_run conf last before after hb
  have hcalls : Calls s s.open_ := calls_run conf last _
  have hover : ∃ n pre e, Over last s n pre e := by
    rcases whole_or_over (phase_run conf last (before ++ .spawn :: after)) with ⟨_, h'⟩ | ⟨_, h'⟩
    · exfalso
      rcases hp with hp | hp
      · have := phase_run conf last (before ++ .spawn :: after)
        rw [show ((Engine.create conf last).run (before ++ .spawn :: after)).phase = .finishing from hp] at this
        obtain ⟨_, _, _, ho⟩ := this
        rw [ho.closed] at h'; simp at h'
      · have := hsp.2 hp
        rw [h'] at this; simp at this
    · exact h'
  obtain ⟨n, pre, e, ho⟩ := hover
  have hopen : s.open_ = s.putters := by
    unfold Engine.open_
    rw [ho.queue]
    rcases hp with hp | hp <;> rw [hp] <;> simp [EnginePhase.current]
  rw [hopen] at hcalls
  have hput : ∀ i < s.requests.length, (∃ o, (i, o) ∈ s.outcomes) ∨ ∃ r ∈ s.putters, r.future = some i := hcalls.all
  refine ⟨?_, ?_⟩
  · intro i hi
    simp only [unanswered, List.mem_filter, List.mem_range, decide_not, Bool.not_eq_true',
      decide_eq_false_iff_not] at hi
    rcases hput i hi.1 with h | h
    · exact absurd (mem_fst_outcomes.2 h) hi.2
    · exact h
  · obtain ⟨g1, g2, g3⟩ := wakeAll_done ho.closed s.putters rfl
    have hw : wakeAll s = s.run (List.replicate s.putters.length (.wake 0)) := rfl
    rw [← hw] at g1 g2 g3
    unfold unanswered
    rw [List.filter_eq_nil_iff]
    intro i hi
    rw [List.mem_range, g1] at hi
    have : ∃ o, (i, o) ∈ (wakeAll s).outcomes := by
      rcases hput i hi with ⟨o, h⟩ | ⟨r, hr, hri⟩
      · exact ⟨o, g2 _ h⟩
      · exact g3 r hr i hri
    simp [mem_fst_outcomes.2 this]

/-- Two calls, one in progress and one queued, when the engine closes. -/
example : ((Engine.create exEngineConf ⟨7, 4, 9⟩).run exBusy).outcomes = [(0, .closed), (1, .closed)] := by rfl

/-- Calls waiting for a full queue. -/
example :
    let s := (Engine.create { exEngineConf with queueSize := 1 } ⟨7, 4, 9⟩).run
      [.spawn, .register ⟨.eventer, 3⟩ [⟨["a"], none, none⟩], .close (exAt 1)]
    unanswered s = [0] ∧ (wakeAll s).outcomes = [(0, .closed)] := by
  exact ⟨by rfl, by rfl⟩

/-- **C20 does not hold**: a call made before the register loop runs (modules are given the engine while it is
being created) is never answered if the engine closes before, whatever happens later. -/
theorem C20_refuted : ∃ (conf : EngineConf) (last : EventId) (acts : List EngineAct),
    let s := (Engine.create conf last).run acts
    s.phase = .closed ∧ ∀ later : List EngineAct, (∀ i, .cancel i ∉ later) → 0 ∈ unanswered (s.run later) := by
  refine ⟨exEngineConf, ⟨7, 4, 9⟩, [.register ⟨.module_, 0⟩ [⟨["a"], none, none⟩], .close (exAt 1)], rfl, ?_⟩
  intro later hl
  have key : ∀ (s : Engine) (later : List EngineAct), (∀ i, .cancel i ∉ later) → s.phase = .closed →
      s.queueClosed = false → 0 < s.requests.length → 0 ∉ s.outcomes.map Prod.fst →
      (∀ r ∈ s.putters, r.future ≠ some 0) → 0 ∈ unanswered (s.run later) := by
    intro s later
    induction later generalizing s with
    | nil =>
      intro _ _ _ h1 h2 _
      simp only [Engine.run, List.foldl_nil, unanswered, List.mem_filter, List.mem_range, decide_not,
        Bool.not_eq_true', decide_eq_false_iff_not]
      exact ⟨h1, decide_eq_true h2⟩
    | cons a later ih =>
      intro hc h1 h2 h3 h4 h5
      have put : ∀ (s : Engine) (r : EngineRequest), s.phase = .closed → s.queueClosed = false →
          0 < s.requests.length → 0 ∉ s.outcomes.map Prod.fst → (∀ r ∈ s.putters, r.future ≠ some 0) →
          r.future ≠ some 0 → (s.put r).phase = .closed ∧ (s.put r).queueClosed = false ∧
            0 < (s.put r).requests.length ∧ 0 ∉ (s.put r).outcomes.map Prod.fst ∧
            ∀ r' ∈ (s.put r).putters, r'.future ≠ some 0 := by
        intro s r h1 h2 h3 h4 h5 h6
        unfold Engine.put
        rw [if_neg (by simp [h2])]
        split
        · exact ⟨h1, h2, h3, h4, h5⟩
        · refine ⟨h1, h2, h3, h4, ?_⟩
          intro r' hr'
          rcases List.mem_append.1 hr' with hr' | hr'
          · exact h5 r' hr'
          · simp only [List.mem_singleton] at hr'
            rw [hr']; exact h6
      have next : (s.step a).phase = .closed ∧ (s.step a).queueClosed = false ∧
          0 < (s.step a).requests.length ∧ 0 ∉ (s.step a).outcomes.map Prod.fst ∧
          ∀ r' ∈ (s.step a).putters, r'.future ≠ some 0 := by
        have same : ∀ s', s' = s → s'.phase = .closed ∧ s'.queueClosed = false ∧
            0 < s'.requests.length ∧ 0 ∉ s'.outcomes.map Prod.fst ∧ ∀ r' ∈ s'.putters, r'.future ≠ some 0 := by
          rintro s' rfl
          exact ⟨h1, h2, h3, h4, h5⟩
        cases a with
        | spawn => exact same _ (by simp [Engine.step, h1])
        | register source events =>
          simp only [Engine.step, Engine.register]
          split
          · rcases resolve_cases { s with requests := s.requests ++ [(source, ([] : List RegisterEvent))] }
              (some s.requests.length) (.result (some [])) with ⟨hr, _⟩ | ⟨i, hi, _, hr⟩
            · rw [hr]; exact ⟨h1, h2, by simp, h4, h5⟩
            · rw [hr]
              refine ⟨h1, h2, by simp, ?_, h5⟩
              simp only [Option.some.injEq] at hi
              simp only [List.map_append, List.mem_append, List.map_cons, List.map_nil, List.mem_singleton, not_or]
              exact ⟨h4, by omega⟩
          · refine put { s with requests := s.requests ++ [(source, _)] } _ h1 h2 (by simp) h4 h5 ?_
            simp only [ne_eq, Option.some.injEq]; omega
        | wake i =>
          simp only [Engine.step, Engine.wake]
          split
          · exact ⟨h1, h2, h3, h4, h5⟩
          · next r hr =>
            refine put { s with putters := s.putters.eraseIdx i } _ h1 h2 h3 h4
              (fun r' hr' => h5 r' (List.mem_of_mem_eraseIdx hr')) (h5 r (List.mem_of_getElem? hr))
        | cancel i => exact absurd (List.mem_cons_self) (hc i)
        | take now => exact same _ (by simp [Engine.step, Engine.take, h1])
        | told => exact same _ (by simp [Engine.step, Engine.told, h1])
        | processed outs => exact same _ (by simp [Engine.step, Engine.processedAct, h1])
        | next => exact same _ (by simp [Engine.step, Engine.next, h1])
        | registered reply now => exact same _ (by simp [Engine.step, Engine.registered, h1])
        | raise outs now => exact same _ (by simp [Engine.step, Engine.raise, h1])
        | close now => exact same _ (by simp [Engine.step, Engine.close, h1])
        | finished => exact same _ (by simp [Engine.step, h1])
      exact ih (s.step a) (fun i hi => hc i (List.mem_cons_of_mem _ hi)) next.1 next.2.1 next.2.2.1 next.2.2.2.1
        next.2.2.2.2
  exact key _ later hl rfl rfl (by decide) (by decide) (by simp [Engine.run, Engine.step, Engine.create, Engine.register,
    Engine.put, Engine.close, exEngineConf])

/-! ## C21 -/

/-- **C21**: every list passed to the backend, except for the last event of an engine, is a complete session of
one request, in the order of requests.  Its events are those of the request followed by all register events
returned by modules during the session, each of them at once; every module was given exactly those events of the session
that match its subscription, in order, each once, with the module or the origin of the request as the
source. -/
theorem C21_sessions (conf : EngineConf) (last : EventId) (acts : List EngineAct) :
    let s := (Engine.create conf last).run acts
    ∀ (k : Nat) (es : List Event), s.sent[k]? = some es →
      (k + 1 < s.sent.length ∨ ¬ (s.phase = .finishing ∨ s.phase = .closed)) →
      ∃ r, s.accepted[k]? = some r ∧ Session s last.server (last.session + 1 + k) r es := by
  intro s k es hk hlast
  rcases whole_or_over (phase_run conf last acts) with ⟨h, _⟩ | ⟨hp, n, pre, e, ho⟩
  · exact h k es hk
  · rcases hlast with hlast | hlast
    · have hsent : s.sent = pre ++ [[e]] := ho.sent
      rw [hsent] at hk hlast
      simp only [List.length_append, List.length_singleton] at hlast
      rw [List.getElem?_append_left (by omega)] at hk
      exact ho.whole k es hk
    · exact absurd hp hlast

/-- **C21**: accepted requests are the one of the engine itself, and then calls of `register`, each at most
once. -/
theorem C21_requests (conf : EngineConf) (last : EventId) (acts : List EngineAct) :
    let s := (Engine.create conf last).run acts
    ∃ rest, s.accepted = ⟨none, ⟨.engine, 0⟩, [statusRegEvent conf.serverId "STARTED"]⟩ :: rest ∧
      (rest.map EngineRequest.future).Nodup ∧
      ∀ r ∈ rest, r.events ≠ [] ∧ ∃ i, r.future = some i ∧ s.requests[i]? = some (r.source, r.events) := by
  intro s
  obtain ⟨rest, h1, h2⟩ := origin_run conf last acts
  have hc : s.conf = conf := (grows_run (Engine.create conf last) acts).conf
  rw [List.append_nil] at h2
  have h3 := h2.sublist (List.sublist_append_left rest _)
  refine ⟨rest, ?_, h3.once, h3.call⟩
  rw [← hc]; exact h1

/-- What modules were given in the session of `exRequest`: the module for `a` gets `a` only, the other one gets
everything, `c` coming from the first module. -/
example : (seenIn exServed 0 6).map (fun p => (p.1, p.2.type)) = [(⟨.eventer, 3⟩, ["a"])] ∧
    (seenIn exServed 1 6).map (fun p => (p.1, p.2.type)) =
      [(⟨.eventer, 3⟩, ["a"]), (⟨.eventer, 3⟩, ["b"]), (⟨.module_, 0⟩, ["c"])] ∧
    exServed.sent.map (fun es => es.map Event.type) = [[["event", "7", "engine"]], [["a"], ["b"], ["c"]]] := by
  exact ⟨by rfl, by rfl, by rfl⟩

/-! ## C22 -/

/-- **C22**, the beginning (missing: engines that stop before their first session is registered, see `C22_refuted`): the
first event an engine registers is its status `STARTED`, with instance one. -/
theorem C22_started_partial (conf : EngineConf) (last : EventId) (hl : last.server = conf.serverId)
    (acts : List EngineAct) :
    let s := (Engine.create conf last).run acts
    ∀ es, s.sent[0]? = some es → (1 < s.sent.length ∨ ¬ (s.phase = .finishing ∨ s.phase = .closed)) →
      ∃ now rest, es = ⟨⟨conf.serverId, last.session + 1, 1⟩, ["event", toString conf.serverId, "engine"], now, none,
        some (.json (.str "STARTED"))⟩ :: rest := by
  intro s es he hlast
  obtain ⟨r, hr, hs⟩ := C21_sessions conf last acts 0 es he (by simpa using hlast)
  obtain ⟨rest, h1, _⟩ := C21_requests conf last acts
  rw [h1] at hr
  simp only [List.getElem?_cons_zero, Option.some.injEq] at hr
  subst hr
  obtain ⟨ts, hc⟩ := hs.content
  rw [hc]
  simp [sourced, numbered, statusRegEvent, hl]

/-- **C22**, the end: once its register loop has ended, an engine has registered its status `STOPPED` as its
last event, alone in its session. -/
theorem C22_stopped (conf : EngineConf) (last : EventId) (hl : last.server = conf.serverId)
    (before after : List EngineAct) (hb : ((Engine.create conf last).run before).phase = .creating) :
    let s := (Engine.create conf last).run (before ++ .spawn :: after)
    (s.phase = .finishing ∨ s.phase = .closed) → ∃ pre session now, s.sent = pre ++ [[⟨⟨conf.serverId, session, 1⟩,
      ["event", toString conf.serverId, "engine"], now, none, some (.json (.str "STOPPED"))⟩]] ∧
      ∀ es ∈ pre, ∀ e ∈ es, e.id.session < session := by
  intro s hp
  have hsp := spawned_run conf last before after hb
  have hover : ∃ n pre e, Over last s n pre e := by
    rcases whole_or_over (phase_run conf last (before ++ .spawn :: after)) with ⟨_, h'⟩ | ⟨_, h'⟩
    · exfalso
      rcases hp with hp | hp
      · have := phase_run conf last (before ++ .spawn :: after)
        rw [show ((Engine.create conf last).run (before ++ .spawn :: after)).phase = .finishing from hp] at this
        obtain ⟨_, _, _, ho⟩ := this
        rw [ho.closed] at h'; simp at h'
      · have := hsp.2 hp
        rw [h'] at this; simp at this
    · exact h'
  obtain ⟨n, pre, e, ho⟩ := hover
  obtain ⟨now, hc⟩ := ho.content
  have hconf : s.conf = conf := (grows_run (Engine.create conf last) _).conf
  refine ⟨pre, last.session + n + 1, now, ?_, ?_⟩
  · rw [ho.sent, hc, hl, hconf]
  · intro es hes e' he'
    obtain ⟨k, hk, rfl⟩ := List.getElem_of_mem hes
    obtain ⟨r, hr, hs⟩ := ho.whole k _ (List.getElem?_eq_getElem hk)
    obtain ⟨ts, hcont⟩ := hs.content
    obtain ⟨j, hj, rfl⟩ := List.getElem_of_mem he'
    have := List.getElem?_eq_getElem hj
    rw [show pre[k][j] = pre[k][j] from rfl] at this
    obtain ⟨h1, _⟩ := numbered_get last.server (last.session + 1 + k) ts _ 0 j pre[k][j] (by rw [← hcont]; exact this)
    rw [h1]
    have := ho.length
    simp only
    omega

/-- **C22**: nothing is registered after that. -/
theorem C22_nothing_later (s : Engine) (hp : s.phase = .finishing ∨ s.phase = .closed) (later : List EngineAct) :
    (s.run later).sent = s.sent := by
  induction later generalizing s with
  | nil => rfl
  | cons a later ih =>
    have step : ((s.step a).phase = .finishing ∨ (s.step a).phase = .closed) ∧ (s.step a).sent = s.sent := by
      have res : ∀ (s : Engine) f o, (s.phase = .finishing ∨ s.phase = .closed) →
          ((s.resolve f o).phase = .finishing ∨ (s.resolve f o).phase = .closed) ∧ (s.resolve f o).sent = s.sent := by
        intro s f o h
        obtain ⟨c1, _, _, c4, _⟩ := resolve_core s f o
        rw [c4, c1.sent]; exact ⟨h, rfl⟩
      have put : ∀ (s : Engine) r, (s.phase = .finishing ∨ s.phase = .closed) →
          ((s.put r).phase = .finishing ∨ (s.put r).phase = .closed) ∧ (s.put r).sent = s.sent := by
        intro s r h
        obtain ⟨c1, c4, _⟩ := put_core s r
        rw [c4, c1.sent]; exact ⟨h, rfl⟩
      cases a with
      | register source events =>
        simp only [Engine.step, Engine.register]
        split
        · exact res { s with requests := _ } _ _ hp
        · exact put { s with requests := _ } _ hp
      | wake i =>
        simp only [Engine.step, Engine.wake]
        split
        · exact ⟨hp, rfl⟩
        · exact put { s with putters := _ } _ hp
      | cancel i =>
        simp only [Engine.step, Engine.cancel]
        split
        · exact res s _ _ hp
        · exact ⟨hp, rfl⟩
      | spawn => rcases hp with hp | hp <;> simp [Engine.step, hp]
      | take now => rcases hp with hp | hp <;> simp [Engine.step, Engine.take, hp]
      | told => rcases hp with hp | hp <;> simp [Engine.step, Engine.told, hp]
      | processed outs => rcases hp with hp | hp <;> simp [Engine.step, Engine.processedAct, hp]
      | next => rcases hp with hp | hp <;> simp [Engine.step, Engine.next, hp]
      | registered reply now => rcases hp with hp | hp <;> simp [Engine.step, Engine.registered, hp]
      | raise outs now => rcases hp with hp | hp <;> simp [Engine.step, Engine.raise, hp]
      | close now => rcases hp with hp | hp <;> simp [Engine.step, Engine.close, hp]
      | finished => rcases hp with hp | hp <;> simp [Engine.step, hp]
    show ((s.step a).run later).sent = s.sent
    rw [ih _ step.1, step.2]

/-- **C22 does not hold**: an engine that is closed, or one of whose modules fails, during its first session registers only
`STOPPED`. -/
theorem C22_refuted : ∃ (conf : EngineConf) (last : EventId) (acts : List EngineAct),
    let s := (Engine.create conf last).run acts
    s.phase = .closed ∧ s.sent.map (fun es => es.map Event.payload) = [[some (.json (.str "STOPPED"))]] :=
  ⟨exEngineConf, ⟨7, 4, 9⟩, [.spawn, .take (exAt 1), .told, .close (exAt 2), .registered .same (exAt 2)], rfl, rfl⟩

/-- An engine that served a request and was closed. -/
example : ((Engine.create exEngineConf ⟨7, 4, 9⟩).run (exFirst ++ exRequest ++ [.close (exAt 5)])).sent.map
    (fun es => es.map Event.payload) = [[some (.json (.str "STARTED"))], [none, none, none],
      [some (.json (.str "STOPPED"))]] := by rfl

end HatEvent
