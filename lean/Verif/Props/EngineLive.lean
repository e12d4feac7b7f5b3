import Verif.Proof.EngineLive
import Verif.Proof.Forever
import Mathlib.Tactic.IntervalCases

/-!
# C90: calls of `register` end, if modules come to an end
-/

namespace HatEvent
open Spec

section
variable (conf : EngineConf) (last : EventId) (acts : Nat → EngineAct)

/-- **C90**: if the loop of an engine that was started goes on, modules and the backend return, and modules do not
return new events for ever in a session, then every call of `register` that got into the queue gets an outcome. -/
theorem C90_answered (hf : LoopFair acts) (hc : Calm conf last acts) (hs : Started conf last acts) (n : Nat)
    (r : EngineRequest) (hr : r ∈ (engineAt conf last acts n).accepted) (i : Nat) (hi : r.future = some i) :
    ∃ m, n ≤ m ∧ Answered (engineAt conf last acts m) i :=
  accepted_answered hf hc hs hr hi

/-- An engine whose queue is closed. -/
theorem shut_of_closed {n : Nat} (h : (engineAt conf last acts n).queueClosed = true) : Shut (engineAt conf last acts n) := by
  refine ⟨h, ?_⟩
  rcases whole_or_over (phase_run conf last (upTo acts n)) with ⟨_, h'⟩ | ⟨h', _⟩
  · rw [show (engineAt conf last acts n).queueClosed = false from h'] at h; simp at h
  · exact h'

/-- **C90**: if in addition callers that wait for room in the queue are woken, and there are only so many calls, every call
gets an outcome. -/
theorem C90_all (hf : LoopFair acts) (hw : Often acts (.wake 0)) (hc : Calm conf last acts) (hs : Started conf last acts)
    (hq : 0 < conf.queueSize) (hb : ∃ N, ∀ n, (engineAt conf last acts n).requests.length ≤ N) (n i : Nat)
    (hi : i < (engineAt conf last acts n).requests.length) : ∃ m, n ≤ m ∧ Answered (engineAt conf last acts m) i := by
  obtain ⟨T, hT⟩ := calls_end hb
  have hs' := hs
  obtain ⟨k, hk, hsp⟩ := hs'
  obtain ⟨m, hm, hTm, hkm⟩ : ∃ m, n ≤ m ∧ T ≤ m ∧ k < m := ⟨n + T + k + 1, by omega, by omega, by omega⟩
  have hi' : i < (engineAt conf last acts m).requests.length :=
    Nat.lt_of_lt_of_le hi (engineAt_grows hm).requests.length_le
  have hok := phase_run conf last (upTo acts m)
  have le : ∀ {P : Nat → Prop}, (∃ j, m ≤ j ∧ P j) → ∃ j, n ≤ j ∧ P j := fun ⟨j, h1, h2⟩ => ⟨j, by omega, h2⟩
  rcases (calls_run conf last (upTo acts m)).all i hi' with h | ⟨r, hr, hri⟩
  · exact ⟨_, hm, h⟩
  · apply le
    rcases List.mem_append.1 hr with hr | hr
    · rcases List.mem_append.1 hr with hr | hr
      · exact accepted_answered hf hc hs (current_accepted hok (by simpa using hr)) hri
      · by_cases hp : (engineAt conf last acts m).phase = .closed
        · exact shut_all hw (shut_of_closed conf last acts ((started_at hk hsp hkm).2 hp)) hi'
        · exact accepted_answered hf hc hs (queue_accepted hok r hr hp) hri
    · exact waiting_answered hf hw hc hs hq hT hTm hr hri

/-- **C90**: an engine whose queue was closed, whatever the reason, gets closed and stays so; every call, also one made
before or after, gets an outcome. -/
theorem C90_stops (hf : LoopFair acts) (hw : Often acts (.wake 0)) (n : Nat)
    (hn : (engineAt conf last acts n).queueClosed = true) :
    (∃ m, ∀ j, m ≤ j → (engineAt conf last acts j).phase = .closed) ∧
      ∀ k i, i < (engineAt conf last acts k).requests.length → ∃ m, k ≤ m ∧ Answered (engineAt conf last acts m) i := by
  have h := shut_of_closed conf last acts hn
  obtain ⟨m, _, hm⟩ := shut_closes hf h
  exact ⟨⟨m, hm⟩, fun k i hi => shut_all hw h hi⟩

/-- **C90**: an engine that is closed after its start gets closed and stays so; every call gets an outcome. -/
theorem C90_closes (hf : LoopFair acts) (hw : Often acts (.wake 0)) (k n : Nat) (now : Timestamp)
    (hk : (engineAt conf last acts k).phase = .creating) (hs : acts k = .spawn) (hkn : k < n) (hn : acts n = .close now) :
    (∃ m, ∀ j, m ≤ j → (engineAt conf last acts j).phase = .closed) ∧
      ∀ k i, i < (engineAt conf last acts k).requests.length → ∃ m, k ≤ m ∧ Answered (engineAt conf last acts m) i := by
  refine C90_stops conf last acts hf hw (n + 1) ?_
  have h1 := started_at hk hs hkn
  have h2 := phase_run conf last (upTo acts n)
  change PhaseOk last (engineAt conf last acts n) (engineAt conf last acts n).phase at h2
  rw [engineAt_succ, hn]
  generalize engineAt conf last acts n = s at *
  simp only [Engine.step, Engine.close]
  split
  · next hp => exact absurd hp h1.1
  · next hp =>
    rw [hp] at h2
    obtain ⟨_, _, _, h2⟩ := h2
    exact h2.closed
  · next hp => exact h1.2 hp
  · rfl

end

/-! ## What is needed -/

/-- The module still runs. -/
structure Stuck (s s' : Engine) : Prop where
  phase : s'.phase = s.phase
  closed : s'.queueClosed = s.queueClosed
  outcomes : ∀ i o, (i, o) ∈ s'.outcomes → (i, o) ∈ s.outcomes ∨ ∃ src, s'.requests[i]? = some (src, [])
  requests : s.requests <+: s'.requests

theorem stuck_put {s s0 : Engine} {r : EngineRequest} (h : s.queueClosed = false) (h1 : s.phase = s0.phase)
    (h2 : s.queueClosed = s0.queueClosed) (h3 : s.outcomes = s0.outcomes) (h4 : s0.requests <+: s.requests) :
    Stuck s0 (s.put r) := by
  unfold Engine.put
  rw [if_neg (by simp [h])]
  split
  · exact ⟨h1, h2, fun i o ho => .inl (by rw [← h3]; exact ho), h4⟩
  · exact ⟨h1, h2, fun i o ho => .inl (by rw [← h3]; exact ho), h4⟩

theorem stuck_step {s : Engine} (hp : InModule s.phase) (hc : s.queueClosed = false) {a : EngineAct} (ha : ¬Breaks a) :
    Stuck s (s.step a) := by
  have keep : Stuck s s := ⟨rfl, rfl, fun _ _ h => .inl h, List.prefix_rfl⟩
  cases a with
  | told => exact absurd trivial ha
  | processed => exact absurd trivial ha
  | raise => exact absurd trivial ha
  | close => exact absurd trivial ha
  | cancel => exact absurd trivial ha
  | register src es =>
    simp only [Engine.step, Engine.register]
    cases es with
    | nil =>
      simp only [Engine.resolve]
      split
      · exact ⟨rfl, rfl, fun _ _ h => .inl h, List.prefix_append _ _⟩
      · refine ⟨rfl, rfl, fun i o h => ?_, List.prefix_append _ _⟩
        simp only [List.mem_append, List.mem_singleton, Prod.mk.injEq] at h
        rcases h with h | ⟨rfl, _⟩
        · exact .inl h
        · exact .inr ⟨src, by simp⟩
    | cons e es => exact stuck_put (s := { s with requests := _ }) hc rfl rfl rfl (List.prefix_append _ _)
  | wake j =>
    simp only [Engine.step, Engine.wake]
    split
    · exact keep
    · exact stuck_put (s := { s with putters := _ }) hc rfl rfl rfl List.prefix_rfl
  | spawn => simp only [Engine.step]; split; (next h => rw [h] at hp; exact hp.elim); exact keep
  | take now => simp only [Engine.step, Engine.take]; split; (next h _ => rw [h] at hp; exact hp.elim); exact keep
  | next =>
    simp only [Engine.step, Engine.next]
    split
    all_goals first | exact keep | (next h => rw [h] at hp; exact hp.elim)
  | registered rep now =>
    simp only [Engine.step, Engine.registered]
    split
    all_goals first | exact keep | (next h => rw [h] at hp; exact hp.elim)
  | finished => simp only [Engine.step]; split; (next h => rw [h] at hp; exact hp.elim); exact keep

/-- **C90**, what modules must not do: as long as the loop is inside a call of a module, no call of `register` with
events, of whomever, gets an outcome, unless somebody gives up.  So a module that waits in `process`, or when told of
a session, for its own call of `register`, waits for ever. -/
theorem C90_inside (conf : EngineConf) (last : EventId) (acts more : List EngineAct)
    (hp : InModule ((Engine.create conf last).run acts).phase) (hm : ∀ a ∈ more, ¬Breaks a) :
    let s := (Engine.create conf last).run (acts ++ more)
    InModule s.phase ∧ ∀ i o src es, s.requests[i]? = some (src, es) → es ≠ [] → (i, o) ∈ s.outcomes →
      (i, o) ∈ ((Engine.create conf last).run acts).outcomes := by
  have hc : ((Engine.create conf last).run acts).queueClosed = false := by
    rcases whole_or_over (phase_run conf last acts) with ⟨_, h⟩ | ⟨h | h, _⟩
    · exact h
    · rw [h] at hp; exact hp.elim
    · rw [h] at hp; exact hp.elim
  have : ∀ more : List EngineAct, (∀ a ∈ more, ¬Breaks a) → Stuck ((Engine.create conf last).run acts)
      ((Engine.create conf last).run (acts ++ more)) := by
    intro more
    induction more using List.reverseRecOn with
    | nil => intro _; rw [List.append_nil]; exact ⟨rfl, rfl, fun _ _ h => .inl h, List.prefix_rfl⟩
    | append_singleton more a ih =>
      intro hm
      have h1 := ih fun a ha => hm a (by simp [ha])
      rw [← List.append_assoc, engine_snoc]
      have h2 := stuck_step (s := (Engine.create conf last).run (acts ++ more)) (by rw [h1.phase]; exact hp)
        (h1.closed.trans hc) (hm a (by simp))
      refine ⟨h2.phase.trans h1.phase, h2.closed.trans h1.closed, fun i o h => ?_, h1.requests.trans h2.requests⟩
      rcases h2.outcomes i o h with h | h
      · rcases h1.outcomes i o h with h | ⟨src, h⟩
        · exact .inl h
        · refine .inr ⟨src, ?_⟩
          obtain ⟨t, ht⟩ := h2.requests
          rw [← ht, List.getElem?_append_left (List.getElem?_eq_some_iff.1 h).1]
          exact h
      · exact .inr h
  have h := this more hm
  refine ⟨by rw [h.phase]; exact hp, fun i o src es h1 h2 h3 => ?_⟩
  rcases h.outcomes i o h3 with h' | ⟨src', h'⟩
  · exact h'
  · rw [h1] at h'; simp at h'; exact absurd h'.2 h2

/-- One module that gets every event. -/
def exLoopConf : EngineConf where
  serverId := 7
  modules := [.py (.mk false [("*", .mk true [])])]

/-- The module answers the first event. -/
def exLoopStart : List EngineAct :=
  [.spawn, .register ⟨.eventer, 3⟩ [⟨["a"], none, none⟩], .take (exAt 1), .told, .next]

/-- The module answers every event with another one. -/
def exLoopCycle : List EngineAct :=
  [.processed [⟨["x"], none, none⟩], .next, .told, .take (exAt 2), .registered .same (exAt 2), .finished, .wake 0]

/-- A schedule for it. -/
def exLoop : Nat → EngineAct := exForever exLoopStart exLoopCycle (by simp [exLoopCycle])

/-- The session goes on. -/
structure Looping (s : Engine) : Prop where
  conf : s.conf = exLoopConf
  outcomes : s.outcomes = []
  putters : s.putters = []
  requests : s.requests.length ≤ 1
  phase : ∃ r t evs, (∃ c, s.phase = .processing r t evs [c] []) ∨
    ∃ q : Source × Event, s.phase = .processing r t evs [] [q] ∧ q.2.type = ["x"]

theorem looping_step {s : Engine} (h : Looping s) {a : EngineAct} (ha : a ∈ exLoopCycle) : Looping (s.step a) := by
  obtain ⟨r, t, evs, hph⟩ := h.phase
  simp only [exLoopCycle, List.mem_cons, List.not_mem_nil, or_false] at ha
  rcases ha with rfl | rfl | rfl | rfl | rfl | rfl | rfl
  · rcases hph with ⟨c, hph⟩ | ⟨q, hph, hq⟩
    · simp only [Engine.step, Engine.processedAct, hph, Engine.processed, Engine.createEvents, Engine.createEvent]
      exact ⟨h.conf, h.outcomes, h.putters, h.requests, r, t, _, .inr ⟨_, rfl, rfl⟩⟩
    · simp only [Engine.step, Engine.processedAct, hph]; exact h
  · rcases hph with ⟨c, hph⟩ | ⟨q, hph, hq⟩
    · simp only [Engine.step, Engine.next, hph]; exact h
    · simp only [Engine.step, Engine.next, hph]
      refine ⟨h.conf, h.outcomes, h.putters, h.requests, r, t, evs, .inl ⟨(0, q.1, q.2), ?_⟩⟩
      have : (Sub.py (.mk false [("*", .mk true [])])).matches ["x"] = true := by rfl
      simp [h.conf, exLoopConf, roundCalls, hq, this]
  · rcases hph with ⟨c, hph⟩ | ⟨q, hph, hq⟩ <;> simp only [Engine.step, Engine.told, hph] <;> exact h
  · rcases hph with ⟨c, hph⟩ | ⟨q, hph, hq⟩ <;> simp only [Engine.step, Engine.take, hph] <;> exact h
  · rcases hph with ⟨c, hph⟩ | ⟨q, hph, hq⟩ <;> simp only [Engine.step, Engine.registered, hph] <;> exact h
  · rcases hph with ⟨c, hph⟩ | ⟨q, hph, hq⟩ <;> simp only [Engine.step, hph] <;> exact h
  · simp only [Engine.step, Engine.wake, h.putters]; exact h

theorem looping_at (k : Nat) : Looping (engineAt exLoopConf ⟨7, 4, 9⟩ exLoop (exLoopStart.length + k)) := by
  induction k with
  | zero =>
    have h : upTo exLoop exLoopStart.length = exLoopStart :=
      (exForever_upTo (Nat.le_refl _)).trans (List.take_length ..)
    rw [Nat.add_zero, engineAt, h]
    refine ⟨rfl, rfl, rfl, Nat.le_refl _, _, _, _, .inl ⟨_, rfl⟩⟩
  | succ k ih =>
    rw [← Nat.add_assoc, engineAt_succ]
    exact looping_step ih (exForever_after k)

theorem loopFair_cycle {pre cycle : List EngineAct} {hc : cycle ≠ []} (h : ∀ k, ∃ a ∈ cycle, loopStep a = some k) :
    LoopFair (exForever pre cycle hc) := by
  intro k n
  obtain ⟨a, ha, hk⟩ := h k
  obtain ⟨m, hm, hm'⟩ := exForever_often (pre := pre) (hc := hc) ha n
  exact ⟨m, hm, by rw [← hm'] at hk; exact hk⟩

/-- **C90**, why modules have to come to an end: a module that answers every event with an event keeps the engine in one
session for ever, although all of its calls return; the call of `register` in the queue never gets an outcome. -/
theorem C90_endless : ∃ conf last acts, LoopFair acts ∧ Often acts (.wake 0) ∧ Started conf last acts ∧
    0 < conf.queueSize ∧ (∀ n, (engineAt conf last acts n).requests.length ≤ 1) ∧
    (∃ n, ∃ r ∈ (engineAt conf last acts n).accepted, r.future = some 0) ∧
    ∀ n, ¬Answered (engineAt conf last acts n) 0 := by
  have at_most : ∀ n, ∃ k, n ≤ exLoopStart.length + k := fun n => ⟨n, by omega⟩
  refine ⟨exLoopConf, ⟨7, 4, 9⟩, exLoop, loopFair_cycle fun k => ?_, exForever_often (by simp [exLoopCycle]),
    ⟨0, rfl, rfl⟩, by decide, fun n => ?_, ⟨2, ⟨some 0, ⟨.eventer, 3⟩, [⟨["a"], none, none⟩]⟩, .tail _ (.head _), rfl⟩, ?_⟩
  · cases k
    · exact ⟨.take (exAt 2), by simp [exLoopCycle], rfl⟩
    · exact ⟨.next, by simp [exLoopCycle], rfl⟩
    · exact ⟨.told, by simp [exLoopCycle], rfl⟩
    · exact ⟨.processed [⟨["x"], none, none⟩], by simp [exLoopCycle], rfl⟩
    · exact ⟨.registered .same (exAt 2), by simp [exLoopCycle], rfl⟩
    · exact ⟨.finished, by simp [exLoopCycle], rfl⟩
  · exact Nat.le_trans (engineAt_grows (show n ≤ exLoopStart.length + n by omega)).requests.length_le (looping_at n).requests
  · rintro n ⟨o, ho⟩
    rcases Nat.lt_or_ge n exLoopStart.length with h | h
    · have h5 : n < 5 := h
      clear h
      have : (engineAt exLoopConf ⟨7, 4, 9⟩ exLoop n).outcomes = [] := by interval_cases n <;> rfl
      rw [this] at ho; simp at ho
    · obtain ⟨k, rfl⟩ := Nat.exists_eq_add_of_le h
      rw [(looping_at k).outcomes] at ho; simp at ho

/-! ## Examples -/

/-- Two modules, and a queue with room for one request. -/
def exNarrow : EngineConf := { exEngineConf with queueSize := 1 }

/-- Two calls wait while the first session runs, then for each other. -/
def exWaited : List EngineAct :=
  [.spawn, .register ⟨.eventer, 3⟩ [⟨["a"], none, none⟩], .register ⟨.eventer, 4⟩ [⟨["b"], none, none⟩],
    .take (exAt 1), .wake 0, .told, .told, .next, .processed [], .next, .told, .told, .next, .registered .same (exAt 1),
    .take (exAt 2), .wake 0, .told, .told, .next, .processed [⟨["c"], none, none⟩], .processed [], .next, .processed [],
    .next, .told, .told, .next, .registered .same (exAt 2),
    .take (exAt 3), .told, .told, .next, .processed [], .next, .told, .told, .next, .registered .none (exAt 3)]

/-- Nothing happens any more. -/
def exQuiet : List EngineAct :=
  [.take (exAt 4), .next, .told, .processed [], .registered .same (exAt 4), .finished, .wake 0]

/-- A schedule that goes on. -/
def exWaitedForever : Nat → EngineAct := exForever exWaited exQuiet (by simp [exQuiet])

theorem quiet_fair {pre : List EngineAct} {hc : exQuiet ≠ []} : LoopFair (exForever pre exQuiet hc) := by
  refine loopFair_cycle fun k => ?_
  cases k
  · exact ⟨.take (exAt 4), by simp [exQuiet], rfl⟩
  · exact ⟨.next, by simp [exQuiet], rfl⟩
  · exact ⟨.told, by simp [exQuiet], rfl⟩
  · exact ⟨.processed [], by simp [exQuiet], rfl⟩
  · exact ⟨.registered .same (exAt 4), by simp [exQuiet], rfl⟩
  · exact ⟨.finished, by simp [exQuiet], rfl⟩

theorem quiet_step {s : Engine} (h1 : s.phase = .idle) (h2 : s.queue = []) (h3 : s.putters = []) {a : EngineAct}
    (ha : a ∈ exQuiet) : s.step a = s := by
  simp only [exQuiet, List.mem_cons, List.not_mem_nil, or_false] at ha
  rcases ha with rfl | rfl | rfl | rfl | rfl | rfl | rfl
  · simp only [Engine.step, Engine.take, h1, h2]
  · simp only [Engine.step, Engine.next, h1]
  · simp only [Engine.step, Engine.told, h1]
  · simp only [Engine.step, Engine.processedAct, h1]
  · simp only [Engine.step, Engine.registered, h1]
  · simp only [Engine.step, h1]
  · simp only [Engine.step, Engine.wake, h3]; rfl

set_option maxRecDepth 100000 in
theorem exWaited_states (n : Nat) : ∃ k ≤ exWaited.length,
    engineAt exNarrow ⟨7, 4, 9⟩ exWaitedForever n = (Engine.create exNarrow ⟨7, 4, 9⟩).run (exWaited.take k) := by
  obtain ⟨h, hp, h1, h2⟩ := exForever_states (pre := exWaited) (cycle := exQuiet) (hc := by simp [exQuiet])
    (step := Engine.step) (s := Engine.create exNarrow ⟨7, 4, 9⟩) (fun a ha => quiet_step rfl rfl rfl ha) n
  refine ⟨h.length, hp.length_le, ?_⟩
  rw [List.prefix_iff_eq_take.1 hp] at h1
  exact h1

set_option maxRecDepth 100000 in
theorem exWaited_calm : Calm exNarrow ⟨7, 4, 9⟩ exWaitedForever := by
  intro session
  refine ⟨1, fun n => ?_⟩
  obtain ⟨k, hk, h⟩ := exWaited_states n
  rw [h]
  have : ((Engine.create exNarrow ⟨7, 4, 9⟩).run (exWaited.take k)).made.length ≤ 1 := by
    have hk : k ≤ 38 := hk
    interval_cases k <;> decide
  refine Nat.le_trans ?_ this
  rw [madeIn, List.length_map]
  exact List.length_filter_le _ _

set_option maxRecDepth 100000 in
theorem exWaited_calls (n : Nat) : (engineAt exNarrow ⟨7, 4, 9⟩ exWaitedForever n).requests.length ≤ 2 := by
  obtain ⟨k, hk, h⟩ := exWaited_states n
  rw [h]
  have hk : k ≤ 38 := hk
  interval_cases k <;> decide

example : ∃ m, 16 ≤ m ∧ Answered (engineAt exNarrow ⟨7, 4, 9⟩ exWaitedForever m) 1 :=
  C90_answered exNarrow ⟨7, 4, 9⟩ exWaitedForever quiet_fair exWaited_calm ⟨0, rfl, rfl⟩ 16
    ⟨some 1, ⟨.eventer, 4⟩, [⟨["b"], none, none⟩]⟩ (.tail _ (.tail _ (.head _))) 1 rfl

example : ∃ m, 3 ≤ m ∧ Answered (engineAt exNarrow ⟨7, 4, 9⟩ exWaitedForever m) 1 :=
  C90_all exNarrow ⟨7, 4, 9⟩ exWaitedForever quiet_fair (exForever_often (by simp [exQuiet])) exWaited_calm
    ⟨0, rfl, rfl⟩ (by decide) ⟨2, exWaited_calls⟩ 3 1 (by decide)

example : (engineAt exNarrow ⟨7, 4, 9⟩ exWaitedForever 3).putters.map (·.future) = [some 0, some 1] := by rfl

/-- The engine is closed while two calls wait; there is another call afterwards. -/
def exShut : List EngineAct :=
  exWaited.take 4 ++ [.close (exAt 2), .register ⟨.eventer, 5⟩ [⟨["d"], none, none⟩]]

example : (∃ m, ∀ j, m ≤ j → (engineAt exNarrow ⟨7, 4, 9⟩ (exForever exShut exQuiet (by simp [exQuiet])) j).phase = .closed) ∧
    ∀ i < 3, ∃ m, 6 ≤ m ∧ Answered (engineAt exNarrow ⟨7, 4, 9⟩ (exForever exShut exQuiet (by simp [exQuiet])) m) i := by
  obtain ⟨h1, h2⟩ := C90_closes exNarrow ⟨7, 4, 9⟩ (exForever exShut exQuiet (by simp [exQuiet])) quiet_fair
    (exForever_often (by simp [exQuiet])) 0 4 (exAt 2) rfl rfl (by decide) rfl
  exact ⟨h1, fun i hi => h2 6 i hi⟩

example : (engineAt exNarrow ⟨7, 4, 9⟩ (exForever exShut exQuiet (by simp [exQuiet])) 6).outcomes.map Prod.fst = [2] := by rfl

/-- A module raises an exception while two calls wait. -/
def exRaised : List EngineAct := exWaited.take 4 ++ [.raise [] (exAt 2)]

example : ∀ i < 2, ∃ m, 5 ≤ m ∧ Answered (engineAt exNarrow ⟨7, 4, 9⟩ (exForever exRaised exQuiet (by simp [exQuiet])) m) i := by
  intro i hi
  exact (C90_stops exNarrow ⟨7, 4, 9⟩ (exForever exRaised exQuiet (by simp [exQuiet])) quiet_fair
    (exForever_often (by simp [exQuiet])) 5 rfl).2 5 i hi

/-- A module calls `register` while it processes an event, and waits; there is another call, and the loop tries to go on. -/
def exOwn (k : Nat) : List EngineAct :=
  .register (moduleSource 0) [⟨["m"], none, none⟩] :: .register ⟨.eventer, 4⟩ [] :: List.replicate k .next

/-- The events up to that. -/
def exInside : List EngineAct := exFirst ++ exRequest.take 5

example (k : Nat) (o : EngineOutcome) : (1, o) ∉ ((Engine.create exEngineConf ⟨7, 4, 9⟩).run (exInside ++ exOwn k)).outcomes := by
  intro h
  obtain ⟨_, h'⟩ := C90_inside exEngineConf ⟨7, 4, 9⟩ exInside (exOwn k)
    (by
      have : ∃ r t evs c l outs, ((Engine.create exEngineConf ⟨7, 4, 9⟩).run exInside).phase = .processing r t evs (c :: l) outs :=
        ⟨_, _, _, _, _, _, rfl⟩
      obtain ⟨r, t, evs, c, l, outs, this⟩ := this
      rw [this]; exact True.intro)
    (by
      intro a ha
      simp only [exOwn, List.mem_cons, List.mem_replicate] at ha
      rcases ha with rfl | rfl | ⟨_, rfl⟩ <;> exact id)
  have hreq : ((Engine.create exEngineConf ⟨7, 4, 9⟩).run (exInside ++ exOwn k)).requests[1]? =
      some (moduleSource 0, [⟨["m"], none, none⟩]) := by
    have hg := (grows_run ((Engine.create exEngineConf ⟨7, 4, 9⟩).run (exInside ++
      [.register (moduleSource 0) [⟨["m"], none, none⟩]])) (.register ⟨.eventer, 4⟩ [] :: List.replicate k .next)).requests
    rw [Engine.run, Engine.run, ← List.foldl_append, List.append_assoc, List.singleton_append] at hg
    obtain ⟨t, ht⟩ := hg
    rw [Engine.run, exOwn, ← ht, List.getElem?_append_left (by decide)]
    rfl
  have := h' 1 o _ _ hreq (by simp) h
  have he : ((Engine.create exEngineConf ⟨7, 4, 9⟩).run exInside).outcomes = [] := by rfl
  rw [he] at this
  simp at this

end HatEvent
