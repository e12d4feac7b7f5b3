import Verif.Proof.Schedule
import Verif.Proof.LmdbAsync
import Verif.Spec.LmdbLive
import Mathlib.Data.List.Perm.Subperm

/-!
# The flush loop and the queries go on

Lemmas for C86.
-/

namespace HatEvent
open Spec

/-! ### Queries in progress -/

/-- The query of a job. -/
def Job.asked : Job → List (QueryParams × Nat)
  | .query q => [(q.params, q.since)]
  | _ => []

/-- Queries whose job is not done. -/
def askedJobs (jobs : List Job) : List (QueryParams × Nat) := jobs.flatMap Job.asked

/-- Queries whose job is done. -/
def askedRead (read : List (AsyncQuery × ReadResult)) : List (QueryParams × Nat) :=
  read.map fun r => (r.1.params, r.1.since)

/-- Everything the flush loop looks at is unchanged. -/
structure SameLoop (s s' : Async) : Prop where
  flusher : s'.flusher = s.flusher
  isOpen : s'.isOpen = s.isOpen
  requests : s'.requests = s.requests
  serving : s'.serving = s.serving
  flushed : s'.flushed = s.flushed
  refused : s'.refused = s.refused
  calls : s'.calls = s.calls
  read : s'.read = s.read

theorem SameLoop.refl (s : Async) : SameLoop s s := ⟨rfl, rfl, rfl, rfl, rfl, rfl, rfl, rfl⟩

theorem SameLoop.trans {s s' s'' : Async} (h : SameLoop s s') (h' : SameLoop s' s'') : SameLoop s s'' :=
  ⟨h'.flusher.trans h.flusher, h'.isOpen.trans h.isOpen, h'.requests.trans h.requests,
    h'.serving.trans h.serving, h'.flushed.trans h.flushed, h'.refused.trans h.refused,
    h'.calls.trans h.calls, h'.read.trans h.read⟩

theorem touch_refused (s : Async) (g : Nat) (p : Int) : (s.touch g p).refused = s.refused := by
  unfold Async.touch; split <;> rfl

theorem sameLoop_touch (s : Async) (g : Nat) (p : Int) : SameLoop s (s.touch g p) :=
  ⟨by simp, by simp, by simp, by simp, by simp, touch_refused s g p, by simp, by simp⟩

/-- What a query does until its first `await`. -/
def Asks (s s' : Async) (x : QueryParams × Nat) : Prop :=
  SameLoop s s' ∧
    ((answered s' = answered s ++ [x] ∧ s'.jobs = s.jobs) ∨
      (answered s' = answered s ∧ ∃ q, s'.jobs = s.jobs ++ [.query q] ∧ (q.params, q.since) = x))

theorem asks_answer (s : Async) (p : QueryParams) (r : Except PyErr QueryResult) :
    Asks s (s.answer p s.calls.length r) (p, s.calls.length) :=
  ⟨⟨rfl, rfl, rfl, rfl, rfl, rfl, rfl, rfl⟩, .inl ⟨by simp [answered, Async.answer], rfl⟩⟩

theorem asks_submit (s : Async) (p : QueryParams) (w : Waiting) : Asks s (s.submit p w) (p, s.calls.length) :=
  ⟨⟨rfl, rfl, rfl, rfl, rfl, rfl, rfl, rfl⟩, .inr ⟨rfl, ⟨p, s.gen, w, s.calls.length⟩, rfl, rfl⟩⟩

theorem asks_touch {s s' : Async} {g : Nat} {p : Int} {x : QueryParams × Nat} (h : Asks (s.touch g p) s' x) :
    Asks s s' x := by
  refine ⟨(sameLoop_touch s g p).trans h.1, ?_⟩
  have h2 := h.2
  simpa [answered] using h2

theorem asks_touch_answer (s : Async) (g : Nat) (p : Int) (q : QueryParams) (r : Except PyErr QueryResult) :
    Asks s ((s.touch g p).answer q (s.touch g p).calls.length r) (q, s.calls.length) := by
  have h := asks_touch (asks_answer (s.touch g p) q r)
  rw [touch_calls] at h ⊢
  exact h

theorem asks_touch_submit (s : Async) (g : Nat) (p : Int) (q : QueryParams) (w : Waiting) :
    Asks s ((s.touch g p).submit q w) (q, s.calls.length) := by
  have h := asks_touch (asks_submit (s.touch g p) q w)
  rw [touch_calls] at h
  exact h

theorem asks_query (s : Async) (p : QueryParams) (ho : s.isOpen = true) :
    Asks s (s.query p) (p, s.calls.length) := by
  unfold Async.query
  rw [if_pos ho]
  cases p with
  | latest e => exact asks_answer s _ _
  | server q =>
    simp only [Async.queryServer]
    split
    · exact asks_answer s _ _
    · exact asks_submit s _ _
  | timeseries q =>
    simp only [Async.queryTimeseries]
    split
    · exact asks_answer s _ _
    · split
      · exact asks_answer s _ _
      · exact asks_answer s _ _
      · unfold Async.queryPartition
        split
        · dsimp only
          split
          · exact asks_touch_answer s _ _ _ _
          · split
            · exact asks_touch_answer s _ _ _ _
            · exact asks_touch_submit s _ _ _ _
        · exact asks_submit s _ _

/-- The end of a query. -/
theorem finish_effect (s : Async) (i : Nat) :
    (s.finish i = s ∧ s.read.length ≤ i) ∨
      ∃ q, s.read[i]? = some q ∧ (s.finish i).flusher = s.flusher ∧ (s.finish i).isOpen = s.isOpen ∧
        (s.finish i).requests = s.requests ∧ (s.finish i).serving = s.serving ∧
        (s.finish i).flushed = s.flushed ∧ (s.finish i).refused = s.refused ∧
        (s.finish i).calls = s.calls ∧ (s.finish i).jobs = s.jobs ∧
        (s.finish i).read = s.read.eraseIdx i ∧
        answered (s.finish i) = answered s ++ [(q.1.params, q.1.since)] := by
  unfold Async.finish
  split
  · next h => exact .inl ⟨rfl, by simpa using h⟩
  · next q r h =>
    refine .inr ⟨(q, r), h, ?_⟩
    have ht : ∀ o, SameLoop s (s.touchLookup q.gen o) ∧ (s.touchLookup q.gen o).jobs = s.jobs ∧
        answered (s.touchLookup q.gen o) = answered s := by
      rintro (_ | p)
      · exact ⟨.refl s, rfl, rfl⟩
      · exact ⟨sameLoop_touch s _ _, by simp [Async.touchLookup], by simp [Async.touchLookup, answered]⟩
    obtain ⟨h1, h2, h3⟩ := ht (q.waiting.lookup r)
    refine ⟨h1.flusher, h1.isOpen, h1.requests, h1.serving, h1.flushed, h1.refused, h1.calls, h2, ?_, ?_⟩
    · show List.eraseIdx _ _ = _
      rw [h1.read]
    · show List.map _ (_ ++ [_]) = _
      rw [List.map_append]
      exact congrArg (· ++ _) h3

/-! ### What is conserved -/

/-- Calls of `flush` that have returned or raised. -/
def settled (s : Async) : List Nat := s.flushed ++ s.refused

/-- The same and those being served. -/
def taken (s : Async) : List Nat := settled s ++ s.serving

/-- What holds in all states of the flush loop. -/
structure LoopOk (s : Async) : Prop where
  waiting : ∀ r f, s.flusher = .waiting r f → ∃ pre g post, s.jobs = pre ++ .flush g :: post
  idle : s.flusher = .idle → s.serving = []
  final : ∀ r, s.flusher = .waiting r true ∨ s.flusher = .notifying r true → s.isOpen = false ∧ s.requests = []
  failed : s.flusher = .failed true → s.isOpen = false ∧ s.requests = []
  ended : s.flusher = .ended → s.isOpen = false ∧ s.requests = [] ∧ s.serving = []
  refused : s.refused ≠ [] → s.isOpen = false

theorem loopOk_create (conf : Conf) (disk : Disk) (m : Mem) : LoopOk (.create conf disk m) := by
  constructor <;> simp [Async.create]

theorem LoopOk.same {s s' : Async} (h : LoopOk s) (hs : SameLoop s s')
    (hj : ∃ r, s'.jobs = s.jobs ++ r) : LoopOk s' := by
  obtain ⟨r, hj⟩ := hj
  refine ⟨?_, ?_, ?_, ?_, ?_, ?_⟩
  · rw [hs.flusher, hj]
    intro x f hx
    obtain ⟨pre, g, post, he⟩ := h.waiting x f hx
    exact ⟨pre, g, post ++ r, by rw [he]; simp⟩
  · rw [hs.flusher, hs.serving]; exact h.idle
  · rw [hs.flusher, hs.isOpen, hs.requests]; exact h.final
  · rw [hs.flusher, hs.isOpen, hs.requests]; exact h.failed
  · rw [hs.flusher, hs.isOpen, hs.requests, hs.serving]; exact h.ended
  · rw [hs.refused, hs.isOpen]; exact h.refused

theorem Asks.jobs {s s' : Async} {x : QueryParams × Nat} (h : Asks s s' x) : ∃ r, s'.jobs = s.jobs ++ r := by
  rcases h.2 with ⟨_, h⟩ | ⟨_, q, h, _⟩
  · exact ⟨[], by simp [h]⟩
  · exact ⟨_, h⟩

theorem LoopOk.close {s s' : Async} (h : LoopOk s) (hf : s'.flusher = s.flusher) (hj : s'.jobs = s.jobs)
    (ho : s'.isOpen = false) (hr : s'.requests = s.requests) (hs : s'.serving = s.serving) : LoopOk s' := by
  refine ⟨?_, ?_, ?_, ?_, ?_, fun _ => ho⟩
  · rw [hf, hj]; exact h.waiting
  · rw [hf, hs]; exact h.idle
  · rw [hf, hr]; exact fun r hr => ⟨ho, (h.final r hr).2⟩
  · rw [hf, hr]; exact fun hr => ⟨ho, (h.failed hr).2⟩
  · rw [hf, hr, hs]; exact fun hr => ⟨ho, (h.ended hr).2⟩

theorem LoopOk.job {s s' : Async} (h : LoopOk s) (a : Job) (r : List Job) (hjobs : s.jobs = a :: r)
    (hn : ∀ g, a ≠ .flush g) (hf : s'.flusher = s.flusher) (hj : s'.jobs = r)
    (ho : s'.isOpen = true → s.isOpen = true) (hrf : s'.refused = s.refused)
    (hr : s'.requests = s.requests) (hs : s'.serving = s.serving) : LoopOk s' := by
  have ho' : s.isOpen = false → s'.isOpen = false := by
    intro h1
    cases h2 : s'.isOpen
    · rfl
    · rw [ho h2] at h1; cases h1
  refine ⟨?_, ?_, ?_, ?_, ?_, ?_⟩
  · rw [hf, hj]
    intro x f hx
    obtain ⟨pre, g, post, he⟩ := h.waiting x f hx
    rw [hjobs] at he
    cases pre with
    | nil => injection he with h1 h2; exact absurd h1 (hn g)
    | cons b pre => injection he with h1 h2; exact ⟨pre, g, post, h2⟩
  · rw [hf, hs]; exact h.idle
  · rw [hf, hr]; exact fun r hr => ⟨ho' (h.final r hr).1, (h.final r hr).2⟩
  · rw [hf, hr]; exact fun hr => ⟨ho' (h.failed hr).1, (h.failed hr).2⟩
  · rw [hf, hr, hs]; exact fun hr => ⟨ho' (h.ended hr).1, (h.ended hr).2⟩
  · rw [hrf]; exact fun h1 => ho' (h.refused h1)

theorem LoopOk.flushed {s s' : Async} (h : LoopOk s) (b : Bool) (hf : s'.flusher = s.flusher.done b)
    (ho : s'.isOpen = s.isOpen) (hrf : s'.refused = s.refused)
    (hr : s'.requests = s.requests) (hs : s'.serving = s.serving) : LoopOk s' := by
  have h1 := h.final
  have h2 := h.failed
  have h3 := h.ended
  have h4 := h.idle
  refine ⟨?_, ?_, ?_, ?_, ?_, ?_⟩
  all_goals
    try rw [hf]
    try rw [ho]
    try rw [hr]
    try rw [hs]
    try rw [hrf]
  · intro r f
    cases s.flusher <;> cases b <;> simp [Flusher.done]
  · revert h4
    cases s.flusher <;> cases b <;> simp [Flusher.done]
  · revert h1
    cases s.flusher with
    | waiting r f =>
      cases b <;> simp [Flusher.done]
    | _ => cases b <;> simp [Flusher.done]
  · revert h1 h2
    cases s.flusher with
    | waiting r f =>
      cases b <;> simp [Flusher.done]
    | _ => cases b <;> simp [Flusher.done]
  · revert h3
    cases s.flusher <;> cases b <;> simp [Flusher.done]
  · exact h.refused

theorem loopOk_step {s : Async} (h : LoopOk s) (a : Act) : LoopOk (s.step a) := by
  cases a with
  | register es =>
    simp only [Async.step, Async.register]
    split
    case isFalse => exact h
    split
    · exact ⟨h.waiting, h.idle, h.final, h.failed, h.ended, h.refused⟩
    · exact h
  | query p =>
    cases ho : s.isOpen with
    | true => exact h.same (asks_query s p ho).1 (asks_query s p ho).jobs
    | false => simp only [Async.step, Async.query, ho]; exact h
  | request =>
    simp only [Async.step]
    split
    · next ho =>
      refine ⟨h.waiting, h.idle, ?_, ?_, ?_, h.refused⟩
      · intro r hr; have := (h.final r hr).1; rw [ho] at this; cases this
      · intro hr; have := (h.failed hr).1; rw [ho] at this; cases this
      · intro hr; have := (h.ended hr).1; rw [ho] at this; cases this
    · exact h
  | flush =>
    simp only [Async.step, Async.startFlush]
    split
    · refine ⟨?_, by simp, ?_, by simp, by simp, ?_⟩
      · rintro r f -
        exact ⟨s.jobs, s.gen, [], rfl⟩
      · rintro r (hr | hr)
        · simp only [Flusher.waiting.injEq, Bool.not_eq_true'] at hr
          exact ⟨hr.2, rfl⟩
        · cases hr
      · intro hr
        cases ho : s.isOpen
        · rfl
        · simp only [ho, if_true] at hr
          have := h.refused hr
          rw [ho] at this; cases this
    · exact h
  | cleanup fl se now =>
    simp only [Async.step]
    split
    · exact h.same ⟨rfl, rfl, rfl, rfl, rfl, rfl, rfl, rfl⟩ ⟨_, rfl⟩
    · exact h
  | start =>
    simp only [Async.step, Async.startJob]
    split
    · exact h.same ⟨rfl, rfl, rfl, rfl, rfl, rfl, rfl, rfl⟩ ⟨[], by simp⟩
    · exact h
  | job raise =>
    simp only [Async.step, Async.runJob]
    split
    · exact h
    · next q r hj => exact h.job _ r hj (by simp) rfl rfl id rfl rfl rfl
    · next fl se now r hj =>
      split
      · exact h.job _ r hj (by simp) rfl rfl id rfl rfl rfl
      · exact h.job _ r hj (by simp) rfl rfl (by simp) rfl rfl rfl
    · next g r hj =>
      split
      · exact h.flushed false rfl rfl rfl rfl rfl
      · split
        · exact h.flushed true rfl rfl rfl rfl rfl
        · exact h.flushed false rfl rfl rfl rfl rfl
  | finish i =>
    rcases finish_effect s i with ⟨he, _⟩ | ⟨q, _, h1, h2, h3, h4, h5, h6, h7, h8, _, _⟩
    · show LoopOk (s.finish i); rw [he]; exact h
    · show LoopOk (s.finish i)
      refine ⟨?_, ?_, ?_, ?_, ?_, ?_⟩
      · rw [h1, h8]; exact h.waiting
      · rw [h1, h4]; exact h.idle
      · rw [h1, h2, h3]; exact h.final
      · rw [h1, h2, h3]; exact h.failed
      · rw [h1, h2, h3, h4]; exact h.ended
      · rw [h6, h2]; exact h.refused
  | notify =>
    simp only [Async.step, Async.notify]
    split
    · next es r f hf =>
      refine ⟨by simp, by simp, ?_, by simp, by simp, h.refused⟩
      rintro r2 (hr | hr)
      · cases hr
      · simp only [Flusher.notifying.injEq] at hr
        obtain ⟨rfl, rfl⟩ := hr
        exact h.final _ (.inr hf)
    · next f hf =>
      refine ⟨?_, by simp, ?_, ?_, ?_, ?_⟩
      · intro r f'; cases f <;> simp
      · intro r; cases f <;> simp
      · cases f <;> simp
      · cases f with
        | true => have := h.final _ (.inr hf); simpa using this
        | false => simp
      · intro hr
        cases ho : s.isOpen
        · rfl
        · simp only [ho, if_true] at hr
          have := h.refused hr
          rw [ho] at this; cases this
    · next f hf =>
      refine ⟨?_, by simp, ?_, ?_, ?_, by simp⟩
      · intro r f'; cases f <;> simp
      · intro r; cases f <;> simp
      · cases f <;> simp
      · cases f with
        | true => have := h.failed hf; simpa using this.2
        | false => simp
    · exact h
  | close => exact h.close rfl rfl rfl rfl rfl

/-- Calls of `flush` are neither lost nor invented, and those that have been taken
stay taken. -/
theorem flushCall_step (s : Async) (h : LoopOk s) (a : Act) :
    (taken (s.step a) ++ (s.step a).requests).Perm (taken s ++ s.requests ++ flushCall s a) ∧
      (taken s).Subperm (taken (s.step a)) ∧ (settled s).Subperm (settled (s.step a)) := by
  have same : ∀ {s' : Async}, SameLoop s s' → flushCall s a = [] →
      (taken s' ++ s'.requests).Perm (taken s ++ s.requests ++ flushCall s a) ∧
        (taken s).Subperm (taken s') ∧ (settled s).Subperm (settled s') := by
    intro s' hs hc
    have e1 : settled s' = settled s := by simp [settled, hs.flushed, hs.refused]
    have e2 : taken s' = taken s := by simp [taken, e1, hs.serving]
    rw [hc, e1, e2, hs.requests, List.append_nil]
    exact ⟨.refl _, .refl _, .refl _⟩
  cases a with
  | register es =>
    simp only [Async.step, Async.register]
    split
    case isFalse => exact same (.refl s) rfl
    split
    · exact ⟨by simp [flushCall, taken, settled], .refl _, .refl _⟩
    · exact same (.refl s) rfl
  | query p =>
    cases ho : s.isOpen with
    | true => exact same (asks_query s p ho).1 rfl
    | false => simp only [Async.step, Async.query, ho]; exact same (.refl s) rfl
  | request =>
    simp only [Async.step, flushCall]
    split
    · exact ⟨by simp [taken, settled], .refl _, .refl _⟩
    · exact ⟨by simp, .refl _, .refl _⟩
  | flush =>
    simp only [Async.step, Async.startFlush, flushCall, List.append_nil]
    split
    · next hf =>
      have hsv := h.idle hf
      cases ho : s.isOpen
      · refine ⟨by simp [taken, settled, hsv], ?_, ?_⟩
        · simpa [taken, settled, hsv, ← List.append_assoc] using
            (List.sublist_append_left (s.flushed ++ s.refused) s.requests).subperm
        · simpa [settled, ← List.append_assoc] using
            (List.sublist_append_left (s.flushed ++ s.refused) s.requests).subperm
      · refine ⟨by simp [taken, settled, hsv], ?_, ?_⟩
        · simpa [taken, settled, hsv, ← List.append_assoc] using
            (List.sublist_append_left (s.flushed ++ s.refused) s.requests).subperm
        · simpa [settled] using List.Subperm.refl (s.flushed ++ s.refused)
    · exact ⟨.refl _, .refl _, .refl _⟩
  | cleanup fl se now =>
    simp only [Async.step]
    split
    · exact same ⟨rfl, rfl, rfl, rfl, rfl, rfl, rfl, rfl⟩ rfl
    · exact same (.refl s) rfl
  | start =>
    simp only [Async.step, Async.startJob]
    split
    · exact same ⟨rfl, rfl, rfl, rfl, rfl, rfl, rfl, rfl⟩ rfl
    · exact same (.refl s) rfl
  | job raise =>
    simp only [Async.step, Async.runJob, flushCall, List.append_nil]
    repeat' split
    all_goals exact ⟨.refl _, .refl _, .refl _⟩
  | finish i =>
    simp only [Async.step, flushCall, List.append_nil]
    rcases finish_effect s i with ⟨he, _⟩ | ⟨q, _, h1, h2, h3, h4, h5, h6, h7, h8, _, _⟩
    · rw [he]; exact ⟨.refl _, .refl _, .refl _⟩
    · simp only [taken, settled, h3, h4, h5, h6]
      exact ⟨.refl _, .refl _, .refl _⟩
  | notify =>
    simp only [Async.step, Async.notify, flushCall, List.append_nil]
    have hp : ((s.flushed ++ s.serving) ++ s.refused).Perm (s.flushed ++ s.refused ++ s.serving) := by
      rw [List.append_assoc, List.append_assoc]
      exact List.perm_append_comm.append_left s.flushed
    split
    · exact ⟨.refl _, .refl _, .refl _⟩
    · cases ho : s.isOpen
      · refine ⟨by simp [taken, settled], by simp [taken, settled, List.append_assoc, List.Subperm.refl], ?_⟩
        simpa [settled, ← List.append_assoc] using
          (List.sublist_append_left (s.flushed ++ s.refused) s.serving).subperm
      · refine ⟨?_, ?_, ?_⟩
        · simpa [taken, settled] using hp.append_right s.requests
        · simpa [taken, settled] using hp.symm.subperm
        · have := (List.sublist_append_left (s.flushed ++ s.refused) s.serving).subperm.trans hp.symm.subperm
          simpa [settled] using this
    · refine ⟨by simp [taken, settled], by simp [taken, settled, List.append_assoc, List.Subperm.refl], ?_⟩
      simpa [settled, ← List.append_assoc] using
        (List.sublist_append_left (s.flushed ++ s.refused) s.serving).subperm
    · exact ⟨.refl _, .refl _, .refl _⟩
  | close => exact ⟨by simp [Async.step, flushCall, taken, settled], .refl _, .refl _⟩

/-- Queries are neither lost nor invented. -/
theorem queryCall_step (s : Async) (a : Act) :
    (answered (s.step a) ++ askedRead (s.step a).read ++ askedJobs (s.step a).jobs).Perm
      (answered s ++ askedRead s.read ++ askedJobs s.jobs ++ queryCall s a) := by
  cases a with
  | register es =>
    simp only [Async.step, Async.register]
    repeat' split
    all_goals simp [queryCall, answered]
  | query p =>
    cases ho : s.isOpen with
    | true =>
      obtain ⟨h1, h2⟩ := asks_query s p ho
      simp only [Async.step, queryCall, ho, if_true, h1.read]
      rcases h2 with ⟨e1, e2⟩ | ⟨e1, q, e2, e3⟩
      · rw [e1, e2]
        simp only [List.append_assoc]
        refine List.Perm.append_left _ ?_
        exact List.perm_append_comm.trans (by simp)
      · rw [e1, e2]
        simp [askedJobs, Job.asked, e3]
    | false => simp [Async.step, Async.query, queryCall, ho]
  | request => simp only [Async.step]; split <;> simp [queryCall, answered]
  | flush =>
    simp only [Async.step, Async.startFlush]
    split <;> simp [queryCall, answered, askedJobs, Job.asked]
  | cleanup fl se now => simp only [Async.step]; split <;> simp [queryCall, answered, askedJobs, Job.asked]
  | start => simp only [Async.step, Async.startJob]; split <;> simp [queryCall, answered]
  | job raise =>
    simp only [Async.step, Async.runJob, queryCall, List.append_nil]
    split
    · exact .refl _
    · next q r hj => simp [answered, askedRead, askedJobs, hj, Job.asked]
    · next hj => split <;> simp [answered, askedRead, askedJobs, hj, Job.asked]
    · next hj =>
      split
      · simp [answered, askedRead, askedJobs, hj, Job.asked]
      · split <;> simp [answered, askedRead, askedJobs, hj, Job.asked]
  | finish i =>
    simp only [Async.step, queryCall, List.append_nil]
    rcases finish_effect s i with ⟨he, _⟩ | ⟨q, hq, -, -, -, -, -, -, -, h8, h9, h10⟩
    · rw [he]
    · rw [h8, h9, h10]
      refine List.Perm.append_right _ ?_
      rw [List.append_assoc]
      refine List.Perm.append_left _ ?_
      have hi : i < s.read.length := by
        rw [List.getElem?_eq_some_iff] at hq; exact hq.1
      have := (List.getElem_cons_eraseIdx_perm hi).map fun r : AsyncQuery × ReadResult => (r.1.params, r.1.since)
      have he : s.read[i] = q := by
        rw [List.getElem?_eq_getElem hi] at hq; exact Option.some.inj hq
      rw [he] at this
      exact this
  | notify => simp only [Async.step, Async.notify]; split <;> simp [queryCall, answered]
  | close => simp [Async.step, queryCall, answered]

/-! ### Along a schedule -/

theorem run_upTo_succ (s : Async) (acts : Nat → Act) (n : Nat) :
    s.run (upTo acts (n + 1)) = (s.run (upTo acts n)).step (acts n) := by
  rw [upTo_succ]; simp [Async.run]

theorem flushCalls_append (s : Async) (a b : List Act) :
    flushCalls s (a ++ b) = flushCalls s a ++ flushCalls (s.run a) b := by
  induction a generalizing s with
  | nil => rfl
  | cons x a ih => simp [flushCalls, ih, Async.run]

theorem queryCalls_append (s : Async) (a b : List Act) :
    queryCalls s (a ++ b) = queryCalls s a ++ queryCalls (s.run a) b := by
  induction a generalizing s with
  | nil => rfl
  | cons x a ih => simp [queryCalls, ih, Async.run]

theorem loopOk_run {s : Async} (h : LoopOk s) (acts : List Act) : LoopOk (s.run acts) := by
  induction acts generalizing s with
  | nil => exact h
  | cons a r ih => exact ih (loopOk_step h a)

theorem flushCalls_run {s : Async} (h : LoopOk s) (acts : List Act) :
    (taken (s.run acts) ++ (s.run acts).requests).Perm (taken s ++ s.requests ++ flushCalls s acts) := by
  induction acts generalizing s with
  | nil => simp [flushCalls, Async.run]
  | cons a r ih =>
    refine (ih (loopOk_step h a)).trans ?_
    rw [flushCalls, ← List.append_assoc]
    exact (flushCall_step s h a).1.append_right _

theorem queryCalls_run (s : Async) (acts : List Act) :
    (answered (s.run acts) ++ askedRead (s.run acts).read ++ askedJobs (s.run acts).jobs).Perm
      (answered s ++ askedRead s.read ++ askedJobs s.jobs ++ queryCalls s acts) := by
  induction acts generalizing s with
  | nil => simp [queryCalls, Async.run]
  | cons a r ih =>
    refine (ih _).trans ?_
    rw [queryCalls, ← List.append_assoc]
    exact (queryCall_step s a).append_right _

/-- If every step keeps `P` without increasing the measure or reaches `Q`, and some
steps that occur again and again decrease the measure or reach `Q`, then `Q` is
reached. -/
theorem leads {P Q : Async → Prop} {en : Act → Prop} (μ : Async → Nat)
    (hstep : ∀ s a, P s → Q (s.step a) ∨ (P (s.step a) ∧ μ (s.step a) ≤ μ s))
    (hen : ∀ s a, P s → en a → Q (s.step a) ∨ (P (s.step a) ∧ μ (s.step a) < μ s))
    {acts : Nat → Act} (hf : ∀ n, ∃ m, n ≤ m ∧ en (acts m)) (s : Async) (n : Nat)
    (h : P (s.run (upTo acts n))) : ∃ m, n ≤ m ∧ Q (s.run (upTo acts m)) := by
  generalize hk : μ (s.run (upTo acts n)) = k
  induction k using Nat.strong_induction_on generalizing n with
  | _ k ih =>
    obtain ⟨m, hm, he⟩ := hf n
    have walk : ∀ d, n + d ≤ m → (∃ m', n ≤ m' ∧ Q (s.run (upTo acts m'))) ∨
        (P (s.run (upTo acts (n + d))) ∧ μ (s.run (upTo acts (n + d))) ≤ k) := by
      intro d
      induction d with
      | zero => intro _; exact .inr ⟨h, hk.le⟩
      | succ d ihd =>
        intro hd
        rcases ihd (by omega) with hq | ⟨h1, h2⟩
        · exact .inl hq
        · have e : s.run (upTo acts (n + (d + 1))) = (s.run (upTo acts (n + d))).step (acts (n + d)) :=
            run_upTo_succ s acts (n + d)
          rw [e]
          rcases hstep _ (acts (n + d)) h1 with hq | ⟨h3, h4⟩
          · exact .inl ⟨n + (d + 1), by omega, by rw [e]; exact hq⟩
          · exact .inr ⟨h3, h4.trans h2⟩
    rcases walk (m - n) (by omega) with hq | ⟨h1, h2⟩
    · exact hq
    · rw [show n + (m - n) = m by omega] at h1 h2
      have e := run_upTo_succ s acts m
      rcases hen _ (acts m) h1 he with hq | ⟨h3, h4⟩
      · exact ⟨m + 1, by omega, by rw [e]; exact hq⟩
      · rw [← e] at h3 h4
        obtain ⟨m', h5, h6⟩ := ih _ (lt_of_lt_of_le h4 h2) (m + 1) h3 rfl
        exact ⟨m', by omega, h6⟩

/-- Along a schedule, what does not decrease in a step does not decrease. -/
theorem grows {α : Type} (f : Async → List α) {I : Async → Prop} (hI : ∀ s a, I s → I (s.step a))
    (hf : ∀ s a, I s → (f s).Subperm (f (s.step a))) (acts : Nat → Act) (s : Async) {n m : Nat} (h : n ≤ m)
    (hs : I (s.run (upTo acts n))) :
    (f (s.run (upTo acts n))).Subperm (f (s.run (upTo acts m))) := by
  obtain ⟨d, rfl⟩ := Nat.le.dest h
  have : I (s.run (upTo acts (n + d))) ∧
      (f (s.run (upTo acts n))).Subperm (f (s.run (upTo acts (n + d)))) := by
    induction d with
    | zero => exact ⟨hs, .refl _⟩
    | succ d ih =>
      obtain ⟨h1, h2⟩ := ih (by omega)
      have e : s.run (upTo acts (n + (d + 1))) = (s.run (upTo acts (n + d))).step (acts (n + d)) :=
        run_upTo_succ s acts (n + d)
      rw [e]
      exact ⟨hI _ _ h1, h2.trans (hf _ _ h1)⟩
  exact this.2

/-! ### The flush loop -/

/-- Steps that do not concern the flush loop. -/
theorem flusher_other (s : Async) (a : Act) (h1 : a ≠ .flush) (h2 : a ≠ .notify) (h3 : ∀ r, a ≠ .job r) :
    (s.step a).flusher = s.flusher ∧ ∃ r, (s.step a).jobs = s.jobs ++ r := by
  cases a with
  | register es =>
    simp only [Async.step, Async.register]
    repeat' split
    all_goals exact ⟨rfl, [], by simp⟩
  | query p =>
    cases ho : s.isOpen with
    | true => exact ⟨(asks_query s p ho).1.flusher, (asks_query s p ho).jobs⟩
    | false => simp only [Async.step, Async.query, ho]; exact ⟨rfl, [], by simp⟩
  | request => simp only [Async.step]; split <;> exact ⟨rfl, [], by simp⟩
  | flush => exact absurd rfl h1
  | cleanup fl se now =>
    simp only [Async.step]
    split
    · exact ⟨rfl, _, rfl⟩
    · exact ⟨rfl, [], by simp⟩
  | start => simp only [Async.step, Async.startJob]; split <;> exact ⟨rfl, [], by simp⟩
  | job r => exact absurd rfl (h3 r)
  | finish i =>
    rcases finish_effect s i with ⟨he, _⟩ | ⟨q, _, h1, _, _, _, _, _, _, h8, _, _⟩
    · show (s.finish i).flusher = _ ∧ ∃ r, (s.finish i).jobs = _
      rw [he]; exact ⟨rfl, [], by simp⟩
    · exact ⟨h1, [], by simpa [Async.step] using h8⟩
  | notify => exact absurd rfl h2
  | close => exact ⟨rfl, [], by simp [Async.step]⟩

/-- A job is a flush. -/
def Job.isFlush : Job → Bool
  | .flush _ => true
  | _ => false

theorem job_effect (s : Async) (raise : Bool) :
    (s.jobs = [] ∧ s.step (.job raise) = s) ∨
      ∃ a r, s.jobs = a :: r ∧ (s.step (.job raise)).jobs = r ∧
        ((a.isFlush = false ∧ (s.step (.job raise)).flusher = s.flusher) ∨
          (a.isFlush = true ∧ ∃ b, (s.step (.job raise)).flusher = s.flusher.done b)) := by
  simp only [Async.step, Async.runJob]
  split
  · next h => exact .inl ⟨h, rfl⟩
  · next q r h => exact .inr ⟨_, r, h, rfl, .inl ⟨rfl, rfl⟩⟩
  · next r h => refine .inr ⟨_, r, h, ?_⟩; split <;> exact ⟨rfl, .inl ⟨rfl, rfl⟩⟩
  · next g r h =>
    refine .inr ⟨_, r, h, ?_⟩
    split
    · exact ⟨rfl, .inr ⟨rfl, false, rfl⟩⟩
    · split
      · exact ⟨rfl, .inr ⟨rfl, true, rfl⟩⟩
      · exact ⟨rfl, .inr ⟨rfl, false, rfl⟩⟩

/-- The loop waits for the job. -/
def Awaiting (f : Bool) (s : Async) : Prop := LoopOk s ∧ ∃ r, s.flusher = .waiting r f

/-- The loop continues after the job. -/
def Resumed (f : Bool) (s : Async) : Prop := LoopOk s ∧ ((∃ r, s.flusher = .notifying r f) ∨ s.flusher = .failed f)

/-- The loop has done a flush. -/
def Done (f : Bool) (s : Async) : Prop := LoopOk s ∧ s.flusher = if f then .ended else .idle

theorem findIdx_flush {jobs : List Job} (h : ∃ pre g post, jobs = pre ++ .flush g :: post) :
    jobs.findIdx Job.isFlush < jobs.length := by
  obtain ⟨pre, g, post, rfl⟩ := h
  rw [List.findIdx_lt_length]
  exact ⟨.flush g, by simp, rfl⟩

theorem awaiting_resumed {acts : Nat → Act} (hf : Fair acts) (s : Async) (n : Nat) (f : Bool)
    (h : Awaiting f (s.run (upTo acts n))) : ∃ m, n ≤ m ∧ Resumed f (s.run (upTo acts m)) := by
  have hjob : ∀ s a, Awaiting f s → (∃ r, a = Act.job r) → Resumed f (s.step a) ∨
      (Awaiting f (s.step a) ∧ (s.step a).jobs.findIdx Job.isFlush < s.jobs.findIdx Job.isFlush) := by
    rintro s _ ⟨h1, r, h2⟩ ⟨raise, rfl⟩
    have h4 := loopOk_step h1 (.job raise)
    rcases job_effect s raise with ⟨e, _⟩ | ⟨a, q, e1, e2, ⟨e3, e4⟩ | ⟨_, b, e4⟩⟩
    · obtain ⟨pre, g, post, e'⟩ := h1.waiting _ _ h2
      rw [e] at e'; cases pre <;> cases e'
    · right
      refine ⟨⟨h4, r, e4.trans h2⟩, ?_⟩
      rw [e1, e2, List.findIdx_cons, e3]
      simp
    · left
      refine ⟨h4, ?_⟩
      rw [e4, h2]
      cases b
      · exact .inr rfl
      · exact .inl ⟨r, rfl⟩
  refine leads (P := Awaiting f) (en := fun a => ∃ r, a = .job r) (fun s => s.jobs.findIdx Job.isFlush) ?_ hjob hf.job
    s n h
  intro s a hp
  by_cases hj : ∃ r, a = .job r
  · rcases hjob s a hp hj with h | ⟨h, h'⟩
    · exact .inl h
    · exact .inr ⟨h, h'.le⟩
  right
  obtain ⟨h1, r, h2⟩ := hp
  have h4 := loopOk_step h1 a
  by_cases hfl : a = .flush
  · subst hfl
    have e : s.step .flush = s := by simp [Async.step, Async.startFlush, h2]
    rw [e]; exact ⟨⟨h1, r, h2⟩, le_refl _⟩
  by_cases hn : a = .notify
  · subst hn
    have e : s.step .notify = s := by simp [Async.step, Async.notify, h2]
    rw [e]; exact ⟨⟨h1, r, h2⟩, le_refl _⟩
  obtain ⟨e1, q, e2⟩ := flusher_other s a hfl hn fun r hr => hj ⟨r, hr⟩
  refine ⟨⟨h4, r, e1.trans h2⟩, ?_⟩
  rw [e2, List.findIdx_append, if_pos (findIdx_flush (h1.waiting _ _ h2))]

/-- Lists that are still to be notified. -/
def toNotify : Flusher → Nat
  | .notifying r _ => r.length
  | _ => 0

theorem resumed_done {acts : Nat → Act} (hf : Fair acts) (s : Async) (n : Nat) (f : Bool)
    (h : Resumed f (s.run (upTo acts n))) : ∃ m, n ≤ m ∧ Done f (s.run (upTo acts m)) := by
  have hno : ∀ s a, Resumed f s → a = Act.notify → Done f (s.step a) ∨
      (Resumed f (s.step a) ∧ toNotify (s.step a).flusher < toNotify s.flusher) := by
    rintro s _ ⟨h1, h2⟩ rfl
    have h4 := loopOk_step h1 .notify
    rcases h2 with ⟨r, h2⟩ | h2
    · cases r with
      | nil => exact .inl ⟨h4, by simp [Async.step, Async.notify, h2]⟩
      | cons es r =>
        exact .inr ⟨⟨h4, .inl ⟨r, by simp [Async.step, Async.notify, h2]⟩⟩,
          by simp [Async.step, Async.notify, h2, toNotify]⟩
    · exact .inl ⟨h4, by simp [Async.step, Async.notify, h2]⟩
  refine leads (P := Resumed f) (en := fun a => a = .notify) (fun s => toNotify s.flusher) ?_ hno hf.notify s n h
  intro s a hp
  by_cases hn : a = .notify
  · rcases hno s a hp hn with h | ⟨h, h'⟩
    · exact .inl h
    · exact .inr ⟨h, h'.le⟩
  right
  obtain ⟨h1, h2⟩ := hp
  have h4 := loopOk_step h1 a
  have e : (s.step a).flusher = s.flusher := by
    by_cases hfl : a = .flush
    · subst hfl
      rcases h2 with ⟨r, h2⟩ | h2 <;> simp [Async.step, Async.startFlush, h2]
    by_cases hj : ∃ r, a = .job r
    · obtain ⟨raise, rfl⟩ := hj
      rcases job_effect s raise with ⟨_, e⟩ | ⟨_, _, _, _, ⟨_, e⟩ | ⟨_, b, e⟩⟩
      · rw [e]
      · exact e
      · rw [e]
        rcases h2 with ⟨r, h2⟩ | h2 <;> rw [h2] <;> rfl
    · exact (flusher_other s a hfl hn fun r hr => hj ⟨r, hr⟩).1
  exact ⟨⟨h4, by rw [e]; exact h2⟩, by rw [e]⟩

theorem idle_other (s : Async) (h : s.flusher = .idle) (a : Act) (ha : a ≠ .flush) : (s.step a).flusher = .idle := by
  by_cases hn : a = .notify
  · subst hn; simp [Async.step, Async.notify, h]
  by_cases hj : ∃ r, a = .job r
  · obtain ⟨raise, rfl⟩ := hj
    rcases job_effect s raise with ⟨_, e⟩ | ⟨_, _, _, _, ⟨_, e⟩ | ⟨_, b, e⟩⟩
    · rw [e]; exact h
    · rw [e]; exact h
    · rw [e, h]; rfl
  · exact (flusher_other s a ha hn fun r hr => hj ⟨r, hr⟩).1.trans h

theorem closed_stays (s : Async) (h : s.isOpen = false) (a : Act) : (s.step a).isOpen = false := by
  cases a with
  | register es => simp [Async.step, Async.register, h]
  | query p => simp [Async.step, Async.query, h]
  | request => simp [Async.step, h]
  | flush => simp only [Async.step, Async.startFlush]; split <;> exact h
  | cleanup fl se now => simp [Async.step, h]
  | start => simp only [Async.step, Async.startJob]; split <;> exact h
  | job raise =>
    simp only [Async.step, Async.runJob]
    repeat' split
    all_goals first | exact h | rfl
  | finish i =>
    show (s.finish i).isOpen = false
    rcases finish_effect s i with ⟨he, _⟩ | ⟨q, _, _, h2, _⟩
    · rw [he]; exact h
    · rw [h2]; exact h
  | notify =>
    simp only [Async.step, Async.notify]
    repeat' split
    all_goals first | exact h | rfl
  | close => rfl

/-- The flush loop wakes up; it takes all requests. -/
theorem idle_awaiting {acts : Nat → Act} (hf : Fair acts) (s : Async) (n : Nat)
    (h : LoopOk (s.run (upTo acts n))) (hi : (s.run (upTo acts n)).flusher = .idle) :
    ∃ m f, n ≤ m ∧ Awaiting f (s.run (upTo acts m)) ∧ (s.run (upTo acts m)).requests = [] := by
  suffices h : ∃ m, n ≤ m ∧ (∃ f, Awaiting f (s.run (upTo acts m))) ∧ (s.run (upTo acts m)).requests = [] by
    obtain ⟨m, h1, ⟨f, h2⟩, h3⟩ := h
    exact ⟨m, f, h1, h2, h3⟩
  have hfl : ∀ s a, (LoopOk s ∧ s.flusher = .idle) → a = Act.flush →
      ((∃ f, Awaiting f (s.step a)) ∧ (s.step a).requests = []) := by
    rintro s _ ⟨h1, h2⟩ rfl
    have h3 := loopOk_step h1 .flush
    refine ⟨⟨!s.isOpen, h3, s.mem.registered, ?_⟩, ?_⟩ <;> simp [Async.step, Async.startFlush, h2]
  refine leads (P := fun s => LoopOk s ∧ s.flusher = .idle) (Q := fun s => (∃ f, Awaiting f s) ∧ s.requests = [])
    (en := fun a => a = .flush) (fun _ => 0) ?_
    (fun s a h1 h2 => .inl (hfl s a h1 h2)) hf.flush s n ⟨h, hi⟩
  intro s a hp
  by_cases ha : a = .flush
  · exact .inl (hfl s a hp ha)
  · exact .inr ⟨⟨loopOk_step hp.1 a, idle_other s hp.2 a ha⟩, le_refl _⟩

/-- The flush loop does not stay in the middle of a flush. -/
theorem some_done {acts : Nat → Act} (hf : Fair acts) (s : Async) (n : Nat) (h : LoopOk (s.run (upTo acts n))) :
    ∃ m f, n ≤ m ∧ Done f (s.run (upTo acts m)) := by
  cases e : (s.run (upTo acts n)).flusher with
  | idle => exact ⟨n, false, le_refl _, h, e⟩
  | ended => exact ⟨n, true, le_refl _, h, e⟩
  | waiting r f =>
    obtain ⟨m, h1, h2⟩ := awaiting_resumed hf s n f ⟨h, r, e⟩
    obtain ⟨m', h3, h4⟩ := resumed_done hf s m f h2
    exact ⟨m', f, h1.trans h3, h4⟩
  | notifying r f =>
    obtain ⟨m', h3, h4⟩ := resumed_done hf s n f ⟨h, .inl ⟨r, e⟩⟩
    exact ⟨m', f, h3, h4⟩
  | failed f =>
    obtain ⟨m', h3, h4⟩ := resumed_done hf s n f ⟨h, .inr e⟩
    exact ⟨m', f, h3, h4⟩

theorem Done.serving {f : Bool} {s : Async} (h : Done f s) : s.serving = [] := by
  cases f with
  | true => exact (h.1.ended h.2).2.2
  | false => exact h.1.idle h.2

theorem ended_stays (s : Async) (h : s.flusher = .ended) (a : Act) : (s.step a).flusher = .ended := by
  by_cases hn : a = .notify
  · subst hn; simp [Async.step, Async.notify, h]
  by_cases hf : a = .flush
  · subst hf; simp [Async.step, Async.startFlush, h]
  by_cases hj : ∃ r, a = .job r
  · obtain ⟨raise, rfl⟩ := hj
    rcases job_effect s raise with ⟨_, e⟩ | ⟨_, _, _, _, ⟨_, e⟩ | ⟨_, b, e⟩⟩
    · rw [e]; exact h
    · rw [e]; exact h
    · rw [e, h]; rfl
  · exact (flusher_other s a hf hn fun r hr => hj ⟨r, hr⟩).1.trans h

theorem always_of_step {I : Async → Prop} (hI : ∀ s a, I s → I (s.step a)) (acts : Nat → Act) (s : Async)
    {n m : Nat} (h : n ≤ m) (hs : I (s.run (upTo acts n))) : I (s.run (upTo acts m)) := by
  obtain ⟨d, rfl⟩ := Nat.le.dest h
  clear h
  induction d with
  | zero => exact hs
  | succ d ih =>
    rw [show s.run (upTo acts (n + (d + 1))) = (s.run (upTo acts (n + d))).step (acts (n + d)) from
      run_upTo_succ s acts (n + d)]
    exact hI _ _ ih

/-- A closed backend ends. -/
theorem closed_ends {acts : Nat → Act} (hf : Fair acts) (s : Async) (n : Nat) (h : LoopOk (s.run (upTo acts n)))
    (hc : (s.run (upTo acts n)).isOpen = false) : ∃ m, n ≤ m ∧ Done true (s.run (upTo acts m)) := by
  obtain ⟨m, f, h1, h2⟩ := some_done hf s n h
  cases f with
  | true => exact ⟨m, h1, h2⟩
  | false =>
    have hc' := always_of_step (I := fun s => s.isOpen = false) (fun s a h => closed_stays s h a) acts s h1 hc
    have hfl : ∀ s a, (LoopOk s ∧ s.flusher = .idle ∧ s.isOpen = false) → a = Act.flush → Awaiting true (s.step a) := by
      rintro s _ ⟨h1, h2, h3⟩ rfl
      exact ⟨loopOk_step h1 .flush, s.mem.registered, by simp [Async.step, Async.startFlush, h2, h3]⟩
    obtain ⟨m2, h3, h4⟩ := leads (P := fun s => LoopOk s ∧ s.flusher = .idle ∧ s.isOpen = false) (Q := Awaiting true)
      (en := fun a => a = .flush) (fun _ => 0)
      (fun s a hp => by
        by_cases ha : a = .flush
        · exact .inl (hfl s a hp ha)
        · exact .inr ⟨⟨loopOk_step hp.1 a, idle_other s hp.2.1 a ha, closed_stays s hp.2.2 a⟩, le_refl _⟩)
      (fun s a h1 h2 => .inl (hfl s a h1 h2)) hf.flush s m ⟨h2.1, h2.2, hc'⟩
    obtain ⟨m3, h5, h6⟩ := awaiting_resumed hf s m2 true h4
    obtain ⟨m4, h7, h8⟩ := resumed_done hf s m3 true h6
    exact ⟨m4, by omega, h8⟩

/-! ### Queries -/

theorem answered_grows (s : Async) (a : Act) : (answered s).Subperm (answered (s.step a)) := by
  suffices h : ∃ r, answered (s.step a) = answered s ++ r by
    obtain ⟨r, h⟩ := h
    rw [h]; exact (List.sublist_append_left _ _).subperm
  cases a with
  | query p =>
    cases ho : s.isOpen with
    | true =>
      rcases (asks_query s p ho).2 with ⟨e, _⟩ | ⟨e, _⟩
      · exact ⟨_, e⟩
      · exact ⟨[], by simpa [Async.step] using e⟩
    | false => simp only [Async.step, Async.query, ho]; exact ⟨[], by simp⟩
  | finish i =>
    rcases finish_effect s i with ⟨he, _⟩ | ⟨q, _, _, _, _, _, _, _, _, _, _, h10⟩
    · exact ⟨[], by simp [Async.step, he]⟩
    · exact ⟨_, h10⟩
  | register es => simp only [Async.step, Async.register]; repeat' split
                   all_goals exact ⟨[], by simp [answered]⟩
  | request => simp only [Async.step]; split <;> exact ⟨[], by simp [answered]⟩
  | flush => simp only [Async.step, Async.startFlush]; split <;> exact ⟨[], by simp [answered]⟩
  | cleanup fl se now => simp only [Async.step]; split <;> exact ⟨[], by simp [answered]⟩
  | start => simp only [Async.step, Async.startJob]; split <;> exact ⟨[], by simp [answered]⟩
  | job raise => simp only [Async.step, Async.runJob]; repeat' split
                 all_goals exact ⟨[], by simp [answered]⟩
  | notify => simp only [Async.step, Async.notify]; split <;> exact ⟨[], by simp [answered]⟩
  | close => exact ⟨[], by simp [answered, Async.step]⟩

/-- The queries in `xs` have results or are among the first that wait for their
continuation. -/
def ReadFirst (xs : List (QueryParams × Nat)) (k : Nat) (s : Async) : Prop :=
  k ≤ s.read.length ∧ xs.Subperm (answered s ++ askedRead (s.read.take k))

/-- The queries in `xs` have results, wait for their continuation or for one of the
first jobs. -/
def JobsFirst (xs : List (QueryParams × Nat)) (k : Nat) (s : Async) : Prop :=
  k ≤ s.jobs.length ∧ xs.Subperm (answered s ++ askedRead s.read ++ askedJobs (s.jobs.take k))

/-- Steps other than the thread's append jobs. -/
theorem jobs_other (s : Async) (a : Act) (ha : ∀ r, a ≠ .job r) :
    (answered s ++ askedRead s.read).Subperm (answered (s.step a) ++ askedRead (s.step a).read) ∧
      ∃ r, (s.step a).jobs = s.jobs ++ r := by
  have hjobs : ∃ r, (s.step a).jobs = s.jobs ++ r := by
    by_cases hf : a = .flush
    · subst hf
      simp only [Async.step, Async.startFlush]
      split
      · exact ⟨_, rfl⟩
      · exact ⟨[], by simp⟩
    by_cases hn : a = .notify
    · subst hn
      simp only [Async.step, Async.notify]
      split <;> exact ⟨[], by simp⟩
    exact (flusher_other s a hf hn ha).2
  refine ⟨?_, hjobs⟩
  by_cases hfin : ∃ i, a = .finish i
  · obtain ⟨i, rfl⟩ := hfin
    have h := queryCall_step s (.finish i)
    have e : (s.step (.finish i)).jobs = s.jobs := by
      rcases finish_effect s i with ⟨he, _⟩ | ⟨q, _, _, _, _, _, _, _, _, h8, _, _⟩
      · simp [Async.step, he]
      · exact h8
    rw [e] at h
    simp only [queryCall, List.append_nil] at h
    exact ((List.perm_append_right_iff _).1 h).symm.subperm
  · have e : (s.step a).read = s.read := by
      cases a with
      | query p =>
        cases ho : s.isOpen with
        | true => exact (asks_query s p ho).1.read
        | false => simp [Async.step, Async.query, ho]
      | finish i => exact absurd ⟨i, rfl⟩ hfin
      | job r => exact absurd rfl (ha r)
      | register es => simp only [Async.step, Async.register]; repeat' split
                       all_goals rfl
      | request => simp only [Async.step]; split <;> rfl
      | flush => simp only [Async.step, Async.startFlush]; split <;> rfl
      | cleanup fl se now => simp only [Async.step]; split <;> rfl
      | start => simp only [Async.step, Async.startJob]; split <;> rfl
      | notify => simp only [Async.step, Async.notify]; split <;> rfl
      | close => rfl
    rw [e]
    exact (List.subperm_append_right _).2 (answered_grows s a)

theorem jobsFirst_other {xs : List (QueryParams × Nat)} {k : Nat} {s : Async} (h : JobsFirst xs k s) (a : Act)
    (ha : ∀ r, a ≠ .job r) : JobsFirst xs k (s.step a) := by
  obtain ⟨h1, r, h2⟩ := jobs_other s a ha
  refine ⟨?_, ?_⟩
  · rw [h2, List.length_append]; have := h.1; omega
  · rw [h2, List.take_append_of_le_length h.1]
    exact h.2.trans ((List.subperm_append_right _).2 h1)

theorem jobsFirst_job {xs : List (QueryParams × Nat)} {k : Nat} {s : Async} (h : JobsFirst xs (k + 1) s)
    (raise : Bool) : JobsFirst xs k (s.step (.job raise)) := by
  have hl := h.1
  have hx := h.2
  simp only [Async.step, Async.runJob]
  cases hj : s.jobs with
  | nil => rw [hj] at hl; simp at hl
  | cons a r =>
    rw [hj] at hl hx
    rw [List.take_succ_cons] at hx
    simp only [List.length_cons] at hl
    cases a with
    | query q =>
      refine ⟨by simpa using hl, ?_⟩
      simpa [answered, askedRead, askedJobs, Job.asked] using hx
    | cleanup fl se now =>
      dsimp only
      split
      all_goals
        refine ⟨by simpa using hl, ?_⟩
        simpa [answered, askedRead, askedJobs, Job.asked] using hx
    | flush g =>
      dsimp only
      split
      · refine ⟨by simpa using hl, ?_⟩
        simpa [answered, askedRead, askedJobs, Job.asked] using hx
      · split
        all_goals
          refine ⟨by simpa using hl, ?_⟩
          simpa [answered, askedRead, askedJobs, Job.asked] using hx

theorem jobs_done {acts : Nat → Act} (hf : Fair acts) (s : Async) (xs : List (QueryParams × Nat)) (k n : Nat)
    (h : JobsFirst xs k (s.run (upTo acts n))) : ∃ m, n ≤ m ∧ JobsFirst xs 0 (s.run (upTo acts m)) := by
  induction k generalizing n with
  | zero => exact ⟨n, le_refl _, h⟩
  | succ k ih =>
    obtain ⟨m, h1, h2⟩ := leads (P := JobsFirst xs (k + 1)) (Q := JobsFirst xs k) (en := fun a => ∃ r, a = .job r)
      (fun _ => 0)
      (fun s a hp => by
        by_cases ha : ∃ r, a = .job r
        · obtain ⟨r, rfl⟩ := ha
          exact .inl (jobsFirst_job hp r)
        · exact .inr ⟨jobsFirst_other hp a fun r hr => ha ⟨r, hr⟩, le_refl _⟩)
      (fun s a hp ha => by
        obtain ⟨r, rfl⟩ := ha
        exact .inl (jobsFirst_job hp r)) hf.job s n h
    obtain ⟨m', h3, h4⟩ := ih m h2
    exact ⟨m', h1.trans h3, h4⟩

/-- Steps other than the end of a query append to the queries that can continue. -/
theorem read_other (s : Async) (a : Act) (ha : ∀ i, a ≠ .finish i) : ∃ r, (s.step a).read = s.read ++ r := by
  cases a with
  | query p =>
    cases ho : s.isOpen with
    | true => exact ⟨[], by simpa [Async.step] using (asks_query s p ho).1.read⟩
    | false => exact ⟨[], by simp [Async.step, Async.query, ho]⟩
  | finish i => exact absurd rfl (ha i)
  | job raise =>
    simp only [Async.step, Async.runJob]
    split
    · exact ⟨[], by simp⟩
    · exact ⟨_, rfl⟩
    · split <;> exact ⟨[], by simp⟩
    · split
      · exact ⟨[], by simp⟩
      · split <;> exact ⟨[], by simp⟩
  | register es => simp only [Async.step, Async.register]; repeat' split
                   all_goals exact ⟨[], by simp⟩
  | request => simp only [Async.step]; split <;> exact ⟨[], by simp⟩
  | flush => simp only [Async.step, Async.startFlush]; split <;> exact ⟨[], by simp⟩
  | cleanup fl se now => simp only [Async.step]; split <;> exact ⟨[], by simp⟩
  | start => simp only [Async.step, Async.startJob]; split <;> exact ⟨[], by simp⟩
  | notify => simp only [Async.step, Async.notify]; split <;> exact ⟨[], by simp⟩
  | close => exact ⟨[], by simp [Async.step]⟩

theorem readFirst_finish {xs : List (QueryParams × Nat)} {k : Nat} {s : Async} (h : ReadFirst xs k s) (i : Nat) :
    ReadFirst xs (if i < k then k - 1 else k) (s.step (.finish i)) := by
  have hl := h.1
  have hx := h.2
  show ReadFirst xs _ (s.finish i)
  rcases finish_effect s i with ⟨he, hle⟩ | ⟨q, hq, -, -, -, -, -, -, -, -, h9, h10⟩
  · rw [he, if_neg (by omega)]; exact h
  · have hi : i < s.read.length := by
      rw [List.getElem?_eq_some_iff] at hq; exact hq.1
    have hlen : (s.finish i).read.length = s.read.length - 1 := by rw [h9, List.length_eraseIdx, if_pos hi]
    by_cases hik : i < k
    · rw [if_pos hik]
      refine ⟨by omega, hx.trans ?_⟩
      rw [h10, h9, List.append_assoc]
      refine (List.subperm_append_left _).2 (List.Perm.subperm ?_)
      have hi' : i < (s.read.take k).length := by rw [List.length_take]; omega
      have he : (s.read.eraseIdx i).take (k - 1) = (s.read.take k).eraseIdx i := by
        rw [List.eraseIdx_eq_take_drop_succ, List.eraseIdx_eq_take_drop_succ, List.take_append,
          List.take_take, List.take_take, List.length_take, List.drop_take, Nat.min_eq_right (by omega : i ≤ k - 1),
          Nat.min_eq_left (by omega : i ≤ s.read.length), Nat.min_eq_left (by omega : i ≤ k)]
        congr 2
        omega
      have hp := (List.getElem_cons_eraseIdx_perm hi').map fun r : AsyncQuery × ReadResult => (r.1.params, r.1.since)
      have hg : (s.read.take k)[i] = q := by
        rw [List.getElem_take]
        rw [List.getElem?_eq_getElem hi] at hq; exact Option.some.inj hq
      rw [hg, ← he] at hp
      exact hp.symm
    · rw [if_neg hik]
      refine ⟨by omega, hx.trans ?_⟩
      rw [h10, h9]
      have he : (s.read.eraseIdx i).take k = s.read.take k := by
        rw [List.eraseIdx_eq_take_drop_succ, List.take_append_of_le_length (by rw [List.length_take]; omega),
          List.take_take, Nat.min_eq_left (by omega)]
      rw [he]
      exact (List.subperm_append_right _).2 (List.sublist_append_left _ _).subperm

theorem readFirst_other {xs : List (QueryParams × Nat)} {k : Nat} {s : Async} (h : ReadFirst xs k s) (a : Act)
    (ha : ∀ i, a ≠ .finish i) : ReadFirst xs k (s.step a) := by
  obtain ⟨r, h2⟩ := read_other s a ha
  refine ⟨?_, ?_⟩
  · rw [h2, List.length_append]; have := h.1; omega
  · rw [h2, List.take_append_of_le_length h.1]
    exact h.2.trans ((List.subperm_append_right _).2 (answered_grows s a))

theorem reads_done {acts : Nat → Act} (hf : Fair acts) (s : Async) (xs : List (QueryParams × Nat)) (k n : Nat)
    (h : ReadFirst xs k (s.run (upTo acts n))) : ∃ m, n ≤ m ∧ ReadFirst xs 0 (s.run (upTo acts m)) := by
  induction k generalizing n with
  | zero => exact ⟨n, le_refl _, h⟩
  | succ k ih =>
    obtain ⟨m, h1, h2⟩ := leads (P := ReadFirst xs (k + 1)) (Q := ReadFirst xs k) (en := fun a => a = .finish 0)
      (fun _ => 0)
      (fun s a hp => by
        by_cases ha : ∃ i, a = .finish i
        · obtain ⟨i, rfl⟩ := ha
          have := readFirst_finish hp i
          by_cases hi : i < k + 1
          · rw [if_pos hi] at this; exact .inl this
          · rw [if_neg hi] at this; exact .inr ⟨this, le_refl _⟩
        · exact .inr ⟨readFirst_other hp a fun r hr => ha ⟨r, hr⟩, le_refl _⟩)
      (fun s a hp ha => by
        subst ha
        have := readFirst_finish hp 0
        rw [if_pos (by omega)] at this
        exact .inl this) hf.finish s n h
    obtain ⟨m', h3, h4⟩ := ih m h2
    exact ⟨m', h1.trans h3, h4⟩

end HatEvent
