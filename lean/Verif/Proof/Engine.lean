import Verif.Spec.Engine
import Verif.Proof.Tactics
import Mathlib.Data.List.Induction

/-!
# Sessions of the engine
-/

namespace HatEvent
open Spec

/-! ### Creating events -/

theorem numbered_append (server session : Int) (ts : Timestamp) (l l' : List RegisterEvent) (n : Int) :
    numbered server session ts n (l ++ l') =
      numbered server session ts n l ++ numbered server session ts (n + l.length) l' := by
  induction l generalizing n with
  | nil => simp [numbered]
  | cons r l ih =>
    simp only [List.cons_append, numbered, List.cons.injEq, true_and, ih, List.length_cons]
    congr 2
    push_cast; omega

theorem length_numbered (server session : Int) (ts : Timestamp) (l : List RegisterEvent) (n : Int) :
    (numbered server session ts n l).length = l.length := by
  induction l generalizing n with
  | nil => rfl
  | cons r l ih => simp [numbered, ih]

theorem createEvents_eq (s : Engine) (ts : Timestamp) (l : List RegisterEvent) :
    s.createEvents ts l =
      ({ s with
         lastId := { s.lastId with instance_ := s.lastId.instance_ + l.length }
         created := s.created ++ numbered s.lastId.server s.lastId.session ts s.lastId.instance_ l },
       numbered s.lastId.server s.lastId.session ts s.lastId.instance_ l) := by
  induction l generalizing s with
  | nil => simp [Engine.createEvents, numbered]
  | cons r l ih =>
    simp only [Engine.createEvents, ih, Engine.createEvent, numbered, List.length_cons, Prod.mk.injEq,
      and_true, List.append_assoc, List.cons_append, List.nil_append]
    congr 2
    push_cast; omega

theorem session_numbered {server session : Int} {ts : Timestamp} {l : List RegisterEvent} {n : Int} {e : Event}
    (h : e ∈ numbered server session ts n l) : e.id.session = session := by
  induction l generalizing n with
  | nil => simp [numbered] at h
  | cons r l ih =>
    simp only [numbered, List.mem_cons] at h
    rcases h with rfl | h
    · rfl
    · exact ih h

/-! ### Rounds -/

theorem roundCalls_module (modules : List Sub) (inputs : List (Source × Event)) (i : Nat) (sub : Sub)
    (h : modules[i]? = some sub) :
    ((roundCalls modules inputs).filter fun x => x.1 = i).map (fun x => x.2) =
      inputs.filter fun p => sub.matches p.2.type := by
  have key : ∀ (k : Nat) (l : List Sub),
      (((l.zipIdx k).flatMap fun m => (inputs.filter fun p => m.1.matches p.2.type).map
        fun p => (m.2, p.1, p.2)).filter fun x => decide (x.1 = i)).map (fun x => x.2) =
      match (if k ≤ i then l[i - k]? else none) with
      | some sub => inputs.filter fun p => sub.matches p.2.type
      | none => [] := by
    intro k l
    induction l generalizing k with
    | nil => simp
    | cons m l ih =>
      simp only [List.zipIdx_cons, List.flatMap_cons, List.filter_append, List.map_append, ih]
      by_cases hk : k = i
      · subst hk
        have h1 : ¬ (k + 1 ≤ k) := by omega
        simp only [h1, if_false, le_refl, if_true, Nat.sub_self, List.getElem?_cons_zero, List.append_nil]
        rw [List.filter_eq_self.2 (by
          intro x hx
          obtain ⟨p, _, rfl⟩ := List.mem_map.1 hx
          simp)]
        simp
      · have h2 : ((inputs.filter fun p => m.matches p.2.type).map fun p => (k, p.1, p.2)).filter
            (fun x => decide (x.1 = i)) = [] := by
          rw [List.filter_eq_nil_iff]
          intro x hx
          obtain ⟨p, _, rfl⟩ := List.mem_map.1 hx
          simp [hk]
        rw [h2]
        by_cases hl : k ≤ i
        · have h1 : k + 1 ≤ i := by omega
          simp only [hl, h1, if_true, List.map_nil, List.nil_append]
          obtain ⟨d, hd⟩ : ∃ d, i - k = d + 1 := ⟨i - k - 1, by omega⟩
          have hd' : i - (k + 1) = d := by omega
          rw [hd, hd', List.getElem?_cons_succ]
        · have h1 : ¬ (k + 1 ≤ i) := by omega
          simp [hl, h1]
  have := key 0 modules
  simp only [Nat.zero_le, if_true, Nat.sub_zero, h] at this
  exact this

theorem mem_roundCalls {modules : List Sub} {inputs : List (Source × Event)} {x : Nat × Source × Event}
    (h : x ∈ roundCalls modules inputs) : x.2 ∈ inputs := by
  unfold roundCalls at h
  simp only [List.mem_flatMap, List.mem_map, List.mem_filter] at h
  obtain ⟨_, _, p, ⟨hp, _⟩, rfl⟩ := h
  exact hp

/-! ### Sessions -/

theorem Spec.Session.mono {s s' : Engine} (h : Session s server k r es) (hc : s'.conf = s.conf)
    (hm : madeIn s' k = madeIn s k) (hs : ∀ i, seenIn s' i k = seenIn s i k) :
    Session s' server k r es := by
  refine ⟨by rw [hm]; exact h.content, ?_⟩
  intro i sub hi
  rw [hc] at hi
  rw [hm, hs]
  exact h.seen i sub hi

/-- The `k`-th list is a complete session. -/
def Whole (last : EventId) (s : Engine) (k : Nat) (es : List Event) : Prop :=
  ∃ r, s.accepted[k]? = some r ∧ Session s last.server (last.session + 1 + k) r es

/-- `n` requests have been taken from the queue. -/
structure Taken (last : EventId) (s : Engine) (n : Nat) : Prop where
  server : s.lastId.server = last.server
  session : s.lastId.session = last.session + n
  seen : ∀ x ∈ s.seen, x.2.2.id.session ≤ last.session + n
  made : ∀ x ∈ s.made, x.1 ≤ last.session + n

/-- The lists passed to the backend are the complete sessions of the first requests. -/
structure Sent (last : EventId) (s : Engine) (l : List (List Event)) (n : Nat) : Prop where
  length : l.length = n
  whole : ∀ k es, l[k]? = some es → Whole last s k es

/-- No session is in progress. -/
structure Quiet (last : EventId) (s : Engine) (n : Nat) : Prop where
  taken : Taken last s n
  sent : Sent last s s.sent n
  queue : s.accepted.drop n = s.queue
  isOpen : s.queueClosed = false

/-- A session is in progress. -/
structure Busy (last : EventId) (s : Engine) (n : Nat) (r : EngineRequest) : Prop where
  taken : Taken last s (n + 1)
  sent : Sent last s s.sent n
  request : s.accepted[n]? = some r
  queue : s.accepted.drop (n + 1) = s.queue
  isOpen : s.queueClosed = false

/-- A session during its rounds. -/
structure InRound (s : Engine) (server session : Int) (r : EngineRequest) (ts : Timestamp)
    (events : List Event) (pending : List (Nat × Source × Event)) (outputs ins : List (Source × Event)) :
    Prop where
  sources : (ins ++ outputs).map Prod.fst = (sourced r (madeIn s session)).map Prod.fst
  created : (ins ++ outputs).map Prod.snd = events
  content : events = numbered server session ts 0 ((sourced r (madeIn s session)).map Prod.snd)
  last : s.lastId.instance_ = events.length
  seen : ∀ i sub, s.conf.modules[i]? = some sub →
    seenIn s i session ++ (pending.filter fun x => x.1 = i).map (fun x => x.2) =
      ins.filter fun p => sub.matches p.2.type
  pending : ∀ x ∈ pending, x.2.2.id.session = session

/-- The engine has stopped: a session of its own for the last event. -/
structure Over (last : EventId) (s : Engine) (n : Nat) (pre : List (List Event)) (e : Event) : Prop where
  sent : s.sent = pre ++ [[e]]
  whole : ∀ k es, pre[k]? = some es → Whole last s k es
  length : pre.length = n ∨ pre.length + 1 = n
  content : ∃ now, e = ⟨⟨last.server, last.session + n + 1, 1⟩,
    ["event", toString s.conf.serverId, "engine"], now, none, some (.json (.str "STOPPED"))⟩
  closed : s.queueClosed = true
  queue : s.queue = []

/-- What holds in each phase. -/
def PhaseOk (last : EventId) (s : Engine) : EnginePhase → Prop
  | .creating => Quiet last s 0
  | .idle => ∃ n, Quiet last s n
  | .starting r _ _ => ∃ n : Nat, Busy last s n r ∧ s.lastId.instance_ = 0 ∧
      madeIn s (last.session + 1 + n) = [] ∧ ∀ i, seenIn s i (last.session + 1 + n) = []
  | .processing r ts events pending outputs => ∃ (n : Nat) (ins : _), Busy last s n r ∧
      InRound s last.server (last.session + 1 + n) r ts events pending outputs ins
  | .stopping r events _ => ∃ n : Nat, Busy last s n r ∧ Session s last.server (last.session + 1 + n) r events
  | .registering r events => ∃ n : Nat, Quiet last s (n + 1) ∧ s.accepted[n]? = some r ∧ s.sent[n]? = some events
  | .finishing => ∃ n pre e, Over last s n pre e
  | .closed => (s.sent = [] ∧ s.queueClosed = false) ∨ ∃ n pre e, Over last s n pre e

/-- Only the queue and what callers see differs. -/
structure SameCore (s s' : Engine) : Prop where
  conf : s'.conf = s.conf
  lastId : s'.lastId = s.lastId
  created : s'.created = s.created
  seen : s'.seen = s.seen
  made : s'.made = s.made
  sent : s'.sent = s.sent
  queueClosed : s'.queueClosed = s.queueClosed

theorem SameCore.madeIn {s s' : Engine} (h : SameCore s s') (k : Int) : madeIn s' k = madeIn s k := by
  unfold Spec.madeIn; rw [h.made]

theorem SameCore.seenIn {s s' : Engine} (h : SameCore s s') (i : Nat) (k : Int) : seenIn s' i k = seenIn s i k := by
  unfold Spec.seenIn; rw [h.seen]

theorem SameCore.whole {s s' : Engine} (h : SameCore s s') (ha : s.accepted <+: s'.accepted)
    (hw : Whole last s k es) : Whole last s' k es := by
  obtain ⟨r, h1, h2⟩ := hw
  obtain ⟨t, ht⟩ := ha
  refine ⟨r, ?_, h2.mono h.conf (h.madeIn _) fun i => h.seenIn i _⟩
  rw [← ht, List.getElem?_append_left (List.getElem?_eq_some_iff.1 h1).1, h1]

theorem SameCore.taken {s s' : Engine} (h : SameCore s s') (ht : Taken last s n) : Taken last s' n :=
  ⟨by rw [h.lastId]; exact ht.server, by rw [h.lastId]; exact ht.session,
    by rw [h.seen]; exact ht.seen, by rw [h.made]; exact ht.made⟩

theorem SameCore.sentOk {s s' : Engine} (h : SameCore s s') (ha : s.accepted <+: s'.accepted)
    (hs : Sent last s l n) : Sent last s' l n :=
  ⟨hs.length, fun k es hk => h.whole ha (hs.whole k es hk)⟩

theorem drop_append_le {l new : List α} {n : Nat} (h : n ≤ l.length) : (l ++ new).drop n = l.drop n ++ new :=
  List.drop_append_of_le_length h

theorem Quiet.le {last : EventId} {s : Engine} (h : Quiet last s n) : n ≤ s.accepted.length := by
  cases n with
  | zero => omega
  | succ n =>
    have hl := h.sent.length
    have : n < s.sent.length := by omega
    obtain ⟨r, h1, _⟩ := h.sent.whole n (s.sent[n]) (List.getElem?_eq_getElem this)
    have := (List.getElem?_eq_some_iff.1 h1).1
    omega

theorem Busy.le {last : EventId} {s : Engine} (h : Busy last s n r) : n + 1 ≤ s.accepted.length :=
  (List.getElem?_eq_some_iff.1 h.request).1

theorem SameCore.quiet {s s' : Engine} (h : SameCore s s') (hq : s'.queue = s.queue ++ new)
    (ha : s'.accepted = s.accepted ++ new) (hs : Quiet last s n) : Quiet last s' n :=
  ⟨h.taken hs.taken, by rw [h.sent]; exact h.sentOk (by rw [ha]; exact List.prefix_append _ _) hs.sent,
    by rw [ha, hq, drop_append_le hs.le, hs.queue], by rw [h.queueClosed]; exact hs.isOpen⟩

theorem SameCore.busy {s s' : Engine} (h : SameCore s s') (hq : s'.queue = s.queue ++ new)
    (ha : s'.accepted = s.accepted ++ new) (hs : Busy last s n r) : Busy last s' n r :=
  ⟨h.taken hs.taken, by rw [h.sent]; exact h.sentOk (by rw [ha]; exact List.prefix_append _ _) hs.sent,
    by rw [ha, List.getElem?_append_left hs.le, hs.request],
    by rw [ha, hq, drop_append_le hs.le, hs.queue], by rw [h.queueClosed]; exact hs.isOpen⟩

theorem SameCore.over {s s' : Engine} (h : SameCore s s') (hq : s'.queue = s.queue)
    (ha : s'.accepted = s.accepted) (hs : Over last s n pre e) : Over last s' n pre e := by
  refine ⟨by rw [h.sent]; exact hs.sent, fun k es hk => h.whole (by rw [ha]; exact List.prefix_rfl) (hs.whole k es hk),
    hs.length, by rw [h.conf]; exact hs.content, by rw [h.queueClosed]; exact hs.closed, by rw [hq]; exact hs.queue⟩

/-- Calls of `register` and their ends. -/
theorem SameCore.phase {s s' : Engine} {new : List EngineRequest} (h : SameCore s s')
    (hq : s'.queue = s.queue ++ new) (ha : s'.accepted = s.accepted ++ new)
    (hn : s.queueClosed = true → new = []) (p : EnginePhase) (hs : PhaseOk last s p) : PhaseOk last s' p := by
  have hover : (∃ n pre e, Over last s n pre e) → ∃ n pre e, Over last s' n pre e := by
    rintro ⟨n, pre, e, ho⟩
    have := hn ho.closed
    subst this
    exact ⟨n, pre, e, h.over (by simpa using hq) (by simpa using ha) ho⟩
  cases p with
  | creating => exact h.quiet hq ha hs
  | idle => obtain ⟨n, hs⟩ := hs; exact ⟨n, h.quiet hq ha hs⟩
  | starting r ts left =>
    obtain ⟨n, h1, h2, h3, h4⟩ := hs
    exact ⟨n, h.busy hq ha h1, by rw [h.lastId]; exact h2, by rw [h.madeIn]; exact h3,
      fun i => by rw [h.seenIn]; exact h4 i⟩
  | processing r ts events pending outputs =>
    obtain ⟨n, ins, h1, h2⟩ := hs
    refine ⟨n, ins, h.busy hq ha h1, ?_⟩
    exact ⟨by rw [h.madeIn]; exact h2.sources, h2.created, by rw [h.madeIn]; exact h2.content,
      by rw [h.lastId]; exact h2.last, fun i sub hi => by rw [h.seenIn]; exact h2.seen i sub (by rw [← h.conf]; exact hi),
      h2.pending⟩
  | stopping r events left =>
    obtain ⟨n, h1, h2⟩ := hs
    exact ⟨n, h.busy hq ha h1, h2.mono h.conf (h.madeIn _) fun i => h.seenIn i _⟩
  | registering r events =>
    obtain ⟨n, h1, h2, h3⟩ := hs
    refine ⟨n, h.quiet hq ha h1, ?_, by rw [h.sent]; exact h3⟩
    rw [ha, List.getElem?_append_left (List.getElem?_eq_some_iff.1 h2).1, h2]
  | finishing => exact hover hs
  | closed =>
    rcases hs with ⟨h1, h2⟩ | hs
    · exact .inl ⟨by rw [h.sent]; exact h1, by rw [h.queueClosed]; exact h2⟩
    · exact .inr (hover hs)

/-! ### Fields changed by callers -/

theorem resolve_core (s : Engine) (f : Option Nat) (o : EngineOutcome) : SameCore s (s.resolve f o) ∧
    (s.resolve f o).queue = s.queue ∧ (s.resolve f o).accepted = s.accepted ∧
    (s.resolve f o).phase = s.phase ∧ (s.resolve f o).putters = s.putters ∧
    (s.resolve f o).requests = s.requests := by
  unfold Engine.resolve
  split
  · exact ⟨⟨rfl, rfl, rfl, rfl, rfl, rfl, rfl⟩, rfl, rfl, rfl, rfl, rfl⟩
  · split
    · exact ⟨⟨rfl, rfl, rfl, rfl, rfl, rfl, rfl⟩, rfl, rfl, rfl, rfl, rfl⟩
    · exact ⟨⟨rfl, rfl, rfl, rfl, rfl, rfl, rfl⟩, rfl, rfl, rfl, rfl, rfl⟩

theorem SameCore.trans {s s' s'' : Engine} (h : SameCore s s') (h' : SameCore s' s'') : SameCore s s'' :=
  ⟨h'.conf.trans h.conf, h'.lastId.trans h.lastId, h'.created.trans h.created, h'.seen.trans h.seen,
    h'.made.trans h.made, h'.sent.trans h.sent, h'.queueClosed.trans h.queueClosed⟩

theorem SameCore.rfl' {s : Engine} : SameCore s s := ⟨rfl, rfl, rfl, rfl, rfl, rfl, rfl⟩

/-- A list of requests gets the same outcome. -/
def resolveAll (s : Engine) (l : List EngineRequest) (o : EngineOutcome) : Engine :=
  l.foldl (fun s r => s.resolve r.future o) s

theorem resolveAll_core (s : Engine) (l : List EngineRequest) (o : EngineOutcome) :
    SameCore s (resolveAll s l o) ∧ (resolveAll s l o).queue = s.queue ∧
    (resolveAll s l o).accepted = s.accepted ∧ (resolveAll s l o).phase = s.phase ∧
    (resolveAll s l o).putters = s.putters ∧ (resolveAll s l o).requests = s.requests := by
  induction l generalizing s with
  | nil => exact ⟨.rfl', rfl, rfl, rfl, rfl, rfl⟩
  | cons r l ih =>
    obtain ⟨h1, h2, h3, h4, h5, h6⟩ := resolve_core s r.future o
    obtain ⟨g1, g2, g3, g4, g5, g6⟩ := ih (s.resolve r.future o)
    exact ⟨h1.trans g1, g2.trans h2, g3.trans h3, g4.trans h4, g5.trans h5, g6.trans h6⟩

theorem put_core (s : Engine) (r : EngineRequest) : SameCore s (s.put r) ∧ (s.put r).phase = s.phase ∧
    ∃ new, (s.put r).queue = s.queue ++ new ∧ (s.put r).accepted = s.accepted ++ new ∧
      (s.queueClosed = true → new = []) := by
  unfold Engine.put
  split
  · obtain ⟨h1, h2, h3, h4, _⟩ := resolve_core s r.future .closed
    exact ⟨h1, h4, [], by simpa using h2, by simpa using h3, fun _ => rfl⟩
  · split
    · next hc _ => exact ⟨⟨rfl, rfl, rfl, rfl, rfl, rfl, rfl⟩, rfl, [r], rfl, rfl, fun h => absurd h hc⟩
    · exact ⟨⟨rfl, rfl, rfl, rfl, rfl, rfl, rfl⟩, rfl, [], by simp, by simp, fun _ => rfl⟩

/-! ### The steps -/

theorem finalize_ok {last : EventId} {s : Engine} {n : Nat} (now : Timestamp)
    (ht : Taken last s n) (hs : ∀ k es, s.sent[k]? = some es → Whole last s k es)
    (hl : s.sent.length = n ∨ s.sent.length + 1 = n) : Over last (s.finalize now)
      n s.sent ⟨⟨last.server, last.session + n + 1, 1⟩,
        ["event", toString s.conf.serverId, "engine"], now, none, some (.json (.str "STOPPED"))⟩ ∧
      (s.finalize now).phase = .finishing := by
  obtain ⟨h1, h2, h3, h4, h5, h6⟩ := resolveAll_core s (s.phase.current.toList ++ s.queue) .closed
  unfold Engine.finalize
  simp only
  rw [show ((s.phase.current.toList ++ s.queue).foldl (fun s r => s.resolve r.future .closed) s) =
    resolveAll s (s.phase.current.toList ++ s.queue) .closed from rfl]
  generalize resolveAll s (s.phase.current.toList ++ s.queue) .closed = s1 at *
  refine ⟨⟨?_, ?_, hl, ⟨now, ?_⟩, rfl, rfl⟩, rfl⟩
  · simp only [Engine.createSession, Engine.createEvent, statusRegEvent, h1.lastId, h1.sent, h1.conf,
      ht.server, ht.session, zero_add]
  · intro k es hk
    obtain ⟨r, g1, g2⟩ := hs k es hk
    refine ⟨r, ?_, ?_⟩
    · simp only [Engine.createSession, Engine.createEvent]
      rw [h3]; exact g1
    · exact g2.mono h1.conf (h1.madeIn _) fun i => h1.seenIn i _
  · simp only [Engine.createSession, Engine.createEvent, h1.conf]

/-- What the records of a session depend on. -/
theorem seenIn_append (s s' : Engine) (c : Nat × Source × Event) (h : s'.seen = s.seen ++ [c]) (i : Nat) (k : Int) :
    seenIn s' i k = seenIn s i k ++ (if c.1 = i ∧ c.2.2.id.session = k then [c.2] else []) := by
  unfold Spec.seenIn
  rw [h, List.filter_append, List.map_append]
  congr 1
  by_cases hc : c.1 = i ∧ c.2.2.id.session = k
  · rw [if_pos hc]; simp [hc]
  · rw [if_neg hc]; simp [hc]

theorem madeIn_append (s s' : Engine) (k0 : Int) (src : Source) (outs : List RegisterEvent)
    (h : s'.made = s.made ++ outs.map fun o => (k0, src, o)) (k : Int) :
    madeIn s' k = madeIn s k ++ (if k0 = k then outs.map fun o => (src, o) else []) := by
  unfold Spec.madeIn
  rw [h, List.filter_append, List.map_append]
  congr 1
  by_cases hc : k0 = k
  · subst hc
    rw [if_pos rfl, List.filter_eq_self.2 (by
      intro x hx
      obtain ⟨o, _, rfl⟩ := List.mem_map.1 hx
      simp), List.map_map]
    rfl
  · rw [if_neg hc, List.filter_eq_nil_iff.2 (by
      intro x hx
      obtain ⟨o, _, rfl⟩ := List.mem_map.1 hx
      simp [hc])]
    rfl

/-- One call of `process`. -/
theorem processed_ok {last : EventId} {s : Engine} {n : Nat} {ins : List (Source × Event)}
    {r : EngineRequest} {ts : Timestamp} {events : List Event} {c : Nat × Source × Event}
    {pending : List (Nat × Source × Event)} {outputs : List (Source × Event)} (outs : List RegisterEvent)
    (hb : Busy last s n r)
    (hr : InRound s last.server (last.session + 1 + n) r ts events (c :: pending) outputs ins) :
    ∃ events' outputs', (s.processed r ts events c pending outputs outs).phase =
        .processing r ts events' pending outputs' ∧
      Busy last (s.processed r ts events c pending outputs outs) n r ∧
      InRound (s.processed r ts events c pending outputs outs) last.server (last.session + 1 + n) r ts
        events' pending outputs' ins := by
  have hk : s.lastId.session = last.session + 1 + n := by rw [hb.taken.session]; push_cast; omega
  unfold Engine.processed
  simp only [createEvents_eq, hk, hb.taken.server]
  generalize hs' : ({ s with
      seen := s.seen ++ [c]
      made := s.made ++ outs.map fun o => (last.session + 1 + (n : Int), moduleSource c.1, o)
      lastId := ⟨last.server, last.session + 1 + n, s.lastId.instance_ + outs.length⟩
      created := s.created ++ numbered last.server (last.session + 1 + n) ts s.lastId.instance_ outs
      phase := .processing r ts (events ++ numbered last.server (last.session + 1 + n) ts s.lastId.instance_ outs)
        pending (outputs ++ (numbered last.server (last.session + 1 + n) ts s.lastId.instance_ outs).map
          fun e => (moduleSource c.1, e)) } : Engine) = s'
  have hseen : ∀ i k, seenIn s' i k = seenIn s i k ++ (if c.1 = i ∧ c.2.2.id.session = k then [c.2] else []) :=
    seenIn_append s s' c (by subst hs'; rfl)
  have hmade : ∀ k, madeIn s' k = madeIn s k ++
      (if last.session + 1 + (n : Int) = k then outs.map fun o => (moduleSource c.1, o) else []) :=
    madeIn_append s s' _ _ _ (by subst hs'; rfl)
  have hc : c.2.2.id.session = last.session + 1 + n := hr.pending c (by simp)
  have hconf : s'.conf = s.conf := by subst hs'; rfl
  have hwhole : ∀ k es, k < n → Whole last s k es → Whole last s' k es := by
    rintro k es hkn ⟨r', g1, g2⟩
    refine ⟨r', by subst hs'; exact g1, g2.mono hconf ?_ ?_⟩
    · rw [hmade, if_neg (by omega), List.append_nil]
    · intro i
      rw [hseen, if_neg (by rw [hc]; omega), List.append_nil]
  refine ⟨_, _, by subst hs'; rfl, ⟨⟨?_, ?_, ?_, ?_⟩, ⟨?_, ?_⟩, ?_, ?_, ?_⟩, ⟨?_, ?_, ?_, ?_, ?_, ?_⟩⟩
  · subst hs'; rfl
  · subst hs'; push_cast; omega
  · intro x hx
    have : x ∈ s.seen ++ [c] := by subst hs'; exact hx
    rcases List.mem_append.1 this with h | h
    · exact hb.taken.seen x h
    · obtain rfl := List.mem_singleton.1 h
      rw [hc]; push_cast; omega
  · intro x hx
    have : x ∈ s.made ++ outs.map fun o => (last.session + 1 + (n : Int), moduleSource c.1, o) := by
      subst hs'; exact hx
    rcases List.mem_append.1 this with h | h
    · exact hb.taken.made x h
    · obtain ⟨o, _, rfl⟩ := List.mem_map.1 h
      push_cast; omega
  · subst hs'; exact hb.sent.length
  · intro k es hk'
    have hk'' : s.sent[k]? = some es := by subst hs'; exact hk'
    have := (List.getElem?_eq_some_iff.1 hk'').1
    rw [hb.sent.length] at this
    exact hwhole k es this (hb.sent.whole k es hk'')
  · subst hs'; exact hb.request
  · subst hs'; exact hb.queue
  · subst hs'; exact hb.isOpen
  · rw [hmade, if_pos rfl]
    simp only [sourced, List.map_append, List.map_map]
    have h1 := hr.sources
    simp only [sourced, List.map_append, List.map_map] at h1
    rw [← List.append_assoc, h1, ← List.append_assoc]
    congr 1
    have : ∀ (l : List Event) (l' : List RegisterEvent), l.length = l'.length →
        l.map (Prod.fst ∘ fun e => (moduleSource c.1, e)) = l'.map (Prod.fst ∘ fun o => (moduleSource c.1, o)) := by
      intro l l' h
      have e1 : (Prod.fst ∘ fun e : Event => (moduleSource c.1, e)) = fun _ => moduleSource c.1 := rfl
      have e2 : (Prod.fst ∘ fun o : RegisterEvent => (moduleSource c.1, o)) = fun _ => moduleSource c.1 := rfl
      rw [e1, e2, List.map_const', List.map_const', h]
    exact this _ _ (length_numbered _ _ _ _ _)
  · have h1 := hr.created
    simp only [List.map_append, List.map_map] at h1 ⊢
    rw [← List.append_assoc, h1]
    congr 1
    simp
  · rw [hmade, if_pos rfl]
    simp only [sourced, List.map_append, List.map_map]
    have h1 := hr.content
    have h2 := hr.last
    simp only [sourced, List.map_append, List.map_map] at h1
    rw [← List.append_assoc, numbered_append, ← h1]
    congr 1
    have h3 := congrArg List.length h1
    rw [length_numbered] at h3
    rw [← h3, h2]
    congr 1
    · omega
    · simp
  · subst hs'
    have := hr.last
    simp only [List.length_append, length_numbered]
    push_cast; omega
  · intro i sub hi
    rw [hconf] at hi
    have h1 := hr.seen i sub hi
    rw [← h1, hseen]
    by_cases hci : c.1 = i
    · rw [if_pos ⟨hci, hc⟩]; simp [hci]
    · rw [if_neg (by simp [hci])]; simp [hci]
  · exact fun x hx => hr.pending x (by simp [hx])

theorem mem_sent_lt {last : EventId} {s : Engine} (h : Sent last s l n) (hk : l[k]? = some es) : k < n := by
  have := (List.getElem?_eq_some_iff.1 hk).1
  rw [h.length] at this
  exact this

theorem phase_finalize {last : EventId} {s : Engine} (now : Timestamp)
    (h : (∃ n, Quiet last s n) ∨ ∃ n r, Busy last s n r) :
    PhaseOk last (s.finalize now) (s.finalize now).phase := by
  rcases h with ⟨n, h⟩ | ⟨n, r, h⟩
  · obtain ⟨h1, h2⟩ := finalize_ok now h.taken h.sent.whole (.inl h.sent.length)
    rw [h2]; exact ⟨_, _, _, h1⟩
  · obtain ⟨h1, h2⟩ := finalize_ok now h.taken h.sent.whole (.inr (by rw [h.sent.length]))
    rw [h2]; exact ⟨_, _, _, h1⟩

/-- The invariant by phase, as the register loop's cases. -/
theorem loop_cases {last : EventId} {s : Engine} (h : PhaseOk last s s.phase) (h1 : s.phase ≠ .creating)
    (h2 : s.phase ≠ .finishing) (h3 : s.phase ≠ .closed) :
    (∃ n, Quiet last s n) ∨ ∃ n r, Busy last s n r := by
  generalize hp : s.phase = p at *
  cases p with
  | creating => exact absurd rfl h1
  | idle => exact .inl h
  | starting r ts left => obtain ⟨n, h, _⟩ := h; exact .inr ⟨n, r, h⟩
  | processing r ts events pending outputs => obtain ⟨n, _, h, _⟩ := h; exact .inr ⟨n, r, h⟩
  | stopping r events left => obtain ⟨n, h, _⟩ := h; exact .inr ⟨n, r, h⟩
  | registering r events => obtain ⟨n, h, _⟩ := h; exact .inl ⟨_, h⟩
  | finishing => exact absurd rfl h2
  | closed => exact absurd rfl h3

theorem phase_next {last : EventId} {s : Engine} (h : PhaseOk last s s.phase) :
    PhaseOk last s.next s.next.phase := by
  unfold Engine.next
  generalize hp : s.phase = p at *
  split
  · -- the first round
    next r ts =>
    obtain ⟨n, hb, hi, hm, hs⟩ := h
    have hk : s.lastId.session = last.session + 1 + n := by rw [hb.taken.session]; push_cast; omega
    simp only [createEvents_eq, hk, hb.taken.server, hi]
    refine ⟨n, (numbered last.server (last.session + 1 + n) ts 0 r.events).map fun e => (r.source, e), ?_, ?_⟩
    · exact ⟨⟨rfl, by simp only; push_cast; omega, hb.taken.seen, hb.taken.made⟩,
        ⟨hb.sent.length, fun k es hk' => by
          obtain ⟨r', g1, g2⟩ := hb.sent.whole k es hk'
          exact ⟨r', g1, g2.mono rfl rfl fun _ => rfl⟩⟩, hb.request, hb.queue, hb.isOpen⟩
    · have hm' : ∀ s' : Engine, s'.made = s.made → madeIn s' (last.session + 1 + n) = [] := by
        intro s' hs'
        rw [← hm]; unfold Spec.madeIn; rw [hs']
      have hs2 : ∀ s' : Engine, s'.seen = s.seen → ∀ i, seenIn s' i (last.session + 1 + n) = [] := by
        intro s' hs' i
        rw [← hs i]; unfold Spec.seenIn; rw [hs']
      generalize hs' : ({ s with
          lastId := ⟨last.server, last.session + 1 + n, 0 + (r.events.length : Int)⟩
          created := s.created ++ numbered last.server (last.session + 1 + n) ts 0 r.events
          phase := .processing r ts (numbered last.server (last.session + 1 + n) ts 0 r.events)
            (roundCalls s.conf.modules ((numbered last.server (last.session + 1 + n) ts 0 r.events).map
              fun e => (r.source, e))) [] } : Engine) = s'
      have hm3 := hm' s' (by subst hs'; rfl)
      have hs3 := hs2 s' (by subst hs'; rfl)
      refine ⟨?_, ?_, ?_, ?_, ?_, ?_⟩
      · rw [hm3]
        simp only [List.append_nil, sourced, List.map_map]
        have e1 : (Prod.fst ∘ fun e : Event => (r.source, e)) = fun _ => r.source := rfl
        have e2 : (Prod.fst ∘ fun e : RegisterEvent => (r.source, e)) = fun _ => r.source := rfl
        rw [e1, e2, List.map_const', List.map_const', length_numbered]
      · simp
      · rw [hm3]; simp [sourced]
      · subst hs'; simp only [length_numbered]; omega
      · intro i sub hi'
        rw [hs3, List.nil_append]
        exact roundCalls_module _ _ _ _ (by subst hs'; exact hi')
      · intro x hx
        have := mem_roundCalls hx
        obtain ⟨e, he, hx'⟩ := List.mem_map.1 this
        rw [← hx']
        exact session_numbered he
  · -- the last round
    next r ts events =>
    obtain ⟨n, ins, hb, hr⟩ := h
    refine ⟨n, ⟨⟨hb.taken.server, hb.taken.session, hb.taken.seen, hb.taken.made⟩,
        ⟨hb.sent.length, fun k es hk' => by
          obtain ⟨r', g1, g2⟩ := hb.sent.whole k es hk'
          exact ⟨r', g1, g2.mono rfl rfl fun _ => rfl⟩⟩, hb.request, hb.queue, hb.isOpen⟩, ?_⟩
    refine ⟨⟨ts, hr.content⟩, ?_⟩
    intro i sub hi
    have h1 := hr.seen i sub hi
    have h2 := hr.sources
    have h3 := hr.created
    simp only [List.filter_nil, List.map_nil, List.append_nil] at h1 h2 h3
    have h4 : (((sourced r (madeIn s (last.session + 1 + n))).map Prod.fst).zip events) = ins := by
      rw [← h2, ← h3]
      clear * -
      induction ins with
      | nil => rfl
      | cons x l ih => simp [ih]
    have h5 : seenIn s i (last.session + 1 + n) =
        (((sourced r (madeIn s (last.session + 1 + n))).map Prod.fst).zip events).filter
          fun p => sub.matches p.2.type := by rw [h4, h1]
    exact h5
  · -- another round
    next r ts events o outputs =>
    obtain ⟨n, ins, hb, hr⟩ := h
    refine ⟨n, ins ++ (o :: outputs), ⟨⟨hb.taken.server, hb.taken.session, hb.taken.seen, hb.taken.made⟩,
        ⟨hb.sent.length, fun k es hk' => by
          obtain ⟨r', g1, g2⟩ := hb.sent.whole k es hk'
          exact ⟨r', g1, g2.mono rfl rfl fun _ => rfl⟩⟩, hb.request, hb.queue, hb.isOpen⟩, ?_⟩
    refine ⟨?_, ?_, hr.content, hr.last, ?_, ?_⟩
    · rw [List.append_nil]; exact hr.sources
    · rw [List.append_nil]; exact hr.created
    · intro i sub hi
      have h1 := hr.seen i sub hi
      simp only [List.filter_nil, List.map_nil, List.append_nil] at h1
      rw [List.filter_append, ← h1, roundCalls_module _ _ _ _ hi]
      rfl
    · intro x hx
      have hx' := mem_roundCalls hx
      have : x.2.2 ∈ events := by
        rw [← hr.created]
        exact List.mem_map.2 ⟨x.2, List.mem_append_right _ hx', rfl⟩
      rw [hr.content] at this
      exact session_numbered this
  · -- the session is complete
    next r events =>
    obtain ⟨n, hb, hr⟩ := h
    refine ⟨n, ⟨⟨hb.taken.server, hb.taken.session, hb.taken.seen, hb.taken.made⟩, ⟨?_, ?_⟩, hb.queue, hb.isOpen⟩,
      hb.request, ?_⟩
    · simp [hb.sent.length]
    · intro k es hk
      by_cases hkn : k < s.sent.length
      · simp only at hk
        rw [List.getElem?_append_left hkn] at hk
        obtain ⟨r', g1, g2⟩ := hb.sent.whole k es hk
        exact ⟨r', g1, g2.mono rfl rfl fun _ => rfl⟩
      · simp only at hk
        rw [List.getElem?_append_right (by omega)] at hk
        have h0 : k - s.sent.length = 0 := by
          have := (List.getElem?_eq_some_iff.1 hk).1
          simp only [List.length_singleton] at this
          omega
        rw [h0] at hk
        simp only [List.getElem?_cons_zero, Option.some.injEq] at hk
        subst hk
        have : k = n := by have := hb.sent.length; omega
        subst this
        exact ⟨r, hb.request, hr.mono rfl rfl fun _ => rfl⟩
    · simp [← hb.sent.length]
  · rw [hp]; exact h

/-- The invariant of the engine. -/
theorem phase_step {last : EventId} {s : Engine} (h : PhaseOk last s s.phase) (a : EngineAct) :
    PhaseOk last (s.step a) (s.step a).phase := by
  cases a with
  | spawn =>
    simp only [Engine.step]
    generalize hp : s.phase = p at *
    split
    · exact ⟨0, ⟨h.taken.server, h.taken.session, h.taken.seen, h.taken.made⟩,
        ⟨h.sent.length, fun k es hk' => by
          obtain ⟨r', g1, g2⟩ := h.sent.whole k es hk'
          exact ⟨r', g1, g2.mono rfl rfl fun _ => rfl⟩⟩, h.queue, h.isOpen⟩
    · rw [hp]; exact h
  | register source events =>
    simp only [Engine.step, Engine.register]
    have h0 : SameCore s { s with requests := s.requests ++ [(source, events)] } :=
      ⟨rfl, rfl, rfl, rfl, rfl, rfl, rfl⟩
    split
    · obtain ⟨h1, h2, h3, h4, _⟩ := resolve_core { s with requests := s.requests ++ [(source, ([] : List RegisterEvent))] }
        (some s.requests.length) (.result (some []))
      rw [h4]
      exact SameCore.phase (s := s) (new := []) ⟨h1.conf, h1.lastId, h1.created, h1.seen, h1.made, h1.sent,
        h1.queueClosed⟩ (by simpa using h2)
        (by simpa using h3) (fun _ => rfl) _ h
    · next e es =>
      obtain ⟨h1, h2, new, h3, h4, h5⟩ := put_core { s with requests := s.requests ++ [(source, e :: es)] }
        ⟨some s.requests.length, source, e :: es⟩
      rw [h2]
      exact (h0.trans h1).phase h3 h4 h5 _ h
  | wake i =>
    simp only [Engine.step, Engine.wake]
    split
    · exact h
    · next r _ =>
      have h0 : SameCore s { s with putters := s.putters.eraseIdx i } := ⟨rfl, rfl, rfl, rfl, rfl, rfl, rfl⟩
      obtain ⟨h1, h2, new, h3, h4, h5⟩ := put_core { s with putters := s.putters.eraseIdx i } r
      rw [h2]
      exact (h0.trans h1).phase h3 h4 h5 _ h
  | cancel i =>
    simp only [Engine.step, Engine.cancel]
    split
    · obtain ⟨h1, h2, h3, h4, _⟩ := resolve_core s (some i) .cancelled
      simp only [h4]
      refine SameCore.phase (s := s) (new := []) ⟨?_, ?_, ?_, ?_, ?_, ?_, ?_⟩ (by simpa using h2)
        (by simpa using h3) (fun _ => rfl) _ h
      · exact h1.conf
      · exact h1.lastId
      · exact h1.created
      · exact h1.seen
      · exact h1.made
      · exact h1.sent
      · exact h1.queueClosed
    · exact h
  | take now =>
    simp only [Engine.step, Engine.take]
    generalize hp : s.phase = p at *
    split
    · next r q hq =>
      obtain ⟨n, h⟩ := h
      have hd := h.queue
      rw [hq] at hd
      refine ⟨n, ⟨⟨h.taken.server, ?_, ?_, ?_⟩, ⟨h.sent.length, ?_⟩, ?_, ?_, h.isOpen⟩, rfl, ?_, ?_⟩
      · have := h.taken.session
        simp only [Engine.createSession]; push_cast; omega
      · intro x hx
        have := h.taken.seen x hx
        push_cast; omega
      · intro x hx
        have := h.taken.made x hx
        push_cast; omega
      · intro k es hk'
        obtain ⟨r', g1, g2⟩ := h.sent.whole k es hk'
        exact ⟨r', g1, g2.mono rfl rfl fun _ => rfl⟩
      · have : s.accepted[n]? = some r := by
          rw [← List.head?_drop, hd]; rfl
        exact this
      · have : s.accepted.drop (n + 1) = q := by
          rw [← List.drop_drop, hd]; rfl
        exact this
      · unfold Spec.madeIn
        rw [List.filter_eq_nil_iff.2 (by
          intro x hx
          have := h.taken.made x hx
          simp only [decide_eq_true_eq]
          omega)]
        rfl
      · intro i
        unfold Spec.seenIn
        rw [List.filter_eq_nil_iff.2 (by
          intro x hx
          have := h.taken.seen x hx
          simp only [decide_eq_true_eq, not_and]
          intro _
          omega)]
        rfl
    · rw [hp]; exact h
  | told =>
    simp only [Engine.step, Engine.told]
    generalize hp : s.phase = p at *
    split
    · obtain ⟨n, hb, h1, h2, h3⟩ := h
      exact ⟨n, SameCore.busy (s := s) (new := []) ⟨rfl, rfl, rfl, rfl, rfl, rfl, rfl⟩ (by simp) (by simp) hb, h1, h2, h3⟩
    · obtain ⟨n, hb, h1⟩ := h
      exact ⟨n, SameCore.busy (s := s) (new := []) ⟨rfl, rfl, rfl, rfl, rfl, rfl, rfl⟩ (by simp) (by simp) hb,
        h1.mono rfl rfl fun _ => rfl⟩
    · rw [hp]; exact h
  | processed outs =>
    simp only [Engine.step, Engine.processedAct]
    generalize hp : s.phase = p at *
    split
    · obtain ⟨n, ins, hb, hr⟩ := h
      obtain ⟨ev, out, h1, h2, h3⟩ := processed_ok outs hb hr
      rw [h1]
      exact ⟨n, ins, h2, h3⟩
    · rw [hp]; exact h
  | next => exact phase_next h
  | registered reply now =>
    simp only [Engine.step, Engine.registered]
    generalize hp : s.phase = p at *
    split
    · next r events =>
      obtain ⟨n, hq, h1, h2⟩ := h
      split
      · exact phase_finalize now (.inl ⟨_, hq⟩)
      · obtain ⟨g1, g2, g3, _⟩ := resolve_core s r.future (.result none)
        exact ⟨n + 1, SameCore.quiet (s := s) (new := []) ⟨g1.conf, g1.lastId, g1.created, g1.seen, g1.made, g1.sent,
          g1.queueClosed⟩
          (by simpa using g2) (by simpa using g3) hq⟩
      · obtain ⟨g1, g2, g3, _⟩ := resolve_core s r.future
          (.result (some ((events.zip r.events).map Prod.fst)))
        exact ⟨n + 1, SameCore.quiet (s := s) (new := []) ⟨g1.conf, g1.lastId, g1.created, g1.seen, g1.made, g1.sent,
          g1.queueClosed⟩
          (by simpa using g2) (by simpa using g3) hq⟩
    · obtain ⟨n, pre, e, ho⟩ := h
      exact .inr ⟨n, pre, e, SameCore.over (s := s) ⟨rfl, rfl, rfl, rfl, rfl, rfl, rfl⟩ rfl rfl ho⟩
    · rw [hp]; exact h
  | raise outs now =>
    simp only [Engine.step, Engine.raise]
    generalize hp : s.phase = p at *
    split
    · obtain ⟨n, hb, _⟩ := h
      exact phase_finalize now (.inr ⟨_, _, hb⟩)
    · obtain ⟨n, ins, hb, hr⟩ := h
      obtain ⟨ev, out, h1, h2, h3⟩ := processed_ok outs hb hr
      exact phase_finalize now (.inr ⟨_, _, h2⟩)
    · obtain ⟨n, hb, _⟩ := h
      exact phase_finalize now (.inr ⟨_, _, hb⟩)
    · rw [hp]; exact h
  | close now =>
    simp only [Engine.step, Engine.close]
    have hl := loop_cases h
    generalize hp : s.phase = p at *
    split
    · left
      refine ⟨?_, h.isOpen⟩
      exact List.eq_nil_of_length_eq_zero h.sent.length
    · obtain ⟨n, pre, e, ho⟩ := h
      exact .inr ⟨n, pre, e, SameCore.over (s := s) ⟨rfl, rfl, rfl, rfl, rfl, rfl, rfl⟩ rfl rfl ho⟩
    · rw [hp]; exact h
    · next h1 h2 h3 =>
      exact phase_finalize now (hl h1 h2 h3)
  | finished =>
    simp only [Engine.step]
    generalize hp : s.phase = p at *
    split
    · obtain ⟨n, pre, e, ho⟩ := h
      exact .inr ⟨n, pre, e, SameCore.over (s := s) ⟨rfl, rfl, rfl, rfl, rfl, rfl, rfl⟩ rfl rfl ho⟩
    · rw [hp]; exact h

theorem engine_snoc (s : Engine) (acts : List EngineAct) (a : EngineAct) :
    s.run (acts ++ [a]) = (s.run acts).step a := by
  simp [Engine.run]

theorem phase_run (conf : EngineConf) (last : EventId) (acts : List EngineAct) :
    PhaseOk last ((Engine.create conf last).run acts) ((Engine.create conf last).run acts).phase := by
  induction acts using List.reverseRecOn with
  | nil =>
    refine ⟨⟨rfl, by simp [Engine.run, Engine.create], ?_, ?_⟩, ⟨rfl, ?_⟩, rfl, rfl⟩ <;>
      simp [Engine.run, Engine.create]
  | append_singleton acts a ih => rw [engine_snoc]; exact phase_step ih a

end HatEvent
