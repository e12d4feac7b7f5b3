import Verif.Model.Memory
import Verif.Proof.LmdbSelect
import Mathlib.Data.List.Induction

/-!
# Memory backend (C51)
-/

namespace HatEvent
open Spec

namespace MemoryBackend

theorem run_snoc (s : MemoryBackend) (h : List (List Event)) (es : List Event) : s.run (h ++ [es]) = ((s.run h).register es).1 := by
  simp [run]

theorem register_events (s : MemoryBackend) (es : List Event) :
    (s.register es).1.events = s.events ++ es ∧ (s.register es).1.useC = s.useC ∧
      (s.register es).1.registeredCb = s.registeredCb ∧ (s.register es).1.flushedCb = s.flushedCb := by
  unfold register
  dsimp only
  split <;> split <;> exact ⟨rfl, rfl, rfl, rfl⟩

theorem run_events (useC r f : Bool) (history : List (List Event)) :
    ((new useC r f).run history).events = history.flatten ∧ ((new useC r f).run history).useC = useC ∧
      ((new useC r f).run history).registeredCb = r ∧ ((new useC r f).run history).flushedCb = f := by
  induction history using List.reverseRecOn with
  | nil => exact ⟨rfl, rfl, rfl, rfl⟩
  | append_singleton h es ih =>
    rw [run_snoc]
    have := register_events ((new useC r f).run h) es
    refine ⟨?_, this.2.1.trans ih.2.1, this.2.2.1.trans ih.2.2.1, this.2.2.2.trans ih.2.2.2⟩
    rw [this.1, ih.1]
    simp

/-- What the fold of a latest query has found. -/
structure Found (events : List Event) (result : Dict EventType Event) : Prop where
  nodup : (Dict.keys result).Nodup
  type : ∀ t e, Dict.get result t = some e → e.type = t ∧ e ∈ events
  all : ∀ e ∈ events, ∃ s, Dict.get result e.type = some s

theorem found_step {events : List Event} {result : Dict EventType Event} (h : Found events result) (e : Event) :
    Found (events ++ [e]) (latestStep result e) := by
  have hset : Found (events ++ [e]) (Dict.set result e.type e) := by
    refine ⟨Dict.nodup_keys_set h.nodup, ?_, ?_⟩
    · intro t x hx
      rw [Dict.get_set] at hx
      split at hx
      · next ht => cases hx; exact ⟨ht, by simp⟩
      · exact ⟨(h.type t x hx).1, List.mem_append_left _ (h.type t x hx).2⟩
    · intro x hx
      rw [Dict.get_set]
      split
      · exact ⟨e, rfl⟩
      · next ht =>
        rcases List.mem_append.1 hx with hx | hx
        · exact h.all x hx
        · exact absurd (by rw [List.mem_singleton.1 hx]) ht
  unfold latestStep
  split
  · exact hset
  · next p hp =>
    split
    · exact hset
    · refine ⟨h.nodup, fun t x hx => ⟨(h.type t x hx).1, List.mem_append_left _ (h.type t x hx).2⟩, ?_⟩
      intro x hx
      rcases List.mem_append.1 hx with hx | hx
      · exact h.all x hx
      · rw [List.mem_singleton.1 hx]; exact ⟨p, hp⟩

end MemoryBackend

/-- Events in the order of their registration: identifiers of a server increase and its timestamps do not decrease. -/
def InOrder (events : List Event) : Prop :=
  events.Pairwise fun a b => a.id.server = b.id.server → IdLt a.id b.id ∧ TimeLe a.timestamp b.timestamp

namespace MemoryBackend

/-- Nothing newer than what was found. -/
def Best (events : List Event) (result : Dict EventType Event) : Prop :=
  ∀ e ∈ events, ∀ s, Dict.get result e.type = some s → ¬ Newer e s

theorem best_step {events : List Event} {result : Dict EventType Event} (hf : Found events result) (h : Best events result)
    (e : Event) (ho : InOrder (events ++ [e])) : Best (events ++ [e]) (latestStep result e) := by
  have hord : ∀ x ∈ events, x.id.server = e.id.server → IdLt x.id e.id ∧ TimeLe x.timestamp e.timestamp :=
    fun x hx => (List.pairwise_append.1 ho).2.2 x hx e (by simp)
  have hpair := (List.pairwise_append.1 ho).1
  have hself : ¬ Newer e e := by unfold Newer; rw [if_pos rfl]; exact IdLt.irrefl
  have hset : (∀ p, Dict.get result e.type = some p → p.lt e = true) → Best (events ++ [e]) (Dict.set result e.type e) := by
    intro hlt x hx s hs
    rw [Dict.get_set] at hs
    split at hs
    · next ht =>
      cases hs
      rcases List.mem_append.1 hx with hx | hx
      · intro hn
        by_cases hse : x.id.server = e.id.server
        · unfold Newer at hn
          rw [if_pos hse] at hn
          exact IdLt.asymm hn (hord x hx hse).1
        · unfold Newer at hn
          rw [if_neg hse] at hn
          obtain ⟨p, hp⟩ := hf.all x hx
          have hpm := (hf.type _ _ hp).2
          have hxp := h x hx p hp
          have hpe := hlt p (by rw [ht]; exact hp)
          have h1 : TimeLe p.timestamp e.timestamp := by
            unfold Event.lt at hpe
            split_ifs at hpe with c1 c2 c3
            · exact (hord p hpm c2).2
            · exact .inl (Timestamp.lt_iff.1 hpe)
            · exact .inr (by simpa using c3)
          have h2 : TimeLt p.timestamp x.timestamp := h1.trans_lt hn
          unfold Newer at hxp
          split_ifs at hxp with c
          · rcases pairwise_cases hpair hx hpm with e' | e' | e'
            · rw [e'] at h2; exact absurd h2 TimeLt.irrefl
            · exact absurd (e' c).2 (not_timeLe.2 h2)
            · exact hxp (e' c.symm).1
          · exact hxp h2
      · rw [List.mem_singleton.1 hx]; exact hself
    · next ht =>
      rcases List.mem_append.1 hx with hx | hx
      · exact h x hx s hs
      · exact absurd (by rw [List.mem_singleton.1 hx]) ht
  unfold latestStep
  split
  · next hp => exact hset (fun p hp' => by rw [hp] at hp'; cases hp')
  · next p hp =>
    split
    · next hlt => exact hset (fun p' hp' => by rw [hp] at hp'; cases hp'; exact hlt)
    · next hlt =>
      intro x hx s hs
      rcases List.mem_append.1 hx with hx | hx
      · exact h x hx s hs
      · rw [List.mem_singleton.1 hx] at hs ⊢
        rw [hp] at hs
        cases hs
        intro hn
        apply hlt
        rw [← C10_gt_is_newer] at hn
        rw [C10_lt_iff]
        exact .inl hn

theorem found_all (events : List Event) : Found events (events.foldl latestStep []) := by
  induction events using List.reverseRecOn with
  | nil => exact ⟨List.nodup_nil, fun _ _ h => (nomatch h), fun _ h => (nomatch h)⟩
  | append_singleton es e ih => rw [List.foldl_append]; exact found_step ih e

theorem best_all (events : List Event) (ho : InOrder events) : Best events (events.foldl latestStep []) := by
  induction events using List.reverseRecOn with
  | nil => exact fun _ h => (nomatch h)
  | append_singleton es e ih =>
    rw [List.foldl_append]
    exact best_step (found_all es) (ih (List.pairwise_append.1 ho).1) e ho

theorem filterEventTypes_ok (useC : Bool) (events : List Event) (types : Option (List EventType))
    (hw : ∀ l, types = some l → ∀ q ∈ l, WellFormed q) (hn : useC = true → ∀ l, types = some l → ∀ q ∈ l, NulFree q) :
    ∃ fs, filterEventTypes useC events types = .ok fs ∧ fs.Sublist events ∧
      ∀ e, e ∈ fs ↔ e ∈ events ∧ ∀ l, types = some l → MatchesAny l e.type := by
  cases types with
  | none => exact ⟨events, rfl, .refl _, fun e => by simp⟩
  | some l =>
    have : ∃ sub, createSubscription useC l = .ok sub ∧ ∀ t, sub.matches t = true ↔ MatchesAny l t := by
      unfold createSubscription
      cases hu : useC with
      | false =>
        obtain ⟨s, hs⟩ := (C02_py_subscription l).2.2 (hw l rfl)
        exact ⟨s, by simpa using hs, (C02_py_subscription l).1 s hs⟩
      | true =>
        obtain ⟨s, hs⟩ := (C03_c_subscription l (hn hu l rfl)).2.2 (hw l rfl)
        exact ⟨s, by simpa using hs, (C03_c_subscription l (hn hu l rfl)).1 s hs⟩
    obtain ⟨sub, h1, h2⟩ := this
    refine ⟨events.filter fun e => sub.matches e.type, by simp [filterEventTypes, h1, Except.map], List.filter_sublist, ?_⟩
    intro e
    rw [List.mem_filter, h2]
    simp

end MemoryBackend

/-- C51, what is missing: timeseries queries, server queries and `get_last_event_id` fail (`C51_timeseries_refuted`, `C51_server_refuted`,
`C51_last_refuted`).
A latest query returns one event for each type that is registered and matched, and none newer was registered. -/
theorem C51_latest_partial (useC r f : Bool) (history : List (List Event)) (types : Option (List EventType))
    (hw : ∀ l, types = some l → ∀ q ∈ l, WellFormed q) (hn : useC = true → ∀ l, types = some l → ∀ q ∈ l, NulFree q) :
    ∃ events, ((MemoryBackend.new useC r f).run history).query (.latest types) = .ok ⟨events, false⟩ ∧
      (events.map (·.type)).Nodup ∧
      (∀ e ∈ events, e ∈ history.flatten ∧ ∀ l, types = some l → MatchesAny l e.type) ∧
      (∀ e ∈ history.flatten, (∀ l, types = some l → MatchesAny l e.type) → ∃ s ∈ events, s.type = e.type) ∧
      (InOrder history.flatten → ∀ e ∈ history.flatten, ∀ s ∈ events, s.type = e.type → ¬ Newer e s) := by
  obtain ⟨h1, h2, -, -⟩ := MemoryBackend.run_events useC r f history
  obtain ⟨fs, e1, e2, e3⟩ := MemoryBackend.filterEventTypes_ok useC history.flatten types hw hn
  have hf := MemoryBackend.found_all fs
  have hty : ∀ x ∈ fs.foldl MemoryBackend.latestStep [], x.2.type = x.1 := fun x hx =>
    (hf.type _ _ (Dict.get_of_mem hf.nodup hx)).1
  refine ⟨(fs.foldl MemoryBackend.latestStep []).map Prod.snd, ?_, ?_, ?_, ?_, ?_⟩
  · simp only [MemoryBackend.query, MemoryBackend.queryLatest, h1, h2, e1, Except.map]
  · have : ((fs.foldl MemoryBackend.latestStep []).map Prod.snd).map (·.type) = Dict.keys (fs.foldl MemoryBackend.latestStep []) := by
      unfold Dict.keys
      rw [List.map_map]
      exact List.map_congr_left hty
    rw [this]
    exact hf.nodup
  · intro e he
    obtain ⟨x, hx, rfl⟩ := List.mem_map.1 he
    exact (e3 _).1 (hf.type _ _ (Dict.get_of_mem hf.nodup hx)).2
  · intro e he hm
    obtain ⟨s, hs⟩ := hf.all e ((e3 e).2 ⟨he, hm⟩)
    exact ⟨s, List.mem_map.2 ⟨_, Dict.mem_of_get hs, rfl⟩, (hf.type _ _ hs).1⟩
  · intro ho e he s hs ht
    obtain ⟨x, hx, rfl⟩ := List.mem_map.1 hs
    have hg := Dict.get_of_mem hf.nodup hx
    have hx' := hf.type _ _ hg
    have hmt := ((e3 _).1 hx'.2).2
    have hem : e ∈ fs := (e3 e).2 ⟨he, fun l hl => by rw [← ht]; exact hmt l hl⟩
    refine MemoryBackend.best_all fs (ho.sublist e2) e hem x.2 ?_
    rw [← ht, hx'.1]
    exact hg

/-- Events of two servers in order. -/
def exMemory : List (List Event) :=
  [[⟨⟨1, 1, 1⟩, ["a"], ⟨0, 0⟩, none, none⟩, ⟨⟨1, 1, 2⟩, ["b"], ⟨0, 0⟩, none, none⟩],
   [⟨⟨2, 7, 1⟩, ["a"], ⟨3, 0⟩, none, none⟩], [⟨⟨1, 2, 1⟩, ["a"], ⟨2, 0⟩, none, none⟩]]

example : InOrder exMemory.flatten := by
  simp only [exMemory, InOrder, List.flatten_cons, List.flatten_nil, List.cons_append, List.nil_append, List.append_nil]
  repeat' first | apply List.Pairwise.cons | apply List.Pairwise.nil
  all_goals
    intro x hx
    simp only [List.mem_cons, List.not_mem_nil, or_false] at hx
    try rcases hx with rfl | rfl | rfl
    all_goals (try rcases hx with rfl | rfl)
    all_goals (try subst hx)
    all_goals simp [IdLt, TimeLe, TimeLt]

example : ∃ events, ((MemoryBackend.new false true true).run exMemory).query (.latest (some [["a"]])) = .ok ⟨events, false⟩ ∧
    events.map (·.id) = [⟨2, 7, 1⟩] := ⟨_, rfl, rfl⟩

/-- Both callbacks are called for each registration, in order, with its events; the result is the events. -/
theorem C51_callbacks (useC : Bool) (history : List (List Event)) (events : List Event) :
    ((MemoryBackend.new useC true true).run history).calls = history.flatMap (fun es => [(false, es), (true, es)]) ∧
      (((MemoryBackend.new useC true true).run history).register events).2 = events := by
  refine ⟨?_, rfl⟩
  induction history using List.reverseRecOn with
  | nil => rfl
  | append_singleton h es ih =>
    obtain ⟨-, -, h3, h4⟩ := MemoryBackend.run_events useC true true h
    rw [MemoryBackend.run_snoc, List.flatMap_append, ← ih]
    unfold MemoryBackend.register
    simp [h3, h4]

/-- C51 is false: every timeseries query fails. -/
theorem C51_timeseries_refuted (s : MemoryBackend) (params : QueryTimeseriesParams) :
    s.query (.timeseries params) = .error .unboundLocalError := by
  simp only [MemoryBackend.query, MemoryBackend.queryTimeseries]
  split <;> rfl

theorem nonempty_events (useC r f : Bool) (history : List (List Event)) (e : Event) (he : e ∈ history.flatten) :
    ∃ x l, ((MemoryBackend.new useC r f).run history).events = x :: l := by
  rw [(MemoryBackend.run_events useC r f history).1]
  cases h : history.flatten with
  | nil => rw [h] at he; cases he
  | cons x l => exact ⟨x, l, rfl⟩

/-- C51 is false: every server query fails as soon as an event is registered. -/
theorem C51_server_refuted (useC r f : Bool) (history : List (List Event)) (e : Event) (he : e ∈ history.flatten)
    (params : QueryServerParams) :
    ((MemoryBackend.new useC r f).run history).query (.server params) = .error .attributeError := by
  obtain ⟨x, l, h⟩ := nonempty_events useC r f history e he
  simp only [MemoryBackend.query, MemoryBackend.queryServer, h]

/-- C51 is false: `get_last_event_id` fails as soon as an event is registered. -/
theorem C51_last_refuted (useC r f : Bool) (history : List (List Event)) (e : Event) (he : e ∈ history.flatten) (server : Int) :
    ((MemoryBackend.new useC r f).run history).getLastEventId server = .error .attributeError := by
  obtain ⟨x, l, h⟩ := nonempty_events useC r f history e he
  simp only [MemoryBackend.getLastEventId, h]

example : (⟨⟨1, 1, 1⟩, ["a"], ⟨0, 0⟩, none, none⟩ : Event) ∈ exMemory.flatten := by
  simp [exMemory]

end HatEvent
