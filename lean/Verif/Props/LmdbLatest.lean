import Verif.Props.LmdbLookup
import Verif.Proof.LmdbReturned
import Verif.Proof.LmdbSelect

/-!
# C23, C24 and C25: what a backend stores, latest queries
-/

namespace HatEvent
open Spec

/-! ## C23 -/

/-- All events the backend holds, whatever was registered before, with any
flushes, cleanups, crashes and changes of configuration: identifiers of a server
identify its events, timestamps do not decrease with them, and none is after the
last event identifier. -/
theorem C23_forward (conf : Conf) (ops : List BackendOp) (hl : LookupLaws ops)
    (p q : QueryParams) (r s : QueryResult)
    (hp : ((Backend.new conf).run ops).query p = .ok r)
    (hq : ((Backend.new conf).run ops).query q = .ok s)
    (a c : Event) (ha : a ∈ r.events) (hc : c ∈ s.events) :
    (a.id = c.id → a = c) ∧
    (a.id.server = c.id.server → IdLt a.id c.id → TimeLe a.timestamp c.timestamp) ∧
    ∃ l, ((Backend.new conf).run ops).getLastEventId a.id.server = .ok l ∧ IdLe a.id l := by
  obtain ⟨w, h⟩ := reached conf ops hl
  have ha := returned_log h hp a ha
  have hc := returned_log h hq c hc
  have hm := h.rel.okC.mono
  have irr : ∀ {i : EventId}, ¬ IdLt i i := by intro i hi; unfold IdLt at hi; omega
  have asym : ∀ {i j : EventId}, IdLt i j → ¬ IdLt j i := by
    intro i j hi hj; unfold IdLt at hi hj; omega
  refine ⟨?_, ?_, ?_⟩
  · intro he
    rcases pairwise_cases hm ha hc with h | h | h
    · exact h
    · have := (h (by rw [he])).1; rw [he] at this; exact absurd this irr
    · have := (h (by rw [he])).1; rw [he] at this; exact absurd this irr
  · intro hs hlt
    rcases pairwise_cases hm ha hc with h | h | h
    · rw [h] at hlt; exact absurd hlt irr
    · exact (h hs).2
    · exact absurd hlt (asym (h hs.symm).1)
  · have hrel := h.rel
    unfold Backend.query at hp
    unfold Backend.getLastEventId
    generalize (Backend.new conf).run ops = b at hrel hp
    cases hb : b.mem with
    | none => rw [hb] at hp; simp at hp
    | some m =>
      refine ⟨_, rfl, ?_⟩
      obtain ⟨_, hr⟩ := hrel.opened m hb
      rw [getLastEventId_eq hr.sys]
      unfold Store.lastId Store.last
      have ha' : a ∈ w.cur.log.filter fun e => e.id.server = a.id.server := by simp [ha]
      cases hg : (w.cur.log.filter fun e => e.id.server = a.id.server).getLast? with
      | none => rw [List.getLast?_eq_none_iff] at hg; rw [hg] at ha'; simp at ha'
      | some l =>
        obtain ⟨pre, hpre⟩ := List.getLast?_eq_some_iff.1 hg
        have hpw := hm.sublist (List.filter_sublist (p := fun e => decide (e.id.server = a.id.server)))
        have hls : l.id.server = a.id.server := by
          have : l ∈ w.cur.log.filter fun e => e.id.server = a.id.server := by rw [hpre]; simp
          simpa using (List.mem_filter.1 this).2
        rw [hpre] at ha' hpw
        rcases List.mem_append.1 ha' with h1 | h1
        · exact .inl ((List.pairwise_append.1 hpw).2.2 a h1 l (by simp) hls.symm).1
        · rw [List.mem_singleton.1 h1]; exact .inr rfl

/-- Equal but for the lists waiting for the flushed events callback. -/
structure SameState (b b' : Backend) : Prop where
  disk : b.disk = b'.disk
  conf : b.conf = b'.conf
  mem : b.mem.map (fun m => { m with registered := [] }) = b'.mem.map fun m => { m with registered := [] }

theorem registerEvent_registered (conf : Conf) (m : Mem) (l : List (List Event)) (e : Event) :
    registerEvent conf { m with registered := l } e =
      (registerEvent conf m e).map fun m => { m with registered := l } := by
  unfold registerEvent
  simp only
  split
  · rfl
  split
  · rfl
  split
  · rfl
  unfold storeEvent
  simp only
  split
  · rfl
  cases RefDb.add _ e _ <;> rfl

theorem registerEvents_registered (conf : Conf) (es : List Event) (m : Mem) (l : List (List Event)) :
    es.foldlM (registerEvent conf) { m with registered := l } =
      (es.foldlM (registerEvent conf) m).map fun m => { m with registered := l } := by
  induction es generalizing m with
  | nil => rfl
  | cons e es ih =>
    simp only [List.foldlM_cons, registerEvent_registered]
    cases registerEvent conf m e with
    | error x => rfl
    | ok m' => exact ih m'

theorem sameState_step {b b' : Backend} (h : SameState b b') (op : BackendOp) :
    SameState (b.step op) (b'.step op) := by
  obtain ⟨d, c, m, f⟩ := b
  obtain ⟨d', c', m', f'⟩ := b'
  obtain ⟨h1, h2, h3⟩ := h
  cases h1; cases h2
  cases m with
  | none =>
    cases m' with
    | some m' => simp at h3
    | none =>
      cases op <;> try exact ⟨rfl, rfl, rfl⟩
      simp only [Backend.step]
      split <;> exact ⟨rfl, rfl, rfl⟩
  | some m =>
    cases m' with
    | none => simp at h3
    | some m' =>
      simp only [Option.map_some, Option.some.injEq] at h3
      obtain ⟨l, rfl⟩ : ∃ l, m' = { m with registered := l } := by
        cases m; cases m'; simp only [Mem.mk.injEq] at h3
        obtain ⟨rfl, rfl, rfl, rfl, _⟩ := h3
        exact ⟨_, rfl⟩
      cases op with
      | register es =>
        simp only [Backend.step, Mem.register, registerEvents_registered]
        cases es.foldlM (registerEvent c) m <;> exact ⟨rfl, rfl, rfl⟩
      | touch p => exact ⟨rfl, rfl, rfl⟩
      | flush =>
        simp only [Backend.step, Mem.createChanges]
        split <;> exact ⟨rfl, rfl, rfl⟩
      | cleanup fl sz now =>
        simp only [Backend.step]
        split <;> exact ⟨rfl, rfl, rfl⟩
      | reopen c =>
        simp only [Backend.step]
        split <;> exact ⟨rfl, rfl, rfl⟩

theorem sameState_run {b b' : Backend} (h : SameState b b') (ops : List BackendOp) :
    SameState (b.run ops) (b'.run ops) := by
  induction ops generalizing b b' with
  | nil => exact h
  | cons op ops ih => exact ih (sameState_step h op)

theorem sameState_query {b b' : Backend} (h : SameState b b') :
    (∀ p, b.query p = b'.query p) ∧ ∀ s, b.getLastEventId s = b'.getLastEventId s := by
  obtain ⟨d, c, m, f⟩ := b
  obtain ⟨d', c', m', f'⟩ := b'
  obtain ⟨h1, h2, h3⟩ := h
  cases h1; cases h2
  cases m <;> cases m' <;> simp at h3
  · exact ⟨fun _ => rfl, fun _ => rfl⟩
  · next m m' =>
    cases m; cases m'; simp only [Mem.mk.injEq] at h3
    obtain ⟨rfl, rfl, rfl, rfl, _⟩ := h3
    exact ⟨fun p => by cases p <;> rfl, fun _ => rfl⟩

/-- Registering events that are not after the last event identifiers changes
nothing that can be seen by queries, now or after any further actions. -/
theorem C23_repeats (b : Backend) (es : List Event)
    (h : ∀ e ∈ es, ∀ l, b.getLastEventId e.id.server = .ok l → IdLe e.id l)
    (ops : List BackendOp) :
    (∀ p, ((b.step (.register es)).run ops).query p = (b.run ops).query p) ∧
      ∀ s, ((b.step (.register es)).run ops).getLastEventId s = (b.run ops).getLastEventId s := by
  refine sameState_query (sameState_run ?_ ops)
  obtain ⟨d, c, m, f⟩ := b
  cases m with
  | none => exact ⟨rfl, rfl, rfl⟩
  | some m =>
    have : es.foldlM (registerEvent c) m = .ok m := by
      clear ops
      induction es with
      | nil => rfl
      | cons e es ih =>
        have h1 := h e (by simp) _ rfl
        have h2 : registerEvent c m e = .ok m := by
          unfold registerEvent
          rw [if_pos]
          exact EventId.le_iff.2 h1
        simp only [List.foldlM_cons, h2]
        exact ih fun e he => h e (List.mem_cons_of_mem _ he)
    simp only [Backend.step, Mem.register, this]
    exact ⟨rfl, rfl, rfl⟩

/-- While a backend is open, the last event identifiers do not decrease. -/
theorem C23_last_id (b : Backend) (op : BackendOp) (hop : ∀ c, op ≠ .reopen c) (s : Int) (i j : EventId)
    (hi : b.getLastEventId s = .ok i) (hj : (b.step op).getLastEventId s = .ok j) : IdLe i j := by
  obtain ⟨d, c, m, f⟩ := b
  cases m with
  | none => simp [Backend.getLastEventId] at hi
  | some m =>
    have refl : ∀ {m' : Mem}, m'.system.getLastEventId s = m.system.getLastEventId s →
        .ok (m'.system.getLastEventId s) = (.ok j : Except PyErr EventId) → IdLe i j := by
      intro m' h1 h2
      cases h2; cases hi
      exact .inr h1.symm
    have hi : m.system.getLastEventId s = i := by
      unfold Backend.getLastEventId at hi; simpa using hi
    cases op with
    | reopen c => exact absurd rfl (hop c)
    | touch p => exact refl (m' := m) rfl hj
    | flush =>
      simp only [Backend.step, Mem.createChanges] at hj
      split at hj
      · exact refl (m' := m) rfl hj
      · simp [Backend.getLastEventId] at hj
    | cleanup fl sz now =>
      simp only [Backend.step] at hj
      split at hj
      · exact refl (m' := m) rfl hj
      · simp [Backend.getLastEventId] at hj
    | register es =>
      have one : ∀ {m m' : Mem} {e : Event}, registerEvent c m e = .ok m' →
          IdLe (m.system.getLastEventId s) (m'.system.getLastEventId s) := by
        intro m m' e h
        unfold registerEvent at h
        rcases ite_cases h with ⟨_, h⟩ | ⟨h0, h⟩
        · cases h; exact .inr rfl
        rcases ite_cases h with ⟨_, h⟩ | ⟨_, h⟩
        · cases h; exact .inr rfl
        rcases ite_cases h with ⟨_, h⟩ | ⟨_, h⟩
        · cases h; exact .inr rfl
        unfold storeEvent at h
        rcases ite_cases h with ⟨_, h⟩ | ⟨_, h⟩
        · cases h; exact .inr rfl
        obtain ⟨r, _, h⟩ := bind_ok h
        cases h
        have hg : ((m.system.setLastEventId e.id).setLastTimestamp e.id.server e.timestamp).getLastEventId s =
            if e.id.server = s then e.id else m.system.getLastEventId s := by
          unfold SystemDb.getLastEventId SystemDb.setLastTimestamp SystemDb.setLastEventId
          simp only [Dict.get_set]
          by_cases hs : e.id.server = s
          · simp [hs]
          · simp [hs]
        simp only [hg]
        split
        · next hs =>
          rw [EventId.le_iff, hs] at h0
          unfold IdLe at h0 ⊢
          push Not at h0
          by_contra hno
          push Not at hno
          obtain ⟨h1, h2⟩ := h0
          obtain ⟨h3, h4⟩ := hno
          apply h2
          generalize m.system.getLastEventId s = x at *
          clear hg hs h
          generalize e.id = y at *
          obtain ⟨x1, x2, x3⟩ := x
          obtain ⟨y1, y2, y3⟩ := y
          unfold IdLt at h1 h3
          simp only at h1 h3
          have : y1 = x1 ∧ y2 = x2 ∧ y3 = x3 := by omega
          simp [this]
        · exact .inr rfl
      have many : ∀ (es : List Event) {m m' : Mem}, es.foldlM (registerEvent c) m = .ok m' →
          IdLe (m.system.getLastEventId s) (m'.system.getLastEventId s) := by
        intro es
        induction es with
        | nil => intro m m' h; cases h; exact .inr rfl
        | cons e es ih =>
          intro m m' h
          rw [List.foldlM_cons] at h
          obtain ⟨m1, h1, h2⟩ := bind_ok h
          have a1 := one h1
          have a2 := ih h2
          unfold IdLe at *
          rcases a1 with a1 | a1
          · rcases a2 with a2 | a2
            · left; unfold IdLt at *; omega
            · rw [← a2]; exact .inl a1
          · rw [a1]; exact a2
      simp only [Backend.step] at hj
      split at hj
      · next m' h =>
        unfold Mem.register at h
        obtain ⟨m1, h1, h2⟩ := bind_ok h
        cases h2
        cases hj
        rw [← hi]
        have := many es h1
        exact this
      · simp [Backend.getLastEventId] at hj

/-! ## C24 -/

/-- A latest query of an open backend returns one event for each type of the
stored events that are allowed by the configuration, and no stored event of the
type is newer.  Restarts may change anything but which events are shown. -/
theorem C24_latest (conf : Conf) (ops : List BackendOp) (hl : LookupLaws ops) (hs : SameShown ops)
    (hopen : ((Backend.new conf).run ops).mem ≠ none) :
    ∃ w events, Run conf ops w ∧
      ((Backend.new conf).run ops).query (.latest none) = .ok ⟨events, false⟩ ∧
      (events.map (·.type)).Nodup ∧
      (∀ e ∈ events, e ∈ w.cur.log ∧ Visible w.conf e) ∧
      (∀ e ∈ w.cur.log, Visible w.conf e → ∃ s ∈ events, s.type = e.type ∧ ¬ Newer e s) := by
  obtain ⟨w, h⟩ := reached conf ops hl
  have hb := run_best h.run hs
  have hc := run_conf conf ops hopen
  have hrel := h.rel
  have hwc := hrel.conf
  rw [hwc] at hc
  have hb := (hb.1 _ hc).1
  generalize hbe : (Backend.new conf).run ops = b at hrel hopen hwc
  cases hm : b.mem with
  | none => exact absurd hm hopen
  | some m =>
    obtain ⟨_, hr⟩ := hrel.opened m hm
    have hmem : ∀ e, e ∈ m.latest.events.map Prod.snd ↔ ∃ t, Dict.get m.latest.events t = some e := by
      intro e
      constructor
      · intro he
        obtain ⟨x, hx, rfl⟩ := List.mem_map.1 he
        exact ⟨x.1, Dict.get_of_mem hr.latest.nodEvents hx⟩
      · rintro ⟨t, ht⟩
        exact List.mem_map.2 ⟨(t, e), Dict.mem_of_get ht, rfl⟩
    have hty : ∀ t e, Dict.get m.latest.events t = some e → e.type = t := fun t e he =>
      (hrel.okC.slotType t e ((hr.latest.events t e).1 he).1).1
    refine ⟨w, m.latest.events.map Prod.snd, h.run, ?_, ?_, ?_, ?_⟩
    · unfold Backend.query; rw [hm]; rfl
    · have : (m.latest.events.map Prod.snd).map (·.type) = Dict.keys m.latest.events := by
        unfold Dict.keys
        rw [List.map_map]
        refine List.map_congr_left fun x hx => ?_
        exact hty _ _ (Dict.get_of_mem hr.latest.nodEvents hx)
      rw [this]; exact hr.latest.nodEvents
    · intro e he
      obtain ⟨t, ht⟩ := (hmem e).1 he
      obtain ⟨h1, h2⟩ := (hr.latest.events t e).1 ht
      exact ⟨(hrel.okC.slotType t e h1).2, h2⟩
    · intro e he hv
      obtain ⟨s, h1, h2, h3⟩ := hb e he hv
      have hg := (hr.latest.events e.type s).2 ⟨h1, h2⟩
      exact ⟨s, (hmem s).2 ⟨_, hg⟩, hty _ _ hg, h3⟩

/-! ## C25 -/

theorem matches_plain {e q : EventType} (h1 : "*" ∉ q) (h2 : "?" ∉ q) : Matches e q ↔ e = q := by
  constructor
  · intro h
    induction h with
    | nil => rfl
    | star e => simp at h1
    | any s _ _ => simp at h2
    | same s _ ih =>
      rw [ih (fun h => h1 (List.mem_cons_of_mem _ h)) (fun h => h2 (List.mem_cons_of_mem _ h))]
  · rintro rfl
    clear h1 h2
    induction e with
    | nil => exact .nil
    | cons s e ih => exact .same s ih

/-- A latest query with event types returns those of the latest events whose
type is matched by one of them, each once, whichever strategy is used. -/
theorem C25_filter (conf : Conf) (ops : List BackendOp) (hl : LookupLaws ops)
    (hopen : ((Backend.new conf).run ops).mem ≠ none) :
    ∃ all, ((Backend.new conf).run ops).query (.latest none) = .ok ⟨all, false⟩ ∧
      ∀ types : List EventType, (∀ q ∈ types, WellFormed q) →
        (((Backend.new conf).run ops).conf.useC = true → ∀ q ∈ types, NulFree q) →
        ∃ events, ((Backend.new conf).run ops).query (.latest (some types)) = .ok ⟨events, false⟩ ∧
          events.Nodup ∧ ∀ e, e ∈ events ↔ e ∈ all ∧ MatchesAny types e.type := by
  obtain ⟨w, h⟩ := reached conf ops hl
  have hrel := h.rel
  generalize (Backend.new conf).run ops = b at hrel hopen
  cases hm : b.mem with
  | none => exact absurd hm hopen
  | some m =>
    obtain ⟨_, hr⟩ := hrel.opened m hm
    have hty : ∀ t e, Dict.get m.latest.events t = some e → e.type = t := fun t e he =>
      (hrel.okC.slotType t e ((hr.latest.events t e).1 he).1).1
    have hnod := hr.latest.nodEvents
    have hget : ∀ x ∈ m.latest.events, x.2.type = x.1 := fun x hx => hty _ _ (Dict.get_of_mem hnod hx)
    have hnd : (m.latest.events.map Prod.snd).Nodup := by
      refine List.Nodup.of_map (·.type) ?_
      have : (m.latest.events.map Prod.snd).map (·.type) = Dict.keys m.latest.events := by
        unfold Dict.keys
        rw [List.map_map]
        exact List.map_congr_left hget
      rw [this]; exact hnod
    refine ⟨m.latest.events.map Prod.snd, by unfold Backend.query; rw [hm]; rfl, ?_⟩
    intro types hw hn
    have hq : ∀ {l : List Event}, latestSelect b.conf m.latest (toSet types) = .ok l →
        b.query (.latest (some types)) = .ok ⟨l, false⟩ := by
      intro l hl
      unfold Backend.query
      rw [hm]
      change (latestSelect b.conf m.latest (toSet types)).map _ = _
      rw [hl]; rfl
    have hany : ∀ {t}, MatchesAny (toSet types) t ↔ MatchesAny types t := by
      intro t; unfold MatchesAny; simp only [mem_toSet]
    simp only [← hany]
    have hw : ∀ q ∈ toSet types, WellFormed q := fun q hq => hw q (mem_toSet.1 hq)
    have hn : b.conf.useC = true → ∀ q ∈ toSet types, NulFree q := fun hu q hq => hn hu q (mem_toSet.1 hq)
    have hts := nodup_toSet types
    generalize toSet types = types' at *
    suffices ∃ l, latestSelect b.conf m.latest types' = .ok l ∧ l.Nodup ∧
        ∀ e, e ∈ l ↔ e ∈ m.latest.events.map Prod.snd ∧ MatchesAny types' e.type by
      obtain ⟨l, h1, h2⟩ := this
      exact ⟨l, hq h1, h2⟩
    unfold latestSelect
    split
    · next hstar =>
      exact ⟨_, rfl, hnd, fun e => ⟨fun he => ⟨he, _, hstar, .star _⟩, fun he => he.1⟩⟩
    split
    · obtain ⟨sub, h1, h2⟩ := querySubscription_ok (conf := b.conf) (types := some types')
        (by intro l hl; cases hl; exact hw) (by intro hu l hl; cases hl; exact hn hu)
      unfold querySubscription at h1
      simp only at h1
      cases hcs : createSubscription b.conf.useC types' with
      | error err => rw [hcs] at h1; simp [Except.map] at h1
      | ok s =>
        rw [hcs] at h1
        cases h1
        refine ⟨_, rfl, hnd.filter _, fun e => ?_⟩
        rw [List.mem_filter]
        exact and_congr_right fun _ => h2 e.type
    next hstar hwild =>
    have hplain : ∀ {t}, MatchesAny types' t ↔ t ∈ types' := by
      intro t
      have hp : ∀ q ∈ types', "*" ∉ q ∧ "?" ∉ q := by
        intro q hq
        simp only [List.any_eq_true, decide_eq_true_eq] at hwild
        push Not at hwild
        exact hwild q hq
      constructor
      · rintro ⟨q, hq, hm⟩
        rw [matches_plain (hp q hq).1 (hp q hq).2] at hm
        rw [hm]; exact hq
      · intro ht
        exact ⟨t, ht, (matches_plain (hp t ht).1 (hp t ht).2).2 rfl⟩
    simp only [hplain]
    split
    · refine ⟨_, rfl, ?_, fun e => ?_⟩
      · refine List.Nodup.filterMap ?_ hts
        intro a c x ha hc
        rw [← hty _ _ ha, ← hty _ _ hc]
      · rw [List.mem_filterMap, List.mem_map]
        constructor
        · rintro ⟨t, ht, he⟩
          exact ⟨⟨_, Dict.mem_of_get he, rfl⟩, by rw [hty _ _ he]; exact ht⟩
        · rintro ⟨⟨x, hx, rfl⟩, ht⟩
          refine ⟨_, ht, ?_⟩
          rw [hget x hx]; exact Dict.get_of_mem hnod hx
    · refine ⟨_, rfl, hnd.filter _, fun e => ?_⟩
      rw [List.mem_filter]
      simp

/-! ## Example -/

/-- Event for examples, timestamps in seconds. -/
def exE (server session inst : Int) (t : EventType) (s : Int) (src : Option Int) : Event :=
  ⟨⟨server, session, inst⟩, t, ⟨s, 0⟩, src.map fun x => ⟨x, 0⟩, none⟩

/-- Two servers, two partitions, a flush, a restart, unflushed events. -/
def exHistory : List BackendOp :=
  [.reopen (exConf none exPartitions),
   .register [exE 1 1 1 ["a"] 1 none, exE 2 1 1 ["a"] 5 none, exE 1 2 1 ["b"] 2 (some 7)],
   .flush,
   .reopen (exConf none exPartitions),
   .register [exE 2 2 1 ["a"] 6 (some 3), exE 2 2 2 ["b"] 7 (some 2), exE 1 1 1 ["a"] 8 none]]

/-- The backend of the example. -/
def exBackend : Backend := (Backend.new (exConf none [])).run exHistory

theorem exHistory_confs {c : Conf} (h : BackendOp.reopen c ∈ exHistory) : c = exConf none exPartitions := by
  simp only [exHistory, List.mem_cons, BackendOp.reopen.injEq, reduceCtorEq, List.not_mem_nil, or_false,
    false_or] at h
  exact h.elim id id

theorem exHistory_laws : LookupLaws exHistory := by
  intro c hc
  rw [exHistory_confs hc]; exact exConf_lookup _ _

theorem exHistory_shown : SameShown exHistory := by
  intro c c' hc hc' e
  rw [exHistory_confs hc, exHistory_confs hc']

theorem exBackend_open : exBackend.mem ≠ none := by
  have : exBackend.mem.isSome = true := by rfl
  intro h
  rw [h] at this
  exact absurd this (by decide)

/-- Hypotheses of `C23_forward`: a server query and a timeseries query. -/
example : exBackend.query (.server ⟨2, false, none, none⟩) =
      .ok ⟨[exE 2 1 1 ["a"] 5 none, exE 2 2 1 ["a"] 6 (some 3), exE 2 2 2 ["b"] 7 (some 2)], false⟩ ∧
    exBackend.query (.timeseries ⟨none, none, none, none, none, .ascending, .timestamp, none, none⟩) =
      .ok ⟨[exE 1 1 1 ["a"] 1 none, exE 2 1 1 ["a"] 5 none, exE 2 2 1 ["a"] 6 (some 3)], false⟩ :=
  ⟨by rfl, by rfl⟩

/-- Hypotheses of `C23_repeats`: all events of the history are repeats. -/
example : ∀ e ∈ [exE 1 1 1 ["a"] 8 none, exE 2 2 1 ["x"] 9 none], ∀ l,
    exBackend.getLastEventId e.id.server = .ok l → IdLe e.id l := by
  have h1 : exBackend.getLastEventId 1 = .ok ⟨1, 2, 1⟩ := by rfl
  have h2 : exBackend.getLastEventId 2 = .ok ⟨2, 2, 2⟩ := by rfl
  intro e he l hl
  simp only [List.mem_cons, List.not_mem_nil, or_false] at he
  rcases he with rfl | rfl
  · rw [show (exE 1 1 1 ["a"] 8 none).id.server = 1 from rfl, h1] at hl
    cases hl
    left; unfold IdLt exE; simp
  · rw [show (exE 2 2 1 ["x"] 9 none).id.server = 2 from rfl, h2] at hl
    cases hl
    left; unfold IdLt exE; simp

/-- `C23_last_id`: the identifier of server 2 moves on. -/
example : ∃ i j, exBackend.getLastEventId 2 = .ok i ∧
    (exBackend.step (.register [exE 2 3 1 ["a"] 9 none])).getLastEventId 2 = .ok j ∧ i ≠ j :=
  ⟨⟨2, 2, 2⟩, ⟨2, 3, 1⟩, by rfl, by rfl, by decide⟩

/-- Hypotheses of `C24_latest` and `C25_filter`. -/
example : ∃ w events, Run (exConf none []) exHistory w ∧
    exBackend.query (.latest none) = .ok ⟨events, false⟩ ∧ events = [exE 2 2 1 ["a"] 6 (some 3)] := by
  obtain ⟨w, events, h1, h2, _⟩ := C24_latest (exConf none []) exHistory exHistory_laws exHistory_shown
    exBackend_open
  refine ⟨w, events, h1, h2, ?_⟩
  have : exBackend.query (.latest none) = .ok ⟨[exE 2 2 1 ["a"] 6 (some 3)], false⟩ := by rfl
  rw [show exBackend.query (.latest none) = _ from h2] at this
  cases this; rfl

example : ∃ all, exBackend.query (.latest none) = .ok ⟨all, false⟩ :=
  let ⟨all, h, _⟩ := C25_filter (exConf none []) exHistory exHistory_laws exBackend_open
  ⟨all, h⟩

end HatEvent
