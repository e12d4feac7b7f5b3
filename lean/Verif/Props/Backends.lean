import Verif.Props.Memory
import Verif.Props.LmdbLatest
import Verif.Props.Duo

/-!
# C106: the memory and the LMDB backend answer latest queries alike
-/

namespace HatEvent
open Spec

/-- The events of the calls of `register`. -/
def registrations (ops : List BackendOp) : List (List Event) :=
  ops.filterMap fun op => match op with | .register es => some es | _ => none

/-- Identifiers that engines create, and timestamps that can be stored. -/
def Proper (e : Event) : Prop := IdLt ⟨e.id.server, 0, 0⟩ e.id ∧ TimeLe minTimestamp e.timestamp

/-- The store of the LMDB backend shows what the memory backend finds. -/
structure ShowsFound (h : List Event) (st : Store) : Prop where
  ok : StoreOk st
  log : ∀ e ∈ st.log, e ∈ h
  slot : ∀ t, st.slot t = Dict.get (h.foldl MemoryBackend.latestStep []) t

theorem showsFound_offer {conf : Conf} {parts : Dict Int Partition} {h : List Event} {st : Store} (hb : ShowsFound h st) {x : Event}
    (ho : InOrder (h ++ [x])) (hx : Proper x) (hv : ∀ e ∈ h ++ [x], Visible conf e) : ShowsFound (h ++ [x]) (st.offer conf parts x) := by
  have hord : ∀ y ∈ h, y.id.server = x.id.server → IdLt y.id x.id ∧ TimeLe y.timestamp x.timestamp :=
    fun y hy => (List.pairwise_append.1 ho).2.2 y hy x (by simp)
  have hadm : Admissible conf st x := by
    refine ⟨?_, ?_, (hv x (by simp)).1⟩
    · unfold Store.lastId
      cases hl : st.last x.id.server with
      | none => exact hx.1
      | some l =>
        have hm := List.mem_filter.1 (List.mem_of_getLast? hl)
        exact (hord l (hb.log l hm.1) (by simpa using hm.2)).1
    · cases hl : st.last x.id.server with
      | none => exact hx.2
      | some l =>
        have hm := List.mem_filter.1 (List.mem_of_getLast? hl)
        exact (hord l (hb.log l hm.1) (by simpa using hm.2)).2
  refine ⟨storeOk_offer hb.ok x, ?_, fun t => ?_⟩
  · intro e he
    unfold Store.offer at he
    split at he
    · rcases List.mem_append.1 he with he | he
      · exact List.mem_append_left _ (hb.log e he)
      · exact List.mem_append_right _ he
    · exact List.mem_append_left _ (hb.log e he)
  · rw [List.foldl_append]
    show _ = Dict.get (MemoryBackend.latestStep _ x) t
    have hiff : ToLatest conf st x ↔ ∀ p, st.slot x.type = some p → p.lt x = true := by
      constructor
      · intro h p hp
        have hpm := hb.log p (hb.ok.slotType _ _ hp).2
        have hn := h.2 p hp (hv p (List.mem_append_left _ hpm))
        rw [C10_lt_iff]
        unfold Newer at hn
        by_cases hs : p.id.server = x.id.server
        · left
          rw [C10_gt_is_newer]
          unfold Newer
          rw [if_pos hs.symm]
          exact (hord p hpm hs).1
        · rw [if_neg hs] at hn
          rcases not_timeLt.1 hn with h1 | h1
          · left
            rw [C10_gt_is_newer]
            unfold Newer
            rw [if_neg fun h => hs h.symm]
            exact h1
          · exact .inr ⟨hs, h1⟩
      · intro h
        refine ⟨(hv x (by simp)).2, fun p hp _ hn => ?_⟩
        have h1 := h p hp
        rw [C10_lt_iff, C10_gt_is_newer] at h1
        unfold Newer at hn h1
        by_cases hs : p.id.server = x.id.server
        · rw [if_pos hs] at hn
          rw [if_pos hs.symm] at h1
          rcases h1 with h1 | h1
          · exact IdLt.asymm hn h1
          · exact h1.1 hs
        · rw [if_neg hs] at hn
          rw [if_neg fun h => hs h.symm] at h1
          rcases h1 with h1 | h1
          · exact TimeLt.irrefl (h1.trans hn)
          · rw [h1.2] at hn; exact TimeLt.irrefl hn
    by_cases hl : ToLatest conf st x
    · have hslot : (st.offer conf parts x).slot t = if t = x.type then some x else st.slot t := by
        unfold Store.offer
        rw [if_pos ⟨hadm, .inl hl⟩]
        by_cases ht : t = x.type
        · rw [if_pos ht]; exact if_pos ⟨ht, hl⟩
        · rw [if_neg ht]; exact if_neg fun h => ht h.1
      have hstep : MemoryBackend.latestStep (h.foldl MemoryBackend.latestStep []) x = Dict.set (h.foldl MemoryBackend.latestStep []) x.type x := by
        unfold MemoryBackend.latestStep
        split
        · rfl
        · next p hp => rw [if_pos (hiff.1 hl p (by rw [hb.slot]; exact hp))]
      rw [hslot, hstep, Dict.get_set, hb.slot]
      by_cases ht : t = x.type
      · rw [if_pos ht, if_pos ht.symm]
      · rw [if_neg ht, if_neg fun h => ht h.symm]
    · have hslot : (st.offer conf parts x).slot t = st.slot t := by
        unfold Store.offer
        split
        · exact if_neg fun h => hl h.2
        · rfl
      rw [hslot, hb.slot]
      have hno := hl
      rw [hiff] at hno
      push Not at hno
      obtain ⟨p, hp, hne⟩ := hno
      rw [hb.slot] at hp
      have hstep : MemoryBackend.latestStep (h.foldl MemoryBackend.latestStep []) x = h.foldl MemoryBackend.latestStep [] := by
        generalize h.foldl MemoryBackend.latestStep [] = d at hp
        unfold MemoryBackend.latestStep
        rw [hp]
        simp [hne]
      rw [hstep]

theorem showsFound_offers {conf : Conf} {parts : Dict Int Partition} (es : List Event) {h : List Event} {st : Store} (hb : ShowsFound h st)
    (ho : InOrder (h ++ es)) (hx : ∀ x ∈ es, Proper x) (hv : ∀ e ∈ h ++ es, Visible conf e) :
    ShowsFound (h ++ es) (es.foldl (Store.offer conf parts) st) := by
  induction es generalizing h st with
  | nil => simpa using hb
  | cons x es ih =>
    have e : h ++ x :: es = (h ++ [x]) ++ es := by simp
    rw [e] at ho hv ⊢
    exact ih (showsFound_offer hb (List.pairwise_append.1 ho).1 (hx x (by simp)) fun y hy => hv y (List.mem_append_left _ hy)) ho
      (fun y hy => hx y (List.mem_cons_of_mem _ hy)) hv

/-- The same for a process on a new file. -/
theorem showsFound_reached {c0 conf : Conf} (hlaw : LookupLaw conf) (rest : List BackendOp) (hno : ∀ c, .reopen c ∉ rest)
    (ho : InOrder (registrations rest).flatten) (hx : ∀ x ∈ (registrations rest).flatten, Proper x ∧ Visible conf x)
    (hopen : ((Backend.new c0).run (.reopen conf :: rest)).mem ≠ none) :
    ∃ w, Reached c0 (.reopen conf :: rest) w ∧ w.conf = conf ∧ ShowsFound (registrations rest).flatten w.cur := by
  have hlaws : ∀ l : List BackendOp, (∀ c, .reopen c ∉ l) → LookupLaws (.reopen conf :: l) := by
    intro l hl c hc
    rcases List.mem_cons.1 hc with hc | hc
    · cases hc; exact hlaw
    · exact absurd hc (hl c)
  induction rest using List.reverseRecOn with
  | nil =>
    have h0 : Reached c0 [] (.new c0) := ⟨.nil, worldRel_new c0, by simp [Backend.run, Backend.new]⟩
    obtain ⟨w, h1, h2⟩ := reached_step h0 (.reopen conf) (fun _ h => (nomatch h))
    have hw : w.isOpen = true := by rw [h2.rel.isOpen, Option.isSome_iff_ne_none]; exact hopen
    cases h1 with
    | closed _ h => exact absurd rfl (h conf)
    | reopen _ => exact ⟨_, h2, rfl, storeOk_empty, fun _ h => (nomatch h), fun _ => rfl⟩
    | reopenFail => cases hw
  | append_singleton rest op ih =>
    have hno' : ∀ c, .reopen c ∉ rest := fun c h => hno c (List.mem_append_left _ h)
    have hopc : ∀ c, op ≠ .reopen c := fun c h => hno c (by simp [h])
    have hreg : (registrations (rest ++ [op])).flatten = (registrations rest).flatten ++ (registrations [op]).flatten := by
      simp [registrations, List.filterMap_append]
    rw [hreg] at ho hx ⊢
    have hopen' : ((Backend.new c0).run (.reopen conf :: rest)).mem ≠ none := by
      intro hn
      apply hopen
      rw [show .reopen conf :: (rest ++ [op]) = (.reopen conf :: rest) ++ [op] from rfl, run_snoc]
      rw [step_closed hn hopc]
      exact hn
    obtain ⟨w, h1, h2, h3⟩ := ih hno' (List.pairwise_append.1 ho).1 (fun x h => hx x (List.mem_append_left _ h)) hopen'
    obtain ⟨w', h4, h5⟩ := reached_step h1 op (hlaws rest hno')
    have hw : w'.isOpen = true := by rw [h5.rel.isOpen, Option.isSome_iff_ne_none]; exact hopen
    refine ⟨w', h5, ?_⟩
    cases h4 with
    | closed a _ => rw [hw] at a; cases a
    | @register es a =>
      refine ⟨h2, ?_⟩
      have e : (registrations [.register es]).flatten = es := by simp [registrations]
      rw [e] at ho hx ⊢
      refine showsFound_offers es h3 ho (fun x h => (hx x (List.mem_append_right _ h)).1) ?_
      intro x h
      rw [h2]
      exact (hx x h).2
    | touch a => exact ⟨h2, by simpa [registrations] using h3⟩
    | flush a => exact ⟨h2, by simpa [registrations] using h3⟩
    | flushFail a => cases hw
    | cleanup r a b => exact ⟨h2, by simpa [registrations] using ⟨storeOk_drop h3.ok r, h3.log, h3.slot⟩⟩
    | cleanupFail a => cases hw
    | reopen a => exact absurd rfl (hopc _)
    | reopenFail => exact absurd rfl (hopc _)

/-- Filtering by type before the latest events are looked for. -/
theorem found_filter (p : EventType → Bool) (h : List Event) (t : EventType) :
    Dict.get ((h.filter fun e => p e.type).foldl MemoryBackend.latestStep []) t =
      if p t then Dict.get (h.foldl MemoryBackend.latestStep []) t else none := by
  induction h using List.reverseRecOn with
  | nil => simp [Dict.get]
  | append_singleton h x ih =>
    have one : ∀ d : Dict EventType Event, Dict.get (MemoryBackend.latestStep d x) t =
        if x.type = t then (match Dict.get d t with | none => some x | some q => if q.lt x then some x else some q) else Dict.get d t := by
      intro d
      unfold MemoryBackend.latestStep
      by_cases ht : x.type = t
      · rw [if_pos ht, ← ht]
        cases hd : Dict.get d x.type with
        | none => simp [Dict.get_set]
        | some q =>
          by_cases hq : q.lt x = true
          · simp [hq, Dict.get_set]
          · simp [hq, hd]
      · rw [if_neg ht]
        split
        · rw [Dict.get_set, if_neg ht]
        · split
          · rw [Dict.get_set, if_neg ht]
          · rfl
    rw [List.filter_append, List.foldl_append, List.foldl_append]
    by_cases hp : p x.type = true
    · rw [show ([x].filter fun e => p e.type) = [x] by simp [hp]]
      show Dict.get (MemoryBackend.latestStep _ x) t = if p t = true then Dict.get (MemoryBackend.latestStep _ x) t else none
      rw [one, one, ih]
      by_cases ht : x.type = t
      · rw [← ht]; simp [hp]
      · simp [ht]
    · rw [show ([x].filter fun e => p e.type) = [] by simp [hp]]
      show _ = if p t = true then Dict.get (MemoryBackend.latestStep _ x) t else none
      rw [List.foldl_nil, ih, one]
      by_cases ht : x.type = t
      · rw [← ht]; simp [hp]
      · simp [ht]

theorem filterEventTypes_eq (useC : Bool) (events : List Event) (types : Option (List EventType))
    (hw : ∀ l, types = some l → ∀ q ∈ l, WellFormed q) (hn : useC = true → ∀ l, types = some l → ∀ q ∈ l, NulFree q) :
    ∃ p : EventType → Bool, MemoryBackend.filterEventTypes useC events types = .ok (events.filter fun e => p e.type) ∧
      ∀ t, p t = true ↔ ∀ l, types = some l → MatchesAny l t := by
  cases types with
  | none => exact ⟨fun _ => true, by simp [MemoryBackend.filterEventTypes], fun t => by simp⟩
  | some l =>
    have : ∃ sub, createSubscription useC l = .ok sub ∧ ∀ t, sub.matches t = true ↔ MatchesAny l t := by
      unfold createSubscription
      cases hu : useC with
      | false =>
        obtain ⟨s, hs⟩ := (C02_py_subscription l).2.2 (hw l rfl)
        exact ⟨s, by simpa using hs, (C02_py_subscription l).1 s hs⟩
      | true =>
        obtain ⟨s, hs⟩ := (C03_c_subscription l (hn hu l rfl)).2.2 (hw l rfl)
        exact ⟨s, by simpa using hs, (C03_c_subscription l (hn hu l rfl)).1 s hs⟩
    obtain ⟨sub, h1, h2⟩ := this
    exact ⟨sub.matches, by simp [MemoryBackend.filterEventTypes, h1, Except.map], fun t => by rw [h2]; simp⟩

/-- **C106**: a memory backend and an LMDB backend on a new file that are told the same events, of any servers and in order, give the same answers to
latest queries, whatever flushes and cleanups the LMDB backend has done.  Missing: clocks set back (`C106_clock_refuted`). -/
theorem C106_partial (c0 conf : Conf) (hlaw : LookupLaw conf) (useC r f : Bool) (rest : List BackendOp) (hno : ∀ c, .reopen c ∉ rest)
    (hopen : ((Backend.new c0).run (.reopen conf :: rest)).mem ≠ none) (ho : InOrder (registrations rest).flatten)
    (hx : ∀ x ∈ (registrations rest).flatten, Proper x ∧ Visible conf x)
    (types : Option (List EventType)) (hw : ∀ l, types = some l → ∀ q ∈ l, WellFormed q)
    (hn : useC = true ∨ conf.useC = true → ∀ l, types = some l → ∀ q ∈ l, NulFree q) :
    ∃ a b, ((MemoryBackend.new useC r f).run (registrations rest)).query (.latest types) = .ok ⟨a, false⟩ ∧
      ((Backend.new c0).run (.reopen conf :: rest)).query (.latest types) = .ok ⟨b, false⟩ ∧ a.Perm b := by
  obtain ⟨a, ha, hand, hmem⟩ : ∃ a, ((MemoryBackend.new useC r f).run (registrations rest)).query (.latest types) = .ok ⟨a, false⟩ ∧ a.Nodup ∧
      ∀ e, e ∈ a ↔ Dict.get ((registrations rest).flatten.foldl MemoryBackend.latestStep []) e.type = some e ∧ ∀ l, types = some l → MatchesAny l e.type := by
    obtain ⟨h1, h2, -, -⟩ := MemoryBackend.run_events useC r f (registrations rest)
    obtain ⟨p, e1, e2⟩ := filterEventTypes_eq useC (registrations rest).flatten types hw (fun h => hn (.inl h))
    have hf := MemoryBackend.found_all ((registrations rest).flatten.filter fun e => p e.type)
    have hty : ∀ x ∈ ((registrations rest).flatten.filter fun e => p e.type).foldl MemoryBackend.latestStep [], x.2.type = x.1 := fun x hx =>
      (hf.type _ _ (Dict.get_of_mem hf.nodup hx)).1
    refine ⟨(((registrations rest).flatten.filter fun e => p e.type).foldl MemoryBackend.latestStep []).map Prod.snd, ?_, ?_, fun e => ?_⟩
    · simp only [MemoryBackend.query, MemoryBackend.queryLatest, h1, h2, e1, Except.map]
    · refine List.Nodup.of_map (·.type) ?_
      rw [List.map_map]
      have : (((registrations rest).flatten.filter fun e => p e.type).foldl MemoryBackend.latestStep []).map ((fun e : Event => e.type) ∘ Prod.snd) =
          Dict.keys (((registrations rest).flatten.filter fun e => p e.type).foldl MemoryBackend.latestStep []) := List.map_congr_left hty
      rw [this]
      exact hf.nodup
    · rw [← e2]
      have hg := found_filter p (registrations rest).flatten e.type
      constructor
      · intro he
        obtain ⟨x, hx', rfl⟩ := List.mem_map.1 he
        have h3 := Dict.get_of_mem hf.nodup hx'
        rw [← hty x hx', hg] at h3
        split at h3
        · next hp => exact ⟨h3, hp⟩
        · cases h3
      · rintro ⟨h3, h4⟩
        rw [if_pos h4, h3] at hg
        exact List.mem_map.2 ⟨_, Dict.mem_of_get hg, rfl⟩
  have hlaws : LookupLaws (.reopen conf :: rest) := by
    intro c hc
    rcases List.mem_cons.1 hc with hc | hc
    · cases hc; exact hlaw
    · exact absurd hc (hno c)
  have hconf : ((Backend.new c0).run (.reopen conf :: rest)).conf = conf := by
    rcases List.mem_cons.1 (run_conf c0 _ hopen) with h | h
    · exact BackendOp.reopen.inj h
    · exact absurd h (hno _)
  obtain ⟨all, hall, hnd, hin⟩ : ∃ all, ((Backend.new c0).run (.reopen conf :: rest)).query (.latest none) = .ok ⟨all, false⟩ ∧ all.Nodup ∧
      ∀ e, e ∈ all ↔ Dict.get ((registrations rest).flatten.foldl MemoryBackend.latestStep []) e.type = some e := by
    obtain ⟨w, h, hc, hb⟩ := showsFound_reached hlaw rest hno ho hx hopen
    have hrel := h.rel
    generalize (Backend.new c0).run (.reopen conf :: rest) = b at hrel hopen
    cases hm : b.mem with
    | none => exact absurd hm hopen
    | some m =>
      obtain ⟨_, hr⟩ := hrel.opened m hm
      have hty : ∀ t e, Dict.get m.latest.events t = some e → e.type = t := fun t e he =>
        (hrel.okC.slotType t e ((hr.latest.events t e).1 he).1).1
      refine ⟨m.latest.events.map Prod.snd, by unfold Backend.query; rw [hm]; rfl, ?_, fun e => ?_⟩
      · refine List.Nodup.of_map (·.type) ?_
        have : (m.latest.events.map Prod.snd).map (·.type) = Dict.keys m.latest.events := by
          unfold Dict.keys
          rw [List.map_map]
          exact List.map_congr_left fun x hx => hty _ _ (Dict.get_of_mem hr.latest.nodEvents hx)
        rw [this]; exact hr.latest.nodEvents
      · rw [← hb.slot]
        constructor
        · intro he
          obtain ⟨x, hx', rfl⟩ := List.mem_map.1 he
          have hg := Dict.get_of_mem hr.latest.nodEvents hx'
          rw [hty _ _ hg]
          exact ((hr.latest.events _ _).1 hg).1
        · intro he
          have hs := hb.log e (hb.ok.slotType _ _ he).2
          have hg := (hr.latest.events e.type e).2 ⟨he, by rw [hc]; exact (hx e hs).2⟩
          exact List.mem_map.2 ⟨_, Dict.mem_of_get hg, rfl⟩
  obtain ⟨b, hb, hbnd, hbin⟩ : ∃ b, ((Backend.new c0).run (.reopen conf :: rest)).query (.latest types) = .ok ⟨b, false⟩ ∧ b.Nodup ∧
      ∀ e, e ∈ b ↔ e ∈ all ∧ ∀ l, types = some l → MatchesAny l e.type := by
    cases types with
    | none => exact ⟨all, hall, hnd, fun e => by simp⟩
    | some l =>
      obtain ⟨all', h1, h2⟩ := C25_filter c0 _ hlaws hopen
      rw [hall] at h1
      cases h1
      obtain ⟨b, h3, h4, h5⟩ := h2 l (hw l rfl) (fun h => hn (.inr (by rw [← hconf]; exact h)) l rfl)
      exact ⟨b, h3, h4, fun e => by rw [h5]; simp⟩
  exact ⟨a, b, ha, hb, (List.perm_ext_iff_of_nodup hand hbnd).2 fun e => by rw [hbin, hin, hmem]⟩

/-- Registrations of two servers, with equal timestamps, and a flush. -/
def exBoth : List BackendOp :=
  [.register [⟨⟨1, 1, 1⟩, ["a"], ⟨0, 0⟩, none, none⟩, ⟨⟨1, 1, 2⟩, ["b"], ⟨0, 0⟩, none, none⟩], .flush,
   .register [⟨⟨2, 7, 1⟩, ["a"], ⟨3, 0⟩, none, none⟩], .register [⟨⟨1, 2, 1⟩, ["a"], ⟨3, 0⟩, none, none⟩]]

/-- The hypotheses. -/
example : LookupLaw exKeep ∧ (∀ c, .reopen c ∉ exBoth) ∧ ((Backend.new exKeep).run (.reopen exKeep :: exBoth)).mem ≠ none ∧
    InOrder (registrations exBoth).flatten ∧
    ∀ x ∈ (registrations exBoth).flatten, Proper x ∧ Visible exKeep x := by
  refine ⟨exKeep_law, fun c h => by simp [exBoth] at h, nofun, ?_, ?_⟩
  · simp only [exBoth, registrations, List.filterMap_cons, List.filterMap_nil, InOrder, List.flatten_cons, List.flatten_nil, List.cons_append, List.nil_append, List.append_nil]
    repeat' first | apply List.Pairwise.cons | apply List.Pairwise.nil
    all_goals
      intro x hx
      simp only [List.mem_cons, List.not_mem_nil, or_false] at hx
      try rcases hx with rfl | rfl | rfl
      all_goals (try rcases hx with rfl | rfl)
      all_goals (try subst hx)
      all_goals simp [IdLt, TimeLe, TimeLt]
  · intro x hx
    simp only [exBoth, registrations, List.filterMap_cons, List.filterMap_nil, List.flatten_cons, List.flatten_nil, List.cons_append, List.nil_append,
      List.append_nil, List.mem_cons, List.not_mem_nil, or_false] at hx
    rcases hx with rfl | rfl | rfl | rfl <;> exact ⟨⟨by simp [IdLt], by simp [TimeLe, TimeLt, minTimestamp]⟩, rfl, rfl⟩

example : ∃ a b, ((MemoryBackend.new false true true).run (registrations exBoth)).query (.latest none) = .ok ⟨a, false⟩ ∧
    ((Backend.new exKeep).run (.reopen exKeep :: exBoth)).query (.latest none) = .ok ⟨b, false⟩ ∧
    a.map (·.id) = [⟨1, 2, 1⟩, ⟨1, 1, 2⟩] ∧ b.map (·.id) = [⟨1, 2, 1⟩, ⟨1, 1, 2⟩] := ⟨_, _, rfl, rfl, rfl, rfl⟩

/-- **C106 does not hold** if the clock of a server was set back: the LMDB backend does not store the event. -/
theorem C106_clock_refuted : ∃ (conf : Conf) (rest : List BackendOp) (a b : Event), LookupLaw conf ∧ (∀ c, .reopen c ∉ rest) ∧
    ((registrations rest).flatten.Pairwise fun x y => x.id.server = y.id.server ∧ IdLt x.id y.id) ∧
    (∀ x ∈ (registrations rest).flatten, Proper x ∧ Visible conf x) ∧ a.id ≠ b.id ∧
    ((MemoryBackend.new false true true).run (registrations rest)).query (.latest none) = .ok ⟨[a], false⟩ ∧
    ((Backend.new conf).run (.reopen conf :: rest)).query (.latest none) = .ok ⟨[b], false⟩ := by
  refine ⟨exKeep, [.register [⟨⟨1, 1, 1⟩, ["a"], ⟨5, 0⟩, none, none⟩, ⟨⟨1, 1, 2⟩, ["a"], ⟨4, 0⟩, none, none⟩]], _, _, exKeep_law, ?_, ?_, ?_, ?_, rfl, rfl⟩
  · intro c h; simp at h
  · simp [registrations, IdLt]
  · intro x hx
    simp only [registrations, List.filterMap_cons, List.filterMap_nil, List.flatten_cons, List.flatten_nil, List.append_nil, List.mem_cons, List.not_mem_nil, or_false] at hx
    rcases hx with rfl | rfl <;> exact ⟨⟨by simp [IdLt], by simp [TimeLe, TimeLt, minTimestamp]⟩, rfl, rfl⟩
  · decide

end HatEvent
