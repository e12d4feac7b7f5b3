import Verif.Proof.LmdbCleanup

/-! # Properties of the abstract store -/

namespace HatEvent
open Spec

/-- What holds of every store. -/
structure StoreOk (st : Store) : Prop where
  slotType : ∀ t e, st.slot t = some e → e.type = t ∧ e ∈ st.log
  entryId : ∀ k e, st.entry k = some e → k.id = e.id ∧ e ∈ st.log ∧
    (k.timestamp = e.timestamp ∨ e.sourceTimestamp = some k.timestamp)
  mono : st.log.Pairwise fun a b => a.id.server = b.id.server →
    IdLt a.id b.id ∧ TimeLe a.timestamp b.timestamp
  pos : ∀ e ∈ st.log, IdLt ⟨e.id.server, 0, 0⟩ e.id

theorem storeOk_empty : StoreOk .empty :=
  ⟨by simp [Store.empty], by simp [Store.empty], List.Pairwise.nil, by simp [Store.empty]⟩

theorem storeOk_drop {st : Store} (h : StoreOk st) (r : TimeseriesKey → Prop) :
    StoreOk (st.drop r) := by
  refine ⟨h.slotType, ?_, h.mono, h.pos⟩
  intro k e he
  simp only [Store.drop] at he
  split at he
  · simp at he
  · exact h.entryId k e he

theorem last_drop (st : Store) (r : TimeseriesKey → Prop) (s : Int) : (st.drop r).last s = st.last s := rfl

theorem last_append (st : Store) (e : Event) (slot : EventType → Option Event)
    (entry : TimeseriesKey → Option Event) (s : Int) :
    (Store.mk (st.log ++ [e]) slot entry).last s = if e.id.server = s then some e else st.last s := by
  unfold Store.last
  simp only [List.filter_append]
  by_cases h : e.id.server = s
  · simp [h]
  · simp [h]

theorem last_mem {st : Store} {s : Int} {e : Event} (h : st.last s = some e) :
    e ∈ st.log ∧ e.id.server = s := by
  have := List.mem_of_getLast? h
  simpa using this

theorem last_none {st : Store} {s : Int} (h : st.last s = none) :
    ∀ e ∈ st.log, e.id.server ≠ s := by
  intro e he hs
  unfold Store.last at h
  rw [List.getLast?_eq_none_iff, List.filter_eq_nil_iff] at h
  exact h e he (by simpa using hs)

/-- Events of the log are not after the last one of their server. -/
theorem le_last {st : Store} (h : StoreOk st) {e : Event} (he : e ∈ st.log) :
    ∃ l, st.last e.id.server = some l ∧ IdLe e.id l.id ∧ TimeLe e.timestamp l.timestamp := by
  cases hl : st.last e.id.server with
  | none => exact absurd rfl (last_none hl e he)
  | some l =>
    refine ⟨l, rfl, ?_⟩
    obtain ⟨h1, h2⟩ := last_mem hl
    unfold Store.last at hl
    have hp : (st.log.filter fun x => decide (x.id.server = e.id.server)).Pairwise
        (fun a b => a.id.server = b.id.server → IdLt a.id b.id ∧ TimeLe a.timestamp b.timestamp) :=
      h.mono.sublist List.filter_sublist
    have hm : e ∈ st.log.filter fun x => decide (x.id.server = e.id.server) := by simp [he]
    generalize hf : (st.log.filter fun x => decide (x.id.server = e.id.server)) = f at *
    obtain ⟨ys, rfl⟩ := List.getLast?_eq_some_iff.1 hl
    rcases List.mem_append.1 hm with hm | hm
    · have := (List.pairwise_append.1 hp).2.2 e hm l (by simp) h2.symm
      exact ⟨.inl this.1, this.2⟩
    · simp only [List.mem_singleton] at hm
      subst hm
      exact ⟨.inr rfl, .inr rfl⟩

theorem le_lastId {st : Store} (h : StoreOk st) {e : Event} (he : e ∈ st.log) :
    IdLe e.id (st.lastId e.id.server) := by
  obtain ⟨l, h1, h2, _⟩ := le_last h he
  unfold Store.lastId; rw [h1]; exact h2

/-- An admissible event is after all events of its server. -/
theorem admissible_new {conf : Conf} {st : Store} (h : StoreOk st) {e : Event}
    (ha : Admissible conf st e) {a : Event} (hm : a ∈ st.log) (hs : a.id.server = e.id.server) :
    IdLt a.id e.id ∧ TimeLe a.timestamp e.timestamp := by
  obtain ⟨l, h1, h2, h3⟩ := le_last h hm
  rw [hs] at h1
  unfold Admissible Store.lastId at ha
  rw [h1] at ha
  exact ⟨h2.trans_lt ha.1, h3.trans ha.2.1⟩

theorem admissible_fresh {conf : Conf} {st : Store} (h : StoreOk st) {e : Event}
    (ha : Admissible conf st e) {a : Event} (hm : a ∈ st.log) : a.id ≠ e.id := by
  intro he
  have := (admissible_new h ha hm (by rw [he])).1
  rw [he] at this
  exact IdLt.irrefl this

theorem admissible_pos {conf : Conf} {st : Store} (h : StoreOk st) {e : Event}
    (ha : Admissible conf st e) : IdLt ⟨e.id.server, 0, 0⟩ e.id := by
  cases hl : st.last e.id.server with
  | none =>
    have := ha.1
    unfold Store.lastId at this
    rw [hl] at this; exact this
  | some l =>
    obtain ⟨h1, h2⟩ := last_mem hl
    have h3 := h.pos l h1
    rw [h2] at h3
    exact h3.trans (admissible_new h ha h1 h2).1

open Classical in
theorem offer_stored {conf : Conf} {parts : Dict Int Partition} {st : Store} {e : Event}
    (h : Admissible conf st e ∧ (ToLatest conf st e ∨ ∃ k, InSeries parts e k)) :
    st.offer conf parts e =
      { log := st.log ++ [e]
        slot := fun t => if t = e.type ∧ ToLatest conf st e then some e else st.slot t
        entry := fun k => if InSeries parts e k then some e else st.entry k } := if_pos h

theorem storeOk_offer {conf : Conf} {parts : Dict Int Partition} {st : Store} (h : StoreOk st)
    (e : Event) : StoreOk (st.offer conf parts e) := by
  unfold Store.offer
  split
  · next hc =>
    refine ⟨?_, ?_, ?_, ?_⟩
    · intro t x hx
      simp only at hx
      split at hx
      · next ht => cases hx; exact ⟨ht.1.symm, by simp⟩
      · have := h.slotType t x hx; exact ⟨this.1, by simp [this.2]⟩
    · intro k x hx
      simp only at hx
      split at hx
      · next hk =>
        cases hx
        obtain ⟨h1, _, _, _, h4⟩ := hk
        exact ⟨h1, by simp, h4.imp (·.2) (·.2)⟩
      · have := h.entryId k x hx; exact ⟨this.1, by simp [this.2.1], this.2.2⟩
    · rw [List.pairwise_append]
      refine ⟨h.mono, by simp, ?_⟩
      intro a ha b hb hs
      simp only [List.mem_singleton] at hb
      subst hb
      exact admissible_new h hc.1 ha hs
    · intro x hx
      rcases List.mem_append.1 hx with hx | hx
      · exact h.pos x hx
      · simp only [List.mem_singleton] at hx; subst hx; exact admissible_pos h hc.1
  · exact h

theorem storeOk_offers {conf : Conf} {parts : Dict Int Partition} (es : List Event) {st : Store}
    (h : StoreOk st) : StoreOk (es.foldl (Store.offer conf parts) st) := by
  induction es generalizing st with
  | nil => exact h
  | cons e es ih => exact ih (storeOk_offer h e)

/-- Events are told apart by their identifiers. -/
theorem storeOk_unique {st : Store} (h : StoreOk st) {a b : Event} (ha : a ∈ st.log) (hb : b ∈ st.log)
    (he : a.id = b.id) : a = b := by
  have hs : a.id.server = b.id.server := by rw [he]
  by_contra hne
  have key : ∀ (l : List Event), l.Pairwise (fun a b => a.id.server = b.id.server →
      IdLt a.id b.id ∧ TimeLe a.timestamp b.timestamp) → a ∈ l → b ∈ l → False := by
    intro l hp ha hb
    induction l with
    | nil => simp at ha
    | cons x l ih =>
      obtain ⟨h1, h2⟩ := List.pairwise_cons.1 hp
      rcases List.mem_cons.1 ha with rfl | ha
      · rcases List.mem_cons.1 hb with rfl | hb
        · exact hne rfl
        · exact (h1 b hb hs).1.ne he
      · rcases List.mem_cons.1 hb with hx | hb
        · subst hx
          exact (h1 a (by assumption) hs.symm).1.ne he.symm
        · exact ih h2 ha hb
  exact key _ h.mono ha hb

/-- The log of a history only grows, apart from what was not flushed. -/
theorem log_offer {conf : Conf} {parts : Dict Int Partition} (st : Store) (e : Event) :
    (st.offer conf parts e).log = st.log ∨ (st.offer conf parts e).log = st.log ++ [e] := by
  unfold Store.offer
  split
  · exact .inr rfl
  · exact .inl rfl

end HatEvent
