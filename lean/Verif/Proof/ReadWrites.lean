import Verif.Proof.LmdbReturned

/-!
# Latest events and the events of one server that are registered in order
-/

namespace HatEvent
open Spec

/-- The event or one that replaced it is kept as the latest of its type. -/
def Shows (conf : Conf) (st : Store) (e : Event) : Prop :=
  ∃ s, st.slot e.type = some s ∧ Visible conf s ∧ ¬ Newer e s ∧ TimeLe e.timestamp s.timestamp

/-- A further event, later than `e` if it is of the same server. -/
theorem shows_offer {conf : Conf} {parts : Dict Int Partition} {st : Store} (hs : StoreOk st) {e : Event}
    (h : Shows conf st e) (x : Event) (hx : x.id.server = e.id.server → IdLt e.id x.id) :
    Shows conf (st.offer conf parts x) e := by
  unfold Store.offer
  split
  swap
  · exact h
  next hc =>
  obtain ⟨s, h1, h2, h3, h4⟩ := h
  by_cases hl : e.type = x.type ∧ ToLatest conf st x
  · have ht : TimeLe s.timestamp x.timestamp := by
      have := hl.2.2 s (by rw [← hl.1]; exact h1) h2
      unfold Newer at this
      split at this
      · next hsrv => exact (admissible_new hs hc.1 (hs.slotType _ _ h1).2 hsrv).2
      · exact not_timeLt.1 this
    refine ⟨x, by simp only [if_pos hl], ⟨hc.1.2.2, hl.2.1⟩, ?_, h4.trans ht⟩
    unfold Newer
    split
    · next hsrv => exact (hx hsrv.symm).asymm
    · exact not_timeLt.2 (h4.trans ht)
  · exact ⟨s, by simp only [if_neg hl]; exact h1, h2, h3, h4⟩

/-- An event that is later than all of its server. -/
theorem shows_new {conf : Conf} {parts : Dict Int Partition} {st : Store} (hs : StoreOk st) (e : Event)
    (hv : Visible conf e) (hi : IdLt ⟨e.id.server, 0, 0⟩ e.id) (ht : TimeLe minTimestamp e.timestamp)
    (hlog : ∀ x ∈ st.log, x.id.server = e.id.server → IdLt x.id e.id ∧ TimeLe x.timestamp e.timestamp) :
    Shows conf (st.offer conf parts e) e := by
  have hadm : Admissible conf st e := by
    unfold Admissible Store.lastId
    cases hl : st.last e.id.server with
    | none => exact ⟨hi, ht, hv.1⟩
    | some l =>
      obtain ⟨h1, h2⟩ := last_mem hl
      exact ⟨(hlog l h1 h2).1, (hlog l h1 h2).2, hv.1⟩
  by_cases hl : ToLatest conf st e
  · unfold Store.offer
    rw [if_pos ⟨hadm, .inl hl⟩]
    refine ⟨e, by simp only [if_pos (And.intro rfl hl)], hv, ?_, .inr rfl⟩
    unfold Newer; rw [if_pos rfl]; exact IdLt.irrefl
  · have : ∃ p, st.slot e.type = some p ∧ Visible conf p ∧ Newer p e := by
      by_contra hno
      exact hl ⟨hv.2, fun p hp hvp hnp => hno ⟨p, hp, hvp, hnp⟩⟩
    obtain ⟨p, p1, p2, p3⟩ := this
    have hn : ¬ p.id.server = e.id.server := by
      intro hsrv
      unfold Newer at p3
      rw [if_pos hsrv] at p3
      exact (hlog p (hs.slotType _ _ p1).2 hsrv).1.asymm p3
    have hlt : TimeLt e.timestamp p.timestamp := by
      unfold Newer at p3
      rwa [if_neg hn] at p3
    refine ⟨p, ?_, p2, ?_, .inl hlt⟩
    · unfold Store.offer
      split
      · simp only [if_neg (fun hh : e.type = e.type ∧ ToLatest conf st e => hl hh.2)]; exact p1
      · exact p1
    · unfold Newer
      rw [if_neg (fun hh => hn hh.symm), not_timeLt]
      exact .inl hlt

/-- What is known of a store after the events `done` of a server: they are kept or replaced, and what the store
has of the server are they and `base`. -/
structure Served (conf : Conf) (server : Int) (base : List Event) (st : Store) (done : List Event) : Prop where
  ok : StoreOk st
  log : ∀ x ∈ st.log, x.id.server = server → x ∈ base ∨ x ∈ done
  shown : ∀ e ∈ done, Visible conf e → Shows conf st e

/-- The events of a server are in order, and later than those of `base`. -/
structure Onward (server : Int) (base : List Event) (l : List Event) : Prop where
  sorted : l.Pairwise fun a b => IdLt a.id b.id ∧ TimeLe a.timestamp b.timestamp
  owner : ∀ e ∈ l, e.id.server = server
  pos : ∀ e ∈ l, IdLt ⟨server, 0, 0⟩ e.id ∧ TimeLe minTimestamp e.timestamp
  after : ∀ e ∈ l, ∀ x ∈ base, x.id.server = server → IdLt x.id e.id ∧ TimeLe x.timestamp e.timestamp

theorem Served.offer {conf : Conf} {parts : Dict Int Partition} {server : Int} {base done : List Event} {st : Store}
    (h : Served conf server base st done) (x : Event)
    (ho : Onward server base (done ++ [x].filter fun e => e.id.server = server)) :
    Served conf server base (st.offer conf parts x) (done ++ [x].filter fun e => e.id.server = server) := by
  by_cases hx : x.id.server = server
  · have hf : [x].filter (fun e => e.id.server = server) = [x] := by simp [hx]
    rw [hf] at ho ⊢
    refine ⟨storeOk_offer h.ok x, ?_, ?_⟩
    · intro y hy hys
      rcases log_offer (conf := conf) (parts := parts) st x with hl | hl
      · rw [hl] at hy
        exact (h.log y hy hys).imp_right (List.mem_append_left _)
      · rw [hl] at hy
        rcases List.mem_append.1 hy with hy | hy
        · exact (h.log y hy hys).imp_right (List.mem_append_left _)
        · exact .inr (List.mem_append_right _ hy)
    · intro e he hv
      rcases List.mem_append.1 he with he | he
      · refine shows_offer h.ok (h.shown e he hv) x fun _ => ?_
        exact ((List.pairwise_append.1 ho.sorted).2.2 e he x (by simp)).1
      · obtain rfl := List.mem_singleton.1 he
        have hp := ho.pos e (by simp)
        refine shows_new h.ok e hv (by rw [hx]; exact hp.1) hp.2 fun y hy hys => ?_
        rcases h.log y hy (hys.trans hx) with hb | hd
        · exact ho.after e (by simp) y hb (hys.trans hx)
        · exact (List.pairwise_append.1 ho.sorted).2.2 y hd e (by simp)
  · have hf : [x].filter (fun e => e.id.server = server) = [] := by simp [hx]
    rw [hf, List.append_nil] at ho ⊢
    refine ⟨storeOk_offer h.ok x, ?_, ?_⟩
    · intro y hy hys
      rcases log_offer (conf := conf) (parts := parts) st x with hl | hl
      · rw [hl] at hy
        exact h.log y hy hys
      · rw [hl] at hy
        rcases List.mem_append.1 hy with hy | hy
        · exact h.log y hy hys
        · rw [List.mem_singleton.1 hy] at hys; exact absurd hys hx
    · intro e he hv
      refine shows_offer h.ok (h.shown e he hv) x fun hs => ?_
      exact absurd (hs.trans (ho.owner e he)) hx

theorem Onward.prefix {server : Int} {base l l' : List Event} (h : Onward server base (l ++ l')) :
    Onward server base l :=
  ⟨(List.pairwise_append.1 h.sorted).1, fun e he => h.owner e (List.mem_append_left _ he),
    fun e he => h.pos e (List.mem_append_left _ he), fun e he => h.after e (List.mem_append_left _ he)⟩

theorem Served.offers {conf : Conf} {parts : Dict Int Partition} {server : Int} {base : List Event}
    (es : List Event) {done : List Event} {st : Store} (h : Served conf server base st done)
    (ho : Onward server base (done ++ es.filter fun e => e.id.server = server)) :
    Served conf server base (es.foldl (Store.offer conf parts) st)
      (done ++ es.filter fun e => e.id.server = server) := by
  induction es generalizing st done with
  | nil => simpa using h
  | cons x es ih =>
    have hf : (x :: es).filter (fun e => e.id.server = server) =
        [x].filter (fun e => e.id.server = server) ++ es.filter fun e => e.id.server = server := by
      rw [← List.filter_append]; rfl
    rw [hf, ← List.append_assoc] at ho ⊢
    exact ih (h.offer x ho.prefix) ho

theorem Served.drop {conf : Conf} {server : Int} {base done : List Event} {st : Store}
    (h : Served conf server base st done) (r : TimeseriesKey → Prop) : Served conf server base (st.drop r) done :=
  ⟨storeOk_drop h.ok r, h.log, h.shown⟩

theorem reached_step {conf : Conf} {ops : List BackendOp} {w : World} (h : Reached conf ops w) (op : BackendOp)
    (hl : LookupLaws ops) : ∃ w', Step w op w' ∧ Reached conf (ops ++ [op]) w' := by
  have hlc : ((Backend.new conf).run ops).mem ≠ none → LookupLaw ((Backend.new conf).run ops).conf :=
    fun hm => hl _ (run_conf conf ops hm)
  obtain ⟨w', h4, h5⟩ := step_rel h.rel hlc op
  refine ⟨w', h4, .snoc h.run h4 (by rw [run_snoc]; exact h5.isOpen), by rw [run_snoc]; exact h5, ?_⟩
  rw [run_snoc]
  exact step_added h.rel hlc h4 h5 h.added

end HatEvent
