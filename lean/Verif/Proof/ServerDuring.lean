import Verif.Proof.PagesDuring
import Verif.Proof.Duo

/-!
# Lemmas about paging through a server query while the database changes
-/

namespace HatEvent
open Spec

/-- Nothing that was flushed came back to a place: pending events only supersede it. -/
def Behind (w : World) : Prop :=
  ∀ e ∈ w.flushed.log, (∀ t, w.cur.slot t = some e → w.flushed.slot t = some e) ∧
    ∀ k, w.cur.entry k = some e → w.flushed.entry k = some e

/-- A stored event does not get new places. -/
theorem offer_back {conf : Conf} {parts : Dict Int Partition} {st : Store} (hs : StoreOk st) {e : Event} (he : e ∈ st.log) (x : Event) :
    e ∈ (st.offer conf parts x).log ∧ (∀ t, (st.offer conf parts x).slot t = some e → st.slot t = some e) ∧
      ∀ k, (st.offer conf parts x).entry k = some e → st.entry k = some e := by
  unfold Store.offer
  split
  swap
  · exact ⟨he, fun _ h => h, fun _ h => h⟩
  next hc =>
  have hne : e ≠ x := fun h => admissible_fresh hs hc.1 he (by rw [h])
  refine ⟨by simp [he], ?_, ?_⟩
  · intro t ht
    dsimp only at ht
    split at ht
    · exact absurd (Option.some.inj ht).symm hne
    · exact ht
  · intro k hk
    dsimp only at hk
    split at hk
    · exact absurd (Option.some.inj hk).symm hne
    · exact hk

theorem offers_back {conf : Conf} {parts : Dict Int Partition} (es : List Event) {st : Store} (hs : StoreOk st) {e : Event} (he : e ∈ st.log) :
    e ∈ (es.foldl (Store.offer conf parts) st).log ∧ (∀ t, (es.foldl (Store.offer conf parts) st).slot t = some e → st.slot t = some e) ∧
      ∀ k, (es.foldl (Store.offer conf parts) st).entry k = some e → st.entry k = some e := by
  induction es generalizing st with
  | nil => exact ⟨he, fun _ h => h, fun _ h => h⟩
  | cons x es ih =>
    obtain ⟨h1, h2, h3⟩ := offer_back (conf := conf) (parts := parts) hs he x
    obtain ⟨h4, h5, h6⟩ := ih (storeOk_offer hs x) h1
    exact ⟨h4, fun t ht => h2 t (h5 t ht), fun k hk => h3 k (h6 k hk)⟩

theorem behind_run {conf : Conf} {ops : List BackendOp} {w : World} (h : Run conf ops w) : Behind w := by
  induction h with
  | nil => intro e he; simp [World.new, Store.empty] at he
  | @snoc ops w op w' hr hst _ ih =>
    have hok := run_ok hr
    cases hst with
    | closed a b => exact ih
    | @register es a =>
      intro e he
      obtain ⟨_, h2, h3⟩ := offers_back (conf := w.conf) (parts := w.partitions) es hok.okC (hok.pre.subset he)
      exact ⟨fun t ht => (ih e he).1 t (h2 t ht), fun k hk => (ih e he).2 k (h3 k hk)⟩
    | touch a => exact ih
    | flush a => exact fun e _ => ⟨fun _ h => h, fun _ h => h⟩
    | flushFail a => exact fun e _ => ⟨fun _ h => h, fun _ h => h⟩
    | cleanup r a b =>
      intro e he
      refine ⟨(ih e he).1, ?_⟩
      intro k hk
      obtain ⟨h1, h2⟩ := drop_entry.1 hk
      exact drop_entry.2 ⟨h1, (ih e he).2 k h2⟩
    | cleanupFail a => exact fun e _ => ⟨fun _ h => h, fun _ h => h⟩
    | reopen a => exact fun e _ => ⟨fun _ h => h, fun _ h => h⟩
    | reopenFail => exact fun e _ => ⟨fun _ h => h, fun _ h => h⟩

/-- The events that were stored, or that were flushed. -/
def storedLog (w : World) (persisted : Bool) : List Event := if persisted then w.flushed.log else w.cur.log

theorem serverHeld_log {conf : Conf} {ops : List BackendOp} {w : World} (hr : Run conf ops w) {persisted : Bool} {e : Event}
    (h : ServerHeld w persisted e) : e ∈ storedLog w persisted ∧ e ∈ w.cur.log := by
  have hok := run_ok hr
  have hcur : e ∈ w.cur.log := by
    rcases h with h | ⟨_, h⟩
    · exact hok.pre.subset (held_log hok.okF h)
    · exact held_log hok.okC h
  refine ⟨?_, hcur⟩
  unfold storedLog
  cases persisted with
  | false => exact hcur
  | true =>
    rcases h with h | ⟨h, _⟩
    · exact held_log hok.okF h
    · cases h

/-- What happened later: stored events did not come back. -/
structure Onwards (persisted : Bool) (w w' : World) : Prop where
  log : ∀ e ∈ storedLog w persisted, e ∈ storedLog w' persisted
  back : ∀ e ∈ storedLog w persisted, ServerHeld w' persisted e → ServerHeld w persisted e

theorem Onwards.trans {persisted : Bool} {w w' w'' : World} (h1 : Onwards persisted w w') (h2 : Onwards persisted w' w'') :
    Onwards persisted w w'' :=
  ⟨fun e he => h2.log e (h1.log e he), fun e he h => h1.back e he (h2.back e (h1.log e he) h)⟩

theorem onwards_step {conf : Conf} {ops : List BackendOp} {w w' : World} (hr : Run conf ops w) {op : BackendOp} (hst : Step w op w')
    (hno : ∀ c, op ≠ .reopen c) (hw : w'.isOpen = true) (persisted : Bool) : Onwards persisted w w' := by
  have hok := run_ok hr
  have hb := behind_run hr
  cases hst with
  | closed a b => rw [hw] at a; cases a
  | @register es a =>
    have key : ∀ e ∈ w.cur.log, e ∈ (es.foldl (Store.offer w.conf w.partitions) w.cur).log ∧
        ((es.foldl (Store.offer w.conf w.partitions) w.cur).Held e → w.cur.Held e) := by
      intro e he
      obtain ⟨h1, h2, h3⟩ := offers_back (conf := w.conf) (parts := w.partitions) es hok.okC he
      refine ⟨h1, ?_⟩
      rintro (h | ⟨k, h⟩)
      · exact .inl (h2 _ h)
      · exact .inr ⟨k, h3 k h⟩
    cases persisted with
    | true =>
      refine ⟨fun e he => he, ?_⟩
      rintro e _ (h | ⟨h, _⟩)
      · exact .inl h
      · cases h
    | false =>
      refine ⟨fun e he => (key e he).1, ?_⟩
      rintro e he (h | ⟨_, h⟩)
      · exact .inl h
      · exact .inr ⟨rfl, (key e he).2 h⟩
  | touch a => exact ⟨fun _ h => h, fun _ _ h => h⟩
  | flush a =>
    cases persisted with
    | true =>
      refine ⟨fun e he => hok.pre.subset he, ?_⟩
      rintro e he (h | ⟨h, _⟩)
      · rcases h with h | ⟨k, h⟩
        · exact .inl (.inl ((hb e he).1 _ h))
        · exact .inl (.inr ⟨k, (hb e he).2 k h⟩)
      · cases h
    | false =>
      refine ⟨fun e he => he, ?_⟩
      rintro e he (h | ⟨_, h⟩)
      · exact .inr ⟨rfl, h⟩
      · exact .inr ⟨rfl, h⟩
  | flushFail a => cases hw
  | cleanup r a b =>
    have key : ∀ (st : Store) e, (st.drop r).Held e → st.Held e := by
      rintro st e (h | ⟨k, h⟩)
      · exact .inl h
      · exact .inr ⟨k, (drop_entry.1 h).2⟩
    refine ⟨fun e he => by cases persisted <;> exact he, ?_⟩
    rintro e _ (h | ⟨h1, h⟩)
    · exact .inl (key _ _ h)
    · exact .inr ⟨h1, key _ _ h⟩
  | cleanupFail a => cases hw
  | reopen a => exact absurd rfl (hno _)
  | reopenFail => exact absurd rfl (hno _)

theorem onwards_more {conf : Conf} {ops : List BackendOp} (hl : LookupLaws ops) {w : World} (h : Reached conf ops w)
    (hr : WorldRefs ((Backend.new conf).run ops) w) (persisted : Bool) (more : List BackendOp) (hno : ∀ c, .reopen c ∉ more)
    (hopen : ((Backend.new conf).run (ops ++ more)).mem ≠ none) :
    ∃ w', Reached conf (ops ++ more) w' ∧ WorldRefs ((Backend.new conf).run (ops ++ more)) w' ∧ Onwards persisted w w' := by
  induction more using List.reverseRecOn with
  | nil => exact ⟨w, by simpa using h, by simpa using hr, fun _ h => h, fun _ _ h => h⟩
  | append_singleton more op ih =>
    rw [← List.append_assoc] at hopen ⊢
    have hop : ∀ c, op ≠ .reopen c := fun c hc => hno c (by simp [hc])
    have hno' : ∀ c, .reopen c ∉ more := fun c hc => hno c (by simp [hc])
    obtain ⟨w1, h1, h2, h3⟩ := ih hno' (open_before hop hopen)
    obtain ⟨w2, h4, h5, h6⟩ := reached_refs_step h1 h2 op (by
      intro c hc
      rcases List.mem_append.1 hc with hc | hc
      · exact hl c hc
      · exact absurd hc (hno' c)) (fun c hc => absurd hc (hop c))
    have hw : w2.isOpen = true := by rw [h5.rel.isOpen, Option.isSome_iff_ne_none]; exact hopen
    exact ⟨w2, h5, h6, h3.trans (onwards_step h1.run h4 hop hw persisted)⟩

/-- Pages of a server query while the database changes.  `goes ops more` are
histories `ops` and further actions `more` in which stored events do not come back. -/
theorem server_pages_going {conf : Conf} {p : QueryServerParams} {asked : List BackendOp → Prop}
    {ops : List BackendOp} {i : Option EventId} {more : List BackendOp} {all : List Event}
    (goes : List BackendOp → List BackendOp → Prop)
    (hrest : ∀ ops between later, goes ops (between ++ later) → goes (ops ++ between) later)
    (hgo : ∀ ops between later, goes ops (between ++ later) → ((Backend.new conf).run (ops ++ between)).mem ≠ none →
      ∀ w, Reached conf ops w → WorldRefs ((Backend.new conf).run ops) w →
      ∃ w', Reached conf (ops ++ between) w' ∧ WorldRefs ((Backend.new conf).run (ops ++ between)) w' ∧ Onwards p.persisted w w')
    (h : PagesDuring (fun ops i => ((Backend.new conf).run ops).query (.server { p with lastEventId := i })) asked ops i more all) :
    goes ops more → (∀ es, .register es ∈ ops ++ more → ∀ e ∈ es, IdRange e.id) → ServerParamsOk { p with lastEventId := i } →
    ∀ w, Reached conf ops w → WorldRefs ((Backend.new conf).run ops) w →
    ∃ w', Reached conf (ops ++ more) w' ∧ WorldRefs ((Backend.new conf).run (ops ++ more)) w' ∧ Onwards p.persisted w w' ∧
      all.Pairwise (fun a b => IdLt a.id b.id) ∧
      (∀ e ∈ all, e.id.server = p.serverId ∧ (∀ l, i = some l → IdLt l e.id) ∧
        ∃ mid rest w1, more = mid ++ rest ∧ Run conf (ops ++ mid) w1 ∧ ServerHeld w1 p.persisted e) ∧
      ∀ e, ServerHeld w p.persisted e → ServerHeld w' p.persisted e → e.id.server = p.serverId →
        (∀ l, i = some l → IdLt l e.id) → e ∈ all := by
  induction h with
  | @last ops i events _ hq =>
    intro _ hid hp w hw hr
    have hopen := query_open hq
    simp only [List.append_nil] at hid ⊢
    obtain ⟨full, f1, f2⟩ := server_reached hw hr hopen _ hp
    have hpg := Except.ok.inj (hq.symm.trans f2)
    unfold page at hpg
    obtain ⟨rfl, hlen⟩ := QueryResult.mk.inj hpg
    have hall : full.take (serverPage p.maxResults) = full := by
      have := of_decide_eq_false hlen.symm
      exact List.take_of_length_le (by simpa using this)
    rw [hall]
    refine ⟨w, hw, hr, ⟨fun _ h => h, fun _ _ h => h⟩, f1.sorted, ?_, ?_⟩
    · intro e he
      obtain ⟨h1, h2, h3⟩ := (f1.mem e).1 he
      exact ⟨h2, h3, [], [], w, rfl, by simpa using hw.run, h1⟩
    · intro e h1 _ h2 h3
      exact (f1.mem e).2 ⟨h1, h2, h3⟩
  | @more ops i events x between later rest _ hq hlast hnext ih =>
    intro hgoes hid hp w hw hr
    rw [← List.append_assoc] at hid ⊢
    have hopen0 := query_open hq
    obtain ⟨full, f1, f2⟩ := server_reached hw hr hopen0 _ hp
    have hpg := Except.ok.inj (hq.symm.trans f2)
    unfold page at hpg
    obtain ⟨hev, -⟩ := QueryResult.mk.inj hpg
    obtain ⟨init, rfl⟩ := List.getLast?_eq_some_iff.1 hlast
    have hfull : full = init ++ x :: full.drop (serverPage p.maxResults) := by
      conv => lhs; rw [← List.take_append_drop (serverPage p.maxResults) full, ← hev]
      simp
    generalize full.drop (serverPage p.maxResults) = tail at hfull
    subst hfull
    have f3 := f1.mem
    have f4 := f1.sorted
    rw [List.pairwise_append, List.pairwise_cons] at f4
    obtain ⟨x1, x2, x3⟩ := (f3 x).1 (by simp)
    have hxr : IdRange x.id := by
      obtain ⟨es, e1, e2⟩ := (run_ok hw.run).logC x (serverHeld_log hw.run x1).2
      exact hid es (by simp [e1]) x e2
    obtain ⟨w1, g1, g2, g3⟩ := hgo ops between later hgoes (pages_open hnext) w hw hr
    obtain ⟨w2, i1, i1', i2, i3, i4, i5⟩ := ih (hrest _ _ _ hgoes) hid
      ⟨by intro l hl; cases hl; exact ⟨x2, hxr⟩, hp.server, hp.max⟩ w1 g1 g2
    refine ⟨w2, i1, i1', g3.trans i2, ?_, ?_, ?_⟩
    · rw [List.append_assoc, List.pairwise_append]
      refine ⟨f4.1, List.pairwise_cons.2 ⟨fun e he => (i4 e he).2.1 _ rfl, i3⟩, ?_⟩
      intro a ha b hb
      have hax := f4.2.2 a ha x (by simp)
      rcases List.mem_cons.1 hb with rfl | hb
      · exact hax
      · exact hax.trans ((i4 b hb).2.1 _ rfl)
    · intro e he
      rcases List.mem_append.1 he with he | he
      · have he' : e ∈ init ++ x :: tail := by
          rcases List.mem_append.1 he with he | he
          · simp [he]
          · simp at he; simp [he]
        obtain ⟨h1, h2, h3⟩ := (f3 e).1 he'
        exact ⟨h2, h3, [], between ++ later, w, rfl, by simpa using hw.run, h1⟩
      · obtain ⟨h1, h2, mid, rest', w3, h3, h4, h5⟩ := i4 e he
        exact ⟨h1, fun l hl => (x3 l hl).trans (h2 _ rfl), between ++ mid, rest', w3, by rw [h3]; simp, by rw [← List.append_assoc]; exact h4, h5⟩
    · intro e h1 h2 h3 h4
      have hm1 := g3.log e (serverHeld_log hw.run h1).1
      rcases List.mem_append.1 ((f3 e).2 ⟨h1, h3, h4⟩) with h5 | h5
      · simp [h5]
      · rcases List.mem_cons.1 h5 with rfl | h5
        · simp
        · refine List.mem_append_right _ (i5 e (i2.back e hm1 h2) h2 h3 ?_)
          intro l hl
          cases hl
          exact f4.2.1.1 e h5

/-- Pages of a server query while the database changes, without a restart. -/
theorem server_pages_during {conf : Conf} {p : QueryServerParams} {asked : List BackendOp → Prop}
    {ops : List BackendOp} {i : Option EventId} {more : List BackendOp} {all : List Event}
    (h : PagesDuring (fun ops i => ((Backend.new conf).run ops).query (.server { p with lastEventId := i })) asked ops i more all)
    (hl : LookupLaws ops) (hid : ∀ es, .register es ∈ ops ++ more → ∀ e ∈ es, IdRange e.id) (hno : ∀ c, .reopen c ∉ more)
    (hp : ServerParamsOk { p with lastEventId := i }) (w : World) (hw : Reached conf ops w)
    (hr : WorldRefs ((Backend.new conf).run ops) w) :
    ∃ w', Reached conf (ops ++ more) w' ∧ WorldRefs ((Backend.new conf).run (ops ++ more)) w' ∧ Onwards p.persisted w w' ∧
      all.Pairwise (fun a b => IdLt a.id b.id) ∧
      (∀ e ∈ all, e.id.server = p.serverId ∧ (∀ l, i = some l → IdLt l e.id) ∧
        ∃ mid rest w1, more = mid ++ rest ∧ Run conf (ops ++ mid) w1 ∧ ServerHeld w1 p.persisted e) ∧
      ∀ e, ServerHeld w p.persisted e → ServerHeld w' p.persisted e → e.id.server = p.serverId →
        (∀ l, i = some l → IdLt l e.id) → e ∈ all := by
  refine server_pages_going (fun ops more => LookupLaws ops ∧ ∀ c, .reopen c ∉ more) ?_ ?_ h ⟨hl, hno⟩ hid hp w hw hr
  · rintro ops between later ⟨h1, h2⟩
    refine ⟨?_, fun c hc => h2 c (by simp [hc])⟩
    intro c hc
    rcases List.mem_append.1 hc with hc | hc
    · exact h1 c hc
    · exact absurd (List.mem_append_left _ hc) (h2 c)
  · rintro ops between later ⟨h1, h2⟩ hopen w hw hr
    exact onwards_more h1 hw hr p.persisted between (fun c hc => h2 c (by simp [hc])) hopen

/-- Nothing that was flushed and is gone comes back, also over restarts. -/
theorem onwards_persisted {conf : Conf} {ops : List BackendOp} {w w' : World} (hr : Run conf ops w) {op : BackendOp} (hst : Step w op w') :
    Onwards true w w' := by
  have hok := run_ok hr
  have hb := behind_run hr
  have same : ∀ w' : World, w'.flushed = w.flushed → Onwards true w w' := by
    intro w' h
    refine ⟨fun e he => by simpa [storedLog, h] using he, ?_⟩
    rintro e _ (h1 | ⟨h1, _⟩)
    · exact .inl (h ▸ h1)
    · cases h1
  cases hst with
  | closed a b => exact same _ rfl
  | register a => exact same _ rfl
  | touch a => exact same _ rfl
  | flush a =>
    refine ⟨fun e he => hok.pre.subset he, ?_⟩
    rintro e he (h | ⟨h, _⟩)
    · rcases h with h | ⟨k, h⟩
      · exact .inl (.inl ((hb e he).1 _ h))
      · exact .inl (.inr ⟨k, (hb e he).2 k h⟩)
    · cases h
  | flushFail a => exact same _ rfl
  | cleanup r a b =>
    refine ⟨fun e he => he, ?_⟩
    rintro e _ (h | ⟨h1, h⟩)
    · rcases h with h | ⟨k, h⟩
      · exact .inl (.inl h)
      · exact .inl (.inr ⟨k, (drop_entry.1 h).2⟩)
    · cases h1
  | cleanupFail a => exact same _ rfl
  | reopen a => exact same _ rfl
  | reopenFail => exact same _ rfl

theorem onwards_restarts {conf : Conf} {ops : List BackendOp} {w : World} (h : Reached conf ops w)
    (hr : WorldRefs ((Backend.new conf).run ops) w) (more : List BackendOp) (hl : LookupLaws (ops ++ more)) (hk : KeepsAccepted (ops ++ more)) :
    ∃ w', Reached conf (ops ++ more) w' ∧ WorldRefs ((Backend.new conf).run (ops ++ more)) w' ∧ Onwards true w w' := by
  induction more using List.reverseRecOn with
  | nil => exact ⟨w, by simpa using h, by simpa using hr, fun _ h => h, fun _ _ h => h⟩
  | append_singleton more op ih =>
    rw [← List.append_assoc] at hl hk ⊢
    obtain ⟨k1, k2⟩ := keepsAccepted_snoc hk
    have hl1 : LookupLaws (ops ++ more) := fun c hc => hl c (by rw [List.mem_append]; exact .inl hc)
    obtain ⟨w1, h1, h2, h3⟩ := ih hl1 k1
    obtain ⟨w2, h4, h5, h6⟩ := reached_refs_step h1 h2 op hl1 (by
      rintro c rfl t e he
      obtain ⟨c', hc', hv⟩ := (run_ok h1.run).shownF t e he
      exact k2 c' c hc' rfl e hv)
    exact ⟨w2, h5, h6, h3.trans (onwards_persisted h1.run h4)⟩

theorem keepsAccepted_left {a b : List BackendOp} (h : KeepsAccepted (a ++ b)) : KeepsAccepted a := by
  unfold KeepsAccepted at h ⊢
  rw [List.filterMap_append, List.pairwise_append] at h
  exact h.1

/-- Pages of persisted events of a server while anything happens, including restarts. -/
theorem server_pages_restarts {conf : Conf} {p : QueryServerParams} (hpers : p.persisted = true) {asked : List BackendOp → Prop}
    {ops : List BackendOp} {i : Option EventId} {more : List BackendOp} {all : List Event}
    (h : PagesDuring (fun ops i => ((Backend.new conf).run ops).query (.server { p with lastEventId := i })) asked ops i more all)
    (hl : LookupLaws (ops ++ more)) (hk : KeepsAccepted (ops ++ more))
    (hid : ∀ es, .register es ∈ ops ++ more → ∀ e ∈ es, IdRange e.id)
    (hp : ServerParamsOk { p with lastEventId := i }) (w : World) (hw : Reached conf ops w)
    (hr : WorldRefs ((Backend.new conf).run ops) w) :
    ∃ w', Reached conf (ops ++ more) w' ∧ WorldRefs ((Backend.new conf).run (ops ++ more)) w' ∧ Onwards p.persisted w w' ∧
      all.Pairwise (fun a b => IdLt a.id b.id) ∧
      (∀ e ∈ all, e.id.server = p.serverId ∧ (∀ l, i = some l → IdLt l e.id) ∧
        ∃ mid rest w1, more = mid ++ rest ∧ Run conf (ops ++ mid) w1 ∧ ServerHeld w1 p.persisted e) ∧
      ∀ e, ServerHeld w p.persisted e → ServerHeld w' p.persisted e → e.id.server = p.serverId →
        (∀ l, i = some l → IdLt l e.id) → e ∈ all := by
  refine server_pages_going (fun ops more => LookupLaws (ops ++ more) ∧ KeepsAccepted (ops ++ more)) ?_ ?_ h ⟨hl, hk⟩ hid hp w hw hr
  · rintro ops between later ⟨h1, h2⟩
    rw [List.append_assoc]
    exact ⟨h1, h2⟩
  · rintro ops between later ⟨h1, h2⟩ _ w hw hr
    rw [← List.append_assoc] at h1 h2
    rw [hpers]
    exact onwards_restarts hw hr between (fun c hc => h1 c (by rw [List.mem_append]; exact .inl hc)) (keepsAccepted_left h2)

end HatEvent
