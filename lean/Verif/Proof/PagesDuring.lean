import Verif.Proof.StationKept
import Verif.Props.LmdbPages

/-!
# Lemmas about paging while the database changes
-/

namespace HatEvent
open Spec

theorem Spec.KeyBefore.trans {o : OrderBy} {a b c : Event} (h1 : KeyBefore o a b) (h2 : KeyBefore o b c) : KeyBefore o a c := by
  obtain ⟨s, t, a1, a2, a3⟩ := h1
  obtain ⟨t', u, b1, b2, b3⟩ := h2
  rw [a2] at b1
  cases b1
  refine ⟨s, u, a1, b2, ?_⟩
  rcases a3 with a3 | ⟨rfl, a3⟩
  · rcases b3 with b3 | ⟨rfl, b3⟩
    · exact .inl (a3.trans b3)
    · exact .inl a3
  · rcases b3 with b3 | ⟨rfl, b3⟩
    · exact .inl b3
    · exact .inr ⟨rfl, a3.trans b3⟩

theorem Spec.KeyBefore.irrefl {o : OrderBy} {a : Event} : ¬ KeyBefore o a a := by
  rintro ⟨s, t, a1, a2, a3⟩
  rw [a1] at a2
  cases a2
  rcases a3 with a3 | ⟨_, a3⟩
  · exact a3.irrefl
  · exact a3.irrefl

theorem Spec.KeyOrder.trans {p : QueryTimeseriesParams} {a b c : Event} (h1 : KeyOrder p a b) (h2 : KeyOrder p b c) : KeyOrder p a c := by
  unfold KeyOrder at *
  cases h : p.order <;> rw [h] at h1 h2
  · exact KeyBefore.trans h2 h1
  · exact KeyBefore.trans h1 h2

theorem Spec.KeyOrder.irrefl {p : QueryTimeseriesParams} {a : Event} : ¬ KeyOrder p a a := by
  unfold KeyOrder
  cases p.order
  · exact KeyBefore.irrefl
  · exact KeyBefore.irrefl

theorem Spec.PendingInKeyOrder.weak {fl cur : Store} {o : OrderBy} (h : PendingInKeyOrder fl cur o) : PendingInOrder fl cur o := by
  intro pre p post h1 h2 a ha s t hs ht
  rcases h pre p post h1 h2 a ha s t hs ht with h | ⟨h, _⟩
  · exact .inl h
  · exact .inr h

theorem Spec.OnlyGrows.noReopen {more : List BackendOp} (h : OnlyGrows more) (c : Conf) : .reopen c ∉ more :=
  fun hc => (h _ hc).1 c rfl

/-- Timeseries entries remain. -/
theorem grown_more {conf : Conf} {ops : List BackendOp} (hl : LookupLaws ops) {w : World} (h : Reached conf ops w)
    (more : List BackendOp) (hm : OnlyGrows more) (hopen : ((Backend.new conf).run (ops ++ more)).mem ≠ none) :
    ∃ w', Reached conf (ops ++ more) w' ∧ w'.conf = w.conf ∧ w'.partitions = w.partitions ∧
      ∀ k e, w.cur.entry k = some e → w'.cur.entry k = some e := by
  induction more using List.reverseRecOn with
  | nil => exact ⟨w, by simpa using h, rfl, rfl, fun _ _ h => h⟩
  | append_singleton more op ih =>
    rw [← List.append_assoc] at hopen ⊢
    have hop := hm op (by simp)
    have hm' : OnlyGrows more := fun op hop => hm op (by simp [hop])
    obtain ⟨w1, h1, h2, h3, h4⟩ := ih hm' (open_before hop.1 hopen)
    obtain ⟨w2, h5, h6⟩ := reached_step h1 op (by
      intro c hc
      rcases List.mem_append.1 hc with hc | hc
      · exact hl c hc
      · exact absurd hc (hm'.noReopen c))
    have hw : w2.isOpen = true := by rw [h6.rel.isOpen, Option.isSome_iff_ne_none]; exact hopen
    refine ⟨w2, h6, ?_⟩
    cases h5 with
    | closed a b => exact ⟨h2, h3, h4⟩
    | @register es a => exact ⟨h2, h3, fun k e hk => entry_offers es h1.rel.okC (h4 k e hk)⟩
    | touch a => exact ⟨h2, h3, h4⟩
    | flush a => exact ⟨h2, h3, h4⟩
    | flushFail a => cases hw
    | cleanup r a b => exact absurd rfl (hop.2 _ _ _)
    | cleanupFail a => cases hw
    | reopen a => exact absurd rfl (hop.1 _)
    | reopenFail => exact absurd rfl (hop.1 _)

theorem drop_entry {st : Store} {r : TimeseriesKey → Prop} {k : TimeseriesKey} {e : Event} :
    (st.drop r).entry k = some e ↔ ¬ r k ∧ st.entry k = some e := by
  unfold Store.drop
  dsimp only
  split
  · next h => simp [h]
  · next h => simp [h]

theorem query_open {b : Backend} {p : QueryParams} {r : QueryResult} (h : b.query p = .ok r) : b.mem ≠ none := by
  intro hm
  unfold Backend.query at h
  rw [hm] at h
  cases h

/-- The backend is open whenever a page is asked for. -/
theorem pages_open {conf : Conf} {query : Option EventId → QueryParams} {asked : List BackendOp → Prop} {ops : List BackendOp}
    {i : Option EventId} {more : List BackendOp} {all : List Event}
    (h : PagesDuring (fun ops i => ((Backend.new conf).run ops).query (query i)) asked ops i more all) :
    ((Backend.new conf).run ops).mem ≠ none := by
  cases h with
  | last _ hq => exact query_open hq
  | more _ hq _ _ => exact query_open hq

theorem Spec.InAnswer.grown {conf : Conf} {st st' : Store} {q : Int} {p : QueryTimeseriesParams} {e : Event}
    (hg : ∀ k e, k.partition = q → st.entry k = some e → st'.entry k = some e) (h : InAnswer conf st q p e) : InAnswer conf st' q p e := by
  obtain ⟨⟨k, h1, h2⟩, h3⟩ := h
  exact ⟨⟨k, h1, hg _ _ h1 h2⟩, h3⟩

/-- One page. -/
theorem page_during {conf : Conf} {st : Store} {q : Int} {p : QueryTimeseriesParams} (hp : ∀ n, p.maxResults = some n → 0 ≤ n)
    {query : Option EventId → Option Int → Except PyErr QueryResult} {full : List Event} (ha : Answers conf st q p query full)
    (hs : full.Pairwise (KeyOrder p)) (after : Option Event) (hafter : ∀ x, after = some x → InAnswer conf st q p x) :
    ∃ post, query (after.map (·.id)) p.maxResults = .ok (page post (tsPage conf p.maxResults)) ∧ post.Pairwise (KeyOrder p) ∧
      ∀ e, e ∈ post ↔ InAnswer conf st q p e ∧ ∀ x, after = some x → KeyOrder p x e := by
  cases after with
  | none => exact ⟨full, ha.first _ hp, hs, fun e => by rw [ha.list.mem]; simp [InAnswer]⟩
  | some x =>
    obtain ⟨pre, post, rfl⟩ := List.append_of_mem ((ha.list.mem x).2 (hafter x rfl))
    rw [List.pairwise_append, List.pairwise_cons] at hs
    refine ⟨post, ha.next _ hp pre x post rfl, hs.2.1.2, fun e => ?_⟩
    have hme := ha.list.mem e
    constructor
    · intro he
      refine ⟨hme.1 (by simp [he]), ?_⟩
      intro y hy
      cases hy
      exact hs.2.1.1 e he
    · rintro ⟨h1, h2⟩
      have h2 := h2 x rfl
      rcases List.mem_append.1 (hme.2 h1) with h3 | h3
      · exact absurd (h2.trans (hs.2.2 e h3 x (by simp))) KeyOrder.irrefl
      · rcases List.mem_cons.1 h3 with rfl | h3
        · exact absurd h2 KeyOrder.irrefl
        · exact h3

/-- Pages while the partition `q` grows.  `goes ops more` are histories `ops` and
further actions `more` in which it does. -/
theorem pages_going {conf : Conf} {p : QueryTimeseriesParams} {q : Int} {asked : List BackendOp → Prop}
    (hasked : ∀ ops, asked ops → ∀ w, Run conf ops w → PendingInKeyOrder w.flushed w.cur p.orderBy)
    {ops : List BackendOp} {i : Option EventId} {more : List BackendOp} {all : List Event}
    (goes : List BackendOp → List BackendOp → Prop) (hlaw : ∀ ops more, goes ops more → LookupLaws ops ∧ TsConfs ops)
    (hrest : ∀ ops between later, goes ops (between ++ later) → goes (ops ++ between) later)
    (hgo : ∀ ops between later, goes ops (between ++ later) → asked ops → ((Backend.new conf).run ops).mem ≠ none →
      ((Backend.new conf).run (ops ++ between)).mem ≠ none → ∀ w, Reached conf ops w →
      ∃ w', Reached conf (ops ++ between) w' ∧ w'.conf = w.conf ∧ w'.partitions = w.partitions ∧
        ∀ k e, k.partition = q → w.cur.entry k = some e → w'.cur.entry k = some e)
    (h : PagesDuring (fun ops i => ((Backend.new conf).run ops).query (.timeseries { p with lastEventId := i })) asked ops i more all) :
    goes ops more → OrdinaryEvents (ops ++ more) → ∀ w, Reached conf ops w → TsParamsOk w.conf p →
    ∀ sub, querySubscription w.conf p.eventTypes = .ok sub → SubOk p.eventTypes sub →
      ChosenPartition w.conf w.partitions p sub (some q) →
    ∀ after : Option Event, i = after.map (·.id) → (∀ x, after = some x → InAnswer w.conf w.cur q p x) →
    ∃ w', Reached conf (ops ++ more) w' ∧ w'.conf = w.conf ∧ (∀ k e, k.partition = q → w.cur.entry k = some e → w'.cur.entry k = some e) ∧
      all.Pairwise (KeyOrder p) ∧ (∀ e ∈ all, ∀ x, after = some x → KeyOrder p x e) ∧
      (∀ e, InAnswer w.conf w.cur q p e → (∀ x, after = some x → KeyOrder p x e) → e ∈ all) ∧
      ∀ e ∈ all, InAnswer w.conf w'.cur q p e := by
  induction h with
  | @last ops i events hask hq =>
    intro hgoes ho w hw hp sub hsub hso hch after hi hafter
    obtain ⟨hl, hc⟩ := hlaw _ _ hgoes
    have hopen := query_open hq
    simp only [List.append_nil] at ho ⊢
    have hcf : ((Backend.new conf).run ops).conf = w.conf := hw.rel.conf
    have hk := hasked ops hask w hw.run
    obtain ⟨full, h1, h2⟩ := series_chosen hl hc ho hopen hw p (by rw [hcf]; exact hp) hk.weak sub (some q)
      (by rw [hcf]; exact hsub) hso (by rw [hcf]; exact hch)
    rw [hcf] at h1
    obtain ⟨post, p1, p2, p3⟩ := page_during hp.max h1 (h2 hk) after hafter
    rw [← hi] at p1
    have hpg := Except.ok.inj (hq.symm.trans p1)
    unfold page at hpg
    obtain ⟨rfl, hlen⟩ := QueryResult.mk.inj hpg
    have hall : post.take (tsPage w.conf p.maxResults) = post := by
      have := of_decide_eq_false hlen.symm
      exact List.take_of_length_le (by omega)
    rw [hall]
    exact ⟨w, hw, rfl, fun _ _ _ h => h, p2, fun e he => ((p3 e).1 he).2, fun e h3 h4 => (p3 e).2 ⟨h3, h4⟩, fun e he => ((p3 e).1 he).1⟩
  | @more ops i events x between later rest hask hq hlast hnext ih =>
    intro hgoes ho w hw hp sub hsub hso hch after hi hafter
    obtain ⟨hl, hc⟩ := hlaw _ _ hgoes
    rw [← List.append_assoc] at ho ⊢
    have hopen0 := query_open hq
    have hcf : ((Backend.new conf).run ops).conf = w.conf := hw.rel.conf
    have hk := hasked ops hask w hw.run
    have ho0 : OrdinaryEvents ops := fun es h => ho es (by simp [h])
    obtain ⟨full, h1, h2⟩ := series_chosen hl hc ho0 hopen0 hw p (by rw [hcf]; exact hp) hk.weak sub (some q)
      (by rw [hcf]; exact hsub) hso (by rw [hcf]; exact hch)
    rw [hcf] at h1
    obtain ⟨post, p1, p2, p3⟩ := page_during hp.max h1 (h2 hk) after hafter
    rw [← hi] at p1
    have hpg := Except.ok.inj (hq.symm.trans p1)
    unfold page at hpg
    obtain ⟨hev, -⟩ := QueryResult.mk.inj hpg
    obtain ⟨init, rfl⟩ : ∃ init, events = init ++ [x] := by
      exact List.getLast?_eq_some_iff.1 hlast
    have hpost : post = init ++ x :: post.drop (tsPage w.conf p.maxResults) := by
      conv => lhs; rw [← List.take_append_drop (tsPage w.conf p.maxResults) post, ← hev]
      simp
    generalize post.drop (tsPage w.conf p.maxResults) = tail at hpost
    subst hpost
    obtain ⟨px, px'⟩ := (p3 x).1 (by simp)
    rw [List.pairwise_append, List.pairwise_cons] at p2
    obtain ⟨w1, g1, g2, g3, g4⟩ := hgo ops between later hgoes hask hopen0 (pages_open hnext) w hw
    obtain ⟨w2, i1, i2, i3, i4, i5, i6, i7⟩ := ih (hrest _ _ _ hgoes) ho w1 g1 (by rw [g2]; exact hp) sub (by rw [g2]; exact hsub) hso
      (by rw [g2, g3]; exact hch) (some x) rfl (by
        intro y hy
        cases hy
        rw [g2]
        exact px.grown g4)
    rw [g2] at i6 i7
    have g5 : ∀ k e, k.partition = q → w.cur.entry k = some e → w2.cur.entry k = some e := fun k e hq hk => i3 _ _ hq (g4 _ _ hq hk)
    refine ⟨w2, i1, i2.trans g2, g5, ?_, ?_, ?_, ?_⟩
    · rw [List.append_assoc, List.pairwise_append]
      refine ⟨p2.1, ?_, ?_⟩
      · exact List.pairwise_cons.2 ⟨fun e he => i5 e he x rfl, i4⟩
      · intro a ha b hb
        have hax := p2.2.2 a ha x (by simp)
        rcases List.mem_cons.1 hb with rfl | hb
        · exact hax
        · exact hax.trans (i5 b hb x rfl)
    · intro e he y hy
      rcases List.mem_append.1 he with he | he
      · exact ((p3 e).1 (by
          rcases List.mem_append.1 he with he | he
          · simp [he]
          · simp at he; simp [he])).2 y hy
      · exact (px' y hy).trans (i5 e he x rfl)
    · intro e h3 h4
      rcases List.mem_append.1 ((p3 e).2 ⟨h3, h4⟩) with h5 | h5
      · simp [h5]
      · rcases List.mem_cons.1 h5 with rfl | h5
        · simp
        · refine List.mem_append_right _ (i6 e (h3.grown g4) ?_)
          intro y hy
          cases hy
          exact p2.2.1.1 e h5
    · intro e he
      rcases List.mem_append.1 he with he | he
      · refine InAnswer.grown g5 ((p3 e).1 ?_).1
        rcases List.mem_append.1 he with he | he
        · simp [he]
        · simp at he; simp [he]
      · exact i7 e he

/-- Pages while the database grows. -/
theorem pages_during {conf : Conf} {p : QueryTimeseriesParams} {asked : List BackendOp → Prop}
    (hasked : ∀ ops, asked ops → ∀ w, Run conf ops w → PendingInKeyOrder w.flushed w.cur p.orderBy)
    {ops : List BackendOp} {i : Option EventId} {more : List BackendOp} {all : List Event}
    (h : PagesDuring (fun ops i => ((Backend.new conf).run ops).query (.timeseries { p with lastEventId := i })) asked ops i more all)
    (hl : LookupLaws ops) (hc : TsConfs ops) (ho : OrdinaryEvents (ops ++ more)) (hm : OnlyGrows more) (w : World) (hw : Reached conf ops w)
    (hp : TsParamsOk w.conf p) (sub : Option Sub) (q : Int) (hsub : querySubscription w.conf p.eventTypes = .ok sub)
    (hso : SubOk p.eventTypes sub) (hch : ChosenPartition w.conf w.partitions p sub (some q))
    (after : Option Event) (hi : i = after.map (·.id)) (hafter : ∀ x, after = some x → InAnswer w.conf w.cur q p x) :
    ∃ w', Reached conf (ops ++ more) w' ∧ w'.conf = w.conf ∧ (∀ k e, k.partition = q → w.cur.entry k = some e → w'.cur.entry k = some e) ∧
      all.Pairwise (KeyOrder p) ∧ (∀ e ∈ all, ∀ x, after = some x → KeyOrder p x e) ∧
      (∀ e, InAnswer w.conf w.cur q p e → (∀ x, after = some x → KeyOrder p x e) → e ∈ all) ∧
      ∀ e ∈ all, InAnswer w.conf w'.cur q p e := by
  refine pages_going hasked (fun ops more => (LookupLaws ops ∧ TsConfs ops) ∧ OnlyGrows more) (fun _ _ h => h.1) ?_ ?_ h
    ⟨⟨hl, hc⟩, hm⟩ ho w hw hp sub hsub hso hch after hi hafter
  · rintro ops between later ⟨⟨h1, h2⟩, h3⟩
    have hb : OnlyGrows between := fun op hop => h3 op (by simp [hop])
    refine ⟨⟨?_, ?_⟩, fun op hop => h3 op (by simp [hop])⟩
    · intro c hc
      rcases List.mem_append.1 hc with hc | hc
      · exact h1 c hc
      · exact absurd hc (hb.noReopen c)
    · intro c hc
      rcases List.mem_append.1 hc with hc | hc
      · exact h2 c hc
      · exact absurd hc (hb.noReopen c)
  · rintro ops between later ⟨⟨h1, h2⟩, h3⟩ _ _ hopen w hw
    obtain ⟨w', g1, g2, g3, g4⟩ := grown_more h1 hw between (fun op hop => h3 op (by simp [hop])) hopen
    exact ⟨w', g1, g2, g3, fun k e _ => g4 k e⟩

end HatEvent
