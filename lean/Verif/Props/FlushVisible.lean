import Verif.Props.AllQueries
import Verif.Props.PagesRestart

/-!
# C114: a flush does not change what queries return
-/

namespace HatEvent
open Spec

/-- Strictly ordered lists with the same elements are the same. -/
theorem ordered_eq {α : Type} {R : α → α → Prop} (hirr : ∀ a, ¬ R a a) (hasym : ∀ a b, R a b → ¬ R b a) :
    ∀ {l l' : List α}, l.Pairwise R → l'.Pairwise R → (∀ a, a ∈ l ↔ a ∈ l') → l = l'
  | [], [], _, _, _ => rfl
  | [], b :: l', _, _, h => by have := (h b).2 (by simp); simp at this
  | a :: l, [], _, _, h => by have := (h a).1 (by simp); simp at this
  | a :: l, b :: l', h1, h2, h => by
    obtain ⟨a1, a2⟩ := List.pairwise_cons.1 h1
    obtain ⟨b1, b2⟩ := List.pairwise_cons.1 h2
    have hab : a = b := by
      rcases List.mem_cons.1 ((h a).1 (by simp)) with h3 | h3
      · exact h3
      rcases List.mem_cons.1 ((h b).2 (by simp)) with h4 | h4
      · exact h4.symm
      exact absurd (b1 a h3) (hasym _ _ (a1 b h4))
    subst hab
    congr 1
    refine ordered_eq hirr hasym a2 b2 fun x => ⟨fun hx => ?_, fun hx => ?_⟩
    · rcases List.mem_cons.1 ((h x).1 (List.mem_cons_of_mem _ hx)) with rfl | h3
      · exact absurd (a1 x hx) (hirr x)
      · exact h3
    · rcases List.mem_cons.1 ((h x).2 (List.mem_cons_of_mem _ hx)) with rfl | h3
      · exact absurd (b1 x hx) (hirr x)
      · exact h3

theorem flushed_world {w w' : World} (h : Step w .flush w') (hopen : w'.isOpen = true) : w' = { w with flushed := w.cur } := by
  cases h with
  | closed h1 => rw [h1] at hopen; cases hopen
  | flush => rfl
  | flushFail => cases hopen

/-- Latest queries return the same after a successful flush. -/
theorem C114_latest (conf : Conf) (ops : List BackendOp) (hopen : ((Backend.new conf).run (ops ++ [.flush])).mem ≠ none)
    (types : Option (List EventType)) :
    ((Backend.new conf).run (ops ++ [.flush])).query (.latest types) = ((Backend.new conf).run ops).query (.latest types) := by
  rw [run_snoc] at hopen ⊢
  generalize (Backend.new conf).run ops = b at hopen ⊢
  have hst := stepTo b .flush
  generalize b.step .flush = b' at hst hopen ⊢
  cases hst with
  | closed _ _ => rfl
  | flush h1 h2 =>
    unfold Backend.query
    rw [h1]
    cases types <;> rfl
  | flushFail _ _ => exact absurd rfl hopen

/-- Timeseries queries return the same after a successful flush, in the same
order, if pending events are in the order of keys.  Missing: other histories,
see `C33_unflushed_refuted`. -/
theorem C114_timeseries_partial (conf : Conf) (ops : List BackendOp) (hl : LookupLaws ops) (hc : TsConfs ops) (ho : OrdinaryEvents ops)
    (hopen : ((Backend.new conf).run (ops ++ [.flush])).mem ≠ none) (p : QueryTimeseriesParams)
    (hp : TsParamsOk ((Backend.new conf).run ops).conf p) (hlast : p.lastEventId = none)
    (hmax : ∀ n, p.maxResults = some n → 0 ≤ n)
    (hin : ∀ w, Run conf ops w → PendingInKeyOrder w.flushed w.cur p.orderBy) :
    ((Backend.new conf).run (ops ++ [.flush])).query (.timeseries p) = ((Backend.new conf).run ops).query (.timeseries p) := by
  have hopen0 := open_before (op := .flush) nofun hopen
  obtain ⟨w, h⟩ := reached conf ops hl
  obtain ⟨w', h1, h2⟩ := reached_step h .flush hl
  have hw' : w'.isOpen = true := by rw [h2.rel.isOpen, Option.isSome_iff_ne_none]; exact hopen
  obtain rfl := flushed_world h1 hw'
  have hcf : ((Backend.new conf).run (ops ++ [.flush])).conf = ((Backend.new conf).run ops).conf := h2.rel.conf.trans h.rel.conf.symm
  have hp0 : p = { p with lastEventId := none, maxResults := p.maxResults } := by rw [← hlast]
  obtain ⟨sub, sel, g1, g2, g3⟩ := chosen_reached hc hopen0 h hp
  have a1 := series_chosen hl hc ho hopen0 h p hp (hin w h.run).weak sub sel g1 g2 g3
  have hflush : PendingInKeyOrder w.cur w.cur p.orderBy := nothing_in_order (w := { w with flushed := w.cur }) rfl _
  have a2 := series_chosen (fun c hc => hl c (by simpa using hc)) (fun c h => hc c (by simpa using h)) (fun es h => ho es (by simpa using h))
    hopen h2 p (by rw [hcf]; exact hp) hflush.weak sub sel (by rw [hcf]; exact g1) g2 (by rw [hcf]; exact g3)
  cases sel with
  | some q =>
    obtain ⟨full, b1, b2⟩ := a1
    obtain ⟨full', c1, c2⟩ := a2
    have hfull : full' = full := by
      refine ordered_eq (R := KeyOrder p) (fun a => KeyOrder.irrefl) (fun a b h1 h2 => KeyOrder.irrefl (h1.trans h2)) (c2 hflush)
        (b2 (hin w h.run)) fun e => ?_
      rw [c1.list.mem, b1.list.mem, hcf]
    rw [hp0]
    have e1 := b1.first p.maxResults hmax
    have e2 := c1.first p.maxResults hmax
    rw [hfull, hcf] at e2
    exact e2.trans e1.symm
  | none =>
    rw [hp0]
    exact (a2 none p.maxResults).trans (a1 none p.maxResults).symm

/-- Pages of a server query have nothing more after a successful flush, and what
they do not have any more was persisted before.  Missing: that they have
everything, see `C114_server_refuted`. -/
theorem C114_server_partial (conf : Conf) (ops : List BackendOp) (hl : LookupLaws ops) (hk : KeepsAccepted ops)
    (hid : ∀ es, .register es ∈ ops → ∀ e ∈ es, IdRange e.id)
    (hopen : ((Backend.new conf).run (ops ++ [.flush])).mem ≠ none) (server : Int) (max : Option Int) (hmax : max ≠ some 0)
    (all stored all' : List Event)
    (h1 : Pages (fun i => ((Backend.new conf).run ops).query
      (.server { serverId := server, maxResults := max, lastEventId := i })) none all)
    (h2 : Pages (fun i => ((Backend.new conf).run ops).query
      (.server { serverId := server, maxResults := max, lastEventId := i, persisted := true })) none stored)
    (h3 : Pages (fun i => ((Backend.new conf).run (ops ++ [.flush])).query
      (.server { serverId := server, maxResults := max, lastEventId := i })) none all') :
    (∀ e ∈ all', e ∈ all) ∧ ∀ e ∈ all, e ∉ all' → e ∈ stored := by
  have hopen0 := open_before (op := .flush) nofun hopen
  obtain ⟨w, h, hr⟩ := reached_refs conf ops hl hk
  obtain ⟨w', g1, g2, g3⟩ := reached_refs_step h hr .flush hl nofun
  have hw' : w'.isOpen = true := by rw [g2.rel.isOpen, Option.isSome_iff_ne_none]; exact hopen
  obtain rfl := flushed_world g1 hw'
  have hok : ServerParamsOk { serverId := server, maxResults := max } := by
    by_contra hno
    obtain ⟨err, herr⟩ := (C31_rejected ((Backend.new conf).run ops) _).1 hno
    cases h1 with
    | last h1 => rw [herr] at h1; cases h1
    | more h1 => rw [herr] at h1; cases h1
  obtain ⟨f1, m1, -, u1⟩ := server_paging h hr hopen0 hid { serverId := server, maxResults := max } hok hmax
  obtain ⟨f2, m2, -, u2⟩ := server_paging h hr hopen0 hid { serverId := server, maxResults := max, persisted := true }
    ⟨hok.last, hok.server, hok.max⟩ hmax
  obtain ⟨f3, m3, -, u3⟩ := server_paging g2 g3 hopen (fun es h => hid es (by simpa using h))
    { serverId := server, maxResults := max } hok hmax
  obtain rfl := u1 all h1
  obtain rfl := u2 stored h2
  obtain rfl := u3 all' h3
  constructor
  · intro e he
    obtain ⟨k1, k2⟩ := (m3.mem e).1 he
    refine (m1.mem e).2 ⟨.inr ⟨rfl, ?_⟩, k2⟩
    rcases k1 with k1 | ⟨_, k1⟩ <;> exact k1
  · intro e he hno
    obtain ⟨k1, k2⟩ := (m1.mem e).1 he
    refine (m2.mem e).2 ⟨?_, k2⟩
    rcases k1 with k1 | ⟨_, k1⟩
    · exact .inl k1
    · exact absurd ((m3.mem e).2 ⟨.inl k1, k2⟩) hno

/-! ### Examples -/

/-- A stored event and a pending one that replaces it as the latest of its type. -/
def exReplacing : List BackendOp :=
  [.reopen (exConf none []), .register [exE 1 1 1 ["a"] 1 none], .flush, .register [exE 1 1 2 ["a"] 2 none]]

/-- The assumptions of `C114_latest` and `C114_server_partial`. -/
example : LookupLaws exReplacing ∧ KeepsAccepted exReplacing ∧ (∀ es, .register es ∈ exReplacing → ∀ e ∈ es, IdRange e.id) ∧
    ((Backend.new (exConf none [])).run (exReplacing ++ [.flush])).mem ≠ none ∧
    Pages (fun i => ((Backend.new (exConf none [])).run exReplacing).query
      (.server { serverId := 1, maxResults := some 5, lastEventId := i })) none [exE 1 1 1 ["a"] 1 none, exE 1 1 2 ["a"] 2 none] ∧
    Pages (fun i => ((Backend.new (exConf none [])).run exReplacing).query
      (.server { serverId := 1, maxResults := some 5, lastEventId := i, persisted := true })) none [exE 1 1 1 ["a"] 1 none] ∧
    Pages (fun i => ((Backend.new (exConf none [])).run (exReplacing ++ [.flush])).query
      (.server { serverId := 1, maxResults := some 5, lastEventId := i })) none [exE 1 1 2 ["a"] 2 none] := by
  refine ⟨?_, by simp [KeepsAccepted, exReplacing, exConf], ?_, ?_, .last (by rfl), .last (by rfl), .last (by rfl)⟩
  · intro c hc
    have : c = exConf none [] := by simpa [exReplacing] using hc
    rw [this]
    exact exConf_lookup _ _
  · intro es hes
    have : es = [exE 1 1 1 ["a"] 1 none] ∨ es = [exE 1 1 2 ["a"] 2 none] := by simpa [exReplacing] using hes
    rcases this with rfl | rfl <;> simp [exE, IdRange, U64]
  · have : ((Backend.new (exConf none [])).run (exReplacing ++ [.flush])).mem.isSome = true := by rfl
    exact Option.isSome_iff_ne_none.1 this

/-- The assumptions of `C114_timeseries_partial`: two stored events and a pending one. -/
example : LookupLaws exUnsaved ∧ TsConfs exUnsaved ∧ OrdinaryEvents exUnsaved ∧
    ((Backend.new (exConf none [])).run (exUnsaved ++ [.flush])).mem ≠ none ∧
    TsParamsOk ((Backend.new (exConf none [])).run exUnsaved).conf { order := .ascending, maxResults := some 5 } ∧
    (∀ w, Run (exConf none []) exUnsaved w → PendingInKeyOrder w.flushed w.cur .timestamp) ∧
    ((Backend.new (exConf none [])).run exUnsaved).query (.timeseries { order := .ascending, maxResults := some 5 }) =
      .ok ⟨[exE 1 1 1 ["a"] 1 none, exE 1 1 2 ["a"] 2 none, exE 1 1 3 ["a"] 3 none], false⟩ := by
  have hcf : ∀ c, BackendOp.reopen c ∈ exUnsaved → c = exConf none exPartitions := by
    intro c hc
    simpa [exUnsaved] using hc
  have hes : ∀ es, .register es ∈ exUnsaved →
      es = [exE 1 1 1 ["a"] 1 none, exE 1 1 2 ["a"] 2 none] ∨ es = [exE 1 1 3 ["a"] 3 none] := by
    intro es hes
    simpa [exUnsaved] using hes
  refine ⟨fun c hc => by rw [hcf c hc]; exact exConf_lookup _ _,
    fun c hc => by rw [hcf c hc]; exact exHistory_tsConfs _ (by simp [exHistory]), ?_, ?_, exPage_ok 5 _, ?_, by rfl⟩
  · intro es he
    rcases hes es he with rfl | rfl <;> simp [exE, Ordinary, TimeLe, TimeLt, maxTimestamp, maxId]
  · have : ((Backend.new (exConf none [])).run (exUnsaved ++ [.flush])).mem.isSome = true := by rfl
    exact Option.isSome_iff_ne_none.1 this
  · intro w hw
    have hopen : ((Backend.new (exConf none [])).run exUnsaved).mem.isSome = true := by rfl
    refine C109_in_order _ exUnsaved (Option.isSome_iff_ne_none.1 hopen) .timestamp (.inr ⟨rfl, 1, ?_⟩) w hw
    intro es he
    rcases hes es he with rfl | rfl <;> simp [exE]

/-! ### What does not hold -/

/-- An event that was replaced as the latest one of its type, and is in no
partition, is returned by server queries until the flush. -/
theorem C114_server_refuted : ¬ ∀ (conf : Conf) (ops : List BackendOp), LookupLaws ops → KeepsAccepted ops →
    ((Backend.new conf).run (ops ++ [.flush])).mem ≠ none → ∀ p : QueryServerParams,
      ((Backend.new conf).run (ops ++ [.flush])).query (.server p) = ((Backend.new conf).run ops).query (.server p) := by
  intro h
  have := h (exConf none []) exReplacing
    (by
      intro c hc
      have : c = exConf none [] := by simpa [exReplacing] using hc
      rw [this]
      exact exConf_lookup _ _)
    (by simp [KeepsAccepted, exReplacing, exConf])
    (by
      have : ((Backend.new (exConf none [])).run (exReplacing ++ [.flush])).mem.isSome = true := by rfl
      exact Option.isSome_iff_ne_none.1 this) { serverId := 1 }
  have e1 : ((Backend.new (exConf none [])).run exReplacing).query (.server { serverId := 1 }) =
      .ok ⟨[exE 1 1 1 ["a"] 1 none, exE 1 1 2 ["a"] 2 none], false⟩ := by rfl
  have e2 : ((Backend.new (exConf none [])).run (exReplacing ++ [.flush])).query (.server { serverId := 1 }) =
      .ok ⟨[exE 1 1 2 ["a"] 2 none], false⟩ := by rfl
  rw [e1, e2] at this
  simp at this

end HatEvent
