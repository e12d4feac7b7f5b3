import Verif.Proof.PagesRestart
import Verif.Proof.ReadSeries
import Verif.Props.PagesDuring

/-!
# C112: paging through a timeseries query over restarts
-/

namespace HatEvent
open Spec

/-- No partition that is ordered as the query asks has a limit. -/
def Spec.NoLimits (conf : Conf) (o : OrderBy) : Prop :=
  ∀ part ∈ conf.partitions, part.orderBy = o → part.limit = none

theorem selected_limit {conf : Conf} {ops : List BackendOp} {w : World} (hr : Run conf ops w) (ho : w.isOpen = true)
    {p : QueryTimeseriesParams} (hlim : NoLimits w.conf p.orderBy) {q : Int} (h : Selected w.conf w.partitions p (some q)) :
    ∀ part, Dict.get w.partitions q = some part → part.limit = none := by
  obtain ⟨h1, h2, -⟩ := run_configured hr ho
  cases h with
  | @some pre q part post s1 s2 s3 s4 =>
    have hg : Dict.get w.partitions q = some part := Dict.get_of_mem h1 (by rw [s1]; simp)
    intro part' hg'
    rw [hg] at hg'
    cases hg'
    exact hlim part (h2 _ _ hg) s3

/-- Paging while anything happens between the pages, also cleanups and ends of
the process at any point, after which it is started with the same configuration:
the received events are in order, none is received twice, everything that
matched when the first page was asked for is received, and everything received
matches when the last page is asked for.  Missing: pages that are asked for while
events are pending (`C112_lost_refuted`), partitions with limits
(`C109_cleanup_refuted`) and other configurations (`C112_config_refuted`). -/
theorem C112_partial (conf : Conf) (ops more : List BackendOp) (hl : LookupLaws (ops ++ more)) (hc : TsConfs (ops ++ more))
    (ho : OrdinaryEvents (ops ++ more)) (hsame : ∀ c, .reopen c ∈ more → c = ((Backend.new conf).run ops).conf) :
    let b := (Backend.new conf).run ops
    ∀ (p : QueryTimeseriesParams) (all : List Event), NoLimits b.conf p.orderBy → TsParamsOk b.conf p →
      PagesDuring (fun ops i => ((Backend.new conf).run ops).query (.timeseries { p with lastEventId := i })) NothingPending
        ops none more all →
      ∃ w w' sel, Run conf ops w ∧ Run conf (ops ++ more) w' ∧ Selected b.conf w.partitions p sel ∧
        all.Pairwise (KeyOrder p) ∧ all.Pairwise (fun a b => a.id ≠ b.id) ∧
        match sel with
        | some q => (∀ e, InAnswer b.conf w.cur q p e → e ∈ all) ∧ ∀ e ∈ all, InAnswer b.conf w'.cur q p e
        | none => all = [] := by
  intro b p all hlim hp h
  have hopen := pages_open h
  have hl0 : LookupLaws ops := fun c hc => hl c (by simp [hc])
  have hc0 : TsConfs ops := fun c h => hc c (by simp [h])
  obtain ⟨w, hw⟩ := reached conf ops hl0
  have hcf : b.conf = w.conf := hw.rel.conf
  have hwo : w.isOpen = true := by rw [hw.rel.isOpen, Option.isSome_iff_ne_none]; exact hopen
  obtain ⟨sub, sel, h1, h2, h3⟩ := chosen_reached hc0 hopen hw hp
  cases sel with
  | some q =>
    obtain ⟨w', r1, r2, r3, r4, r5, r6, r7⟩ := pages_restarts h hl hc ho w hw (by rw [← hcf]; exact hsame) (by rw [← hcf]; exact hp) sub q
      (selected_limit hw.run hwo (by rw [← hcf]; exact hlim) (by rw [← hcf]; exact h3.found))
      (by rw [← hcf]; exact h1) h2 (by rw [← hcf]; exact h3) none rfl (by simp)
    refine ⟨w, w', some q, hw.run, r1.run, h3.found, r4, ?_, ?_, ?_⟩
    · refine List.Pairwise.imp_of_mem ?_ r4
      intro x y hx hy hxy hid
      obtain ⟨⟨k, _, k1⟩, _⟩ := r7 x hx
      obtain ⟨⟨k', _, k2⟩, _⟩ := r7 y hy
      have := storeOk_unique r1.rel.okC (r1.rel.okC.entryId _ _ k1).2.1 (r1.rel.okC.entryId _ _ k2).2.1 hid
      subst this
      exact KeyOrder.irrefl hxy
    · intro e he
      exact r6 e (by rw [← hcf]; exact he) (by simp)
    · intro e he
      rw [hcf]
      exact r7 e he
  | none =>
    have hn : NothingPending ops := by cases h <;> assumption
    have hq := series_chosen hl0 hc0 (fun es h => ho es (by simp [h])) hopen hw p hp
      (nothing_in_order (nothing_pending hn hw.run) _).weak sub none h1 h2 h3
    have hall : more = [] ∧ all = [] := by
      cases h with
      | last _ hr =>
        have h4 := hr.symm.trans (hq none p.maxResults)
        cases h4
        exact ⟨rfl, rfl⟩
      | more _ hr =>
        have h4 := hr.symm.trans (hq none p.maxResults)
        cases h4
    obtain ⟨rfl, rfl⟩ := hall
    exact ⟨w, w, none, hw.run, by simpa using hw.run, h3.found, .nil, .nil, rfl⟩

/-- The same in terms of queries: what a query without limit returns before the
first page is received.  Missing: as in `C112_partial`. -/
theorem C112_observed_partial (conf : Conf) (ops more : List BackendOp) (hl : LookupLaws (ops ++ more)) (hc : TsConfs (ops ++ more))
    (ho : OrdinaryEvents (ops ++ more)) (hsame : ∀ c, .reopen c ∈ more → c = ((Backend.new conf).run ops).conf)
    (p : QueryTimeseriesParams) (all : List Event) (hlim : NoLimits ((Backend.new conf).run ops).conf p.orderBy)
    (hp : TsParamsOk ((Backend.new conf).run ops).conf p)
    (h : PagesDuring (fun ops i => ((Backend.new conf).run ops).query (.timeseries { p with lastEventId := i })) NothingPending
      ops none more all) (first : QueryResult)
    (h1 : ((Backend.new conf).run ops).query (.timeseries { p with lastEventId := none, maxResults := none }) = .ok first) :
    ∀ e ∈ first.events, e ∈ all := by
  have hopen := pages_open h
  have hl0 : LookupLaws ops := fun c hc => hl c (by simp [hc])
  have hc0 : TsConfs ops := fun c h => hc c (by simp [h])
  obtain ⟨w, hw⟩ := reached conf ops hl0
  have hcf : ((Backend.new conf).run ops).conf = w.conf := hw.rel.conf
  have hwo : w.isOpen = true := by rw [hw.rel.isOpen, Option.isSome_iff_ne_none]; exact hopen
  obtain ⟨sub, sel, g1, g2, g3⟩ := chosen_reached hc0 hopen hw hp
  have hn : NothingPending ops := by cases h <;> assumption
  have hs := series_chosen hl0 hc0 (fun es h => ho es (by simp [h])) hopen hw p hp
    (nothing_in_order (nothing_pending hn hw.run) _).weak sub sel g1 g2 g3
  cases sel with
  | some q =>
    obtain ⟨full, a1, -⟩ := hs
    obtain ⟨w', -, -, -, -, -, r6, -⟩ := pages_restarts h hl hc ho w hw (by rw [← hcf]; exact hsame) (by rw [← hcf]; exact hp) sub q
      (selected_limit hw.run hwo (by rw [← hcf]; exact hlim) (by rw [← hcf]; exact g3.found))
      (by rw [← hcf]; exact g1) g2 (by rw [← hcf]; exact g3) none rfl (by simp)
    have a3 := h1.symm.trans (a1.first none (by simp))
    cases a3
    intro e he
    refine r6 e ?_ (by simp)
    rw [← hcf]
    exact (a1.list.mem e).1 (List.mem_of_mem_take he)
  | none =>
    have a3 := h1.symm.trans (hs none none)
    cases a3
    simp

/-! ### Example -/

/-- Three stored events. -/
def exStopped : List BackendOp :=
  [.reopen (exConf none exPartitions),
   .register [exE 1 1 1 ["a"] 1 none, exE 1 1 2 ["a"] 1 none, exE 2 1 1 ["a"] 1 none], .flush]

/-- An event is registered and lost at the end of the process; the next process
stores another one and cleans up. -/
def exStoppedMore : List BackendOp :=
  [.register [exE 1 1 3 ["a"] 2 none], .reopen (exConf none exPartitions), .register [exE 1 2 1 ["a"] 3 none], .flush, exClean]

theorem exStopped_confs : ∀ c, BackendOp.reopen c ∈ exStopped ++ exStoppedMore → c = exConf none exPartitions := by
  intro c hc
  simpa [exStopped, exStoppedMore, exClean] using hc

/-- The assumptions of `C112_partial` and `C112_observed_partial`. -/
example : LookupLaws (exStopped ++ exStoppedMore) ∧ TsConfs (exStopped ++ exStoppedMore) ∧ OrdinaryEvents (exStopped ++ exStoppedMore) ∧
    (∀ c, .reopen c ∈ exStoppedMore → c = ((Backend.new (exConf none [])).run exStopped).conf) ∧
    NoLimits ((Backend.new (exConf none [])).run exStopped).conf .timestamp ∧
    PagesDuring (fun ops i => ((Backend.new (exConf none [])).run ops).query
        (.timeseries { order := .ascending, maxResults := some 1, lastEventId := i })) NothingPending exStopped none exStoppedMore
      [exE 1 1 1 ["a"] 1 none, exE 1 1 2 ["a"] 1 none, exE 2 1 1 ["a"] 1 none, exE 1 2 1 ["a"] 3 none] ∧
    ((Backend.new (exConf none [])).run exStopped).query (.timeseries { order := .ascending }) =
      .ok ⟨[exE 1 1 1 ["a"] 1 none, exE 1 1 2 ["a"] 1 none, exE 2 1 1 ["a"] 1 none], false⟩ := by
  have hn : NothingPending exStopped := ⟨exStopped.dropLast, .flush, [], rfl, .inl rfl, by simp⟩
  have hn' : NothingPending (exStopped ++ exStoppedMore) :=
    ⟨(exStopped ++ exStoppedMore).take 6, .flush, [exClean], rfl, .inl rfl, by simp [exClean]⟩
  refine ⟨fun c hc => by rw [exStopped_confs c hc]; exact exConf_lookup _ _,
    fun c hc => by rw [exStopped_confs c hc]; exact exHistory_tsConfs _ (by simp [exHistory]), ?_, ?_, ?_, ?_, by rfl⟩
  · intro es hes
    have : es = [exE 1 1 1 ["a"] 1 none, exE 1 1 2 ["a"] 1 none, exE 2 1 1 ["a"] 1 none] ∨ es = [exE 1 1 3 ["a"] 2 none] ∨
        es = [exE 1 2 1 ["a"] 3 none] := by
      simpa [exStopped, exStoppedMore, exClean] using hes
    rcases this with rfl | rfl | rfl <;> simp [exE, Ordinary, TimeLe, TimeLt, maxTimestamp, maxId]
  · intro c hc
    rw [exStopped_confs c (List.mem_append_right _ hc)]
    rfl
  · show NoLimits (exConf none exPartitions) .timestamp
    intro part hpart
    simp only [exConf, exPartitions, List.mem_cons, List.not_mem_nil, or_false] at hpart
    rcases hpart with rfl | rfl <;> simp
  · exact .more (events := [exE 1 1 1 ["a"] 1 none]) (x := exE 1 1 1 ["a"] 1 none) (between := exStoppedMore) (later := []) hn
      (by rfl) rfl
      (.more (events := [exE 1 1 2 ["a"] 1 none]) (x := exE 1 1 2 ["a"] 1 none) (between := []) (later := []) hn' (by rfl) rfl
        (.more (events := [exE 2 1 1 ["a"] 1 none]) (x := exE 2 1 1 ["a"] 1 none) (between := []) (later := []) hn' (by rfl) rfl
          (.last hn' (by rfl))))

/-! ### What does not hold -/

/-- Two stored events and a newer one that is pending. -/
def exUnsaved : List BackendOp :=
  [.reopen (exConf none exPartitions), .register [exE 1 1 1 ["a"] 1 none, exE 1 1 2 ["a"] 2 none], .flush,
   .register [exE 1 1 3 ["a"] 3 none]]

/-- If the last received event of a page is lost at the end of the process, the
next page is empty and nothing follows, although events follow in the database. -/
theorem C112_lost_refuted : ¬ ∀ (conf : Conf) (ops more : List BackendOp), LookupLaws (ops ++ more) → TsConfs (ops ++ more) →
    OrdinaryEvents (ops ++ more) → (∀ c, .reopen c ∈ more → c = ((Backend.new conf).run ops).conf) →
    ∀ (p : QueryTimeseriesParams) (all r r' : List Event), NoLimits ((Backend.new conf).run ops).conf p.orderBy →
      TsParamsOk ((Backend.new conf).run ops).conf p →
      PagesDuring (fun ops i => ((Backend.new conf).run ops).query (.timeseries { p with lastEventId := i }))
        (fun ops => ∀ w, Run conf ops w → PendingInKeyOrder w.flushed w.cur p.orderBy) ops none more all →
      ((Backend.new conf).run ops).query (.timeseries { p with lastEventId := none, maxResults := none }) = .ok ⟨r, false⟩ →
      ((Backend.new conf).run (ops ++ more)).query (.timeseries { p with lastEventId := none, maxResults := none }) = .ok ⟨r', false⟩ →
      ∀ e ∈ r, e ∈ r' → e ∈ all := by
  intro h
  have hcf : ∀ c, BackendOp.reopen c ∈ exUnsaved ++ [.reopen (exConf none exPartitions)] → c = exConf none exPartitions := by
    intro c hc
    simpa [exUnsaved] using hc
  have hes : ∀ ops, ops = exUnsaved ∨ ops = exUnsaved ++ [.reopen (exConf none exPartitions)] → ∀ es, .register es ∈ ops →
      es = [exE 1 1 1 ["a"] 1 none, exE 1 1 2 ["a"] 2 none] ∨ es = [exE 1 1 3 ["a"] 3 none] := by
    rintro ops (rfl | rfl) es hes <;> simpa [exUnsaved] using hes
  have hord : ∀ ops, ops = exUnsaved ∨ ops = exUnsaved ++ [.reopen (exConf none exPartitions)] → ∀ w, Run (exConf none []) ops w →
      PendingInKeyOrder w.flushed w.cur .timestamp := by
    intro ops hops w hw
    refine C109_in_order _ ops ?_ .timestamp (.inr ⟨rfl, 1, ?_⟩) w hw
    · rcases hops with rfl | rfl <;> exact nofun
    · intro es he
      rcases hes ops hops es he with rfl | rfl <;> simp [exE]
  have := h (exConf none []) exUnsaved [.reopen (exConf none exPartitions)]
    (fun c hc => by rw [hcf c hc]; exact exConf_lookup _ _)
    (fun c hc => by rw [hcf c hc]; exact exHistory_tsConfs _ (by simp [exHistory]))
    (by
      intro es he
      rcases hes _ (.inr rfl) es he with rfl | rfl <;> simp [exE, Ordinary, TimeLe, TimeLt, maxTimestamp, maxId])
    (by intro c hc; rw [hcf c (List.mem_append_right _ hc)]; rfl)
    { order := .descending, maxResults := some 1 } [exE 1 1 3 ["a"] 3 none]
    [exE 1 1 3 ["a"] 3 none, exE 1 1 2 ["a"] 2 none, exE 1 1 1 ["a"] 1 none]
    [exE 1 1 2 ["a"] 2 none, exE 1 1 1 ["a"] 1 none]
    (by
      show NoLimits (exConf none exPartitions) .timestamp
      intro part hpart
      simp only [exConf, exPartitions, List.mem_cons, List.not_mem_nil, or_false] at hpart
      rcases hpart with rfl | rfl <;> simp)
    ⟨by simp, by simp, by simp, by simp⟩
    (.more (events := [exE 1 1 3 ["a"] 3 none]) (x := exE 1 1 3 ["a"] 3 none) (between := [.reopen (exConf none exPartitions)])
      (hord _ (.inl rfl)) (by rfl) rfl (.last (hord _ (.inr rfl)) (by rfl))) (by rfl) (by rfl) (exE 1 1 2 ["a"] 2 none) (by simp) (by simp)
  simp [exE] at this

/-- The configuration of the example with one more partition in front, for the same order. -/
def exConfMore : Conf := exConf none (⟨.timestamp, exAB, none⟩ :: exPartitions)

/-- Restarted with another configuration, the query is answered from another
partition that does not have the last received event: the next page is empty,
although the missing events are still stored (a query of their server returns
them). -/
theorem C112_config_refuted : ¬ ∀ (conf : Conf) (ops more : List BackendOp), LookupLaws (ops ++ more) → TsConfs (ops ++ more) →
    OrdinaryEvents (ops ++ more) → (∀ c, .reopen c ∈ ops ++ more → ∀ o, NoLimits c o) →
    ∀ (p : QueryTimeseriesParams) (all r s : List Event), TsParamsOk ((Backend.new conf).run ops).conf p →
      PagesDuring (fun ops i => ((Backend.new conf).run ops).query (.timeseries { p with lastEventId := i })) NothingPending
        ops none more all →
      ((Backend.new conf).run ops).query (.timeseries { p with lastEventId := none, maxResults := none }) = .ok ⟨r, false⟩ →
      ((Backend.new conf).run (ops ++ more)).query (.server { serverId := 1, persisted := true }) = .ok ⟨s, false⟩ →
      ∀ e ∈ r, e ∈ s → e ∈ all := by
  intro h
  have hcf : ∀ c, BackendOp.reopen c ∈ exStopped ++ [.reopen exConfMore] → c = exConf none exPartitions ∨ c = exConfMore := by
    intro c hc
    simpa [exStopped] using hc
  have := h (exConf none []) exStopped [.reopen exConfMore]
    (fun c hc => by rcases hcf c hc with rfl | rfl <;> exact exConf_lookup _ _)
    (by
      intro c hc
      have ht := exHistory_tsConfs (exConf none exPartitions) (by simp [exHistory])
      rcases hcf c hc with rfl | rfl
      · exact ht
      · refine ⟨ht.1, ?_⟩
        intro part hpart
        rcases List.mem_cons.1 hpart with rfl | hpart
        · exact ⟨.py, [["a"], ["b"]], by unfold NulFree; decide, rfl⟩
        · exact ht.2 part hpart)
    (by
      intro es hes
      have : es = [exE 1 1 1 ["a"] 1 none, exE 1 1 2 ["a"] 1 none, exE 2 1 1 ["a"] 1 none] := by
        simpa [exStopped] using hes
      subst this
      simp [exE, Ordinary, TimeLe, TimeLt, maxTimestamp, maxId])
    (by
      intro c hc o part hpart _
      have : part = ⟨.timestamp, exAB, none⟩ ∨ part ∈ exPartitions := by
        rcases hcf c hc with rfl | rfl
        · exact .inr hpart
        · exact List.mem_cons.1 hpart
      rcases this with rfl | hpart
      · rfl
      · simp only [exPartitions, List.mem_cons, List.not_mem_nil, or_false] at hpart
        rcases hpart with rfl | rfl <;> rfl)
    { order := .ascending, maxResults := some 1 } [exE 1 1 1 ["a"] 1 none]
    [exE 1 1 1 ["a"] 1 none, exE 1 1 2 ["a"] 1 none, exE 2 1 1 ["a"] 1 none]
    [exE 1 1 1 ["a"] 1 none, exE 1 1 2 ["a"] 1 none] (exPage_ok 1 _)
    (.more (events := [exE 1 1 1 ["a"] 1 none]) (x := exE 1 1 1 ["a"] 1 none) (between := [.reopen exConfMore])
      ⟨exStopped.dropLast, .flush, [], rfl, .inl rfl, by simp⟩ (by rfl) rfl
      (.last ⟨exStopped, .reopen exConfMore, [], rfl, .inr ⟨_, rfl⟩, by simp⟩ (by rfl))) (by rfl) (by rfl)
    (exE 1 1 2 ["a"] 1 none) (by simp) (by simp)
  simp [exE] at this

end HatEvent
