import Verif.Proof.PagesDuring

/-!
# C109: paging through a timeseries query while the database changes
-/

namespace HatEvent
open Spec

/-- Paging while events are registered and flushed between the pages: the
received events are in order, none is received twice, everything that matched
when the first page was asked for is received, and everything received matches
when the last page is asked for.  Pending events have to be in the order of the
database whenever a page is asked for.  Missing: other pending events
(`C109_lost_refuted`, `C109_twice_refuted`) and cleanups between the pages
(`C109_cleanup_refuted`). -/
theorem C109_partial (conf : Conf) (ops more : List BackendOp) (hl : LookupLaws ops) (hc : TsConfs ops)
    (ho : OrdinaryEvents (ops ++ more)) (hm : OnlyGrows more) :
    let b := (Backend.new conf).run ops
    ∀ (p : QueryTimeseriesParams) (all : List Event), TsParamsOk b.conf p →
      PagesDuring (fun ops i => ((Backend.new conf).run ops).query (.timeseries { p with lastEventId := i }))
        (fun ops => ∀ w, Run conf ops w → PendingInKeyOrder w.flushed w.cur p.orderBy) ops none more all →
      ∃ w w' sel, Run conf ops w ∧ Run conf (ops ++ more) w' ∧ Selected b.conf w.partitions p sel ∧
        all.Pairwise (KeyOrder p) ∧ all.Pairwise (fun a b => a.id ≠ b.id) ∧
        match sel with
        | some q => (∀ e, InAnswer b.conf w.cur q p e → e ∈ all) ∧ ∀ e ∈ all, InAnswer b.conf w'.cur q p e
        | none => all = [] := by
  intro b p all hp h
  have hopen0 := pages_open h
  obtain ⟨w, hw⟩ := reached conf ops hl
  have hcf : b.conf = w.conf := hw.rel.conf
  obtain ⟨sub, sel, h1, h2, h3⟩ := chosen_reached hc hopen0 hw hp
  cases sel with
  | some q =>
    obtain ⟨w', r1, r2, r3, r4, r5, r6, r7⟩ := pages_during (fun _ h => h) h hl hc ho hm w hw (by rw [← hcf]; exact hp) sub q
      (by rw [← hcf]; exact h1) h2 (by rw [← hcf]; exact h3) none rfl (by simp)
    refine ⟨w, w', some q, hw.run, r1.run, h3.found, r4, ?_, ?_, ?_⟩
    · refine List.Pairwise.imp_of_mem ?_ r4
      intro x y hx hy hxy hid
      obtain ⟨⟨k, _, k1⟩, _⟩ := r7 x hx
      obtain ⟨⟨k', _, k2⟩, _⟩ := r7 y hy
      have := storeOk_unique r1.rel.okC (r1.rel.okC.entryId _ _ k1).2.1 (r1.rel.okC.entryId _ _ k2).2.1 hid
      subst this
      exact KeyOrder.irrefl hxy
    · intro e he
      exact r6 e (by rw [← hcf]; exact he) (by simp)
    · intro e he
      rw [hcf]
      exact r7 e he
  | none =>
    have hall : more = [] ∧ all = [] := by
      have hq : ∀ i, ((Backend.new conf).run ops).query (.timeseries { p with lastEventId := i }) = .ok ⟨[], false⟩ := by
        cases h with
        | last hask _ => exact fun i => series_chosen hl hc (fun es h => ho es (by simp [h])) hopen0 hw p hp (hask w hw.run).weak sub none h1 h2 h3 i p.maxResults
        | more hask _ _ _ => exact fun i => series_chosen hl hc (fun es h => ho es (by simp [h])) hopen0 hw p hp (hask w hw.run).weak sub none h1 h2 h3 i p.maxResults
      cases h with
      | last _ hr => rw [hq] at hr; cases hr; exact ⟨rfl, rfl⟩
      | more _ hr => rw [hq] at hr; cases hr
    obtain ⟨rfl, rfl⟩ := hall
    exact ⟨w, w, none, hw.run, by simpa using hw.run, h3.found, .nil, .nil, rfl⟩

/-- The same in terms of queries: what a query without limit returns before the
first page is received.  Missing: as in `C109_partial`. -/
theorem C109_observed_partial (conf : Conf) (ops more : List BackendOp) (hl : LookupLaws ops) (hc : TsConfs ops)
    (ho : OrdinaryEvents (ops ++ more)) (hm : OnlyGrows more)
    (p : QueryTimeseriesParams) (all : List Event) (hp : TsParamsOk ((Backend.new conf).run ops).conf p)
    (h : PagesDuring (fun ops i => ((Backend.new conf).run ops).query (.timeseries { p with lastEventId := i }))
      (fun ops => ∀ w, Run conf ops w → PendingInKeyOrder w.flushed w.cur p.orderBy) ops none more all) (first : QueryResult)
    (h1 : ((Backend.new conf).run ops).query (.timeseries { p with lastEventId := none, maxResults := none }) = .ok first) :
    ∀ e ∈ first.events, e ∈ all := by
  have hopen0 := pages_open h
  obtain ⟨w, hw⟩ := reached conf ops hl
  have hcf : ((Backend.new conf).run ops).conf = w.conf := hw.rel.conf
  obtain ⟨sub, sel, g1, g2, g3⟩ := chosen_reached hc hopen0 hw hp
  have hk : PendingInKeyOrder w.flushed w.cur p.orderBy := by
    cases h with
    | last hask _ => exact hask w hw.run
    | more hask _ _ _ => exact hask w hw.run
  have hs := series_chosen hl hc (fun es h => ho es (by simp [h])) hopen0 hw p hp hk.weak sub sel g1 g2 g3
  cases sel with
  | some q =>
    obtain ⟨full, a1, -⟩ := hs
    obtain ⟨w', -, -, -, -, -, r6, -⟩ := pages_during (fun _ h => h) h hl hc ho hm w hw (by rw [← hcf]; exact hp) sub q
      (by rw [← hcf]; exact g1) g2 (by rw [← hcf]; exact g3) none rfl (by simp)
    have a2 := a1.first none (by simp)
    have a3 := h1.symm.trans a2
    cases a3
    intro e he
    refine r6 e ?_ (by simp)
    rw [← hcf]
    exact (a1.list.mem e).1 (List.mem_of_mem_take he)
  | none =>
    have a3 := h1.symm.trans (hs none none)
    cases a3
    simp

/-- The assumption about pending events holds if everything is flushed, or if
all events are from one server and the order is by timestamp. -/
theorem C109_in_order (conf : Conf) (ops : List BackendOp) (hopen : ((Backend.new conf).run ops).mem ≠ none) (o : OrderBy)
    (h : InOrderHistory ops o) (w : World) (hr : Run conf ops w) : PendingInKeyOrder w.flushed w.cur o := by
  rcases h with ⟨ops', rfl⟩ | ⟨rfl, s, hs⟩
  · obtain ⟨w0, _, hst⟩ := run_spec_snoc hr
    have hop' : w.isOpen = true := by rw [run_isOpen hr, Option.isSome_iff_ne_none]; exact hopen
    have hlog : w.cur.log = w.flushed.log := by
      cases hst with
      | closed h1 _ => rw [h1] at hop'; simp at hop'
      | flush _ => rfl
      | flushFail _ => simp at hop'
    intro pre p post h1 h2
    rw [← hlog, h1] at h2
    simp at h2
  · have hok := run_ok hr
    intro pre p post h1 _ a ha x y hx hy
    cases hx
    cases hy
    have hm := hok.okC.mono
    rw [h1] at hm
    have hsrv : ∀ e ∈ w.cur.log, e.id.server = s := by
      intro e he
      obtain ⟨es, h3, h4⟩ := hok.logC e he
      exact hs es h3 e h4
    obtain ⟨h3, h4⟩ := (List.pairwise_append.1 hm).2.2 a ha p (by simp) (by
      rw [hsrv a (by rw [h1]; simp [ha]), hsrv p (by rw [h1]; simp)])
    rcases h4 with h4 | h4
    · exact .inl h4
    · exact .inr ⟨h4, h3⟩

/-! ### What does not hold -/

/-- Events of two servers with the same timestamp, the one of the second server first, and an event of a third one. -/
def exTies : List BackendOp :=
  [.reopen (exConf none exPartitions),
   .register [exE 2 1 1 ["a"] 1 none, exE 1 1 1 ["a"] 1 none, exE 3 1 1 ["a"] 1 none]]

theorem exTies_confs : ∀ more, OnlyGrows more → ∀ c, BackendOp.reopen c ∈ exTies ++ more → c = exConf none exPartitions := by
  intro more hm c hc
  rcases List.mem_append.1 hc with hc | hc
  · simpa [exTies] using hc
  · exact absurd hc (hm.noReopen c)

theorem exFlush_grows : OnlyGrows [.flush] := by
  intro op hop
  rw [List.mem_singleton.1 hop]
  exact ⟨nofun, nofun⟩

theorem exTies_ok : LookupLaws exTies ∧ TsConfs exTies ∧ OrdinaryEvents (exTies ++ [.flush]) := by
  have hg : OnlyGrows [] := by intro op hop; simp at hop
  have hcf := exTies_confs [] hg
  rw [List.append_nil] at hcf
  refine ⟨fun c hc => by rw [hcf c hc]; exact exConf_lookup _ _,
    fun c hc => by rw [hcf c hc]; exact exHistory_tsConfs _ (by simp [exHistory]), ?_⟩
  intro es hes
  simp only [exTies, List.cons_append, List.nil_append, List.mem_cons, reduceCtorEq, BackendOp.register.injEq, List.not_mem_nil,
    or_false, false_or] at hes
  subst hes
  simp [exE, Ordinary, TimeLe, TimeLt, maxTimestamp, maxId]

theorem exPage_ok (n : Nat) (c : Conf) : TsParamsOk c { order := .ascending, maxResults := some n } :=
  ⟨by simp, by simp, by simp, by simp⟩

/-- Events are lost if pending events are flushed between two pages: those with
the same timestamp are returned in the order of registration before the flush
and in the order of identifiers afterwards. -/
theorem C109_lost_refuted : ¬ ∀ (conf : Conf) (ops more : List BackendOp), LookupLaws ops → TsConfs ops →
    OrdinaryEvents (ops ++ more) → OnlyGrows more → ((Backend.new conf).run (ops ++ more)).mem ≠ none →
    ∀ (p : QueryTimeseriesParams) (all r : List Event), TsParamsOk ((Backend.new conf).run ops).conf p →
      PagesDuring (fun ops i => ((Backend.new conf).run ops).query (.timeseries { p with lastEventId := i })) (fun _ => True)
        ops none more all →
      ((Backend.new conf).run ops).query (.timeseries { p with lastEventId := none, maxResults := none }) = .ok ⟨r, false⟩ →
      ∀ e ∈ r, e ∈ all := by
  intro h
  have := h (exConf none []) exTies [.flush] exTies_ok.1 exTies_ok.2.1 exTies_ok.2.2 exFlush_grows nofun
    { order := .ascending, maxResults := some 1 } [exE 2 1 1 ["a"] 1 none, exE 3 1 1 ["a"] 1 none]
    [exE 2 1 1 ["a"] 1 none, exE 1 1 1 ["a"] 1 none, exE 3 1 1 ["a"] 1 none] (exPage_ok 1 _)
    (.more (events := [exE 2 1 1 ["a"] 1 none]) (x := exE 2 1 1 ["a"] 1 none) (between := [.flush]) trivial (by rfl) rfl
      (.last trivial (by rfl))) (by rfl) (exE 1 1 1 ["a"] 1 none) (by simp)
  simp [exE] at this

/-- Events are received twice in the same situation. -/
theorem C109_twice_refuted : ¬ ∀ (conf : Conf) (ops more : List BackendOp), LookupLaws ops → TsConfs ops →
    OrdinaryEvents (ops ++ more) → OnlyGrows more → ((Backend.new conf).run (ops ++ more)).mem ≠ none →
    ∀ (p : QueryTimeseriesParams) (all : List Event), TsParamsOk ((Backend.new conf).run ops).conf p →
      PagesDuring (fun ops i => ((Backend.new conf).run ops).query (.timeseries { p with lastEventId := i })) (fun _ => True)
        ops none more all →
      all.Pairwise fun a b => a.id ≠ b.id := by
  intro h
  have := h (exConf none []) exTies [.flush] exTies_ok.1 exTies_ok.2.1 exTies_ok.2.2 exFlush_grows nofun
    { order := .ascending, maxResults := some 2 }
    [exE 2 1 1 ["a"] 1 none, exE 1 1 1 ["a"] 1 none, exE 2 1 1 ["a"] 1 none, exE 3 1 1 ["a"] 1 none] (exPage_ok 2 _)
    (.more (events := [exE 2 1 1 ["a"] 1 none, exE 1 1 1 ["a"] 1 none]) (x := exE 1 1 1 ["a"] 1 none) (between := [.flush]) trivial
      (by rfl) rfl (.last trivial (by rfl)))
  simp [exE] at this

/-- A partition for two entries. -/
def exTwo : List Partition := [⟨.timestamp, exA, some { minEntries := some 1, maxEntries := some 2 }⟩]

/-- Three events are stored. -/
def exThree : List BackendOp :=
  [.reopen (exConf none exTwo),
   .register [exE 1 1 1 ["a"] 1 none, exE 1 1 2 ["a"] 5 none, exE 1 1 3 ["a"] 6 none], .flush]

/-- A cleanup that removes the first one. -/
def exClean : BackendOp := .cleanup id (fun _ => none) ⟨7, 0⟩

/-- Events are lost if a cleanup removes the last received event: the next page
is empty and nothing follows, although events follow in the database. -/
theorem C109_cleanup_refuted : ¬ ∀ (conf : Conf) (ops more : List BackendOp), LookupLaws ops → TsConfs ops →
    OrdinaryEvents (ops ++ more) → (∀ c, .reopen c ∉ more) → ((Backend.new conf).run (ops ++ more)).mem ≠ none →
    ∀ (p : QueryTimeseriesParams) (all r r' : List Event), TsParamsOk ((Backend.new conf).run ops).conf p →
      PagesDuring (fun ops i => ((Backend.new conf).run ops).query (.timeseries { p with lastEventId := i }))
        (fun ops => ∀ w, Run conf ops w → PendingInKeyOrder w.flushed w.cur p.orderBy) ops none more all →
      ((Backend.new conf).run ops).query (.timeseries { p with lastEventId := none, maxResults := none }) = .ok ⟨r, false⟩ →
      ((Backend.new conf).run (ops ++ more)).query (.timeseries { p with lastEventId := none, maxResults := none }) = .ok ⟨r', false⟩ →
      ∀ e ∈ r, e ∈ r' → e ∈ all := by
  intro h
  have hcf : ∀ c, BackendOp.reopen c ∈ exThree → c = exConf none exTwo := by
    intro c hc
    simpa [exThree] using hc
  have hsrv : ∀ ops, ops = exThree ∨ ops = exThree ++ [exClean] → ∀ es, .register es ∈ ops → ∀ e ∈ es, e.id.server = 1 := by
    intro ops hops es hes
    have hes : es = [exE 1 1 1 ["a"] 1 none, exE 1 1 2 ["a"] 5 none, exE 1 1 3 ["a"] 6 none] := by
      rcases hops with rfl | rfl <;> simpa [exThree, exClean] using hes
    subst hes
    simp [exE]
  have hord : ∀ ops, ops = exThree ∨ ops = exThree ++ [exClean] → ∀ w, Run (exConf none []) ops w →
      PendingInKeyOrder w.flushed w.cur .timestamp := by
    intro ops hops w hw
    refine C109_in_order _ ops ?_ .timestamp (.inr ⟨rfl, 1, hsrv ops hops⟩) w hw
    rcases hops with rfl | rfl <;> exact nofun
  have := h (exConf none []) exThree [exClean]
    (fun c hc => by rw [hcf c hc]; exact exConf_lookup _ _)
    (fun c hc => by
      rw [hcf c hc]
      refine ⟨by decide, ?_⟩
      intro p hp
      simp only [exConf, exTwo, List.mem_cons, List.not_mem_nil, or_false] at hp
      subst hp
      exact ⟨.py, [["a"]], by unfold NulFree; decide, rfl⟩)
    (by
      intro es hes
      have hes : es = [exE 1 1 1 ["a"] 1 none, exE 1 1 2 ["a"] 5 none, exE 1 1 3 ["a"] 6 none] := by
        simpa [exThree, exClean] using hes
      subst hes
      simp [exE, Ordinary, TimeLe, TimeLt, maxTimestamp, maxId])
    (by intro c; simp [exClean]) nofun
    { order := .ascending, maxResults := some 1 } [exE 1 1 1 ["a"] 1 none]
    [exE 1 1 1 ["a"] 1 none, exE 1 1 2 ["a"] 5 none, exE 1 1 3 ["a"] 6 none]
    [exE 1 1 2 ["a"] 5 none, exE 1 1 3 ["a"] 6 none] (exPage_ok 1 _)
    (.more (events := [exE 1 1 1 ["a"] 1 none]) (x := exE 1 1 1 ["a"] 1 none) (between := [exClean]) (hord _ (.inl rfl)) (by rfl) rfl
      (.last (hord _ (.inr rfl)) (by rfl))) (by rfl) (by rfl) (exE 1 1 2 ["a"] 5 none) (by simp) (by simp)
  simp [exE] at this

/-! ### Examples -/

/-- Events of one server that are not flushed; between the pages they are
flushed and another one is registered. -/
def exPaged : List BackendOp :=
  [.reopen (exConf none exPartitions), .register [exE 1 1 1 ["a"] 1 none, exE 1 1 2 ["a"] 1 none]]

def exPagedMore : List BackendOp := [.flush, .register [exE 1 1 3 ["a"] 4 none]]

theorem exPaged_server {ops : List BackendOp} (h : ops = exPaged ∨ ops = exPaged ++ exPagedMore) :
    InOrderHistory ops .timestamp := by
  refine .inr ⟨rfl, 1, ?_⟩
  intro es hes
  have : es = [exE 1 1 1 ["a"] 1 none, exE 1 1 2 ["a"] 1 none] ∨ es = [exE 1 1 3 ["a"] 4 none] := by
    rcases h with rfl | rfl
    · exact .inl (by simpa [exPaged] using hes)
    · simpa [exPaged, exPagedMore] using hes
  rcases this with rfl | rfl <;> simp [exE]

/-- The assumptions of `C109_partial`, `C109_observed_partial` and `C109_in_order`; three events are received in three pages. -/
example : LookupLaws exPaged ∧ TsConfs exPaged ∧ OrdinaryEvents (exPaged ++ exPagedMore) ∧ OnlyGrows exPagedMore ∧
    ((Backend.new (exConf none [])).run (exPaged ++ exPagedMore)).mem ≠ none ∧
    PagesDuring (fun ops i => ((Backend.new (exConf none [])).run ops).query
        (.timeseries { order := .ascending, maxResults := some 1, lastEventId := i }))
      (fun ops => ∀ w, Run (exConf none []) ops w → PendingInKeyOrder w.flushed w.cur .timestamp) exPaged none exPagedMore
      [exE 1 1 1 ["a"] 1 none, exE 1 1 2 ["a"] 1 none, exE 1 1 3 ["a"] 4 none] ∧
    ((Backend.new (exConf none [])).run exPaged).query (.timeseries { order := .ascending }) =
      .ok ⟨[exE 1 1 1 ["a"] 1 none, exE 1 1 2 ["a"] 1 none], false⟩ := by
  have hcf : ∀ c, BackendOp.reopen c ∈ exPaged → c = exConf none exPartitions := by
    intro c hc
    simpa [exPaged] using hc
  have hord : ∀ ops, ops = exPaged ∨ ops = exPaged ++ exPagedMore → ∀ w, Run (exConf none []) ops w →
      PendingInKeyOrder w.flushed w.cur .timestamp := by
    intro ops hops w hw
    refine C109_in_order _ ops ?_ .timestamp (exPaged_server hops) w hw
    rcases hops with rfl | rfl <;> exact nofun
  refine ⟨fun c hc => by rw [hcf c hc]; exact exConf_lookup _ _,
    fun c hc => by rw [hcf c hc]; exact exHistory_tsConfs _ (by simp [exHistory]), ?_, ?_, nofun, ?_, by rfl⟩
  · intro es hes
    have : es = [exE 1 1 1 ["a"] 1 none, exE 1 1 2 ["a"] 1 none] ∨ es = [exE 1 1 3 ["a"] 4 none] := by
      simpa [exPaged, exPagedMore] using hes
    rcases this with rfl | rfl <;> simp [exE, Ordinary, TimeLe, TimeLt, maxTimestamp, maxId]
  · intro op hop
    simp only [exPagedMore, List.mem_cons, List.not_mem_nil, or_false] at hop
    rcases hop with rfl | rfl <;> exact ⟨nofun, nofun⟩
  · exact .more (events := [exE 1 1 1 ["a"] 1 none]) (x := exE 1 1 1 ["a"] 1 none) (between := exPagedMore) (later := [])
      (hord _ (.inl rfl)) (by rfl) rfl
      (.more (events := [exE 1 1 2 ["a"] 1 none]) (x := exE 1 1 2 ["a"] 1 none) (between := []) (later := [])
        (hord _ (.inr rfl)) (by rfl) rfl (.last (hord _ (.inr rfl)) (by rfl)))

end HatEvent
