import Verif.Proof.LmdbPages

/-!
# C34: paging through a timeseries query
-/

namespace HatEvent
open Spec

/-- The backend with another limit for the number of results of a query. -/
def Spec.withLimit (b : Backend) (n : Nat) : Backend := { b with conf := { b.conf with maxResults := n } }

/-- Paging through a timeseries query yields exactly what a query without limit
returns, in all states and with all sizes of pages: `full` is what one query
returns if the limit in the configuration allows all events; repeating the query
with limits (in the query or in the configuration, positive) ends with the same
list.  It has no event twice; all of its events are registered ones that satisfy
what the query asks for. -/
theorem C34 (conf : Conf) (ops : List BackendOp) (hl : LookupLaws ops) (hc : TsConfs ops)
    (hopen : ((Backend.new conf).run ops).mem ≠ none) :
    let b := (Backend.new conf).run ops
    ∀ p : QueryTimeseriesParams, TsParamsOk b.conf p → ∃ full : List Event,
      (∀ n : Nat, full.length ≤ n → (withLimit b n).query (.timeseries
        { p with lastEventId := none, maxResults := none }) = .ok ⟨full, false⟩) ∧
      (∀ mr, 0 < tsPage b.conf mr →
        let query := fun i => b.query (.timeseries { p with lastEventId := i, maxResults := mr })
        Pages query none full ∧ ∀ r, Pages query none r → r = full) ∧
      full.Pairwise (fun a b => a.id ≠ b.id) ∧
      ∀ e ∈ full, TsMatches p e ∧ ∃ es, .register es ∈ ops ∧ e ∈ es := by
  intro b p hp
  obtain ⟨w, h⟩ := reached conf ops hl
  obtain ⟨m, hm⟩ := Option.ne_none_iff_exists'.1 hopen
  obtain ⟨_, hmem⟩ := h.rel.opened m hm
  have hrok := run_ok h.run
  have hmem' : b.conf = w.conf := h.rel.conf
  obtain ⟨hc1, hc2⟩ := hc b.conf (run_conf conf ops hopen)
  obtain ⟨sub, hsub, hso⟩ := querySubscription_ok hp.wellFormed hp.nulFree
  have hparts : ∀ x ∈ m.timeseries.partitions, ∃ (i : Impl) (qs : List EventType), (∀ q ∈ qs, NulFree q) ∧
      i.create qs = .ok x.2.subscription := by
    intro x hx
    rw [hmem.partsEq] at hx
    exact hc2 _ (by rw [hmem']; exact hmem.partsIn.2 x hx)
  have hpos : ∀ mr, 0 < tsPage b.conf mr → ∀ n, mr = some n → 0 ≤ n := by
    intro mr h n hn
    subst hn
    unfold tsPage at h
    simp only [Option.getD_some] at h
    omega
  have hquery : ∀ i mr, b.query (.timeseries { p with lastEventId := i, maxResults := mr }) =
      queryPartitions b.conf b.disk m.timeseries { p with lastEventId := i, maxResults := mr } sub
        (limitResults mr b.conf.maxResults) m.timeseries.partitions := by
    intro i mr
    unfold Backend.query
    have hm' : b.mem = some m := hm
    rw [hm']
    simp only [Mem.query, TimeseriesDb.query, hsub, ok_bind]
  have hquery' : ∀ n : Nat, (withLimit b n).query (.timeseries { p with lastEventId := none, maxResults := none }) =
      queryPartitions (withLimit b n).conf b.disk m.timeseries
        { p with lastEventId := none, maxResults := none } sub n m.timeseries.partitions := by
    intro n
    have hsub' : querySubscription (withLimit b n).conf p.eventTypes = .ok sub := hsub
    unfold Backend.query
    have hm' : (withLimit b n).mem = some m := hm
    rw [hm']
    simp only [Mem.query, TimeseriesDb.query, hsub', ok_bind]
    rfl
  have same : ∀ (n : Nat) (prm : QueryTimeseriesParams) (k : Int) (parts : List (Int × Partition)),
      queryPartitions (withLimit b n).conf b.disk m.timeseries prm sub k parts =
        queryPartitions b.conf b.disk m.timeseries prm sub k parts := by
    intro n prm k parts
    induction parts with
    | nil => rfl
    | cons x parts ih =>
      rw [queryPartitions, queryPartitions, ih]
      rfl
  rcases queryPartitions_select hsub hso hp.nulFree _ hparts with
    ⟨pre, q, part, post, s1, s2, s3, s4, s5⟩ | ⟨s1, s2⟩
  · have hpt := (run_partTable (Backend.new conf) ops (partsOk_new conf)).1.2 m hm
    rw [hmem.partsEq] at hpt s1
    have hgq : Dict.get w.partitions q = some part :=
      Dict.get_of_mem hmem.nodParts (by rw [s1]; simp)
    have hr1 : TimeRange (p.range.1.getD minTimestamp) ∧ TimeRange (p.range.2.getD maxTimestamp) := by
      have key : ∀ o : Option Timestamp, (o ∈ [p.tFrom, p.tTo, p.sourceTFrom, p.sourceTTo]) →
          ∀ d : Timestamp, TimeRange d → TimeRange (o.getD d) := by
        intro o ho d hd
        cases o with
        | none => exact hd
        | some x => exact hp.times _ ho x rfl
      have h1 : TimeRange minTimestamp := by unfold TimeRange minTimestamp; norm_num
      have h2 : TimeRange maxTimestamp := by unfold TimeRange maxTimestamp; norm_num
      unfold QueryTimeseriesParams.range
      cases p.orderBy
      · exact ⟨key _ (by simp) _ h1, key _ (by simp) _ h2⟩
      · exact ⟨key _ (by simp) _ h1, key _ (by simp) _ h2⟩
    obtain ⟨L, f1, f2, f3⟩ := series_pages (conf := w.conf) h.rel.disk hmem h.rel.okF h.rel.okC
      (run_series conf ops hl) hpt.2 b.conf hgq s3 sub hr1.1 hr1.2
    refine ⟨L.filter (filterOf sub p 0).accepts, ?_, ?_, f1, ?_⟩
    · intro n hn
      rw [hquery', same, s5]
      have := (f3 n (by omega) none).1
      rw [this]
      unfold page
      simp only [Int.toNat_natCast]
      rw [List.take_of_length_le hn]
      simp [hn]
    · intro mr hmr
      obtain ⟨n1, n2⟩ := tsPage_eq hc1 (hpos mr hmr)
      refine pages_split hmr ?_ ?_
      · rw [hquery, s5, ← n2]
        exact (f3 _ n1 mr).1
      · intro pre x post hx
        rw [hquery, s5, ← n2]
        exact (f3 _ n1 mr).2 pre x post hx
    · intro e he
      obtain ⟨h1, h2⟩ := List.mem_filter.1 he
      exact ⟨(accepts_iff hso e).1 h2, hrok.logC e (f2 e h1)⟩
  · refine ⟨[], ?_, ?_, List.Pairwise.nil, by simp⟩
    · intro n _
      rw [hquery', same, s2]
    · intro mr _
      have hq : ∀ i, b.query (.timeseries { p with lastEventId := i, maxResults := mr }) = .ok ⟨[], false⟩ := by
        intro i; rw [hquery, s2]
      refine ⟨.last (hq none), ?_⟩
      intro r hr
      cases hr with
      | last h => rw [hq] at h; cases h; rfl
      | more h => rw [hq] at h; cases h

/-! ### Example -/

theorem exUnordered_confs : ∀ c, BackendOp.reopen c ∈ exUnordered → c = exConf none exPartitions := by
  intro c hc
  simpa [exUnordered] using hc

/-- Pending events out of order, pages of one event. -/
example : LookupLaws exUnordered ∧ TsConfs exUnordered ∧ ((Backend.new (exConf none [])).run exUnordered).mem ≠ none ∧
    TsParamsOk ((Backend.new (exConf none [])).run exUnordered).conf { order := .ascending } ∧
    Pages (fun i => ((Backend.new (exConf none [])).run exUnordered).query
      (.timeseries { order := .ascending, maxResults := some 1, lastEventId := i })) none
      [exE 1 1 1 ["a"] 5 none, exE 2 1 1 ["a"] 1 none] ∧
    (withLimit ((Backend.new (exConf none [])).run exUnordered) 2).query
      (.timeseries { order := .ascending }) =
      .ok ⟨[exE 1 1 1 ["a"] 5 none, exE 2 1 1 ["a"] 1 none], false⟩ := by
  refine ⟨?_, ?_, ?_, ?_, ?_, by rfl⟩
  · intro c hc
    rw [exUnordered_confs c hc]; exact exConf_lookup _ _
  · intro c hc
    rw [exUnordered_confs c hc]; exact exHistory_tsConfs _ (by simp [exHistory])
  · intro h; cases h
  · exact ⟨by simp, by simp, by simp, by simp⟩
  · exact .more (events := [exE 1 1 1 ["a"] 5 none]) (x := exE 1 1 1 ["a"] 5 none) (by rfl) (by rfl)
      (.last (by rfl))

end HatEvent
