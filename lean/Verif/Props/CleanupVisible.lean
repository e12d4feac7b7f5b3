import Verif.Props.FlushVisible

/-!
# C115: a cleanup only takes events out of the answers
-/

namespace HatEvent
open Spec

theorem cleaned_world {w w' : World} {fl : Rat → Rat} {size : Rat → Option Int} {now : Timestamp}
    (h : Step w (.cleanup fl size now) w') (hopen : w'.isOpen = true) :
    ∃ removed : TimeseriesKey → Prop, w' = { w with cur := w.cur.drop removed, flushed := w.flushed.drop removed } ∧
      ∀ k, removed k → ∃ part limit, Dict.get w.partitions k.partition = some part ∧ part.limit = some limit := by
  cases h with
  | closed h1 => rw [h1] at hopen; cases hopen
  | cleanup removed _ h2 => exact ⟨removed, rfl, fun k hk => (h2 k hk).2⟩
  | cleanupFail => cases hopen

theorem held_drop {st : Store} {r : TimeseriesKey → Prop} {e : Event} (h : (st.drop r).Held e) : st.Held e := by
  rcases h with h | ⟨k, h⟩
  · exact .inl h
  · exact .inr ⟨k, (drop_entry.1 h).2⟩

theorem page_all {full : List Event} {n : Nat} (h : (page full n).moreFollows = false) : (page full n).events = full := by
  simp only [page, decide_eq_false_iff_not, Nat.not_lt] at h ⊢
  exact List.take_of_length_le h

/-- Latest queries return the same after a successful cleanup. -/
theorem C115_latest (conf : Conf) (ops : List BackendOp) (fl : Rat → Rat) (size : Rat → Option Int) (now : Timestamp)
    (hopen : ((Backend.new conf).run (ops ++ [.cleanup fl size now])).mem ≠ none) (types : Option (List EventType)) :
    ((Backend.new conf).run (ops ++ [.cleanup fl size now])).query (.latest types) =
      ((Backend.new conf).run ops).query (.latest types) := by
  rw [run_snoc] at hopen ⊢
  generalize (Backend.new conf).run ops = b at hopen ⊢
  have hst := stepTo b (.cleanup fl size now)
  generalize b.step (.cleanup fl size now) = b' at hst hopen ⊢
  cases hst with
  | closed _ _ => rfl
  | cleanup h1 h2 =>
    unfold Backend.query
    rw [h1]
    cases types <;> rfl
  | cleanupFail _ _ => exact absurd rfl hopen

theorem dels_sublist {κ υ : Type} [DecidableEq κ] (l : List κ) (t : Dict κ υ) : (l.foldl Dict.del t).Sublist t := by
  induction l generalizing t with
  | nil => exact .refl _
  | cons k l ih => exact (ih _).trans (by rw [Table.del_eq_filter]; exact List.filter_sublist)

theorem cleanup_sublist {fl : Rat → Rat} {se : Rat → Option Int} {now : Timestamp} {mr : Option Int} :
    ∀ (ps : List (Int × Partition)) (res : List TimeseriesKey) (data : Table TimeseriesKey Event)
      (counts : Table Int Int) {r : List TimeseriesKey} {data' : Table TimeseriesKey Event}
      {counts' : Table Int Int},
      cleanupPartitions fl se now mr ps res data counts = .ok (r, data', counts') → data'.Sublist data
  | [], res, data, counts, r, data', counts', h => by
    unfold cleanupPartitions at h
    cases h; exact .refl _
  | (i, p) :: ps, res, data, counts, r, data', counts', h => by
    unfold cleanupPartitions at h
    cases hl : p.limit with
    | none => rw [hl] at h; exact cleanup_sublist ps _ _ _ h
    | some limit =>
      rw [hl] at h
      simp only at h
      rcases ite_cases h with ⟨_, h⟩ | ⟨_, h⟩
      · cases h; exact .refl _
      · obtain ⟨⟨r1, d1, c1⟩, h1, h2⟩ := bind_ok h
        have h3 := cleanup_sublist ps _ _ _ h2
        unfold cleanupPartition at h1
        simp only at h1
        obtain ⟨_, _, h1⟩ := bind_ok h1
        obtain ⟨_, _, h1⟩ := bind_ok h1
        obtain ⟨_, _, h1⟩ := bind_ok h1
        obtain ⟨_, _, h1⟩ := bind_ok h1
        cases h1
        exact h3.trans (dels_sublist _ _)

theorem extCleanup_sublist {fl : Rat → Rat} {se : Rat → Option Int} {now : Timestamp} {parts : Dict Int Partition} {d d' : Disk} {r : Bool}
    (h : extCleanup fl se now parts d = .ok (d', r)) : d'.tsData.Sublist d.tsData := by
  unfold extCleanup at h
  obtain ⟨⟨removed, data, counts⟩, h1, h2⟩ := bind_ok h
  have h3 := cleanup_sublist _ _ _ _ h1
  simp only at h2
  rcases ite_cases h2 with ⟨_, h2⟩ | ⟨_, h2⟩
  · cases h2; exact .refl _
  · obtain ⟨ref, _, h2⟩ := bind_ok h2
    cases h2
    exact h3

theorem looked_sublist {conf : Conf} {d d' : Disk} (h : d'.tsData.Sublist d.tsData) (q : Int) (p : QueryTimeseriesParams)
    (pend : List Event) : (looked conf d' q p pend).Sublist (looked conf d q p pend) := by
  have h1 : (diskPart conf d' q p).Sublist (diskPart conf d q p) := by
    unfold diskPart
    exact ((h.filter _).map _).filter _
  unfold looked
  cases p.order with
  | ascending => exact h1.append (.refl _)
  | descending => exact (List.Sublist.refl _).append h1.reverse

/-- The events after the first one with the given identifier. -/
def afterId : Option EventId → List Event → List Event
  | none, l => l
  | some i, l => (l.dropWhile fun e => decide (e.id ≠ i)).tail

theorem afterId_sublist {l l' : List Event} (h : l'.Sublist l) (i : Option EventId) : (afterId i l').Sublist (afterId i l) := by
  cases i with
  | none => exact h
  | some i =>
    unfold afterId
    simp only
    induction h with
    | slnil => exact .refl _
    | cons a h ih =>
      rw [List.dropWhile_cons]
      split
      · exact ih
      · exact ((List.tail_sublist _).trans (List.dropWhile_sublist _)).trans h
    | cons_cons a h ih =>
      rw [List.dropWhile_cons, List.dropWhile_cons]
      split
      · exact ih
      · exact h

theorem cut_after {sub : Option Sub} {p : QueryTimeseriesParams} {n : Int} (hn : 0 ≤ n) (L : List Event) :
    cutSeries ((filterOf sub p (n + 1)).process L).1 n =
      .ok (page ((afterId p.lastEventId L).filter (filterOf sub p 0).accepts) n.toNat) := by
  obtain ⟨h1, h2, h3⟩ := cut_process (sub := sub) (params := p) hn L
  cases hl : p.lastEventId with
  | none => exact h1 hl
  | some i =>
    unfold afterId
    simp only
    have hs := List.takeWhile_append_dropWhile (p := fun e : Event => decide (e.id ≠ i)) (l := L)
    have ht : ∀ e ∈ L.takeWhile fun e => decide (e.id ≠ i), e.id ≠ i := fun e he => by
      have := List.all_takeWhile (p := fun e : Event => decide (e.id ≠ i)) (l := L)
      simpa using List.all_eq_true.1 this e he
    cases hd : L.dropWhile fun e => decide (e.id ≠ i) with
    | nil =>
      rw [hd, List.append_nil] at hs
      rw [h3 i hl (by rw [hs] at ht; exact ht)]
      simp [page]
    | cons x post =>
      have hx : x.id = i := by
        have := List.head?_dropWhile_not (fun e : Event => decide (e.id ≠ i)) L
        rw [hd] at this
        simpa using this
      subst hx
      rw [hd] at hs
      exact h2 _ x post hl hs.symm ht

theorem queryPartition_nonneg {conf : Conf} {d : Disk} {db : TimeseriesDb} {q : Int} {p : QueryTimeseriesParams}
    {sub : Option Sub} {n : Int} {r : QueryResult} (h : queryPartition conf d db q p sub n = .ok r) : 0 ≤ n := by
  have cut : ∀ l, cutSeries l n = .ok r → 0 ≤ n := by
    intro l h
    unfold cutSeries at h
    rcases ite_cases h with ⟨_, h⟩ | ⟨h, _⟩
    · cases h
    · omega
  unfold queryPartition at h
  simp only at h
  cases hpo : p.order <;> rw [hpo] at h <;> simp only at h <;> obtain ⟨_, _, h⟩ := bind_ok h <;>
    rcases ite_cases h with ⟨_, h⟩ | ⟨_, h⟩
  all_goals first
    | exact cut _ h
    | (obtain ⟨_, _, h⟩ := bind_ok h; exact cut _ h)

/-- The answer of a timeseries query, whatever the order of pending events. -/
theorem series_looked {conf : Conf} {ops : List BackendOp} {w : World} (h : Reached conf ops w) {m : Mem}
    (hm : ((Backend.new conf).run ops).mem = some m) {p : QueryTimeseriesParams} (hp : TsParamsOk ((Backend.new conf).run ops).conf p)
    {n : Int} (hn : 0 ≤ n) {q : Int} {part : Partition} (hq : Dict.get w.partitions q = some part)
    (ho : part.orderBy = p.orderBy) (sub : Option Sub) :
    queryPartition ((Backend.new conf).run ops).conf ((Backend.new conf).run ops).disk m.timeseries q p sub n =
      .ok (page ((afterId p.lastEventId (looked ((Backend.new conf).run ops).conf ((Backend.new conf).run ops).disk q p
        (((Dict.get m.timeseries.changes q).getD []).map Prod.snd))).filter (filterOf sub p 0).accepts) n.toNat) := by
  obtain ⟨_, hmem⟩ := h.rel.opened m hm
  have hpt := (run_partTable (Backend.new conf) ops (partsOk_new conf)).1.2 m hm
  rw [hmem.partsEq] at hpt
  have hu : U64 q := h.rel.disk.parts.range _ _ (hpt.2 q part hq)
  have hr1 : TimeRange (p.range.1.getD minTimestamp) ∧ TimeRange (p.range.2.getD maxTimestamp) := by
    have key : ∀ o : Option Timestamp, (o ∈ [p.tFrom, p.tTo, p.sourceTFrom, p.sourceTTo]) →
        ∀ d : Timestamp, TimeRange d → TimeRange (o.getD d) := by
      intro o ho d hd
      cases o with
      | none => exact hd
      | some x => exact hp.times _ ho x rfl
    have h1 : TimeRange minTimestamp := by unfold TimeRange minTimestamp; norm_num
    have h2 : TimeRange maxTimestamp := by unfold TimeRange maxTimestamp; norm_num
    unfold QueryTimeseriesParams.range
    cases p.orderBy
    · exact ⟨key _ (by simp) _ h1, key _ (by simp) _ h2⟩
    · exact ⟨key _ (by simp) _ h1, key _ (by simp) _ h2⟩
  rw [queryPartition_eq h.rel.disk.sortTs hu hr1.1 hr1.2]
  · exact cut_after hn _
  · intro x hx
    obtain ⟨pend, _, hpend⟩ := hmem.pend
    rw [hpend] at hx
    obtain ⟨a, _, hax⟩ := List.mem_filterMap.1 hx
    obtain ⟨h3, _, part', hg, _, hx'⟩ := pendingEntry_iff.1 hax
    simp only at hg hx'
    rw [hq] at hg
    cases hg
    rw [h3, ← ho, orderTimestamp_iff.2 hx']
    simp

/-- If a timeseries query returned everything before a successful cleanup, then
afterwards it returns nothing else, in the same order and again completely; and it
returns the same events if no partition that is ordered as the query asks has a
limit. -/
theorem C115_timeseries (conf : Conf) (ops : List BackendOp) (hl : LookupLaws ops) (hc : TsConfs ops)
    (fl : Rat → Rat) (size : Rat → Option Int) (now : Timestamp)
    (hopen : ((Backend.new conf).run (ops ++ [.cleanup fl size now])).mem ≠ none) (p : QueryTimeseriesParams)
    (hp : TsParamsOk ((Backend.new conf).run ops).conf p) (r r' : List Event) (more : Bool)
    (h1 : ((Backend.new conf).run ops).query (.timeseries p) = .ok ⟨r, false⟩)
    (h2 : ((Backend.new conf).run (ops ++ [.cleanup fl size now])).query (.timeseries p) = .ok ⟨r', more⟩) :
    r'.Sublist r ∧ more = false ∧ (NoLimits ((Backend.new conf).run ops).conf p.orderBy → r' = r) := by
  have hopen0 := query_open h1
  obtain ⟨w, h⟩ := reached conf ops hl
  have hwo : w.isOpen = true := by rw [h.rel.isOpen, Option.isSome_iff_ne_none]; exact hopen0
  obtain ⟨w', g0, h'⟩ := reached_step h (.cleanup fl size now) hl
  have hw' : w'.isOpen = true := by rw [h'.rel.isOpen, Option.isSome_iff_ne_none]; exact hopen
  obtain ⟨removed, rfl, hrem⟩ := cleaned_world g0 hw'
  have hcf : ((Backend.new conf).run (ops ++ [.cleanup fl size now])).conf = ((Backend.new conf).run ops).conf :=
    h'.rel.conf.trans h.rel.conf.symm
  obtain ⟨m, hm⟩ := Option.ne_none_iff_exists'.1 hopen0
  -- the step
  obtain ⟨hm', hsubl⟩ : ((Backend.new conf).run (ops ++ [.cleanup fl size now])).mem = some m ∧
      ((Backend.new conf).run (ops ++ [.cleanup fl size now])).disk.tsData.Sublist ((Backend.new conf).run ops).disk.tsData := by
    rw [run_snoc] at hopen ⊢
    generalize (Backend.new conf).run ops = b at hm hopen ⊢
    have hst := stepTo b (.cleanup fl size now)
    generalize b.step (.cleanup fl size now) = b' at hst hopen ⊢
    cases hst with
    | closed k _ => rw [hm] at k; cases k
    | cleanup k1 k2 => rw [hm] at k1; cases k1; exact ⟨hm, extCleanup_sublist k2⟩
    | cleanupFail _ _ => exact absurd rfl hopen
  obtain ⟨_, hmem⟩ := h.rel.opened m hm
  obtain ⟨sub, sel, g1, g2, g3⟩ := chosen_reached hc hopen0 h hp
  have hp0 : p = { p with lastEventId := p.lastEventId, maxResults := p.maxResults } := rfl
  have key := fun d => g3.query d m.timeseries p.lastEventId p.maxResults (limitResults p.maxResults ((Backend.new conf).run ops).conf.maxResults)
  rw [← hp0] at key
  unfold Backend.query at h1 h2
  rw [hm] at h1
  rw [hm', hcf] at h2
  simp only [Mem.query, TimeseriesDb.query, g1, ok_bind, hmem.partsEq] at h1 h2
  rw [key] at h1 h2
  cases sel with
  | some q =>
    obtain ⟨part, hq, ho⟩ : ∃ part, Dict.get w.partitions q = some part ∧ part.orderBy = p.orderBy := by
      cases g3.found with
      | @some pre q part post s1 s2 s3 s4 => exact ⟨part, Dict.get_of_mem hmem.nodParts (by rw [s1]; simp), s3⟩
    simp only at h1 h2
    have n1 := queryPartition_nonneg h1
    rw [series_looked h hm hp n1 hq ho sub] at h1
    have e2 := series_looked h' hm' (by rw [hcf]; exact hp) n1 hq ho sub
    rw [hcf] at e2
    rw [e2] at h2
    generalize hP : ((Dict.get m.timeseries.changes q).getD []).map Prod.snd = P at h1 h2
    have hs := (afterId_sublist (looked_sublist (conf := ((Backend.new conf).run ops).conf) hsubl q p P) p.lastEventId).filter (filterOf sub p 0).accepts
    injection h1 with h1
    injection h2 with h2
    have d1 := congrArg QueryResult.moreFollows h1
    have hr := (congrArg QueryResult.events h1).symm.trans (page_all d1)
    have hmore : more = false := by
      have d2 := congrArg QueryResult.moreFollows h2
      simp only [page] at d1 d2
      rw [← d2]
      have := hs.length_le
      simp only [decide_eq_false_iff_not] at d1 ⊢
      omega
    have hr' := (congrArg QueryResult.events h2).symm.trans (page_all ((congrArg QueryResult.moreFollows h2).trans hmore))
    simp only at hr hr'
    refine ⟨by rw [hr, hr']; exact hs, hmore, ?_⟩
    intro hlim
    rw [hr, hr']
    have hno := selected_limit h.run hwo (by rw [← h.rel.conf]; exact hlim) (by rw [← h.rel.conf]; exact g3.found)
    have hdisk : diskPart ((Backend.new conf).run ops).conf ((Backend.new conf).run (ops ++ [.cleanup fl size now])).disk q p =
        diskPart ((Backend.new conf).run ops).conf ((Backend.new conf).run ops).disk q p := by
      unfold diskPart
      congr 2
      have hnod : ((Backend.new conf).run ops).disk.tsData.Nodup := List.Nodup.of_map _ h.rel.disk.sortTs.nodup
      refine (hsubl.filter _).eq_of_length_le (List.subperm_of_subset (hnod.filter _) ?_).length_le
      intro x l3
      obtain ⟨l4, l5⟩ := List.mem_filter.1 l3
      refine List.mem_filter.2 ⟨?_, l5⟩
      have l6 := Dict.get_of_mem h.rel.disk.sortTs.nodup l4
      rw [← h.rel.disk.entry] at l6
      refine Dict.mem_of_get ?_
      rw [← h'.rel.disk.entry]
      refine drop_entry.2 ⟨?_, l6⟩
      intro hk
      obtain ⟨part', limit, m1, m2⟩ := hrem _ hk
      rw [inRange_partition l5] at m1
      rw [hno part' m1] at m2
      cases m2
    unfold looked
    rw [hdisk]
  | none =>
    cases h1
    cases h2
    exact ⟨.refl _, rfl, fun _ => rfl⟩

/-- Pages of a server query have nothing more after a successful cleanup. -/
theorem C115_server (conf : Conf) (ops : List BackendOp) (hl : LookupLaws ops) (hk : KeepsAccepted ops)
    (hid : ∀ es, .register es ∈ ops → ∀ e ∈ es, IdRange e.id) (fl : Rat → Rat) (size : Rat → Option Int) (now : Timestamp)
    (hopen : ((Backend.new conf).run (ops ++ [.cleanup fl size now])).mem ≠ none)
    (p : QueryServerParams) (hmax : p.maxResults ≠ some 0) (all all' : List Event)
    (h1 : Pages (fun i => ((Backend.new conf).run ops).query (.server { p with lastEventId := i })) none all)
    (h2 : Pages (fun i => ((Backend.new conf).run (ops ++ [.cleanup fl size now])).query (.server { p with lastEventId := i })) none all') :
    ∀ e ∈ all', e ∈ all := by
  have hopen0 := open_before (op := .cleanup fl size now) nofun hopen
  obtain ⟨w, h, hr⟩ := reached_refs conf ops hl hk
  obtain ⟨w', g1, g2, g3⟩ := reached_refs_step h hr (.cleanup fl size now) hl nofun
  have hw' : w'.isOpen = true := by rw [g2.rel.isOpen, Option.isSome_iff_ne_none]; exact hopen
  obtain ⟨removed, rfl, -⟩ := cleaned_world g1 hw'
  have hok : ServerParamsOk { p with lastEventId := none } := by
    by_contra hno
    obtain ⟨err, herr⟩ := (C31_rejected ((Backend.new conf).run ops) _).1 hno
    cases h1 with
    | last h1 => rw [herr] at h1; cases h1
    | more h1 => rw [herr] at h1; cases h1
  obtain ⟨f1, m1, -, u1⟩ := server_paging h hr hopen0 hid { p with lastEventId := none } hok hmax
  obtain ⟨f2, m2, -, u2⟩ := server_paging g2 g3 hopen (fun es h => hid es (by simpa using h)) { p with lastEventId := none } hok hmax
  obtain rfl := u1 all h1
  obtain rfl := u2 all' h2
  intro e he
  obtain ⟨k1, k2⟩ := (m2.mem e).1 he
  refine (m1.mem e).2 ⟨?_, k2⟩
  rcases k1 with k1 | ⟨k0, k1⟩
  · exact .inl (held_drop k1)
  · exact .inr ⟨k0, held_drop k1⟩

/-! ### Examples -/

/-- The assumptions of `C115_latest`, `C115_timeseries` and `C115_server`: the
cleanup takes the first of three events out of the timeseries, and then server
queries do not return it either. -/
example : LookupLaws exThree ∧ TsConfs exThree ∧ OrdinaryEvents exThree ∧ KeepsAccepted exThree ∧
    (∀ es, .register es ∈ exThree → ∀ e ∈ es, IdRange e.id) ∧ ((Backend.new (exConf none [])).run (exThree ++ [exClean])).mem ≠ none ∧
    TsParamsOk ((Backend.new (exConf none [])).run exThree).conf { order := .ascending, maxResults := some 5 } ∧
    ((Backend.new (exConf none [])).run exThree).query (.timeseries { order := .ascending, maxResults := some 5 }) =
      .ok ⟨[exE 1 1 1 ["a"] 1 none, exE 1 1 2 ["a"] 5 none, exE 1 1 3 ["a"] 6 none], false⟩ ∧
    ((Backend.new (exConf none [])).run (exThree ++ [exClean])).query (.timeseries { order := .ascending, maxResults := some 5 }) =
      .ok ⟨[exE 1 1 2 ["a"] 5 none, exE 1 1 3 ["a"] 6 none], false⟩ ∧
    Pages (fun i => ((Backend.new (exConf none [])).run exThree).query (.server { serverId := 1, lastEventId := i })) none
      [exE 1 1 1 ["a"] 1 none, exE 1 1 2 ["a"] 5 none, exE 1 1 3 ["a"] 6 none] ∧
    Pages (fun i => ((Backend.new (exConf none [])).run (exThree ++ [exClean])).query (.server { serverId := 1, lastEventId := i })) none
      [exE 1 1 2 ["a"] 5 none, exE 1 1 3 ["a"] 6 none] := by
  have hcf : ∀ c, BackendOp.reopen c ∈ exThree → c = exConf none exTwo := by
    intro c hc
    simpa [exThree] using hc
  have hes : ∀ es, .register es ∈ exThree → es = [exE 1 1 1 ["a"] 1 none, exE 1 1 2 ["a"] 5 none, exE 1 1 3 ["a"] 6 none] := by
    intro es hes
    simpa [exThree] using hes
  refine ⟨fun c hc => by rw [hcf c hc]; exact exConf_lookup _ _, ?_, ?_, by simp [KeepsAccepted, exThree], ?_, ?_, exPage_ok 5 _,
    by rfl, by rfl, .last (by rfl), .last (by rfl)⟩
  · intro c hc
    rw [hcf c hc]
    refine ⟨by decide, ?_⟩
    intro p hp
    simp only [exConf, exTwo, List.mem_cons, List.not_mem_nil, or_false] at hp
    subst hp
    exact ⟨.py, [["a"]], by unfold NulFree; decide, rfl⟩
  · intro es he
    rw [hes es he]
    simp [exE, Ordinary, TimeLe, TimeLt, maxTimestamp, maxId]
  · intro es he
    rw [hes es he]
    simp [exE, IdRange, U64]
  · have : ((Backend.new (exConf none [])).run (exThree ++ [exClean])).mem.isSome = true := by rfl
    exact Option.isSome_iff_ne_none.1 this

end HatEvent
