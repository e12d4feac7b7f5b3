import Verif.Proof.LmdbRun
import Verif.Props.LmdbOpen
import Verif.Props.Subscription
import Verif.Spec.PagesDuring

/-!
# Timeseries queries
-/

namespace HatEvent
open Spec

/-! ### The filter -/

theorem process_nil (f : Filter) : f.process [] = ([], f) := by
  unfold Filter.process; rfl

theorem process_done (f : Filter) (h : f.maxResults < 1) (l : List Event) :
    f.process l = ([], f) := by
  cases l with
  | nil => exact process_nil f
  | cons e l => unfold Filter.process; rw [if_pos h]

theorem process_wait (f : Filter) (h : ¬ f.maxResults < 1) {i : EventId} (hi : f.lastEventId = some i)
    (e : Event) (l : List Event) :
    f.process (e :: l) = if e.id = i then Filter.process { f with lastEventId := none } l
      else f.process l := by
  conv => lhs; unfold Filter.process
  rw [if_neg h, hi]

theorem process_free (f : Filter) (h : ¬ f.maxResults < 1) (hi : f.lastEventId = none)
    (e : Event) (l : List Event) :
    f.process (e :: l) = if f.accepts e = true then
        (e :: (Filter.process { f with maxResults := f.maxResults - 1 } l).1,
          (Filter.process { f with maxResults := f.maxResults - 1 } l).2)
      else f.process l := by
  conv => lhs; unfold Filter.process
  rw [if_neg h, hi]

/-- Processing in two parts. -/
theorem process_append (a b : List Event) : ∀ f : Filter,
    f.process (a ++ b) = ((f.process a).1 ++ ((f.process a).2.process b).1,
      ((f.process a).2.process b).2) := by
  induction a with
  | nil => intro f; rw [process_nil]; simp
  | cons e a ih =>
    intro f
    by_cases h : f.maxResults < 1
    · rw [process_done f h, process_done f h, process_done f h]; simp
    · rw [List.cons_append]
      cases hi : f.lastEventId with
      | some i =>
        rw [process_wait f h hi, process_wait f h hi]
        by_cases h2 : e.id = i
        · rw [if_pos h2, if_pos h2]; exact ih _
        · rw [if_neg h2, if_neg h2]; exact ih _
      | none =>
        rw [process_free f h hi, process_free f h hi]
        by_cases h2 : f.accepts e = true
        · rw [if_pos h2, if_pos h2, ih]; rfl
        · rw [if_neg h2, if_neg h2]; exact ih _

/-- Without an identifier, the first accepted events are returned. -/
theorem process_none (l : List Event) : ∀ f : Filter, f.lastEventId = none →
    (f.process l).1 = (l.filter f.accepts).take f.maxResults.toNat := by
  induction l with
  | nil => intro f _; rw [process_nil]; simp
  | cons e l ih =>
    intro f hf
    by_cases h : f.maxResults < 1
    · rw [process_done f h]
      have : f.maxResults.toNat = 0 := by omega
      rw [this]; simp
    · rw [process_free f h hf]
      by_cases h2 : f.accepts e = true
      · rw [if_pos h2, List.filter_cons_of_pos h2]
        have h3 := ih { f with maxResults := f.maxResults - 1 } hf
        have h4 : f.maxResults.toNat = (f.maxResults - 1).toNat + 1 := by omega
        rw [h4, List.take_succ_cons]
        exact congrArg (List.cons e) h3
      · rw [if_neg h2, List.filter_cons_of_neg h2]
        exact ih f hf

/-- With an identifier, events up to the one with this identifier are skipped. -/
theorem process_skip (pre : List Event) (x : Event) (post : List Event) : ∀ f : Filter,
    f.lastEventId = some x.id → (∀ e ∈ pre, e.id ≠ x.id) → 1 ≤ f.maxResults →
    f.process (pre ++ x :: post) = Filter.process { f with lastEventId := none } post := by
  induction pre with
  | nil =>
    intro f hf _ hm
    rw [List.nil_append]
    conv => lhs; unfold Filter.process
    rw [if_neg (by omega), hf]
    simp
  | cons e pre ih =>
    intro f hf hp hm
    rw [List.cons_append]
    conv => lhs; unfold Filter.process
    rw [if_neg (by omega), hf]
    simp only
    rw [if_neg (hp e (by simp))]
    exact ih f hf (fun a ha => hp a (by simp [ha])) hm

/-- An identifier that does not occur: nothing is returned. -/
theorem process_missing (l : List Event) (i : EventId) : ∀ f : Filter,
    f.lastEventId = some i → (∀ e ∈ l, e.id ≠ i) → f.process l = ([], f) := by
  induction l with
  | nil => intro f _ _; exact process_nil f
  | cons e l ih =>
    intro f hf hl
    by_cases h : f.maxResults < 1
    · exact process_done f h _
    · unfold Filter.process
      rw [if_neg h, hf]
      simp only
      rw [if_neg (hl e (by simp))]
      exact ih f hf (fun a ha => hl a (by simp [ha]))

/-- The filter of a query. -/
def filterOf (sub : Option Sub) (params : QueryTimeseriesParams) (n : Int) : Filter :=
  ⟨sub, params.tFrom, params.tTo, params.sourceTFrom, params.sourceTTo, n, params.lastEventId⟩

theorem tooEarly_iff {b t : Option Timestamp} :
    tooEarly b t = false ↔ ∀ x, b = some x → ∃ s, t = some s ∧ TimeLe x s := by
  unfold tooEarly
  cases b with
  | none => simp
  | some x =>
    cases t with
    | none => simp
    | some s =>
      simp only [Option.some.injEq, forall_eq', exists_eq_left']
      rw [← not_timeLt, ← Timestamp.lt_iff]
      simp

theorem tooLate_iff {b t : Option Timestamp} :
    tooLate b t = false ↔ ∀ x, b = some x → ∃ s, t = some s ∧ TimeLe s x := by
  unfold tooLate
  cases b with
  | none => simp
  | some x =>
    cases t with
    | none => simp
    | some s =>
      simp only [Option.some.injEq, forall_eq', exists_eq_left']
      rw [← not_timeLt, ← Timestamp.lt_iff]
      simp

/-- The subscription of a query stands for its event types. -/
def SubOk (types : Option (List EventType)) (sub : Option Sub) : Prop :=
  match types, sub with
  | none, none => True
  | some types, some s => ∀ e, s.matches e = true ↔ MatchesAny types e
  | _, _ => False

theorem accepts_iff {sub : Option Sub} {params : QueryTimeseriesParams} {n : Int}
    (hs : SubOk params.eventTypes sub) (e : Event) :
    (filterOf sub params n).accepts e = true ↔ TsMatches params e := by
  have h5 : wrongType sub e.type = false ↔
      ∀ types, params.eventTypes = some types → MatchesAny types e.type := by
    unfold SubOk at hs
    unfold wrongType
    cases ht : params.eventTypes with
    | none => rw [ht] at hs; cases sub with
      | none => simp
      | some s => exact absurd hs (by simp)
    | some types => rw [ht] at hs; cases sub with
      | none => exact absurd hs (by simp)
      | some s => simp [hs]
  have key : (filterOf sub params n).accepts e = true ↔
      tooEarly params.tFrom (some e.timestamp) = false ∧ tooLate params.tTo (some e.timestamp) = false ∧
      tooEarly params.sourceTFrom e.sourceTimestamp = false ∧
      tooLate params.sourceTTo e.sourceTimestamp = false ∧ wrongType sub e.type = false := by
    unfold Filter.accepts filterOf
    simp only
    cases tooEarly params.tFrom (some e.timestamp) <;>
    cases tooLate params.tTo (some e.timestamp) <;>
    cases tooEarly params.sourceTFrom e.sourceTimestamp <;>
    cases tooLate params.sourceTTo e.sourceTimestamp <;>
    cases wrongType sub e.type <;> simp
  rw [key, tooEarly_iff, tooLate_iff, tooEarly_iff, tooLate_iff, h5]
  simp only [Option.some.injEq, exists_eq_left']
  exact ⟨fun h => ⟨h.1, h.2.1, h.2.2.1, h.2.2.2.1, h.2.2.2.2⟩,
    fun h => ⟨h.tFrom, h.tTo, h.sourceTFrom, h.sourceTTo, h.types⟩⟩

theorem accepts_eq {sub : Option Sub} {params : QueryTimeseriesParams} {n n' : Int} {i : Option EventId} :
    Filter.accepts { (filterOf sub params n) with lastEventId := i } = (filterOf sub params n').accepts := rfl

/-- What a query returns, given the events it looks at. -/
theorem cut_process {sub : Option Sub} {params : QueryTimeseriesParams} {n : Int} (hn : 0 ≤ n)
    (L : List Event) :
    (params.lastEventId = none → cutSeries ((filterOf sub params (n + 1)).process L).1 n =
      .ok (page (L.filter (filterOf sub params 0).accepts) n.toNat)) ∧
    (∀ pre x post, params.lastEventId = some x.id → L = pre ++ x :: post → (∀ e ∈ pre, e.id ≠ x.id) →
      cutSeries ((filterOf sub params (n + 1)).process L).1 n =
        .ok (page (post.filter (filterOf sub params 0).accepts) n.toNat)) ∧
    (∀ i, params.lastEventId = some i → (∀ e ∈ L, e.id ≠ i) →
      cutSeries ((filterOf sub params (n + 1)).process L).1 n = .ok ⟨[], false⟩) := by
  have cut : ∀ l : List Event, cutSeries (l.take (n + 1).toNat) n = .ok (page l n.toNat) := by
    intro l
    unfold cutSeries page
    rw [if_neg (by omega)]
    congr 2
    · rw [List.take_take]; congr 1; omega
    · rw [List.length_take]
      congr 1
      rw [eq_iff_iff]
      omega
  refine ⟨?_, ?_, ?_⟩
  · intro h
    rw [process_none _ _ h]
    exact cut _
  · intro pre x post h hL hp
    subst hL
    rw [process_skip pre x post _ h hp (by simp only [filterOf]; omega), process_none _ _ rfl]
    exact cut _
  · intro i h hL
    rw [process_missing L i _ h hL]
    unfold cutSeries
    rw [if_neg (by omega)]
    simp only [List.take_nil, List.length_nil]
    congr 2
    simp only [decide_eq_false_iff_not]; omega

/-! ### Entries on the disk -/

theorem takeWhile_pairwise {α : Type} {l : List α} {p : α → Bool}
    (h : l.Pairwise fun a b => p b = true → p a = true) : l.takeWhile p = l.filter p := by
  induction l with
  | nil => rfl
  | cons x l ih =>
    have hh := List.pairwise_cons.1 h
    by_cases hx : p x = true
    · rw [List.takeWhile_cons_of_pos hx, List.filter_cons_of_pos hx, ih hh.2]
    · rw [List.takeWhile_cons_of_neg hx, List.filter_cons_of_neg hx, eq_comm, List.filter_eq_nil_iff]
      exact fun a ha hp => hx (hh.1 a ha hp)

theorem dropWhile_pairwise {α : Type} {l : List α} {p : α → Bool}
    (h : l.Pairwise fun a b => p b = true → p a = true) : l.dropWhile p = l.filter fun x => !p x := by
  induction l with
  | nil => rfl
  | cons x l ih =>
    have hh := List.pairwise_cons.1 h
    by_cases hx : p x = true
    · rw [List.dropWhile_cons_of_pos hx, List.filter_cons_of_neg (by simpa using hx), ih hh.2]
    · rw [List.dropWhile_cons_of_neg hx, eq_comm, List.filter_eq_self]
      intro a ha
      rcases List.mem_cons.1 ha with rfl | ha
      · simpa using hx
      · have : ¬ p a = true := fun hp => hx (hh.1 a ha hp)
        simpa using this

theorem takeWhile_reverse_sorted {κ υ : Type} [DecidableEq κ] [DbKey κ] {t : Table κ υ}
    (h : Table.Sorted t)
    (p : κ → Bool) (hp : ∀ a b : κ, DbKey.lt a b = true → p a = true → p b = true) :
    (t.reverse.takeWhile fun x => p x.1) = (t.filter fun x => p x.1).reverse := by
  rw [takeWhile_pairwise, List.filter_reverse]
  rw [List.pairwise_reverse]
  exact List.Pairwise.imp (fun h1 h2 => hp _ _ h1 h2) h

/-- The entries a query looks at. -/
def inRange (lo hi : TimeseriesKey) (o : Order) (k : TimeseriesKey) : Bool :=
  !DbKey.lt k lo && (match o with | .ascending => !DbKey.lt hi k | .descending => DbKey.lt k hi)

theorem partitionRange_spec {data : Table TimeseriesKey Event} (hs : Table.Sorted data) (p : Int)
    (tFrom tTo : Option Timestamp) (o : Order) (hp : U64 p)
    (h1 : TimeRange (tFrom.getD minTimestamp)) (h2 : TimeRange (tTo.getD maxTimestamp)) :
    partitionRange data p tFrom tTo o = .ok
      (let l := (data.filter fun x => inRange ⟨p, tFrom.getD minTimestamp, ⟨0, 0, 0⟩⟩
        ⟨p, tTo.getD maxTimestamp, maxId⟩ o x.1).map Prod.snd
       match o with
       | .ascending => l
       | .descending => l.reverse) := by
  have e1 : ∃ b, encodeTimeseriesKey ⟨p, tFrom.getD minTimestamp, ⟨0, 0, 0⟩⟩ = .ok b :=
    (C12_key_accepts _).2 ⟨hp, h1, by unfold IdRange U64; refine ⟨⟨?_, ?_⟩, ⟨?_, ?_⟩, ?_, ?_⟩ <;> norm_num⟩
  have e2 : ∃ b, encodeTimeseriesKey ⟨p, tTo.getD maxTimestamp,
      ⟨2 ^ 64 - 1, 2 ^ 64 - 1, 2 ^ 64 - 1⟩⟩ = .ok b :=
    (C12_key_accepts _).2 ⟨hp, h2, by unfold IdRange U64; refine ⟨⟨?_, ?_⟩, ⟨?_, ?_⟩, ?_, ?_⟩ <;> norm_num⟩
  obtain ⟨b1, e1⟩ := e1
  obtain ⟨b2, e2⟩ := e2
  unfold partitionRange
  simp only [e1, e2]
  show (match o with | .descending => _ | .ascending => _) = _
  generalize hlo : (⟨p, tFrom.getD minTimestamp, ⟨0, 0, 0⟩⟩ : TimeseriesKey) = lo
  have hhi : (⟨p, tTo.getD maxTimestamp, ⟨2 ^ 64 - 1, 2 ^ 64 - 1, 2 ^ 64 - 1⟩⟩ : TimeseriesKey) =
    ⟨p, tTo.getD maxTimestamp, maxId⟩ := rfl
  rw [hhi]
  generalize (⟨p, tTo.getD maxTimestamp, maxId⟩ : TimeseriesKey) = hi
  cases o with
  | ascending =>
    simp only [pure, Except.pure]
    congr 2
    rw [Table.fromKey_eq hs]
    have hs2 : Table.Sorted (data.filter fun x => !DbKey.lt x.1 lo) := List.Pairwise.filter _ hs
    rw [Table.takeWhile_sorted hs2 (fun k => !DbKey.lt hi k)]
    · rw [List.filter_filter]
      apply List.filter_congr
      intro x _
      unfold inRange
      simp only
      rw [Bool.and_comm]
    · intro a b hab hb
      simp only [Bool.not_eq_true'] at hb ⊢
      by_contra hx
      have := LawfulKey.trans hi a b (by simpa using hx) hab
      rw [this] at hb; simp at hb
  | descending =>
    simp only [pure, Except.pure]
    congr 1
    have hb : entriesBefore data hi = (data.filter fun x => DbKey.lt x.1 hi).reverse := by
      rw [← Table.beforeKey_eq hs]
      unfold entriesBefore
      split
      · rfl
      · next hnil =>
        rw [Table.beforeKey_eq hs]
        rw [Table.fromKey_eq hs] at hnil
        congr 1
        rw [eq_comm, List.filter_eq_self]
        intro x hx
        rw [List.filter_eq_nil_iff] at hnil
        simpa using hnil x hx
    rw [hb]
    have hs2 : Table.Sorted (data.filter fun x => DbKey.lt x.1 hi) := List.Pairwise.filter _ hs
    rw [takeWhile_reverse_sorted hs2 (fun k => !DbKey.lt k lo)]
    · rw [List.filter_filter, List.map_reverse]
      congr 2
    · intro a b hab hb
      simp only [Bool.not_eq_true'] at hb ⊢
      by_contra hx
      have := LawfulKey.trans a b lo hab (by simpa using hx)
      rw [this] at hb; simp at hb

/-! ### Entries carry the timestamp of their partition's order -/

/-- Every stored entry belongs to a described partition and has the timestamp by
which this partition is ordered. -/
def SeriesOk (d : Disk) : Prop :=
  ∀ x ∈ d.tsData, ∃ pd, Dict.get d.tsPartition x.1.partition = some pd ∧
    orderTimestamp pd.order x.2 = some x.1.timestamp

theorem mem_puts {κ υ : Type} [DecidableEq κ] [DbKey κ] {l : List (κ × υ)} {t : Table κ υ} {x : κ × υ}
    (h : x ∈ l.foldl (fun t p => Table.put t p.1 p.2) t) : x ∈ l ∨ x ∈ t := by
  induction l generalizing t with
  | nil => exact .inr h
  | cons p l ih =>
    rcases ih h with h | h
    · exact .inl (by simp [h])
    · rcases Table.mem_put h with h | h
      · exact .inl (by simp [h])
      · exact .inr h

theorem mem_dels {κ υ : Type} [DecidableEq κ] {l : List κ} {t : Dict κ υ} {x : κ × υ}
    (h : x ∈ l.foldl Dict.del t) : x ∈ t := by
  induction l generalizing t with
  | nil => exact h
  | cons k l ih =>
    have := ih h
    rw [Table.del_eq_filter] at this
    exact (List.mem_filter.1 this).1

theorem mem_pending {ch : TimeseriesChanges} (hn : (Dict.keys ch).Nodup) {x : TimeseriesKey × Event} :
    x ∈ timeseriesEntries ch ↔
      (x.1.timestamp, x.2) ∈ (Dict.get ch x.1.partition).getD [] ∧ x.1.id = x.2.id := by
  unfold timeseriesEntries
  simp only [List.mem_flatMap, List.mem_map]
  constructor
  · rintro ⟨p, hp, q, hq, rfl⟩
    have : Dict.get ch p.1 = some p.2 := Dict.get_of_mem hn hp
    simp only [this, Option.getD_some]
    exact ⟨hq, trivial⟩
  · rintro ⟨h1, h2⟩
    cases hg : Dict.get ch x.1.partition with
    | none => rw [hg] at h1; simp at h1
    | some l =>
      rw [hg] at h1
      refine ⟨(x.1.partition, l), Dict.mem_of_get hg, (x.1.timestamp, x.2), h1, ?_⟩
      obtain ⟨k, e⟩ := x
      simp only at h2 ⊢
      rw [← h2]

theorem cleanup_tsData {fl : Rat → Rat} {se : Rat → Option Int} {now : Timestamp} {mr : Option Int} :
    ∀ (ps : List (Int × Partition)) (res : List TimeseriesKey) (data : Table TimeseriesKey Event)
      (counts : Table Int Int) {r : List TimeseriesKey} {data' : Table TimeseriesKey Event}
      {counts' : Table Int Int},
      cleanupPartitions fl se now mr ps res data counts = .ok (r, data', counts') →
      ∀ x ∈ data', x ∈ data
  | [], res, data, counts, r, data', counts', h, x, hx => by
    unfold cleanupPartitions at h
    cases h; exact hx
  | (i, p) :: ps, res, data, counts, r, data', counts', h, x, hx => by
    unfold cleanupPartitions at h
    cases hl : p.limit with
    | none => rw [hl] at h; exact cleanup_tsData ps _ _ _ h x hx
    | some limit =>
      rw [hl] at h
      simp only at h
      rcases ite_cases h with ⟨_, h⟩ | ⟨_, h⟩
      · cases h; exact hx
      · obtain ⟨⟨r1, d1, c1⟩, h1, h2⟩ := bind_ok h
        have h3 := cleanup_tsData ps _ _ _ h2 x hx
        unfold cleanupPartition at h1
        simp only at h1
        obtain ⟨_, _, h1⟩ := bind_ok h1
        obtain ⟨_, _, h1⟩ := bind_ok h1
        obtain ⟨_, _, h1⟩ := bind_ok h1
        obtain ⟨_, _, h1⟩ := bind_ok h1
        cases h1
        exact mem_dels h3

theorem step_series {b : Backend} {w : World} (h : WorldRel b w) (hp : PartsOk b)
    (hs : SeriesOk b.disk) (op : BackendOp) : SeriesOk (b.step op).disk := by
  have hst := stepTo b op
  have hkeep := (step_partTable b op hp).2
  generalize b.step op = b' at hst hkeep
  cases hst with
  | closed h1 h2 => exact hs
  | register h1 h2 => exact hs
  | registerFail h1 h2 => exact hs
  | touch h1 => exact hs
  | flush h1 h2 =>
    obtain ⟨_, hm⟩ := h.opened _ h1
    obtain ⟨_, _, _, _, _, _, _, _, _, _, _, hd, _, _, rfl⟩ := extFlush_ok h2
    obtain ⟨hd, _⟩ := Table.write_eq hd
    intro x hx
    simp only at hx ⊢
    rw [hd] at hx
    rcases mem_puts hx with hx | hx
    · obtain ⟨hx, hid⟩ := (mem_pending hm.ts.nod).1 hx
      obtain ⟨pend, hpl, hq⟩ := hm.pend
      have hx : (x.1.timestamp, x.2) ∈ pend.filterMap (pendingEntry w.partitions x.1.partition) := by
        rw [← hq]; exact hx
      obtain ⟨e, he, hx⟩ := List.mem_filterMap.1 hx
      obtain ⟨he2, _, part, hg, _, ho⟩ := pendingEntry_iff.1 hx
      refine ⟨partitionData part, (hp.2 _ h1).2 _ _ (by rw [hm.partsEq]; exact hg), ?_⟩
      rw [← orderTimestamp_iff] at ho
      have he2 : x.2 = e := he2
      rw [he2]; exact ho
    · exact hs x hx
  | flushFail h1 h2 => exact hs
  | cleanup h1 h2 =>
    obtain ⟨_, _, _, hc, ⟨_, rfl⟩ | ⟨_, _, _, rfl⟩⟩ := extCleanup_ok h2
    · exact hs
    · intro x hx
      exact hs x (cleanup_tsData _ _ _ _ hc x hx)
  | cleanupFail h1 h2 => exact hs
  | reopen h1 =>
    obtain ⟨s, p, _, hpp, rfl, rfl⟩ := createDbs_ok h1
    intro x hx
    obtain ⟨pd, h2, h3⟩ := hs x hx
    exact ⟨pd, hkeep _ _ h2, h3⟩
  | reopenFail h1 => exact hs

theorem run_series (conf : Conf) (ops : List BackendOp) (hl : LookupLaws ops) :
    SeriesOk ((Backend.new conf).run ops).disk := by
  induction ops using List.reverseRecOn with
  | nil => intro x hx; simp [Backend.run, Backend.new, Disk.empty] at hx
  | append_singleton ops op ih =>
    have hl' : LookupLaws ops := fun c hc => hl c (by simp [hc])
    obtain ⟨w, _, hw⟩ := run_rel conf ops hl'
    rw [run_snoc]
    exact step_series hw (run_partTable _ ops (partsOk_new conf)).1 (ih hl') op

/-! ### Querying a partition -/

/-- The entries on the disk a query looks at, oldest first. -/
def diskPart (conf : Conf) (d : Disk) (q : Int) (params : QueryTimeseriesParams) : List Event :=
  ((d.tsData.filter fun x => inRange ⟨q, params.range.1.getD minTimestamp, ⟨0, 0, 0⟩⟩
    ⟨q, params.range.2.getD maxTimestamp, maxId⟩ params.order x.1).map Prod.snd).filter
      fun e => conf.conditions e

/-- The events a query looks at, in the order of looking at them. -/
def looked (conf : Conf) (d : Disk) (q : Int) (params : QueryTimeseriesParams) (pend : List Event) :
    List Event :=
  match params.order with
  | .ascending => diskPart conf d q params ++ pendingRange pend params
  | .descending => pendingRange pend params ++ (diskPart conf d q params).reverse

theorem partitionEvents_eq {conf : Conf} {d : Disk} (hs : Table.Sorted d.tsData) {q : Int} (hq : U64 q)
    {params : QueryTimeseriesParams}
    (h1 : TimeRange (params.range.1.getD minTimestamp)) (h2 : TimeRange (params.range.2.getD maxTimestamp))
    (f : Filter) :
    partitionEvents conf d q params f = .ok (f.process
      (match params.order with
       | .ascending => diskPart conf d q params
       | .descending => (diskPart conf d q params).reverse)) := by
  unfold partitionEvents
  rw [partitionRange_spec hs q _ _ _ hq h1 h2]
  show Except.ok _ = _
  congr 2
  unfold diskPart
  cases params.order with
  | ascending => rfl
  | descending => simp only [List.filter_reverse]

theorem queryPartition_eq {conf : Conf} {d : Disk} (hs : Table.Sorted d.tsData) {q : Int} (hq : U64 q)
    {params : QueryTimeseriesParams}
    (h1 : TimeRange (params.range.1.getD minTimestamp)) (h2 : TimeRange (params.range.2.getD maxTimestamp))
    (db : TimeseriesDb) (sub : Option Sub) (n : Int)
    (hp : ∀ x ∈ (Dict.get db.changes q).getD [], orderTimestamp params.orderBy x.2 ≠ none) :
    queryPartition conf d db q params sub n =
      cutSeries ((filterOf sub params (n + 1)).process
        (looked conf d q params (((Dict.get db.changes q).getD []).map Prod.snd))).1 n := by
  have hc : ∀ f, partitionChanges ((Dict.get db.changes q).getD []) params f =
      .ok (f.process (pendingRange (((Dict.get db.changes q).getD []).map Prod.snd) params)) := by
    intro f
    unfold partitionChanges
    simp only
    rw [if_neg]
    simp only [Bool.and_eq_true, List.any_eq_true, not_and]
    rintro _ ⟨e, he, hn⟩
    obtain ⟨x, hx, rfl⟩ := List.mem_map.1 he
    exact hp x hx (by simpa using hn)
  have hd := fun f => partitionEvents_eq (conf := conf) hs hq h1 h2 f
  unfold queryPartition looked
  simp only
  change (match params.order with
    | .descending => partitionChanges ((Dict.get db.changes q).getD []) params (filterOf sub params (n + 1)) >>=
        fun r => if r.2.maxResults < 1 then cutSeries r.1 n
          else partitionEvents conf d q params r.2 >>= fun r' => cutSeries (r.1 ++ r'.1) n
    | .ascending => partitionEvents conf d q params (filterOf sub params (n + 1)) >>=
        fun r => if r.2.maxResults < 1 then cutSeries r.1 n
          else partitionChanges ((Dict.get db.changes q).getD []) params r.2 >>=
            fun r' => cutSeries (r.1 ++ r'.1) n) = _
  cases ho : params.order with
  | ascending =>
    simp only [hc, hd, ho, bind, Except.bind]
    rw [process_append]
    split
    · next hlt => rw [process_done _ hlt]; simp
    · rfl
  | descending =>
    simp only [hc, hd, ho, bind, Except.bind]
    rw [process_append]
    split
    · next hlt => rw [process_done _ hlt]; simp
    · rfl

/-! ### The matching events of a partition -/

theorem matches_range {params : QueryTimeseriesParams} {e : Event} (h : TsMatches params e) :
    tooEarly params.range.1 (orderTimestamp params.orderBy e) = false ∧
      tooLate params.range.2 (orderTimestamp params.orderBy e) = false := by
  rw [tooEarly_iff, tooLate_iff]
  unfold QueryTimeseriesParams.range orderTimestamp
  cases params.orderBy with
  | timestamp => exact ⟨fun x hx => ⟨_, rfl, h.tFrom x hx⟩, fun x hx => ⟨_, rfl, h.tTo x hx⟩⟩
  | sourceTimestamp => exact ⟨h.sourceTFrom, h.sourceTTo⟩

theorem inRange_partition {q : Int} {a b : Timestamp} {i j : EventId} {o : Order} {k : TimeseriesKey}
    (h : inRange ⟨q, a, i⟩ ⟨q, b, j⟩ o k = true) : k.partition = q := by
  unfold inRange at h
  rw [Bool.and_eq_true] at h
  obtain ⟨h1, h2⟩ := h
  have h1 : ¬ KeyLt k ⟨q, a, i⟩ := by
    intro hk; rw [← tsKey_lt] at hk; rw [hk] at h1; simp at h1
  have e1 : ¬ k.partition < q := fun h => h1 (.inl h)
  have e2 : ¬ q < k.partition := by
    intro hlt
    cases o with
    | ascending =>
      simp only [Bool.not_eq_true'] at h2
      have : DbKey.lt (⟨q, b, j⟩ : TimeseriesKey) k = true := tsKey_lt.2 (.inl hlt)
      rw [this] at h2; simp at h2
    | descending =>
      simp only at h2
      rcases tsKey_lt.1 h2 with h | ⟨h, _⟩
      · simp only at h; omega
      · simp only at h; omega
  omega

theorem inRange_of {q : Int} {params : QueryTimeseriesParams} {k : TimeseriesKey} {e : Event}
    (hk : KeyRange k) (hq : k.partition = q) (ht : orderTimestamp params.orderBy e = some k.timestamp)
    (hm : TsMatches params e) (hmax : TimeLe k.timestamp maxTimestamp) (hid : k.id ≠ maxId) :
    inRange ⟨q, params.range.1.getD minTimestamp, ⟨0, 0, 0⟩⟩
      ⟨q, params.range.2.getD maxTimestamp, maxId⟩ params.order k = true := by
  obtain ⟨m1, m2⟩ := matches_range hm
  rw [ht] at m1 m2
  rw [tooEarly_iff] at m1
  rw [tooLate_iff] at m2
  obtain ⟨k1, ⟨k2, k3, k4, k5⟩, ⟨k6, k7⟩, ⟨k8, k9⟩, k10, k11⟩ := hk
  have hlo : TimeLe (params.range.1.getD minTimestamp) k.timestamp := by
    cases hr : params.range.1 with
    | none =>
      simp only [Option.getD_none, minTimestamp, TimeLe, TimeLt]
      by_cases h1 : k.timestamp.s = -(2 ^ 63)
      · by_cases h2 : k.timestamp.us = 0
        · exact .inr (Timestamp.ext' h1.symm h2.symm)
        · exact .inl (.inr ⟨h1.symm, by omega⟩)
      · exact .inl (.inl (by omega))
    | some x =>
      obtain ⟨s, hs, h⟩ := m1 x hr
      cases hs; exact h
  have hhi : TimeLe k.timestamp (params.range.2.getD maxTimestamp) := by
    cases hr : params.range.2 with
    | none => exact hmax
    | some x =>
      obtain ⟨s, hs, h⟩ := m2 x hr
      cases hs; exact h
  have hlow : ¬ IdLt k.id ⟨0, 0, 0⟩ := by unfold IdLt; simp only; omega
  have hup : IdLt k.id maxId := by
    rcases id_trichotomy k.id maxId with h | h | h
    · exact h
    · exact absurd h hid
    · exfalso; unfold IdLt maxId at h; simp only at h; omega
  unfold inRange
  rw [Bool.and_eq_true]
  constructor
  · rw [Bool.not_eq_true', ← Bool.not_eq_true, tsKey_lt]
    rintro (h | ⟨_, h | ⟨_, h⟩⟩)
    · simp only at h; omega
    · exact not_timeLt.2 hlo h
    · exact hlow h
  · cases params.order with
    | ascending =>
      simp only
      rw [Bool.not_eq_true', ← Bool.not_eq_true, tsKey_lt]
      rintro (h | ⟨_, h | ⟨_, h⟩⟩)
      · simp only at h; omega
      · exact not_timeLt.2 hhi h
      · exact hup.asymm h
    | descending =>
      simp only
      rw [tsKey_lt]
      refine .inr ⟨hq, ?_⟩
      rcases hhi with h | h
      · exact .inl h
      · exact .inr ⟨h, hup⟩

theorem pairwise_pending {parts : Dict Int Partition} {q : Int} {R : Event → Event → Prop}
    {S : Timestamp × Event → Timestamp × Event → Prop}
    (h : ∀ a b x y, pendingEntry parts q a = some x → pendingEntry parts q b = some y → R a b → S x y)
    {l : List Event} (hl : l.Pairwise R) : (l.filterMap (pendingEntry parts q)).Pairwise S := by
  rw [List.pairwise_filterMap]
  exact hl.imp fun {a b} hab x hx y hy => h a b x y hx hy hab

theorem log_ids {st : Store} (h : StoreOk st) : st.log.Pairwise fun a b => a.id ≠ b.id :=
  h.mono.imp fun {a b} hab he => (hab (by rw [he])).1.ne he

/-- Both have a timestamp and the first one is not later. -/
def NotAfter (o : OrderBy) (a b : Event) : Prop :=
  ∃ s t, orderTimestamp o a = some s ∧ orderTimestamp o b = some t ∧ TimeLe s t

theorem pendingRange_eq {P : List Event} {params : QueryTimeseriesParams}
    (h : P.Pairwise (NotAfter params.orderBy)) :
    pendingRange P params =
      (let l := P.filter fun e => !tooEarly params.range.1 (orderTimestamp params.orderBy e) &&
        !tooLate params.range.2 (orderTimestamp params.orderBy e)
       match params.order with
       | .ascending => l
       | .descending => l.reverse) := by
  have early : P.Pairwise fun a b => tooEarly params.range.1 (orderTimestamp params.orderBy b) = true →
      tooEarly params.range.1 (orderTimestamp params.orderBy a) = true := by
    refine h.imp fun {a b} hab hb => ?_
    obtain ⟨s, t, hs, ht, hle⟩ := hab
    by_contra hx
    rw [Bool.not_eq_true, hs, tooEarly_iff] at hx
    have : tooEarly params.range.1 (orderTimestamp params.orderBy b) = false := by
      rw [ht, tooEarly_iff]
      intro x hxx
      obtain ⟨s', e, h2⟩ := hx x hxx
      cases e
      exact ⟨t, rfl, h2.trans hle⟩
    rw [this] at hb; simp at hb
  have late : P.Pairwise fun a b => tooLate params.range.2 (orderTimestamp params.orderBy a) = true →
      tooLate params.range.2 (orderTimestamp params.orderBy b) = true := by
    refine h.imp fun {a b} hab hb => ?_
    obtain ⟨s, t, hs, ht, hle⟩ := hab
    by_contra hx
    rw [Bool.not_eq_true, ht, tooLate_iff] at hx
    have : tooLate params.range.2 (orderTimestamp params.orderBy a) = false := by
      rw [hs, tooLate_iff]
      intro x hxx
      obtain ⟨s', e, h2⟩ := hx x hxx
      cases e
      exact ⟨s, rfl, hle.trans h2⟩
    rw [this] at hb; simp at hb
  have early' : ∀ {l : List Event}, l.Pairwise (fun a b => tooLate params.range.2 (orderTimestamp params.orderBy a) = true →
      tooLate params.range.2 (orderTimestamp params.orderBy b) = true) →
      l.Pairwise fun a b => (!tooLate params.range.2 (orderTimestamp params.orderBy b)) = true →
        (!tooLate params.range.2 (orderTimestamp params.orderBy a)) = true := by
    intro l hl
    refine hl.imp fun {a b} hab hb => ?_
    cases ha : tooLate params.range.2 (orderTimestamp params.orderBy a) with
    | false => rfl
    | true => rw [hab ha] at hb; simp at hb
  unfold pendingRange
  cases params.order with
  | ascending =>
    simp only
    rw [dropWhile_pairwise early, takeWhile_pairwise (early' (late.filter _)), List.filter_filter]
    apply List.filter_congr
    intro x _
    rw [Bool.and_comm]
  | descending =>
    simp only
    rw [dropWhile_pairwise (List.pairwise_reverse.2 late), List.filter_reverse, takeWhile_pairwise]
    · rw [List.filter_reverse, List.filter_filter]
    · rw [List.pairwise_reverse]
      refine (early.filter _).imp fun {a b} hab hb => ?_
      cases ha : tooEarly params.range.1 (orderTimestamp params.orderBy b) with
      | false => rfl
      | true => rw [hab ha] at hb; simp at hb

theorem pairwise_reverse_order {params : QueryTimeseriesParams} {C : List Event}
    (h : C.Pairwise (NotAfter params.orderBy)) :
    (match params.order with
     | .ascending => C
     | .descending => C.reverse).Pairwise (OrderOk params) := by
  cases ho : params.order with
  | ascending =>
    refine h.imp ?_
    rintro a b ⟨s, t, h1, h2, h3⟩
    exact ⟨s, t, h1, h2, by rw [ho]; exact h3⟩
  | descending =>
    rw [List.pairwise_reverse]
    refine h.imp ?_
    rintro a b ⟨s, t, h1, h2, h3⟩
    exact ⟨t, s, h2, h1, by rw [ho]; exact h3⟩

/-- A query of one partition returns all matching events, if the events that are
not flushed came in order. -/
theorem series_spec {conf : Conf} {d : Disk} {m : Mem} {parts : Dict Int Partition} {fl cur : Store}
    (hd : DiskRel d fl) (hm : MemRel conf d m parts fl cur) (okF : StoreOk fl) (okC : StoreOk cur)
    (hser : SeriesOk d) (hpt : ∀ i p, Dict.get parts i = some p → Dict.get d.tsPartition i = some (partitionData p))
    (hcond : ∃ pend, cur.log = fl.log ++ pend ∧ ∀ e ∈ pend, conf.conditions e = true)
    (hord : ∀ e ∈ cur.log, Ordinary e) {q : Int} {part : Partition} {params : QueryTimeseriesParams}
    (hin : PendingInOrder fl cur params.orderBy)
    (hq : Dict.get parts q = some part) (ho : part.orderBy = params.orderBy)
    {sub : Option Sub} (hs : SubOk params.eventTypes sub)
    (h1 : TimeRange (params.range.1.getD minTimestamp)) (h2 : TimeRange (params.range.2.getD maxTimestamp)) :
    ∃ full, SeriesList conf cur q params full ∧
      (PendingInKeyOrder fl cur params.orderBy → full.Pairwise (KeyOrder params)) ∧ ∀ n : Int, 0 ≤ n → ∀ mr,
      queryPartition conf d m.timeseries q { params with lastEventId := none, maxResults := mr } sub n =
        .ok (page full n.toNat) ∧
      (∀ pre x post, full = pre ++ x :: post →
        queryPartition conf d m.timeseries q { params with lastEventId := some x.id, maxResults := mr } sub n =
          .ok (page post n.toNat)) ∧
      (∀ i, (∀ k e, k.partition = q → cur.entry k = some e → e.id ≠ i) →
        queryPartition conf d m.timeseries q { params with lastEventId := some i, maxResults := mr } sub n =
          .ok ⟨[], false⟩) := by
  obtain ⟨pend, hlog, hpend⟩ := hm.pend
  have hcond : ∀ e ∈ pend, conf.conditions e = true := by
    obtain ⟨pend', h3, h4⟩ := hcond
    rw [hlog] at h3
    rw [List.append_cancel_left h3]; exact h4
  have hqtab := hpt q part hq
  have hu : U64 q := hd.parts.range _ _ hqtab
  generalize hP : (((Dict.get m.timeseries.changes q).getD []).map Prod.snd) = P
  have hP' : P = (pend.filterMap (pendingEntry parts q)).map Prod.snd := by rw [← hP, hpend]
  have hpe : ∀ e x, pendingEntry parts q e = some x →
      x.2 = e ∧ orderTimestamp params.orderBy e = some x.1 ∧ InSeries parts e ⟨q, x.1, e.id⟩ := by
    intro e x hx
    obtain ⟨h3, h4⟩ := pendingEntry_iff.1 hx
    refine ⟨h3, ?_, h4⟩
    obtain ⟨_, part', hg, _, hx⟩ := h4
    simp only at hg hx
    rw [hq] at hg; cases hg
    rw [← ho, orderTimestamp_iff]; exact hx
  have memP : ∀ e, e ∈ P ↔ e ∈ pend ∧ ∃ x, pendingEntry parts q e = some x := by
    intro e
    rw [hP']
    simp only [List.mem_map, List.mem_filterMap]
    constructor
    · rintro ⟨x, ⟨a, ha, hx⟩, rfl⟩
      have := (hpe a x hx).1
      rw [this]
      exact ⟨ha, x, hx⟩
    · rintro ⟨he, x, hx⟩
      exact ⟨x, ⟨e, he, hx⟩, (hpe e x hx).1⟩
  have ids := log_ids okC
  rw [hlog, List.pairwise_append] at ids
  -- pending events are in order
  have pendOrd : pend.Pairwise fun a b => ∀ s t, orderTimestamp params.orderBy a = some s →
      orderTimestamp params.orderBy b = some t → TimeLe s t := by
    rw [List.pairwise_iff_forall_sublist]
    intro a b hab s t hs' ht'
    obtain ⟨l1, l2, e1, h3, h4⟩ := List.cons_sublist_iff.1 hab
    have hb : b ∈ l2 := by simpa using h4
    obtain ⟨l3, l4, rfl⟩ := List.append_of_mem hb
    refine hin (fl.log ++ (l1 ++ l3)) b l4 (by rw [hlog, e1]; simp) (by simp) a (by simp [h3]) s t hs' ht'
  have diskOrd : ∀ a ∈ fl.log, ∀ b ∈ pend, ∀ s t, orderTimestamp params.orderBy a = some s →
      orderTimestamp params.orderBy b = some t → TimeLe s t := by
    intro a ha b hb s t hs' ht'
    obtain ⟨l3, l4, rfl⟩ := List.append_of_mem hb
    exact hin (fl.log ++ l3) b l4 (by rw [hlog]; simp) (by simp) a (by simp [ha]) s t hs' ht'
  have pOrd : P.Pairwise (NotAfter params.orderBy) := by
    rw [hP', List.pairwise_map]
    refine pairwise_pending ?_ pendOrd
    intro a b x y hx hy hab
    obtain ⟨x1, x2, _⟩ := hpe a x hx
    obtain ⟨y1, y2, _⟩ := hpe b y hy
    rw [x1, y1]
    exact ⟨_, _, x2, y2, hab _ _ x2 y2⟩
  have pIds : P.Pairwise fun a b => a.id ≠ b.id := by
    rw [hP', List.pairwise_map]
    refine pairwise_pending ?_ ids.2.1
    intro a b x y hx hy hab
    rw [(hpe a x hx).1, (hpe b y hy).1]; exact hab
  -- entries on the disk
  have hent : ∀ x ∈ d.tsData, x.1.partition = q → orderTimestamp params.orderBy x.2 = some x.1.timestamp ∧
      x.2 ∈ fl.log ∧ x.1.id = x.2.id ∧ fl.entry x.1 = some x.2 := by
    intro x hx hxq
    obtain ⟨pd, h3, h4⟩ := hser x hx
    rw [hxq, hqtab] at h3
    have h3 := Option.some.inj h3
    have he : fl.entry x.1 = some x.2 := by
      rw [hd.entry]; exact Dict.get_of_mem hd.sortTs.nodup hx
    obtain ⟨h5, h6, _⟩ := okF.entryId _ _ he
    refine ⟨?_, h6, h5, he⟩
    rw [← h3] at h4
    rw [← ho]; exact h4
  have memD : ∀ e, e ∈ diskPart conf d q params ↔ ∃ x ∈ d.tsData, x.2 = e ∧ conf.conditions e = true ∧
      inRange ⟨q, params.range.1.getD minTimestamp, ⟨0, 0, 0⟩⟩
        ⟨q, params.range.2.getD maxTimestamp, maxId⟩ params.order x.1 = true := by
    intro e
    unfold diskPart
    simp only [List.mem_filter, List.mem_map]
    constructor
    · rintro ⟨⟨x, ⟨h3, h4⟩, rfl⟩, h5⟩; exact ⟨x, h3, rfl, h5, h4⟩
    · rintro ⟨x, h3, rfl, h5, h4⟩; exact ⟨⟨x, ⟨h3, h4⟩, rfl⟩, h5⟩
  have dKey : (diskPart conf d q params).Pairwise (KeyBefore params.orderBy) := by
    unfold diskPart
    apply List.Pairwise.filter
    rw [List.pairwise_map, List.pairwise_filter]
    refine List.Pairwise.imp_of_mem ?_ hd.sortTs
    intro a b ha hb hab ra rb
    have qa := inRange_partition ra
    have qb := inRange_partition rb
    obtain ⟨a1, a2, a3, _⟩ := hent a ha qa
    obtain ⟨b1, b2, b3, _⟩ := hent b hb qb
    refine ⟨_, _, a1, b1, ?_⟩
    rcases tsKey_lt.1 hab with h | ⟨_, h | ⟨h, h'⟩⟩
    · omega
    · exact .inl h
    · exact .inr ⟨h, by rw [← a3, ← b3]; exact h'⟩
  have dBoth : (diskPart conf d q params).Pairwise fun a b => NotAfter params.orderBy a b ∧ a.id ≠ b.id := by
    unfold diskPart
    apply List.Pairwise.filter
    rw [List.pairwise_map, List.pairwise_filter]
    refine List.Pairwise.imp_of_mem ?_ hd.sortTs
    intro a b ha hb hab ra rb
    have qa := inRange_partition ra
    have qb := inRange_partition rb
    obtain ⟨a1, a2, a3, _⟩ := hent a ha qa
    obtain ⟨b1, b2, b3, _⟩ := hent b hb qb
    have hlt := tsKey_lt.1 hab
    constructor
    · refine ⟨_, _, a1, b1, ?_⟩
      rcases hlt with h | ⟨_, h | ⟨h, _⟩⟩
      · omega
      · exact .inl h
      · exact .inr h
    · intro hid
      have hev : a.2 = b.2 := storeOk_unique okF a2 b2 hid
      rw [hev, b1] at a1
      have : a.1 = b.1 := TimeseriesKey.ext' (qa.trans qb.symm) (Option.some.inj a1).symm
        (by rw [a3, b3, hid])
      rw [this] at hlt
      exact hlt.irrefl
  have dFl : ∀ e ∈ diskPart conf d q params, e ∈ fl.log ∧ ∃ s, orderTimestamp params.orderBy e = some s := by
    intro e he
    obtain ⟨x, hx, rfl, _, hr⟩ := (memD e).1 he
    obtain ⟨a1, a2, _, _⟩ := hent x hx (inRange_partition hr)
    exact ⟨a2, _, a1⟩
  generalize hPf : (P.filter fun e => !tooEarly params.range.1 (orderTimestamp params.orderBy e) &&
        !tooLate params.range.2 (orderTimestamp params.orderBy e)) = Pf
  have pfSub : ∀ e ∈ Pf, e ∈ P := by rw [← hPf]; exact fun e he => (List.mem_filter.1 he).1
  have cOrd : (diskPart conf d q params ++ Pf).Pairwise (NotAfter params.orderBy) := by
    rw [List.pairwise_append]
    refine ⟨dBoth.imp fun h => h.1, by rw [← hPf]; exact pOrd.filter _, ?_⟩
    intro a ha b hb
    obtain ⟨a1, s, a2⟩ := dFl a ha
    obtain ⟨b1, x, hx⟩ := (memP b).1 (pfSub b hb)
    exact ⟨s, x.1, a2, (hpe b x hx).2.1, diskOrd a a1 b b1 _ _ a2 (hpe b x hx).2.1⟩
  have cIds : (diskPart conf d q params ++ Pf).Pairwise fun a b => a.id ≠ b.id := by
    rw [List.pairwise_append]
    refine ⟨dBoth.imp fun h => h.2, by rw [← hPf]; exact pIds.filter _, ?_⟩
    intro a ha b hb
    exact ids.2.2 a (dFl a ha).1 b ((memP b).1 (pfSub b hb)).1
  have cKey : PendingInKeyOrder fl cur params.orderBy →
      (diskPart conf d q params ++ Pf).Pairwise (KeyBefore params.orderBy) := by
    intro hk
    have pend1 : pend.Pairwise fun a b => ∀ s t, orderTimestamp params.orderBy a = some s →
        orderTimestamp params.orderBy b = some t → TimeLt s t ∨ s = t ∧ IdLt a.id b.id := by
      rw [List.pairwise_iff_forall_sublist]
      intro a b hab s t hs' ht'
      obtain ⟨l1, l2, e1, h3, h4⟩ := List.cons_sublist_iff.1 hab
      have hb : b ∈ l2 := by simpa using h4
      obtain ⟨l3, l4, rfl⟩ := List.append_of_mem hb
      refine hk (fl.log ++ (l1 ++ l3)) b l4 (by rw [hlog, e1]; simp) (by simp) a (by simp [h3]) s t hs' ht'
    rw [List.pairwise_append]
    refine ⟨dKey, ?_, ?_⟩
    · rw [← hPf]
      apply List.Pairwise.filter
      rw [hP', List.pairwise_map]
      refine pairwise_pending ?_ pend1
      intro a b x y hx hy hab
      obtain ⟨x1, x2, _⟩ := hpe a x hx
      obtain ⟨y1, y2, _⟩ := hpe b y hy
      rw [x1, y1]
      exact ⟨_, _, x2, y2, hab _ _ x2 y2⟩
    · intro a ha b hb
      obtain ⟨a1, s, a2⟩ := dFl a ha
      obtain ⟨b1, x, hx⟩ := (memP b).1 (pfSub b hb)
      obtain ⟨l3, l4, e⟩ := List.append_of_mem b1
      exact ⟨s, x.1, a2, (hpe b x hx).2.1, hk (fl.log ++ l3) b l4 (by rw [hlog, e]; simp) (by simp) a (by simp [a1]) _ _
        a2 (hpe b x hx).2.1⟩
  -- the events looked at
  have hL : ∀ i mr, looked conf d q { params with lastEventId := i, maxResults := mr } P =
      (match params.order with
       | .ascending => diskPart conf d q params ++ Pf
       | .descending => (diskPart conf d q params ++ Pf).reverse) := by
    intro i mr
    have : looked conf d q { params with lastEventId := i, maxResults := mr } P = looked conf d q params P := rfl
    rw [this]
    unfold looked
    rw [pendingRange_eq pOrd]
    simp only [hPf]
    cases params.order with
    | ascending => rfl
    | descending => simp
  generalize hLL : (match params.order with
       | .ascending => diskPart conf d q params ++ Pf
       | .descending => (diskPart conf d q params ++ Pf).reverse) = L at hL
  have memL : ∀ e, e ∈ L ↔ e ∈ diskPart conf d q params ∨ e ∈ Pf := by
    intro e
    rw [← hLL]
    cases params.order <;> simp [or_comm]
  have lIds : L.Pairwise fun a b => a.id ≠ b.id := by
    rw [← hLL]
    cases params.order with
    | ascending => exact cIds
    | descending => exact List.pairwise_reverse.2 (cIds.imp fun h => h.symm)
  have entP : ∀ e ∈ P, ∃ k, k.partition = q ∧ cur.entry k = some e := by
    intro e he
    obtain ⟨h3, x, hx⟩ := (memP e).1 he
    obtain ⟨x1, x2, x3⟩ := hpe e x hx
    refine ⟨⟨q, x.1, e.id⟩, rfl, ?_⟩
    rw [hm.ts.entry]
    unfold over
    have : ((⟨q, x.1, e.id⟩, e) : TimeseriesKey × Event) ∈ timeseriesEntries m.timeseries.changes := by
      rw [mem_pending hm.ts.nod]
      simp only [and_true]
      rw [hpend]
      refine List.mem_filterMap.2 ⟨e, h3, ?_⟩
      rw [hx]
      congr 1
      exact Prod.ext rfl x1
    rw [Dict.get_of_mem hm.ts.pnod this]
  have entD : ∀ x ∈ d.tsData, cur.entry x.1 = some x.2 := by
    intro x hx
    have hx' := Dict.get_of_mem hd.sortTs.nodup hx
    rw [hm.ts.entry]
    unfold over
    cases hg : Dict.get (timeseriesEntries m.timeseries.changes) x.1 with
    | none => exact hx'
    | some e =>
      have := hm.ts.fresh x.1 (Dict.mem_keys_of_mem (Dict.mem_of_get hg))
      rw [hx'] at this; simp at this
  have lEnt : ∀ e ∈ L, (∃ k, k.partition = q ∧ cur.entry k = some e) ∧ conf.conditions e = true := by
    intro e he
    rcases (memL e).1 he with he | he
    · obtain ⟨x, hx, rfl, hc, hr⟩ := (memD e).1 he
      exact ⟨⟨x.1, inRange_partition hr, entD x hx⟩, hc⟩
    · exact ⟨entP e (pfSub e he), hcond e ((memP e).1 (pfSub e he)).1⟩
  refine ⟨L.filter (filterOf sub params 0).accepts, ⟨?_, lIds.filter _, ?_⟩, ?_, ?_⟩
  · apply List.Pairwise.filter
    rw [← hLL]
    exact pairwise_reverse_order cOrd
  · intro e
    rw [List.mem_filter, accepts_iff hs]
    constructor
    · rintro ⟨h3, h4⟩
      exact ⟨(lEnt e h3).1, (lEnt e h3).2, h4⟩
    · rintro ⟨⟨k, hkq, hke⟩, hc, hmt⟩
      refine ⟨?_, hmt⟩
      rw [memL]
      rw [hm.ts.entry] at hke
      unfold over at hke
      cases hg : Dict.get (timeseriesEntries m.timeseries.changes) k with
      | some e' =>
        rw [hg] at hke
        cases hke
        right
        rw [← hPf, List.mem_filter]
        obtain ⟨h3, h4⟩ := (mem_pending hm.ts.nod).1 (Dict.mem_of_get hg)
        simp only [hkq] at h3
        refine ⟨?_, ?_⟩
        · rw [← hP]; exact List.mem_map.2 ⟨_, h3, rfl⟩
        · obtain ⟨m1, m2⟩ := matches_range hmt
          simp [m1, m2]
      | none =>
        rw [hg] at hke
        left
        have hx := Dict.mem_of_get hke
        obtain ⟨a1, a2, a3, a4⟩ := hent _ hx hkq
        rw [memD]
        refine ⟨_, hx, rfl, hc, ?_⟩
        have ord := hord e (by rw [hlog]; exact List.mem_append_left _ a2)
        refine inRange_of (hd.range _ hx) hkq a1 hmt ?_ ?_
        · simp only at a1 ⊢
          unfold orderTimestamp at a1
          split at a1
          · rw [← Option.some.inj a1]; exact ord.1
          · exact ord.2.1 _ a1
        · simp only at a3 ⊢
          rw [a3]; exact ord.2.2
  · intro hk
    apply List.Pairwise.filter
    rw [← hLL]
    unfold KeyOrder
    cases params.order with
    | ascending => exact cKey hk
    | descending => exact List.pairwise_reverse.2 (cKey hk)
  · intro n hn mr
    have hpn : ∀ x ∈ (Dict.get m.timeseries.changes q).getD [],
        orderTimestamp params.orderBy x.2 ≠ none := by
      intro x hx
      have : x.2 ∈ P := by rw [← hP]; exact List.mem_map.2 ⟨x, hx, rfl⟩
      obtain ⟨_, y, hy⟩ := (memP _).1 this
      rw [(hpe _ y hy).2.1]; simp
    have hqp : ∀ i, queryPartition conf d m.timeseries q
        { params with lastEventId := i, maxResults := mr } sub n =
        cutSeries ((filterOf sub { params with lastEventId := i, maxResults := mr } (n + 1)).process L).1 n := by
      intro i
      have := queryPartition_eq (conf := conf) hd.sortTs hu
        (params := { params with lastEventId := i, maxResults := mr }) h1 h2 m.timeseries sub n hpn
      rw [this, hP, hL]
    refine ⟨?_, ?_, ?_⟩
    · rw [hqp]
      exact (cut_process hn L).1 rfl
    · intro pre x post hf
      rw [hqp]
      obtain ⟨l1, l2, rfl, h3, h4⟩ := List.filter_eq_append_iff.1 hf
      obtain ⟨l3, l4, rfl, h5, h6, h7⟩ := List.filter_eq_cons_iff.1 h4
      rw [← h7]
      refine (cut_process hn _).2.1 (l1 ++ l3) x l4 rfl (by simp) ?_
      intro e he
      rw [← List.append_assoc, List.pairwise_append] at lIds
      exact lIds.2.2 e he x (by simp)
    · intro i hi
      rw [hqp]
      refine (cut_process hn L).2.2 i rfl ?_
      intro e he
      obtain ⟨⟨k, hk1, hk2⟩, _⟩ := lEnt e he
      exact hi k e hk1 hk2

end HatEvent
