import Verif.Proof.LmdbOpen
import Verif.Spec.Lmdb

/-! # Cleanup of timeseries partitions -/

namespace HatEvent
open Spec

/-- When the loop of `cleanupLoop` removes an entry. -/
def CleanupCond (maxResults : Option Int) (minEntries : Rat) (maxEntries : Option Rat)
    (durationKey : Option TimeseriesKey) (stopKey : TimeseriesKey) (entriesCount : Int)
    (resultCount : Int) (key : TimeseriesKey) : Prop :=
  (∀ n, maxResults = some n → resultCount < n) ∧
  minEntries < ((entriesCount - resultCount : Int) : Rat) ∧
  KeyLt key stopKey ∧
  ((∃ n, maxEntries = some n ∧ n < ((entriesCount - resultCount : Int) : Rat)) ∨
    ∃ k, durationKey = some k ∧ KeyLt key k)

theorem cleanupLoop_cons (mr : Option Int) (mn : Rat) (mx : Option Rat) (dk : Option TimeseriesKey)
    (sk : TimeseriesKey) (cnt rc : Int) (k : TimeseriesKey) (e : Event)
    (r : Table TimeseriesKey Event) :
    (CleanupCond mr mn mx dk sk cnt rc k ∧ cleanupLoop mr mn mx dk sk cnt rc ((k, e) :: r) =
      k :: cleanupLoop mr mn mx dk sk cnt (rc + 1) r) ∨
    (¬ CleanupCond mr mn mx dk sk cnt rc k ∧ cleanupLoop mr mn mx dk sk cnt rc ((k, e) :: r) = []) := by
  have heq : cleanupLoop mr mn mx dk sk cnt rc ((k, e) :: r) =
      if resultsReached mr rc then []
      else if ((cnt - rc : Int) : Rat) ≤ mn then []
      else if !DbKey.lt k sk then []
      else if withinMaxEntries mx ((cnt - rc : Int) : Rat) && withinDuration dk k then []
      else k :: cleanupLoop mr mn mx dk sk cnt (rc + 1) r := rfl
  rw [heq]
  unfold CleanupCond
  by_cases h1 : ∀ n, mr = some n → rc < n
  · have h1' : resultsReached mr rc = false := by
      unfold resultsReached
      cases mr with
      | none => rfl
      | some n => simpa using h1 n rfl
    simp only [h1', Bool.false_eq_true, if_false]
    by_cases h2 : mn < ((cnt - rc : Int) : Rat)
    · rw [if_neg (not_le.2 h2)]
      by_cases h3 : KeyLt k sk
      · have h3' : DbKey.lt k sk = true := tsKey_lt.2 h3
        rw [if_neg (by simp [h3'])]
        by_cases h4 : (∃ n, mx = some n ∧ n < ((cnt - rc : Int) : Rat)) ∨ ∃ d, dk = some d ∧ KeyLt k d
        · left
          refine ⟨⟨h1, h2, h3, h4⟩, ?_⟩
          rw [if_neg]
          rcases h4 with ⟨n, rfl, hn⟩ | ⟨d, rfl, hd⟩
          · simp only [withinMaxEntries, not_le.2 hn, decide_false, Bool.false_and, Bool.false_eq_true, not_false_eq_true]
          · simp [withinDuration, tsKey_lt.2 hd]
        · right
          refine ⟨fun h => h4 h.2.2.2, ?_⟩
          rw [if_pos]
          push Not at h4
          obtain ⟨h4, h5⟩ := h4
          simp only [Bool.and_eq_true]
          constructor
          · cases mx with
            | none => rfl
            | some n => exact decide_eq_true (h4 n rfl)
          · cases dk with
            | none => rfl
            | some d =>
              have := h5 d rfl
              rw [← tsKey_lt] at this
              simpa [withinDuration] using this
      · right
        refine ⟨fun h => h3 h.2.2.1, ?_⟩
        rw [if_pos]
        rw [← tsKey_lt] at h3
        simpa using h3
    · right
      refine ⟨fun h => h2 h.2.1, ?_⟩
      rw [if_pos (not_lt.1 h2)]
  · right
    refine ⟨fun h => h1 h.1, ?_⟩
    push Not at h1
    obtain ⟨n, rfl, hn⟩ := h1
    simp [resultsReached, hn]

/-- The loop removes the entries of a prefix. -/
theorem cleanupLoop_spec (mr : Option Int) (mn : Rat) (mx : Option Rat) (dk : Option TimeseriesKey)
    (sk : TimeseriesKey) (cnt : Int) (rest : Table TimeseriesKey Event) (rc : Int) :
    ∃ a b, rest = a ++ b ∧ cleanupLoop mr mn mx dk sk cnt rc rest = a.map Prod.fst ∧
      (∀ x p y, a = x ++ p :: y → CleanupCond mr mn mx dk sk cnt (rc + x.length) p.1) ∧
      (∀ p y, b = p :: y → ¬ CleanupCond mr mn mx dk sk cnt (rc + a.length) p.1) := by
  induction rest generalizing rc with
  | nil => exact ⟨[], [], rfl, rfl, by simp, by simp⟩
  | cons q r ih =>
    obtain ⟨k, e⟩ := q
    rcases cleanupLoop_cons mr mn mx dk sk cnt rc k e r with ⟨hc, he⟩ | ⟨hc, he⟩
    · obtain ⟨a, b, hab, h1, h2, h3⟩ := ih (rc + 1)
      refine ⟨(k, e) :: a, b, by simp [hab], by simp [he, h1], ?_, ?_⟩
      · intro x p y hx
        cases x with
        | nil =>
          simp only [List.nil_append, List.cons.injEq] at hx
          rw [← hx.1]; simpa using hc
        | cons z x =>
          simp only [List.cons_append, List.cons.injEq] at hx
          have := h2 x p y hx.2
          have e : rc + ((z :: x).length : Int) = rc + 1 + (x.length : Int) := by
            simp only [List.length_cons]; omega
          rw [e]; exact this
      · intro p y hb
        have := h3 p y hb
        have e : rc + ((((k, e) :: a).length : Nat) : Int) = rc + 1 + (a.length : Int) := by
          simp only [List.length_cons]; omega
        rw [e]; exact this
    · refine ⟨[], (k, e) :: r, rfl, by simp [he], by simp, ?_⟩
      intro p y hb
      simp only [List.cons.injEq] at hb
      rw [← hb.1]; simpa using hc

theorem foldl_del (l : List TimeseriesKey) (t : Table TimeseriesKey Event) :
    l.foldl Dict.del t = t.filter fun x => x.1 ∉ l := by
  induction l generalizing t with
  | nil => simp
  | cons k l ih =>
    rw [List.foldl_cons, ih, Table.del_eq_filter, List.filter_filter]
    apply List.filter_congr
    intro x _
    simp only [List.mem_cons, not_or]
    by_cases h1 : x.1 = k <;> by_cases h2 : x.1 ∈ l <;> simp [h1, h2]

theorem minTimestamp_le {t : Timestamp} (h : TimeRange t) : TimeLe minTimestamp t := by
  unfold TimeRange at h
  unfold minTimestamp
  by_cases h1 : t.s = -(2 ^ 63)
  · by_cases h2 : t.us = 0
    · exact .inr (Timestamp.ext' h1.symm h2.symm)
    · exact .inl (.inr ⟨h1.symm, by simp only; omega⟩)
  · exact .inl (.inl (by simp only; omega))

theorem zeroId_le {i : EventId} (h : IdRange i) : IdLe ⟨0, 0, 0⟩ i := by
  rw [← not_idLt]
  unfold IdRange U64 at h
  unfold IdLt
  simp only
  omega

/-- Keys from the first possible key of a partition on. -/
theorem not_lt_startKey {k : TimeseriesKey} (h : KeyRange k) (p : Int) :
    KeyLt k ⟨p, minTimestamp, ⟨0, 0, 0⟩⟩ ↔ k.partition < p := by
  unfold KeyLt
  simp only
  constructor
  · rintro (h1 | ⟨_, h1 | ⟨_, h1⟩⟩)
    · exact h1
    · exact absurd (minTimestamp_le h.2.1) (by rw [← not_timeLt]; simpa using h1)
    · exact absurd (zeroId_le h.2.2) (by rw [← not_idLt]; simpa using h1)
  · exact .inl

/-- Expired keys. -/
theorem lt_durationKey {k : TimeseriesKey} (h : KeyRange k) (t : Timestamp) :
    KeyLt k ⟨k.partition, t, ⟨0, 0, 0⟩⟩ ↔ TimeLt k.timestamp t := by
  unfold KeyLt
  simp only [true_and, lt_irrefl, false_or]
  constructor
  · rintro (h1 | ⟨_, h1⟩)
    · exact h1
    · exact absurd (zeroId_le h.2.2) (by rw [← not_idLt]; simpa using h1)
  · exact .inl

/-- Everything `cleanupPartition` does. -/
theorem cleanupPartition_ok {fl : Rat → Rat} {se : Rat → Option Int} {now : Timestamp} {p : Int}
    {limit : Limit} {mr : Option Int} {data data' : Table TimeseriesKey Event}
    {counts counts' : Table Int Int} {removed : List TimeseriesKey}
    (hs : Table.Sorted data) (hr : ∀ x ∈ data, KeyRange x.1)
    (h : cleanupPartition fl se now p limit mr data counts = .ok (removed, data', counts')) :
    ∃ a b : Table TimeseriesKey Event,
      entriesOf data p = a ++ b ∧ removed = a.map Prod.fst ∧
      data' = data.filter (fun x => x.1 ∉ removed) ∧
      (∀ x q y, a = x ++ q :: y → CleanupCond mr (limit.minEntries.getD 0) (limitMaxEntries se limit)
        (limit.duration.map fun d => ⟨p, now.add fl (-d), ⟨0, 0, 0⟩⟩)
        ⟨p + 1, minTimestamp, ⟨0, 0, 0⟩⟩ ((Dict.get counts p).getD 0) x.length q.1) ∧
      (∀ q y, b = q :: y → ¬ CleanupCond mr (limit.minEntries.getD 0) (limitMaxEntries se limit)
        (limit.duration.map fun d => ⟨p, now.add fl (-d), ⟨0, 0, 0⟩⟩)
        ⟨p + 1, minTimestamp, ⟨0, 0, 0⟩⟩ ((Dict.get counts p).getD 0) a.length q.1) ∧
      ((removed = [] ∧ counts' = counts) ∨
        (removed ≠ [] ∧ counts' = Table.put counts p ((Dict.get counts p).getD 0 - removed.length))) := by
  unfold cleanupPartition at h
  simp only at h
  obtain ⟨_, _, h⟩ := bind_ok h
  obtain ⟨_, _, h⟩ := bind_ok h
  obtain ⟨dk, hdk, h⟩ := bind_ok h
  have hdk' : dk = limit.duration.map fun d => ⟨p, now.add fl (-d), ⟨0, 0, 0⟩⟩ := by
    unfold limitDurationKey at hdk
    cases hd : limit.duration with
    | none => rw [hd] at hdk; cases hdk; rfl
    | some d =>
      rw [hd] at hdk
      obtain ⟨_, _, hdk⟩ := bind_ok hdk
      cases hdk; rfl
  subst hdk'
  obtain ⟨c', hc', h⟩ := bind_ok h
  simp only [pure_ok, Except.ok.injEq, Prod.mk.injEq] at h
  obtain ⟨h1, h2, h3⟩ := h
  rw [h1] at hc' h2
  subst h3
  rw [Table.fromKey_eq hs] at h1
  obtain ⟨a, b, hab, hl, ha, hb⟩ := cleanupLoop_spec mr (limit.minEntries.getD 0)
    (limitMaxEntries se limit) (limit.duration.map fun d => ⟨p, now.add fl (-d), ⟨0, 0, 0⟩⟩)
    ⟨p + 1, minTimestamp, ⟨0, 0, 0⟩⟩ ((Dict.get counts p).getD 0)
    (data.filter fun x => !DbKey.lt x.1 ⟨p, minTimestamp, ⟨0, 0, 0⟩⟩) 0
  rw [hl] at h1
  simp only [zero_add] at ha hb
  -- entries of the partition are the entries from the cursor on before the stop key
  have hstart : ∀ x ∈ data, DbKey.lt x.1 ⟨p, minTimestamp, ⟨0, 0, 0⟩⟩ = decide (x.1.partition < p) := by
    intro x hx
    rw [Bool.eq_iff_iff, tsKey_lt, not_lt_startKey (hr x hx)]; simp
  have hstop : ∀ x ∈ data, KeyLt x.1 ⟨p + 1, minTimestamp, ⟨0, 0, 0⟩⟩ ↔ x.1.partition ≤ p := by
    intro x hx
    rw [not_lt_startKey (hr x hx)]; omega
  have hent : entriesOf data p = (a ++ b).filter fun x => x.1.partition ≤ p := by
    rw [← hab, List.filter_filter]
    unfold entriesOf
    apply List.filter_congr
    intro x hx
    rw [hstart x hx]
    simp only [decide_eq_decide, ← Bool.decide_and, ← decide_not, Bool.decide_and]
    by_cases h : x.1.partition = p
    · simp [h]
    · by_cases h' : x.1.partition < p
      · simp [h, h']
      · have : ¬ x.1.partition ≤ p := by omega
        simp [h, this]
  have hsub : ∀ x ∈ a ++ b, x ∈ data := by
    intro x hx; rw [← hab] at hx; exact List.mem_of_mem_filter hx
  have ha' : ∀ x ∈ a, x.1.partition ≤ p := by
    intro x hx
    obtain ⟨u, v, rfl⟩ := List.append_of_mem hx
    exact (hstop x (hsub x (by simp))).1 (ha u x v rfl).2.2.1
  refine ⟨a, b.filter fun x => x.1.partition ≤ p, ?_, h1.symm, ?_, ha, ?_, ?_⟩
  · rw [hent, List.filter_append]
    congr 1
    rw [List.filter_eq_self]
    intro x hx; simpa using ha' x hx
  · rw [← h2, foldl_del]
  · intro q y hq
    cases b with
    | nil => simp at hq
    | cons z b =>
      have hz := hb z b rfl
      by_cases hzp : z.1.partition ≤ p
      · rw [List.filter_cons_of_pos (by simpa using hzp)] at hq
        simp only [List.cons.injEq] at hq
        rw [← hq.1]; exact hz
      · -- later entries have even larger partitions
        rw [List.filter_cons_of_neg (by simpa using hzp)] at hq
        have hq' : q ∈ b.filter fun x => decide (x.1.partition ≤ p) := by rw [hq]; simp
        obtain ⟨hqb, hqp⟩ := List.mem_filter.1 hq'
        have hsorted : Table.Sorted (a ++ z :: b) := by
          rw [← hab]; exact List.Pairwise.filter _ hs
        have h5 := (List.pairwise_append.1 hsorted).2.1
        have h6 := (List.pairwise_cons.1 h5).1 q hqb
        rw [tsKey_lt] at h6
        have : z.1.partition ≤ q.1.partition := by
          rcases h6 with h6 | ⟨h6, _⟩ <;> omega
        simp only [decide_eq_true_eq] at hqp
        omega
  · by_cases hrem : removed = []
    · left
      rw [if_pos hrem] at hc'
      cases hc'
      exact ⟨hrem, rfl⟩
    · right
      rw [if_neg hrem] at hc'
      have := (Table.write_eq hc').1
      simp only [List.foldl_cons, List.foldl_nil] at this
      exact ⟨hrem, this⟩

/-! ### In terms of the specification -/

theorem over_iff (se : Rat → Option Int) (limit : Limit) (n : Nat) :
    (∃ m, limitMaxEntries se limit = some m ∧ m < (n : Rat)) ↔ TooMany se limit n := by
  unfold limitMaxEntries TooMany
  cases hs : limit.size.bind se with
  | none =>
    have : ∀ s c, limit.size = some s → se s = some c → False := by
      intro s c h1 h2; rw [h1] at hs; simp [h2] at hs
    constructor
    · rintro ⟨m, h1, h2⟩; exact .inl ⟨m, h1, h2⟩
    · rintro (⟨m, h1, h2⟩ | ⟨s, c, h1, h2, _⟩)
      · exact ⟨m, h1, h2⟩
      · exact absurd (this s c h1 h2) id
  | some c =>
    obtain ⟨s, h1, h2⟩ := Option.bind_eq_some_iff.1 hs
    cases hm : limit.maxEntries with
    | none =>
      simp only [Option.some.injEq, exists_eq_left']
      constructor
      · intro h; exact .inr ⟨s, c, h1, h2, h⟩
      · rintro (⟨m, h, _⟩ | ⟨s', c', h3, h4, h5⟩)
        · simp at h
        · rw [h1] at h3; cases h3; rw [h2] at h4; cases h4; exact h5
    | some m =>
      simp only [Option.some.injEq, exists_eq_left', min_lt_iff]
      constructor
      · rintro (h | h)
        · exact .inr ⟨s, c, h1, h2, h⟩
        · exact .inl h
      · rintro (h | ⟨s', c', h3, h4, h5⟩)
        · exact .inr h
        · rw [h1] at h3; cases h3; rw [h2] at h4; cases h4; exact .inl h5

theorem cleanupPartition_spec {fl : Rat → Rat} {se : Rat → Option Int} {now : Timestamp} {p : Int}
    {limit : Limit} {mr : Option Int} {data data' : Table TimeseriesKey Event}
    {counts counts' : Table Int Int} {removed : List TimeseriesKey}
    (hs : Table.Sorted data) (hr : ∀ x ∈ data, KeyRange x.1)
    (hc : (Dict.get counts p).getD 0 = (entriesOf data p).length)
    (h : cleanupPartition fl se now p limit mr data counts = .ok (removed, data', counts')) :
    ∃ old rest, Cleaned fl se now limit (entriesOf data p) old rest ∧
      removed = old.map Prod.fst ∧
      data' = data.filter (fun x => x.1 ∉ removed) ∧
      entriesOf data' p = rest ∧ (∀ q, q ≠ p → entriesOf data' q = entriesOf data q) ∧
      ((∀ n, mr = some n → (old.length : Int) < n) → Finished fl se now limit rest) ∧
      (∀ n, mr = some n → 0 ≤ n → (old.length : Int) ≤ n) ∧
      (∀ q, (Dict.get counts' q).getD 0 = (Dict.get counts q).getD 0 -
        (removed.filter fun k => k.partition = q).length) ∧
      (Table.Sorted counts → Table.Sorted counts') := by
  obtain ⟨a, b, hab, hrem, hd, h1, h2, h3⟩ := cleanupPartition_ok hs hr h
  have hmem : ∀ x ∈ a ++ b, x ∈ data ∧ x.1.partition = p := by
    intro x hx; rw [← hab] at hx
    simpa [entriesOf] using hx
  have hlen : ((entriesOf data p).length : Int) = a.length + b.length := by
    rw [hab, List.length_append]; simp
  have hnd : ((a ++ b).map Prod.fst).Nodup := by
    rw [← hab]
    exact (Table.Sorted.nodup hs).sublist (List.Sublist.map _ List.filter_sublist)
  have hexp : ∀ x ∈ a ++ b, (∃ k, (limit.duration.map fun d =>
      (⟨p, now.add fl (-d), ⟨0, 0, 0⟩⟩ : TimeseriesKey)) = some k ∧ KeyLt x.1 k) ↔
      Expired fl now limit x.1 := by
    intro x hx
    obtain ⟨hx1, hx2⟩ := hmem x hx
    unfold Expired
    constructor
    · rintro ⟨k, hk, hlt⟩
      obtain ⟨d, hd, rfl⟩ := Option.map_eq_some_iff.1 hk
      rw [← hx2, lt_durationKey (hr x hx1)] at hlt
      exact ⟨d, hd, hlt⟩
    · rintro ⟨d, hd, hlt⟩
      refine ⟨_, by rw [hd]; rfl, ?_⟩
      rw [← hx2, lt_durationKey (hr x hx1)]; exact hlt
  refine ⟨a, b, ⟨hab, ?_, ?_⟩, hrem, hd, ?_, ?_, ?_, ?_, ?_, ?_⟩
  · intro hne
    have hx := h1 a.dropLast (a.getLast hne) [] (List.dropLast_append_getLast hne).symm
    have hl := hx.2.1
    have : a.dropLast.length + 1 = a.length := by
      rw [List.length_dropLast]
      have := List.length_pos_iff.2 hne
      omega
    have e : (Dict.get counts p).getD 0 - (a.dropLast.length : Int) = ((b.length + 1 : Nat) : Int) := by
      rw [hc, hlen]; push_cast; omega
    rw [e] at hl
    simpa using hl
  · intro x q y hx
    have hx' := (h1 x q y hx).2.2.2
    have e : (Dict.get counts p).getD 0 - (x.length : Int) =
        (((entriesOf data p).length - x.length : Nat) : Int) := by
      rw [hc]
      have : x.length ≤ (entriesOf data p).length := by
        rw [hab, hx]; simp
      omega
    rw [e] at hx'
    rcases hx' with hx' | hx'
    · exact .inl ((over_iff se limit _).1 hx')
    · exact .inr ((hexp q (by simp [hx])).1 hx')
  · rw [hd, hrem]
    unfold entriesOf
    rw [List.filter_comm]
    have : List.filter (fun x => decide (x.1.partition = p)) data = a ++ b := hab
    rw [this, List.filter_append]
    have e1 : a.filter (fun x => decide (x.1 ∉ a.map Prod.fst)) = [] := by
      rw [List.filter_eq_nil_iff]
      intro x hx; simp only [decide_eq_true_eq, not_not]
      exact List.mem_map_of_mem hx
    have e2 : b.filter (fun x => decide (x.1 ∉ a.map Prod.fst)) = b := by
      rw [List.filter_eq_self]
      intro x hx
      simp only [decide_eq_true_eq]
      intro hxa
      rw [List.map_append] at hnd
      exact (List.nodup_append.1 hnd).2.2 _ hxa _ (List.mem_map_of_mem hx) rfl
    rw [e1, e2, List.nil_append]
  · intro q hq
    rw [hd, hrem]
    unfold entriesOf
    rw [List.filter_filter]
    apply List.filter_congr
    intro x hx
    by_cases hxq : x.1.partition = q
    · have : x.1 ∉ a.map Prod.fst := by
        intro hxa
        obtain ⟨y, hy, hxy⟩ := List.mem_map.1 hxa
        have := (hmem y (by simp [hy])).2
        rw [hxy, hxq] at this
        exact hq this
      simp only [hxq, this]; simp
    · simp [hxq]
  · intro hfin
    unfold Finished
    cases b with
    | nil => exact .inl (.inl rfl)
    | cons q b =>
      have hn := h2 q b rfl
      have e : (Dict.get counts p).getD 0 - (a.length : Int) = (((q :: b).length : Nat) : Int) := by
        rw [hc, hlen]; omega
      unfold CleanupCond at hn
      rw [e] at hn
      by_cases hmin : limit.minEntries.getD 0 < (((q :: b).length : Nat) : Rat)
      · right
        have hq := hmem q (by simp)
        have hstop : KeyLt q.1 ⟨p + 1, minTimestamp, ⟨0, 0, 0⟩⟩ := by
          rw [not_lt_startKey (hr q hq.1)]; omega
        have hn' : ¬ ((∃ n, limitMaxEntries se limit = some n ∧ n < (((q :: b).length : Nat) : Rat)) ∨
            ∃ k, (limit.duration.map fun d =>
              (⟨p, now.add fl (-d), ⟨0, 0, 0⟩⟩ : TimeseriesKey)) = some k ∧ KeyLt q.1 k) := by
          intro hh
          exact hn ⟨hfin, by simpa using hmin, hstop, by simpa using hh⟩
        rw [over_iff, hexp q (by simp)] at hn'
        push Not at hn'
        refine ⟨hn'.1, ?_⟩
        -- later entries are not older than the first remaining one
        intro x hx hxe
        apply hn'.2
        rcases List.mem_cons.1 hx with rfl | hx'
        · exact hxe
        · have hsorted : Table.Sorted (a ++ q :: b) := by
            rw [← hab]; exact List.Pairwise.filter _ hs
          have h5 := (List.pairwise_append.1 hsorted).2.1
          have h6 := (List.pairwise_cons.1 h5).1 x hx'
          rw [tsKey_lt] at h6
          obtain ⟨d, hd1, hd2⟩ := hxe
          refine ⟨d, hd1, ?_⟩
          have hxp := (hmem x (by simp [hx'])).2
          rcases h6 with h6 | ⟨_, h6 | ⟨h6, _⟩⟩
          · omega
          · exact h6.trans hd2
          · rw [h6]; exact hd2
      · left; right
        simpa using hmin
  · intro n hn hpos
    cases ha : a with
    | nil => simpa using hpos
    | cons z a' =>
      have hne : a ≠ [] := by simp [ha]
      have hx := (h1 a.dropLast (a.getLast hne) [] (List.dropLast_append_getLast hne).symm).1 n hn
      have : a.dropLast.length + 1 = a.length := by
        rw [List.length_dropLast]
        have := List.length_pos_iff.2 hne
        omega
      rw [← ha]; omega
  · intro q
    rcases h3 with ⟨h3, rfl⟩ | ⟨h3, rfl⟩
    · simp [h3]
    · rw [Table.get_put]
      by_cases hpq : p = q
      · subst hpq
        have : removed.filter (fun k => decide (k.partition = p)) = removed := by
          rw [List.filter_eq_self]
          intro k hk
          rw [hrem] at hk
          obtain ⟨y, hy, rfl⟩ := List.mem_map.1 hk
          simpa using (hmem y (by simp [hy])).2
        rw [this]; simp
      · have : removed.filter (fun k => decide (k.partition = q)) = [] := by
          rw [List.filter_eq_nil_iff]
          intro k hk
          rw [hrem] at hk
          obtain ⟨y, hy, rfl⟩ := List.mem_map.1 hk
          have := (hmem y (by simp [hy])).2
          simp only [decide_eq_true_eq]; omega
        simp [hpq, this]
  · intro hcs
    rcases h3 with ⟨_, rfl⟩ | ⟨_, rfl⟩
    · exact hcs
    · exact Table.sorted_put _ _ hcs

/-- Effect of the cleanup of one partition. -/
def Spec.PartCleaned (fl : Rat → Rat) (se : Rat → Option Int) (now : Timestamp) (done : Prop)
    (data data' : Table TimeseriesKey Event) (q : Int) (part : Partition) : Prop :=
  match part.limit with
  | none => entriesOf data' q = entriesOf data q
  | some limit => ∃ old, Cleaned fl se now limit (entriesOf data q) old (entriesOf data' q) ∧
      (done → Finished fl se now limit (entriesOf data' q))

theorem entriesOf_filter_length (data : Table TimeseriesKey Event) (hs : Table.Sorted data)
    (rem : List TimeseriesKey) (hnd : rem.Nodup) (hsub : ∀ k ∈ rem, k ∈ data.map Prod.fst) (q : Int) :
    ((entriesOf (data.filter fun x => x.1 ∉ rem) q).length : Int) =
      (entriesOf data q).length - (rem.filter fun k => k.partition = q).length := by
  have hdn := Table.Sorted.nodup hs
  have h1 : (entriesOf data q).length =
      (entriesOf (data.filter fun x => x.1 ∉ rem) q).length +
      ((entriesOf data q).filter fun x => x.1 ∈ rem).length := by
    have := List.length_eq_length_filter_add (l := entriesOf data q) (fun x => decide (x.1 ∈ rem))
    rw [this, Nat.add_comm]
    congr 1
    unfold entriesOf
    rw [List.filter_filter, List.filter_filter]
    congr 1
    apply List.filter_congr
    intro x _
    by_cases h : x.1 ∈ rem <;> simp [h]
  have h2 : ((entriesOf data q).filter fun x => x.1 ∈ rem).length =
      (rem.filter fun k => k.partition = q).length := by
    rw [← List.length_map (f := Prod.fst)]
    apply List.Perm.length_eq
    apply (List.perm_ext_iff_of_nodup _ _).2
    · intro k
      simp only [entriesOf, List.mem_map, List.mem_filter, decide_eq_true_eq]
      constructor
      · rintro ⟨x, ⟨⟨hx, hq⟩, hr⟩, rfl⟩; exact ⟨hr, hq⟩
      · rintro ⟨hr, hq⟩
        obtain ⟨x, hx, rfl⟩ := List.mem_map.1 (hsub k hr)
        exact ⟨x, ⟨⟨hx, hq⟩, hr⟩, rfl⟩
    · exact hdn.sublist (List.Sublist.map _ (List.filter_sublist.trans List.filter_sublist))
    · exact hnd.filter _
  omega

theorem cleanupPartitions_spec {fl : Rat → Rat} {se : Rat → Option Int} {now : Timestamp} {N : Int} :
    ∀ (parts : List (Int × Partition)) (result : List TimeseriesKey)
      (data : Table TimeseriesKey Event) (counts : Table Int Int)
      {res : List TimeseriesKey} {data' : Table TimeseriesKey Event} {counts' : Table Int Int},
    (parts.map Prod.fst).Nodup → Table.Sorted data → (∀ x ∈ data, KeyRange x.1) →
    (∀ q, (Dict.get counts q).getD 0 = ((entriesOf data q).length : Int)) →
    (result.length : Int) ≤ N →
    cleanupPartitions fl se now (some N) parts result data counts = .ok (res, data', counts') →
    ∃ rem, res = result ++ rem ∧ rem.Nodup ∧ (∀ k ∈ rem, k ∈ data.map Prod.fst) ∧
      data' = data.filter (fun x => x.1 ∉ rem) ∧ (res.length : Int) ≤ N ∧
      (∀ q, q ∉ parts.map Prod.fst → entriesOf data' q = entriesOf data q) ∧
      (∀ q part, (q, part) ∈ parts →
        PartCleaned fl se now ((res.length : Int) < N) data data' q part) ∧
      (∀ q, (Dict.get counts' q).getD 0 = ((entriesOf data' q).length : Int)) ∧
      (Table.Sorted counts → Table.Sorted counts')
  | [], result, data, counts, res, data', counts', _, _, _, hc, hN, h => by
    cases h
    exact ⟨[], by simp, by simp, by simp, by simp, hN, by simp, by simp, hc, id⟩
  | (p, part) :: parts, result, data, counts, res, data', counts', hnd, hs, hr, hc, hN, h => by
    rw [cleanupPartitions] at h
    rw [List.map_cons, List.nodup_cons] at hnd
    cases hl : part.limit with
    | none =>
      rw [hl] at h
      obtain ⟨rem, h1, h2, h3, h4, h5, h6, h7, h8, h9⟩ :=
        cleanupPartitions_spec parts result data counts hnd.2 hs hr hc hN h
      refine ⟨rem, h1, h2, h3, h4, h5, fun q hq => h6 q (fun hh => hq (by simp [hh])), ?_, h8, h9⟩
      intro q part' hq
      rcases List.mem_cons.1 hq with hq | hq
      · cases hq
        simp only [PartCleaned, hl]
        exact h6 p hnd.1
      · exact h7 q part' hq
    | some limit =>
      rw [hl] at h
      by_cases hm : N - (result.length : Int) < 1
      · simp only [Option.map_some, decide_eq_true_eq, hm, if_true] at h
        cases h
        refine ⟨[], by simp, by simp, by simp, by simp, hN, by simp, ?_, hc, id⟩
        intro q part' hq
        unfold PartCleaned
        split
        · rfl
        · exact ⟨[], ⟨rfl, fun hh => absurd rfl hh, by simp⟩, fun hh => absurd hh (by omega)⟩
      · simp only [Option.map_some, decide_eq_true_eq, hm, if_false] at h
        obtain ⟨⟨rm, d1, c1⟩, ho, h⟩ := bind_ok h
        obtain ⟨old, rest, a1, a2, a3, a4, a5, a6, a7, a8, a9⟩ :=
          cleanupPartition_spec hs hr (hc p) ho
        have hd1s : Table.Sorted d1 := by rw [a3]; exact List.Pairwise.filter _ hs
        have hd1r : ∀ x ∈ d1, KeyRange x.1 := by
          intro x hx; rw [a3] at hx; exact hr x (List.mem_filter.1 hx).1
        have hrmsub : ∀ k ∈ rm, k ∈ data.map Prod.fst := by
          intro k hk; rw [a2] at hk
          obtain ⟨x, hx, rfl⟩ := List.mem_map.1 hk
          have : x ∈ entriesOf data p := by rw [a1.split]; simp [hx]
          exact List.mem_map_of_mem (List.mem_filter.1 this).1
        have hrmnd : rm.Nodup := by
          rw [a2]
          have := (Table.Sorted.nodup hs).sublist
            (List.Sublist.map Prod.fst (List.filter_sublist (p := fun x => decide (x.1.partition = p))))
          have h' : ((entriesOf data p).map Prod.fst).Nodup := this
          rw [a1.split, List.map_append] at h'
          exact (List.nodup_append.1 h').1
        have hd1c : ∀ q, (Dict.get c1 q).getD 0 = ((entriesOf d1 q).length : Int) := by
          intro q
          rw [a8, hc, a3, entriesOf_filter_length data hs rm hrmnd hrmsub]
        have hlenrm : rm.length = old.length := by rw [a2]; simp
        have hN1 : ((result ++ rm).length : Int) ≤ N := by
          have := a7 _ rfl (by omega)
          rw [List.length_append, hlenrm]; push_cast; omega
        obtain ⟨rem, h1, h2, h3, h4, h5, h6, h7, h8, h9⟩ :=
          cleanupPartitions_spec parts (result ++ rm) d1 c1 hnd.2 hd1s hd1r hd1c hN1 h
        refine ⟨rm ++ rem, by rw [h1, List.append_assoc], ?_, ?_, ?_, h5, ?_, ?_, h8,
          fun hh => h9 (a9 hh)⟩
        · rw [List.nodup_append]
          refine ⟨hrmnd, h2, ?_⟩
          intro a ha b hb hab
          subst hab
          have := h3 a hb
          rw [a3] at this
          obtain ⟨x, hx, rfl⟩ := List.mem_map.1 this
          have := (List.mem_filter.1 hx).2
          simp only [decide_eq_true_eq] at this
          exact this ha
        · intro k hk
          rcases List.mem_append.1 hk with hk | hk
          · exact hrmsub k hk
          · have := h3 k hk
            rw [a3] at this
            obtain ⟨x, hx, rfl⟩ := List.mem_map.1 this
            exact List.mem_map_of_mem (List.mem_filter.1 hx).1
        · rw [h4, a3, List.filter_filter]
          apply List.filter_congr
          intro x _
          by_cases ha : x.1 ∈ rm <;> by_cases hb : x.1 ∈ rem <;> simp [ha, hb]
        · intro q hq
          rw [h6 q (fun hh => hq (by simp [hh])), a5 q (fun hh => hq (by simp [hh]))]
        · intro q part' hq
          rcases List.mem_cons.1 hq with hq | hq
          · cases hq
            simp only [PartCleaned, hl]
            rw [h6 p hnd.1, a4]
            refine ⟨old, a1, fun hlt => a6 ?_⟩
            intro n hn; cases hn
            rw [h1, List.length_append, List.length_append, hlenrm] at hlt
            push_cast at hlt; omega
          · have := h7 q part' hq
            have hne : q ≠ p := by
              intro hqp
              exact hnd.1 (List.mem_map.2 ⟨(q, part'), hq, hqp⟩)
            unfold PartCleaned at this ⊢
            rw [a5 q hne] at this
            exact this

end HatEvent
