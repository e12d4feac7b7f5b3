import Verif.Model.Lmdb
import Verif.Proof.Table

/-! # Opening a database: settings and partitions -/

namespace HatEvent
open Spec

theorem bind_ok {α β : Type} {x : Except PyErr α} {f : α → Except PyErr β} {b : β}
    (h : (x >>= f) = .ok b) : ∃ a, x = .ok a ∧ f a = .ok b := by
  cases x with
  | error e => simp [bind, Except.bind] at h
  | ok a => exact ⟨a, rfl, h⟩

/-! ### Settings -/

/-- What `validateSettings` stores. -/
theorem get_writeBack (stored settings : Dict SettingsId String) (hn : (Dict.keys settings).Nodup)
    (k : SettingsId) :
    Dict.get (settings.foldl (fun d (p : SettingsId × String) => Dict.set d p.1 p.2) stored) k =
      (match Dict.get settings k with
       | some v => some v
       | none => Dict.get stored k) := by
  induction settings generalizing stored with
  | nil => simp
  | cons p l ih =>
    simp only [Dict.keys_cons, List.nodup_cons] at hn
    rw [List.foldl_cons, ih _ hn.2, Dict.get_cons]
    by_cases h : p.1 = k
    · have : Dict.get l k = none := Dict.get_eq_none_iff.2 (h ▸ hn.1)
      simp [this, Dict.get_set, h]
    · simp [Dict.get_set, h]

theorem nodup_writeBack (stored settings : Dict SettingsId String)
    (hn : (Dict.keys stored).Nodup) :
    (Dict.keys (settings.foldl (fun d (p : SettingsId × String) => Dict.set d p.1 p.2) stored)).Nodup := by
  induction settings generalizing stored with
  | nil => simpa using hn
  | cons p l ih => exact ih _ (Dict.nodup_keys_set hn)

/-- Complete description of `validateSettings`. -/
theorem validateSettings_spec (stored : Dict SettingsId String) (hn : (Dict.keys stored).Nodup)
    (version : String) (identifier : Option String) :
    if (Dict.get stored .version = none ∨ Dict.get stored .version = some version) ∧
        (identifier = none ∨ Dict.get stored .identifier = none ∨
          Dict.get stored .identifier = identifier) then
      ∃ s, validateSettings stored version identifier = .ok s ∧ (Dict.keys s).Nodup ∧
        Dict.get s .version = some version ∧
        Dict.get s .identifier = (match Dict.get stored .identifier with
          | some i => some i
          | none => identifier)
    else ∃ e, validateSettings stored version identifier = .error e := by
  -- the version check
  have hv : if Dict.get stored .version = none ∨ Dict.get stored .version = some version then
      ∃ s, validateVersion stored version = .ok s ∧ (Dict.keys s).Nodup ∧
        (Dict.get s .version = some version ∨
          (Dict.get s .version = none ∧ Dict.get stored .version = some version)) ∧
        Dict.get s .identifier = Dict.get stored .identifier
      else ∃ e, validateVersion stored version = .error e := by
    unfold validateVersion
    cases hg : Dict.get stored .version with
    | none =>
      simp only [true_or, if_true]
      exact ⟨_, rfl, Dict.nodup_keys_set hn, by simp, by simp [Dict.get_set]⟩
    | some v =>
      by_cases h : v = version
      · subst h
        simp only [or_true, if_true]
        exact ⟨_, rfl, Dict.nodup_keys_del hn, by simp [Dict.get_del], by simp [Dict.get_del]⟩
      · simp [h]
  have hi : ∀ s : Dict SettingsId String, (Dict.keys s).Nodup →
      if identifier = none ∨ Dict.get s .identifier = none ∨ Dict.get s .identifier = identifier then
      ∃ s', validateIdentifier s identifier = .ok s' ∧ (Dict.keys s').Nodup ∧
        Dict.get s' .version = Dict.get s .version ∧
        Dict.get s' .identifier = (match Dict.get s .identifier with
          | some _ => none
          | none => identifier)
      else ∃ e, validateIdentifier s identifier = .error e := by
    intro s hs
    unfold validateIdentifier
    cases identifier with
    | none =>
      simp only [true_or, if_true]
      refine ⟨_, rfl, Dict.nodup_keys_del hs, by simp [Dict.get_del], ?_⟩
      cases Dict.get s .identifier <;> simp [Dict.get_del]
    | some i =>
      simp only [reduceCtorEq, false_or]
      cases hg : Dict.get s .identifier with
      | none =>
        simp only [true_or, if_true]
        exact ⟨_, rfl, Dict.nodup_keys_set hs, by simp [Dict.get_set], by simp⟩
      | some j =>
        by_cases h : j = i
        · subst h
          simp only [or_true, if_true]
          exact ⟨_, rfl, Dict.nodup_keys_del hs, by simp [Dict.get_del], by simp [Dict.get_del]⟩
        · simp [h]
  unfold validateSettings
  by_cases h1 : Dict.get stored .version = none ∨ Dict.get stored .version = some version
  · rw [if_pos h1] at hv
    obtain ⟨s, hs, hsn, hsv, hsi⟩ := hv
    have hi := hi s hsn
    rw [hsi] at hi
    by_cases h2 : identifier = none ∨ Dict.get stored .identifier = none ∨
        Dict.get stored .identifier = identifier
    · rw [if_pos h2] at hi
      obtain ⟨s', hs', hsn', hsv', hsi'⟩ := hi
      rw [if_pos ⟨h1, h2⟩, hs]
      simp only [ok_bind, hs', pure_ok]
      refine ⟨_, rfl, nodup_writeBack _ _ hn, ?_, ?_⟩
      · rw [get_writeBack _ _ hsn', hsv']
        rcases hsv with h | ⟨h, h'⟩
        · simp [h]
        · simp [h, h']
      · rw [get_writeBack _ _ hsn', hsi']
        cases hg : Dict.get stored .identifier with
        | none => cases identifier <;> rfl
        | some j => rfl
    · rw [if_neg h2] at hi
      obtain ⟨e, he⟩ := hi
      rw [if_neg (fun h => h2 h.2), hs]
      exact ⟨e, by simp only [ok_bind, he]; rfl⟩
  · rw [if_neg h1] at hv
    obtain ⟨e, he⟩ := hv
    rw [if_neg (fun h => h1 h.1), he]
    exact ⟨e, rfl⟩

/-! ### Partitions -/

theorem typeLe_refl : ∀ t, typeLe t t = true
  | [] => rfl
  | a :: l => by simp [typeLe, typeLe_refl l]

theorem typeLe_total : ∀ t u, (typeLe t u || typeLe u t) = true
  | [], _ => by simp [typeLe]
  | _ :: _, [] => by simp [typeLe]
  | a :: l, b :: m => by
    unfold typeLe
    by_cases h : a = b
    · subst h; simpa using typeLe_total l m
    · have h' : b ≠ a := fun e => h e.symm
      simp only [h, h', if_false, Bool.or_eq_true, decide_eq_true_eq]
      rcases Decidable.em (a < b) with h1 | h1
      · exact .inl h1
      · right
        by_contra h2
        exact h (String.le_antisymm (String.not_lt.1 h2) (String.not_lt.1 h1))

theorem typeLe_antisymm : ∀ t u, typeLe t u = true → typeLe u t = true → t = u
  | [], [], _, _ => rfl
  | [], _ :: _, _, h => by simp [typeLe] at h
  | _ :: _, [], h, _ => by simp [typeLe] at h
  | a :: l, b :: m, h1, h2 => by
    unfold typeLe at h1 h2
    by_cases h : a = b
    · subst h
      rw [if_pos rfl] at h1 h2
      rw [typeLe_antisymm l m h1 h2]
    · rw [if_neg h] at h1
      rw [if_neg (fun e => h e.symm)] at h2
      simp only [decide_eq_true_eq] at h1 h2
      exact absurd h2 (String.lt_asymm h1)

theorem typeLe_trans : ∀ t u v, typeLe t u = true → typeLe u v = true → typeLe t v = true
  | [], _, _, _, _ => rfl
  | _ :: _, [], _, h, _ => by simp [typeLe] at h
  | _ :: _, _ :: _, [], _, h => by simp [typeLe] at h
  | a :: l, b :: m, c :: n, h1, h2 => by
    unfold typeLe at h1 h2 ⊢
    by_cases hab : a = b
    · subst hab
      rw [if_pos rfl] at h1
      by_cases hac : a = c
      · subst hac
        rw [if_pos rfl] at h2 ⊢
        exact typeLe_trans l m n h1 h2
      · rw [if_neg hac] at h2 ⊢; exact h2
    · rw [if_neg hab] at h1
      simp only [decide_eq_true_eq] at h1
      by_cases hbc : b = c
      · subst hbc
        rw [if_neg hab]; simpa using h1
      · rw [if_neg hbc] at h2
        simp only [decide_eq_true_eq] at h2
        have h3 := String.lt_trans h1 h2
        have hac : a ≠ c := by rintro rfl; exact absurd h3 (String.lt_irrefl _)
        rw [if_neg hac]; simpa using h3

instance : Std.Total fun a b : EventType => typeLe a b = true :=
  ⟨fun a b => by simpa using typeLe_total a b⟩

instance : IsTrans EventType fun a b => typeLe a b = true := ⟨fun a b c => typeLe_trans a b c⟩

theorem typeSort_eq_of_perm {l m : List EventType} (h : l.Perm m) :
    (l.insertionSort fun a b => typeLe a b = true) = m.insertionSort fun a b => typeLe a b = true := by
  have h1 : (l.insertionSort fun a b => typeLe a b = true).Perm
      (m.insertionSort fun a b => typeLe a b = true) :=
    (List.perm_insertionSort _ l).trans (h.trans (List.perm_insertionSort _ m).symm)
  refine List.Perm.eq_of_pairwise (le := fun a b => typeLe a b = true) ?_ ?_ ?_ h1
  · intro a b _ _ h1 h2; exact typeLe_antisymm a b h1 h2
  · exact List.pairwise_insertionSort _ l
  · exact List.pairwise_insertionSort _ m

theorem foldl_max_le (l : List Int) (a : Int) : a ≤ l.foldl max a ∧ ∀ x ∈ l, x ≤ l.foldl max a := by
  induction l generalizing a with
  | nil => simp
  | cons y l ih =>
    obtain ⟨h1, h2⟩ := ih (max a y)
    refine ⟨by simp only [List.foldl_cons]; omega, ?_⟩
    intro x hx
    rcases List.mem_cons.1 hx with rfl | hx
    · simp only [List.foldl_cons]; omega
    · exact h2 x hx

/-- The partition table is sorted and no description occurs twice. -/
structure PartTableOk (t : Table Int PartitionData) : Prop where
  sorted : Table.Sorted t
  inj : ∀ i j d, Dict.get t i = some d → Dict.get t j = some d → i = j
  range : ∀ i d, Dict.get t i = some d → Spec.U64 i

/-- Invariant of the loop of `initPartitions`. -/
structure InitOk (t : Table Int PartitionData) (s : InitPartitions) : Prop where
  table : PartTableOk s.table
  cache : ∀ d i, Dict.get s.cache d = some i ↔ Dict.get s.table i = some d
  next : ∀ i d, Dict.get s.table i = some d → i < s.next
  pos : ∀ i d, Dict.get s.table i = some d → 1 ≤ i ∨ Dict.get t i = some d
  next1 : 1 ≤ s.next
  keeps : ∀ i d, Dict.get t i = some d → Dict.get s.table i = some d
  resultNodup : (Dict.keys s.result).Nodup
  result : ∀ i p, Dict.get s.result i = some p → Dict.get s.table i = some (partitionData p)

theorem cache_spec (t : Table Int PartitionData) (h : PartTableOk t) (d : PartitionData) (i : Int) :
    Dict.get (t.foldl (fun c (p : Int × PartitionData) => Dict.set c p.2 p.1) []) d = some i ↔
      Dict.get t i = some d := by
  have key : ∀ (l : Table Int PartitionData) (c : Dict PartitionData Int),
      (∀ j d, (j, d) ∈ l → ∀ k, (k, d) ∈ l → k = j) →
      (Dict.get (l.foldl (fun c (p : Int × PartitionData) => Dict.set c p.2 p.1) c) d = some i ↔
        (i, d) ∈ l ∨ ((∀ j, (j, d) ∉ l) ∧ Dict.get c d = some i)) := by
    intro l
    induction l with
    | nil => intro c _; simp
    | cons p l ih =>
      obtain ⟨a, b⟩ := p
      intro c hl
      rw [List.foldl_cons, ih _ (fun j d hj k hk =>
        hl j d (List.mem_cons_of_mem _ hj) k (List.mem_cons_of_mem _ hk))]
      simp only [Dict.get_set, List.mem_cons, Prod.mk.injEq, not_or]
      by_cases hb : b = d
      · subst hb
        simp only [and_true, if_true, Option.some.injEq]
        constructor
        · rintro (h | ⟨_, rfl⟩)
          · exact .inl (.inr h)
          · exact .inl (.inl rfl)
        · rintro ((rfl | h) | ⟨h, _⟩)
          · by_cases hm : ∃ j, (j, b) ∈ l
            · obtain ⟨j, hj⟩ := hm
              have := hl i b (by simp) j (List.mem_cons_of_mem _ hj)
              exact .inl (this ▸ hj)
            · exact .inr ⟨fun j hj => hm ⟨j, hj⟩, rfl⟩
          · exact .inl h
          · exact absurd rfl (h a).1
      · have hb' : ¬ d = b := fun e => hb e.symm
        simp [hb, hb']
  rw [key t [] ?_]
  · simp [Dict.get_eq_some_iff h.sorted.nodup]
  · intro j d hj k hk
    exact h.inj _ _ d (Dict.get_of_mem h.sorted.nodup hk) (Dict.get_of_mem h.sorted.nodup hj)

theorem initOk_start (t : Table Int PartitionData) (h : PartTableOk t) :
    InitOk t { cache := t.foldl (fun c (p : Int × PartitionData) => Dict.set c p.2 p.1) []
               next := (t.map Prod.fst).foldl max 0 + 1
               table := t
               result := [] } := by
  refine ⟨h, fun d i => cache_spec t h d i, ?_, fun i d hi => .inr hi, ?_, fun i d hi => hi, by simp,
    by simp⟩
  · intro i d hi
    have := (foldl_max_le (t.map Prod.fst) 0).2 i
      (List.mem_map_of_mem (f := Prod.fst) (Dict.mem_of_get hi))
    simp only; omega
  · have := (foldl_max_le (t.map Prod.fst) 0).1
    simp only; omega

theorem initPartition_ok {t : Table Int PartitionData} {s s' : InitPartitions} {p : Partition}
    (h : InitOk t s) (hs : initPartition s p = .ok s') :
    InitOk t s' ∧ (∃ i, Dict.get s'.result i = some p ∧ Dict.get s'.table i = some (partitionData p)) ∧
      (∀ i q, Dict.get s.result i = some q → ∃ q', Dict.get s'.result i = some q' ∧
        partitionData q' = partitionData q) := by
  unfold initPartition at hs
  simp only at hs
  cases hc : Dict.get s.cache (partitionData p) with
  | some i =>
    rw [hc] at hs
    simp only [pure_ok, Except.ok.injEq] at hs
    subst hs
    have hi := (h.cache _ _).1 hc
    refine ⟨⟨h.table, h.cache, h.next, h.pos, h.next1, h.keeps, Dict.nodup_keys_set h.resultNodup, ?_⟩,
      ⟨i, by simp, hi⟩, ?_⟩
    · intro j q hj
      simp only [Dict.get_set] at hj
      by_cases hij : i = j
      · subst hij; simp at hj; subst hj; exact hi
      · simp only [hij, if_false] at hj; exact h.result j q hj
    · intro j q hj
      simp only [Dict.get_set]
      by_cases hij : i = j
      · subst hij
        refine ⟨p, by simp, ?_⟩
        have h1 := h.result _ _ hj
        rw [hi] at h1; exact (Option.some.inj h1)
      · exact ⟨q, by simp [hij, hj], rfl⟩
  | none =>
    rw [hc] at hs
    simp only at hs
    obtain ⟨t', ht', hs⟩ := bind_ok hs
    simp only [pure_ok, Except.ok.injEq] at hs
    obtain ⟨ht, henc⟩ := Table.write_eq ht'
    simp only [List.foldl_cons, List.foldl_nil] at ht
    subst hs
    have hfresh : Dict.get s.table s.next = none := by
      cases hg : Dict.get s.table s.next with
      | none => rfl
      | some d => have := h.next _ _ hg; omega
    have hnew : ∀ i, Dict.get s.table i ≠ some (partitionData p) := by
      intro i hi
      rw [(h.cache _ _).2 hi] at hc; exact absurd hc (by simp)
    have hget : ∀ k, Dict.get t' k = if s.next = k then some (partitionData p) else Dict.get s.table k := by
      intro k; rw [ht, Table.get_put]
    refine ⟨⟨⟨ht ▸ Table.sorted_put _ _ h.table.sorted, ?_, ?_⟩, ?_, ?_, ?_, ?_, ?_, ?_, ?_⟩, ?_, ?_⟩
    · intro i j d hi hj
      simp only [hget] at hi hj
      by_cases h1 : s.next = i <;> by_cases h2 : s.next = j
      · omega
      · simp only [h1, if_true, Option.some.injEq] at hi
        simp only [h2, if_false] at hj
        subst hi; exact absurd hj (hnew j)
      · simp only [h2, if_true, Option.some.injEq] at hj
        simp only [h1, if_false] at hi
        subst hj; exact absurd hi (hnew i)
      · simp only [h1, h2, if_false] at hi hj
        exact h.table.inj _ _ _ hi hj
    · intro i d hi
      simp only [hget] at hi
      by_cases h1 : s.next = i
      · subst h1
        obtain ⟨⟨b, hb⟩, _⟩ := henc (s.next, partitionData p) (by simp)
        exact uintFields_in.1 (pack_ok hb).1
      · simp only [h1, if_false] at hi
        exact h.table.range _ _ hi
    · intro d i
      simp only [hget, Dict.get_set]
      by_cases h1 : partitionData p = d
      · subst h1
        simp only [if_true, Option.some.injEq]
        constructor
        · intro e; simp [e]
        · intro e
          by_contra h2
          simp only [h2, if_false] at e
          exact hnew i e
      · simp only [h1, if_false, h.cache]
        by_cases h2 : s.next = i
        · subst h2; simp [h1, hfresh]
        · simp [h2]
    · intro i d hi
      simp only [hget] at hi
      by_cases h1 : s.next = i
      · simp only; omega
      · simp only [h1, if_false] at hi
        have := h.next _ _ hi; simp only; omega
    · intro i d hi
      simp only [hget] at hi
      by_cases h1 : s.next = i
      · left; have := h.next1; omega
      · simp only [h1, if_false] at hi; exact h.pos _ _ hi
    · have := h.next1; simp only; omega
    · intro i d hi
      have hi' := h.keeps _ _ hi
      have : s.next ≠ i := by have := h.next _ _ hi'; omega
      simp [hget, this, hi']
    · exact Dict.nodup_keys_set h.resultNodup
    · intro j q hj
      simp only [Dict.get_set] at hj
      simp only [hget]
      by_cases hij : s.next = j
      · simp only [hij, if_true, Option.some.injEq] at hj ⊢; rw [hj]
      · simp only [hij, if_false] at hj ⊢; exact h.result j q hj
    · exact ⟨s.next, by simp, by simp [hget]⟩
    · intro j q hj
      have h1 := h.next _ _ (h.result _ _ hj)
      have : s.next ≠ j := by omega
      exact ⟨q, by simp [Dict.get_set, this, hj], rfl⟩

theorem initPartitions_ok {t : Table Int PartitionData} {ps : List Partition} {s : InitPartitions}
    (h : PartTableOk t) (hs : initPartitions t ps = .ok s) :
    InitOk t s ∧ ∀ p ∈ ps, ∃ i q, Dict.get s.result i = some q ∧ partitionData q = partitionData p := by
  have key : ∀ (ps : List Partition) (s0 s : InitPartitions), InitOk t s0 →
      ps.foldlM initPartition s0 = .ok s →
      InitOk t s ∧ (∀ p ∈ ps, ∃ i q, Dict.get s.result i = some q ∧ partitionData q = partitionData p) ∧
        (∀ i q, Dict.get s0.result i = some q → ∃ q', Dict.get s.result i = some q' ∧
          partitionData q' = partitionData q) := by
    intro ps
    induction ps with
    | nil =>
      intro s0 s h0 hs
      simp only [List.foldlM_nil, pure_ok, Except.ok.injEq] at hs
      subst hs
      exact ⟨h0, by simp, fun i q hq => ⟨q, hq, rfl⟩⟩
    | cons p ps ih =>
      intro s0 s h0 hs
      rw [List.foldlM_cons] at hs
      obtain ⟨s1, hs1, hs⟩ := bind_ok hs
      obtain ⟨h1, ⟨i, hi, _⟩, hk⟩ := initPartition_ok h0 hs1
      obtain ⟨h2, h3, h4⟩ := ih s1 s h1 hs
      refine ⟨h2, ?_, ?_⟩
      · intro q hq
        rcases List.mem_cons.1 hq with rfl | hq
        · obtain ⟨q', hq', he⟩ := h4 i _ hi
          exact ⟨i, q', hq', he⟩
        · exact h3 q hq
      · intro j q hq
        obtain ⟨q', hq', he⟩ := hk j q hq
        obtain ⟨q'', hq'', he'⟩ := h4 j q' hq'
        exact ⟨q'', hq'', he'.trans he⟩
  obtain ⟨h1, h2, _⟩ := key ps _ s (initOk_start t h) hs
  exact ⟨h1, h2⟩

/-- What a successful opening does. -/
theorem createDbs_ok {conf : Conf} {disk disk' : Disk} {m : Mem}
    (h : createDbs conf disk = .ok (disk', m)) :
    ∃ settings parts, validateSettings disk.settings backendVersion conf.identifier = .ok settings ∧
      initPartitions disk.tsPartition conf.partitions = .ok parts ∧
      disk' = { disk with settings := settings, tsPartition := parts.table } ∧
      m = { system := SystemDb.create disk
            latest := LatestDb.create conf disk
            timeseries := ⟨parts.result, []⟩
            ref := ⟨[], []⟩
            registered := [] } := by
  unfold createDbs at h
  obtain ⟨s, hs, h⟩ := bind_ok h
  obtain ⟨p, hp, h⟩ := bind_ok h
  simp only [pure_ok, Except.ok.injEq, Prod.mk.injEq] at h
  exact ⟨s, p, hs, hp, h.1.symm, h.2.symm⟩

end HatEvent

namespace HatEvent
open Spec

/-! ### Effects of the transactions on the tables -/

theorem extFlush_ok {d d' : Disk} {c : Changes} (h : extFlush d c = .ok d') :
    ∃ ids tss data types tsd counts ref,
      Table.write d.lastEventId c.system.lastEventIds = .ok ids ∧
      Table.write d.lastTimestamp c.system.lastTimestamps = .ok tss ∧
      Table.write d.latestData c.latest.data = .ok data ∧
      Table.write d.latestType c.latest.types = .ok types ∧
      Table.write d.tsData (timeseriesEntries c.timeseries) = .ok tsd ∧
      incCounts d.tsCount (c.timeseries.map fun p => (p.1, (p.2.length : Int))) = .ok counts ∧
      (c.ref.map Prod.snd).foldlM refWriteServer d.ref = .ok ref ∧
      d' = { settings := d.settings, lastEventId := ids, lastTimestamp := tss, ref := ref,
             latestData := data, latestType := types, tsData := tsd,
             tsPartition := d.tsPartition, tsCount := counts } := by
  unfold extFlush systemWrite latestWrite timeseriesWrite refWrite at h
  obtain ⟨d1, h1, h⟩ := bind_ok h
  obtain ⟨ids, hids, h1⟩ := bind_ok h1
  obtain ⟨tss, htss, h1⟩ := bind_ok h1
  simp only [pure_ok, Except.ok.injEq] at h1
  subst h1
  obtain ⟨d2, h2, h⟩ := bind_ok h
  obtain ⟨data, hdata, h2⟩ := bind_ok h2
  obtain ⟨types, htypes, h2⟩ := bind_ok h2
  simp only [pure_ok, Except.ok.injEq] at h2
  subst h2
  obtain ⟨d3, h3, h⟩ := bind_ok h
  obtain ⟨tsd, htsd, h3⟩ := bind_ok h3
  obtain ⟨counts, hcounts, h3⟩ := bind_ok h3
  simp only [pure_ok, Except.ok.injEq] at h3
  subst h3
  obtain ⟨ref, href, h⟩ := bind_ok h
  simp only [pure_ok, Except.ok.injEq] at h
  exact ⟨ids, tss, data, types, tsd, counts, ref, hids, htss, hdata, htypes, htsd, hcounts, href,
    h.symm⟩

theorem extCleanup_ok {fl : Rat → Rat} {se : Rat → Option Int} {now : Timestamp}
    {ps : Dict Int Partition} {d d' : Disk} {r : Bool} (h : extCleanup fl se now ps d = .ok (d', r)) :
    ∃ removed data counts,
      cleanupPartitions fl se now (some cleanupMaxResults) ps [] d.tsData d.tsCount =
        .ok (removed, data, counts) ∧
      ((removed = [] ∧ d' = d) ∨
        (removed ≠ [] ∧ ∃ ref, refCleanup d.ref removed = .ok ref ∧
          d' = { d with tsData := data, tsCount := counts, ref := ref })) := by
  unfold extCleanup at h
  obtain ⟨⟨removed, data, counts⟩, h1, h⟩ := bind_ok h
  refine ⟨removed, data, counts, h1, ?_⟩
  simp only at h
  by_cases hr : removed = []
  · rw [if_pos hr] at h
    simp only [pure_ok, Except.ok.injEq, Prod.mk.injEq] at h
    exact .inl ⟨hr, h.1.symm⟩
  · rw [if_neg hr] at h
    obtain ⟨ref, h2, h⟩ := bind_ok h
    simp only [pure_ok, Except.ok.injEq, Prod.mk.injEq] at h
    exact .inr ⟨hr, ref, h2, h.1.symm⟩

/-- The cases of `Backend.step`. -/
inductive StepTo (b : Backend) : BackendOp → Backend → Prop
  | closed {op : BackendOp} : b.mem = none → (∀ c, op ≠ .reopen c) → StepTo b op b
  | register {es : List Event} {m m' : Mem} : b.mem = some m → m.register b.conf es = .ok m' →
      StepTo b (.register es) { b with mem := some m' }
  | registerFail {es : List Event} {m : Mem} {e : PyErr} : b.mem = some m →
      m.register b.conf es = .error e → StepTo b (.register es) { b with mem := none }
  | touch {p : Int} {m : Mem} : b.mem = some m →
      StepTo b (.touch p) { b with mem := some { m with timeseries := { m.timeseries with
        changes := Dict.set m.timeseries.changes p ((Dict.get m.timeseries.changes p).getD []) } } }
  | flush {m : Mem} {d : Disk} : b.mem = some m → extFlush b.disk m.createChanges.1 = .ok d →
      StepTo b .flush ⟨d, b.conf, some { m.createChanges.2 with registered := [] },
        b.flushedCb ++ m.registered⟩
  | flushFail {m : Mem} {e : PyErr} : b.mem = some m →
      extFlush b.disk m.createChanges.1 = .error e → StepTo b .flush { b with mem := none }
  | cleanup {fl : Rat → Rat} {se : Rat → Option Int} {now : Timestamp} {m : Mem} {d : Disk}
      {r : Bool} : b.mem = some m → extCleanup fl se now m.timeseries.partitions b.disk = .ok (d, r) →
      StepTo b (.cleanup fl se now) { b with disk := d }
  | cleanupFail {fl : Rat → Rat} {se : Rat → Option Int} {now : Timestamp} {m : Mem} {e : PyErr} :
      b.mem = some m → extCleanup fl se now m.timeseries.partitions b.disk = .error e →
      StepTo b (.cleanup fl se now) { b with mem := none }
  | reopen {c : Conf} {d : Disk} {m : Mem} : createDbs c b.disk = .ok (d, m) →
      StepTo b (.reopen c) { b with disk := d, conf := c, mem := some m }
  | reopenFail {c : Conf} {e : PyErr} : createDbs c b.disk = .error e →
      StepTo b (.reopen c) { b with conf := c, mem := none }

theorem stepTo (b : Backend) (op : BackendOp) : StepTo b op (b.step op) := by
  obtain ⟨disk, conf, mem, cb⟩ := b
  cases op with
  | register es =>
    cases mem with
    | none => exact .closed rfl (by simp)
    | some m =>
      cases h : m.register conf es with
      | ok m' =>
        have := StepTo.register (b := ⟨disk, conf, some m, cb⟩) rfl h
        simpa [Backend.step, h] using this
      | error e =>
        have := StepTo.registerFail (b := ⟨disk, conf, some m, cb⟩) rfl h
        simpa [Backend.step, h] using this
  | touch p =>
    cases mem with
    | none => exact .closed rfl (by simp)
    | some m => exact .touch rfl
  | flush =>
    cases mem with
    | none => exact .closed rfl (by simp)
    | some m =>
      cases h : extFlush disk m.createChanges.1 with
      | ok d =>
        have := StepTo.flush (b := ⟨disk, conf, some m, cb⟩) rfl h
        simpa [Backend.step, h] using this
      | error e =>
        have := StepTo.flushFail (b := ⟨disk, conf, some m, cb⟩) rfl h
        simpa [Backend.step, h] using this
  | cleanup fl se now =>
    cases mem with
    | none => exact .closed rfl (by simp)
    | some m =>
      cases h : extCleanup fl se now m.timeseries.partitions disk with
      | ok r =>
        have := StepTo.cleanup (b := ⟨disk, conf, some m, cb⟩) (d := r.1) (r := r.2) rfl h
        simpa [Backend.step, h] using this
      | error e =>
        have := StepTo.cleanupFail (b := ⟨disk, conf, some m, cb⟩) rfl h
        simpa [Backend.step, h] using this
  | reopen c =>
    cases h : createDbs c disk with
    | ok r =>
      have := StepTo.reopen (b := ⟨disk, conf, mem, cb⟩) (d := r.1) (m := r.2) h
      simpa [Backend.step, h] using this
    | error e =>
      have := StepTo.reopenFail (b := ⟨disk, conf, mem, cb⟩) h
      simpa [Backend.step, h] using this

/-- Only opening changes settings and the partition table. -/
theorem step_settings (b : Backend) (op : BackendOp) :
    (∃ c, op = .reopen c) ∨ ((b.step op).disk.settings = b.disk.settings ∧
      (b.step op).disk.tsPartition = b.disk.tsPartition) := by
  have h := stepTo b op
  generalize b.step op = b' at h
  cases h with
  | flush _ h =>
    obtain ⟨_, _, _, _, _, _, _, _, _, _, _, _, _, _, rfl⟩ := extFlush_ok h
    exact .inr ⟨rfl, rfl⟩
  | cleanup _ h =>
    obtain ⟨_, _, _, _, ⟨_, rfl⟩ | ⟨_, _, _, rfl⟩⟩ := extCleanup_ok h <;> exact .inr ⟨rfl, rfl⟩
  | reopen _ => exact .inl ⟨_, rfl⟩
  | reopenFail _ => exact .inl ⟨_, rfl⟩
  | _ => exact .inr ⟨rfl, rfl⟩

/-- Registration of an event: the cases. -/
theorem registerEvent_partitions {c : Conf} {m m' : Mem} {e : Event}
    (h : registerEvent c m e = .ok m') : m'.timeseries.partitions = m.timeseries.partitions := by
  unfold registerEvent storeEvent at h
  split at h
  · cases h; rfl
  split at h
  · cases h; rfl
  split at h
  · cases h; rfl
  simp only at h
  split at h
  · cases h; rfl
  · obtain ⟨r, _, h⟩ := bind_ok h
    cases h; rfl

theorem register_partitions {c : Conf} {m m' : Mem} {es : List Event}
    (h : m.register c es = .ok m') : m'.timeseries.partitions = m.timeseries.partitions := by
  unfold Mem.register at h
  obtain ⟨m1, h1, h⟩ := bind_ok h
  cases h
  simp only
  have key : ∀ (es : List Event) (m m1 : Mem), es.foldlM (registerEvent c) m = .ok m1 →
      m1.timeseries.partitions = m.timeseries.partitions := by
    intro es
    induction es with
    | nil => intro m m1 h; simp only [List.foldlM_nil, pure_ok, Except.ok.injEq] at h; rw [h]
    | cons e es ih =>
      intro m m1 h
      rw [List.foldlM_cons] at h
      obtain ⟨m2, h2, h⟩ := bind_ok h
      rw [ih _ _ h, registerEvent_partitions h2]
  exact key es m m1 h1

end HatEvent
