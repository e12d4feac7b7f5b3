import Verif.Spec.Convert
import Verif.Props.Manager

/-! # Lemmas about database conversion -/

namespace HatEvent
open Spec

/-! ### Encodings -/

theorem enc_uint {v : Int} (h : U64 v) : ∃ b, Encodable.encode v = .ok b := pack_accepts.2 (uintFields_in.2 h)

theorem enc_id {i : EventId} (h : IdRange i) : ∃ b, Encodable.encode i = .ok b := pack_accepts.2 (idFields_in.2 h)

theorem enc_time {t : Timestamp} (h : TimeRange t) : ∃ b, Encodable.encode t = .ok b := pack_accepts.2 (timeFields_in.2 h)

theorem enc_key {k : TimeseriesKey} (h : KeyRange k) : ∃ b, Encodable.encode k = .ok b := by
  show ∃ b, encodeTimeseriesKey k = .ok b
  rw [encodeTimeseriesKey_eq]
  exact pack_accepts.2 (keyFields_in.2 h)

theorem enc_refs {l : List EventRef} (h : ∀ r ∈ l, RefRange r) : ∃ b, Encodable.encode l = .ok b :=
  encodeEventRefs_mem.2 fun r hr => encodeEventRef_accepts.2 (h r hr)

theorem enc_system {v : EventId × Timestamp} (h1 : IdRange v.1) (h2 : TimeRange v.2) : ∃ b, Encodable.encode v = .ok b := by
  obtain ⟨a, ha⟩ := enc_id h1
  obtain ⟨b, hb⟩ := enc_time h2
  refine ⟨a ++ b, ?_⟩
  show encodeSystem07 v = _
  unfold encodeSystem07
  rw [show encodeEventId v.1 = .ok a from ha, show timestampToBytes v.2 = .ok b from hb]
  rfl

theorem write_new {κ υ : Type} [DecidableEq κ] [DbKey κ] [LawfulKey κ] [Encodable υ] (l : Table κ υ) (hs : Table.Sorted l)
    (h : ∀ p ∈ l, (∃ b, Encodable.encode p.1 = .ok b) ∧ (∃ b, Encodable.encode p.2 = .ok b)) :
    Table.write [] l = .ok l := by
  rw [Table.write_ok _ _ h, puts_sorted l [] (by simpa using hs)]
  rfl

theorem write_last {κ υ : Type} [DecidableEq κ] [DbKey κ] [LawfulKey κ] [Encodable υ] (t : Table κ υ) (k : κ) (v : υ)
    (hs : ∀ p ∈ t, DbKey.lt p.1 k = true) (h1 : ∃ b, Encodable.encode k = .ok b) (h2 : ∃ b, Encodable.encode v = .ok b) :
    Table.write t [(k, v)] = .ok (t ++ [(k, v)]) := by
  rw [Table.write_ok t [(k, v)] (by simpa using ⟨h1, h2⟩)]
  simp only [List.foldl_cons, List.foldl_nil]
  rw [put_last t k v hs]

theorem sorted_map {κ υ ω : Type} [DbKey κ] (t : Table κ υ) (g : κ × υ → ω) (h : Table.Sorted t) :
    Table.Sorted (t.map fun p => (p.1, g p)) := List.pairwise_map.2 h

/-! ### From 0.7 to 0.9 -/

theorem samePayload (p : Option OldPayload) : SamePayload p (convertPayload07 p) := by
  rcases p with - | d | d | ⟨m, t, d⟩
  · exact .none
  · exact .binary d
  · exact .json d
  · cases m with
    | none => exact .sbs t d
    | some m => exact .sbsModule m t d

theorem sameEvent (e : Event07) : SameEvent e (convertEvent07 e) := ⟨rfl, rfl, rfl, rfl, samePayload _⟩

theorem forall₂_map {α β : Type} (l : List α) (g : α → β) (R : α → β → Prop) (h : ∀ a, R a (g a)) :
    List.Forall₂ R l (l.map g) := by
  induction l with
  | nil => exact .nil
  | cons a l ih => exact .cons (h a) ih

theorem convertPartitions_ok (l t : Table Int OldPartitionData) (u : Table Int PartitionData)
    (hs : Table.Sorted (t ++ l)) (ht : List.Forall₂ (fun a b => b.1 = a.1 ∧ SamePartition a.2 b.2) t u)
    (hr : ∀ p ∈ l, U64 p.1 ∧ (p.2.order = 1 ∨ p.2.order = 2)) :
    ∃ u', convertPartitions l u = .ok u' ∧ List.Forall₂ (fun a b => b.1 = a.1 ∧ SamePartition a.2 b.2) (t ++ l) u' := by
  induction l generalizing t u with
  | nil => exact ⟨u, rfl, by simpa using ht⟩
  | cons p l ih =>
    obtain ⟨k, d⟩ := p
    obtain ⟨h1, h2⟩ := hr (k, d) List.mem_cons_self
    obtain ⟨d', hd, hsame⟩ : ∃ d', convertPartitionData d = .ok d' ∧ SamePartition d d' := by
      unfold convertPartitionData
      rcases h2 with h2 | h2
      · have h2 : d.order = 1 := h2
        rw [if_pos h2]; exact ⟨_, rfl, rfl, .inl ⟨h2, rfl⟩⟩
      · have h2 : d.order = 2 := h2
        rw [if_neg (by omega), if_pos h2]; exact ⟨_, rfl, rfl, .inr ⟨h2, rfl⟩⟩
    have hlt : ∀ q ∈ u, DbKey.lt q.1 k = true := by
      intro q hq
      have : ∀ (a : Table Int OldPartitionData) (b : Table Int PartitionData),
          List.Forall₂ (fun a b => b.1 = a.1 ∧ SamePartition a.2 b.2) a b → ∀ q ∈ b, ∃ p ∈ a, q.1 = p.1 := by
        intro a b hab
        induction hab with
        | nil => simp
        | cons h _ ih =>
          intro q hq
          rcases List.mem_cons.1 hq with rfl | hq
          · exact ⟨_, List.mem_cons_self, h.1⟩
          · obtain ⟨p, hp, e⟩ := ih q hq
            exact ⟨p, List.mem_cons_of_mem _ hp, e⟩
      obtain ⟨p, hp, e⟩ := this t u ht q hq
      rw [e]
      exact (List.pairwise_append.1 hs).2.2 p hp (k, d) List.mem_cons_self
    have hw := write_last u k d' hlt (enc_uint h1) ⟨_, rfl⟩
    obtain ⟨u', h3, h4⟩ := ih (t ++ [(k, d)]) (u ++ [(k, d')]) (by simpa using hs)
      (List.rel_append ht (.cons ⟨rfl, hsame⟩ .nil)) fun p hp => hr p (List.mem_cons_of_mem _ hp)
    refine ⟨u', ?_, by simpa using h4⟩
    unfold convertPartitions
    rw [hd]
    show (do let t ← Table.write u [(k, d')]; convertPartitions l t) = _
    rw [hw]
    exact h3

theorem convert07_ok (f : File07) (h : File07Ok f) : ∃ d, convert07 f = .ok d ∧ Kept07 f d := by
  obtain ⟨u, hu, hp⟩ := convertPartitions_ok f.orderedPartition [] [] (by simpa using h.partition) .nil h.partitionRange
  have e1 := write_new (f.system.map fun p => (p.1, p.2.1)) (sorted_map f.system (fun p => p.2.1) h.system) (by
    intro p hp
    obtain ⟨q, hq, rfl⟩ := List.mem_map.1 hp
    exact ⟨enc_uint (h.systemRange q hq).1, enc_id (h.systemRange q hq).2.1⟩)
  have e2 := write_new (f.system.map fun p => (p.1, p.2.2)) (sorted_map f.system (fun p => p.2.2) h.system) (by
    intro p hp
    obtain ⟨q, hq, rfl⟩ := List.mem_map.1 hp
    exact ⟨enc_uint (h.systemRange q hq).1, enc_time (h.systemRange q hq).2.2⟩)
  have e3 := write_new f.ref h.ref fun p hp => ⟨enc_id (h.refRange p hp).1, enc_refs (h.refRange p hp).2⟩
  have e4 := write_new (f.latestData.map fun p => (p.1, convertEvent07 p.2))
    (sorted_map f.latestData (fun p => convertEvent07 p.2) h.latestData) (by
      intro p hp
      obtain ⟨q, hq, rfl⟩ := List.mem_map.1 hp
      exact ⟨enc_uint (h.latestDataRange q hq), _, rfl⟩)
  have e5 := write_new f.latestType h.latestType fun p hp => ⟨enc_uint (h.latestTypeRange p hp), _, rfl⟩
  have e6 := write_new (f.orderedData.map fun p => (p.1, convertEvent07 p.2))
    (sorted_map f.orderedData (fun p => convertEvent07 p.2) h.ordered) (by
      intro p hp
      obtain ⟨q, hq, rfl⟩ := List.mem_map.1 hp
      exact ⟨enc_key (h.orderedRange q hq), _, rfl⟩)
  have e7 := write_new f.orderedCount h.count fun p hp => ⟨enc_uint (h.countRange p hp).1, enc_uint (h.countRange p hp).2⟩
  refine ⟨⟨[(.version, "0.9")], f.system.map fun p => (p.1, p.2.1), f.system.map fun p => (p.1, p.2.2), f.ref,
    f.latestData.map fun p => (p.1, convertEvent07 p.2), f.latestType,
    f.orderedData.map fun p => (p.1, convertEvent07 p.2), u, f.orderedCount⟩, ?_, ?_⟩
  · unfold convert07
    rw [e1, e2, e3, e4, e5, e6, e7, hu]
    rfl
  · exact ⟨rfl, rfl, rfl, rfl, forall₂_map _ _ _ fun a => ⟨rfl, sameEvent _⟩, rfl, forall₂_map _ _ _ fun a => ⟨rfl, sameEvent _⟩,
      by simpa using hp, rfl⟩

/-! ### From 0.6 to 0.7 -/

/-- The references are those of the stored events. -/
structure RefInv (S : List (EventRef × Event07)) (R : Table EventId (List EventRef)) : Prop where
  sorted : Table.Sorted R
  nonempty : ∀ id refs, Dict.get R id = some refs → refs ≠ []
  range : ∀ id refs, Dict.get R id = some refs → IdRange id ∧ ∀ r ∈ refs, RefRange r
  has : ∀ id r, HasRef R id r ↔ ∃ e, (r, e) ∈ S ∧ e.id = id

theorem updateRef_ok {S : List (EventRef × Event07)} {R : Table EventId (List EventRef)} (h : RefInv S R) (e : Event07)
    (r : EventRef) (h1 : IdRange e.id) (h2 : RefRange r) :
    ∃ R', updateRef07 R e.id r = .ok R' ∧ RefInv (S ++ [(r, e)]) R' := by
  have hr : ∀ x ∈ setAdd ((Dict.get R e.id).getD []) r, RefRange x := by
    intro x hx
    rcases mem_setAdd.1 hx with hx | rfl
    · cases hg : Dict.get R e.id with
      | none => rw [hg] at hx; simp at hx
      | some refs => rw [hg] at hx; exact (h.range _ _ hg).2 x hx
    · exact h2
  refine ⟨R.put e.id (setAdd ((Dict.get R e.id).getD []) r), ?_, Table.sorted_put _ _ h.sorted, ?_, ?_, ?_⟩
  · unfold updateRef07
    rw [Table.write_ok R [(e.id, _)] (by simpa using ⟨enc_id h1, enc_refs hr⟩)]
    rfl
  · intro id refs hg
    rw [Table.get_put] at hg
    split at hg
    · cases hg
      intro he
      have : r ∈ setAdd ((Dict.get R e.id).getD []) r := mem_setAdd.2 (.inr rfl)
      rw [he] at this; cases this
    · exact h.nonempty id refs hg
  · intro id refs hg
    rw [Table.get_put] at hg
    split at hg
    · next he => cases hg; exact ⟨he ▸ h1, hr⟩
    · exact h.range id refs hg
  · intro id x
    have hh := h.has id x
    unfold HasRef
    rw [Table.get_put]
    by_cases hid : e.id = id
    · subst hid
      simp only [if_true, Option.some.injEq, exists_eq_left', mem_setAdd, hasRef_getD, hh, List.mem_append, List.mem_singleton,
        Prod.mk.injEq]
      constructor
      · rintro (⟨e', h3, h4⟩ | rfl)
        · exact ⟨e', .inl h3, h4⟩
        · exact ⟨e, .inr ⟨rfl, rfl⟩, rfl⟩
      · rintro ⟨e', h3 | ⟨rfl, rfl⟩, h4⟩
        · exact .inl ⟨e', h3, h4⟩
        · exact .inr rfl
    · rw [if_neg hid]
      show HasRef R id x ↔ _
      rw [hh]
      constructor
      · rintro ⟨e', h3, h4⟩; exact ⟨e', List.mem_append_left _ h3, h4⟩
      · rintro ⟨e', h3, h4⟩
        rcases List.mem_append.1 h3 with h3 | h3
        · exact ⟨e', h3, h4⟩
        · simp only [List.mem_singleton, Prod.mk.injEq] at h3
          rw [h3.2] at h4
          exact absurd h4 hid

/-- The converted latest events. -/
def latestEntries (server : Int) : List Event06 → Int → List (Int × Event07)
  | [], _ => []
  | e :: l, n => (n, convertEvent06 server e) :: latestEntries server l (n + 1)

theorem latestEntries_key (server : Int) (l : List Event06) (n : Int) :
    ∀ p ∈ latestEntries server l n, n ≤ p.1 ∧ p.1 < n + l.length := by
  induction l generalizing n with
  | nil => simp [latestEntries]
  | cons e l ih =>
    intro p hp
    rcases List.mem_cons.1 hp with rfl | hp
    · simp
    · have := ih (n + 1) p hp
      simp only [List.length_cons]
      omega

theorem latestEntries_sorted (server : Int) (l : List Event06) (n : Int) : Table.Sorted (latestEntries server l n) := by
  induction l generalizing n with
  | nil => exact .nil
  | cons e l ih =>
    refine List.pairwise_cons.2 ⟨fun p hp => ?_, ih (n + 1)⟩
    have := latestEntries_key server l (n + 1) p hp
    show decide (n < p.1) = true
    simp; omega

theorem latestEntries_map (server : Int) (l : List Event06) (n : Int) :
    (latestEntries server l n).map Prod.snd = l.map (convertEvent06 server) := by
  induction l generalizing n with
  | nil => rfl
  | cons e l ih => simp [latestEntries, ih]

theorem latestLoop_ok (server : Int) (l : List Event06) (n : Int) (lt : Option Event07) (f : File07)
    (S : List (EventRef × Event07)) (hi : RefInv S f.ref)
    (h1 : ∀ p ∈ f.latestData, p.1 < n) (h2 : ∀ p ∈ f.latestType, p.1 < n) (hn : 0 ≤ n) (hl : n + l.length < 2 ^ 64)
    (hr : ∀ e ∈ l, IdRange (convertEvent06 server e).id) :
    ∃ R, convertLatestLoop server l n lt f = .ok ((l.map (convertEvent06 server)).foldl laterEvent lt,
        { f with latestData := f.latestData ++ latestEntries server l n
                 latestType := f.latestType ++ (latestEntries server l n).map fun p => (p.1, p.2.type)
                 ref := R }) ∧
      RefInv (S ++ (latestEntries server l n).map fun p => (.latest p.1, p.2)) R := by
  induction l generalizing n lt f S with
  | nil => exact ⟨f.ref, by simp [convertLatestLoop, latestEntries], by simpa [latestEntries] using hi⟩
  | cons e l ih =>
    simp only [List.length_cons] at hl
    have hu : U64 n := ⟨hn, by push_cast at hl; omega⟩
    have hid := hr e List.mem_cons_self
    obtain ⟨R, hR, hi'⟩ := updateRef_ok hi (convertEvent06 server e) (.latest n) hid hu
    have e1 := write_last f.latestData n (convertEvent06 server e)
      (fun p hp => by simpa [DbKey.lt] using h1 p hp) (enc_uint hu) ⟨_, rfl⟩
    have e2 := write_last f.latestType n (convertEvent06 server e).type
      (fun p hp => by simpa [DbKey.lt] using h2 p hp) (enc_uint hu) ⟨_, rfl⟩
    obtain ⟨R', h3, h4⟩ := ih (n + 1) (laterEvent lt (convertEvent06 server e))
      { f with latestData := f.latestData ++ [(n, convertEvent06 server e)]
               latestType := f.latestType ++ [(n, (convertEvent06 server e).type)]
               ref := R } _ hi'
      (by
        intro p hp
        rcases List.mem_append.1 hp with hp | hp
        · have := h1 p hp; omega
        · simp only [List.mem_singleton] at hp; subst hp; simp)
      (by
        intro p hp
        rcases List.mem_append.1 hp with hp | hp
        · have := h2 p hp; omega
        · simp only [List.mem_singleton] at hp; subst hp; simp)
      (by omega) (by push_cast at hl; omega) fun e he => hr e (List.mem_cons_of_mem _ he)
    refine ⟨R', ?_, by simpa [latestEntries] using h4⟩
    unfold convertLatestLoop
    simp only [e1, e2, hR, ok_bind, List.map_cons, List.foldl_cons, latestEntries]
    rw [h3]
    simp

/-- The converted ordered events. -/
def orderedEntry (server : Int) (p : OrderedKey06 × Event06) : TimeseriesKey × Event07 :=
  (⟨p.1.partition, p.1.timestamp, (convertEvent06 server p.2).id⟩, convertEvent06 server p.2)

theorem orderedLoop_ok (server : Int) (l : List (OrderedKey06 × Event06)) (lt : Option Event07) (f : File07)
    (S : List (EventRef × Event07)) (hi : RefInv S f.ref) (hs : Table.Sorted (f.orderedData ++ l.map (orderedEntry server)))
    (hr : ∀ p ∈ l, KeyRange (orderedEntry server p).1) :
    ∃ R, convertOrderedLoop server l lt f = .ok ((l.map fun p => convertEvent06 server p.2).foldl laterEvent lt,
        { f with orderedData := f.orderedData ++ l.map (orderedEntry server), ref := R }) ∧
      RefInv (S ++ (l.map (orderedEntry server)).map fun p => (.timeseries p.1, p.2)) R := by
  induction l generalizing lt f S with
  | nil => exact ⟨f.ref, by simp [convertOrderedLoop], by simpa using hi⟩
  | cons p l ih =>
    obtain ⟨k, e⟩ := p
    have hk := hr (k, e) List.mem_cons_self
    obtain ⟨R, hR, hi'⟩ := updateRef_ok hi (convertEvent06 server e) (.timeseries (orderedEntry server (k, e)).1) hk.2.2 hk
    have e1 := write_last f.orderedData (orderedEntry server (k, e)).1 (convertEvent06 server e)
      (fun p hp => (List.pairwise_append.1 hs).2.2 p hp _ List.mem_cons_self) (enc_key hk) ⟨_, rfl⟩
    obtain ⟨R', h3, h4⟩ := ih (laterEvent lt (convertEvent06 server e))
      { f with orderedData := f.orderedData ++ [orderedEntry server (k, e)], ref := R } _ hi' (by simpa using hs)
      fun p hp => hr p (List.mem_cons_of_mem _ hp)
    refine ⟨R', ?_, by simpa [orderedEntry] using h4⟩
    unfold convertOrderedLoop
    simp only [orderedEntry] at e1 hR h3
    simp only [e1, hR, ok_bind, List.map_cons, List.foldl_cons]
    rw [h3]
    simp [orderedEntry]

theorem later_spec (l : List Event07) (lt : Option Event07) :
    (l.foldl laterEvent lt = none ↔ l = [] ∧ lt = none) ∧
    ∀ m, l.foldl laterEvent lt = some m → (m ∈ l ∨ lt = some m) ∧ (∀ e ∈ l, IdLe e.id m.id) ∧ ∀ e, lt = some e → IdLe e.id m.id := by
  induction l generalizing lt with
  | nil => exact ⟨by simp, fun m hm => ⟨.inr hm, by simp, fun e he => by
      rw [List.foldl_nil] at hm; rw [hm] at he; cases he; exact IdLe.refl⟩⟩
  | cons e l ih =>
    obtain ⟨h1, h2⟩ := ih (laterEvent lt e)
    have hx : ∃ x, laterEvent lt e = some x ∧ (x = e ∨ lt = some x) ∧ IdLe e.id x.id ∧ ∀ y, lt = some y → IdLe y.id x.id := by
      cases lt with
      | none => exact ⟨e, rfl, .inl rfl, IdLe.refl, by simp⟩
      | some y =>
        unfold laterEvent
        simp only
        split
        · next h => exact ⟨e, rfl, .inl rfl, IdLe.refl, fun z hz => by cases hz; exact .inl (EventId.lt_iff.1 h)⟩
        · next h =>
          exact ⟨y, rfl, .inr rfl, not_idLt.1 fun hh => h (EventId.lt_iff.2 hh), fun z hz => by cases hz; exact IdLe.refl⟩
    obtain ⟨x, hx1, hx2, hx3, hx4⟩ := hx
    refine ⟨?_, ?_⟩
    · rw [List.foldl_cons, h1, hx1]; simp
    · intro m hm
      obtain ⟨h3, h4, h5⟩ := h2 m hm
      have h6 := h5 x hx1
      refine ⟨?_, ?_, fun y hy => (hx4 y hy).trans h6⟩
      · rcases h3 with h3 | h3
        · exact .inl (List.mem_cons_of_mem _ h3)
        · rw [hx1] at h3; cases h3
          rcases hx2 with rfl | hx2
          · exact .inl List.mem_cons_self
          · exact .inr hx2
      · intro y hy
        rcases List.mem_cons.1 hy with rfl | hy
        · exact hx3.trans h6
        · exact h4 y hy

/-- The system database of the conversion. -/
structure SysInv (server : Int) (L : List Event07) (t : Table Int (EventId × Timestamp)) : Prop where
  shape : t = [] ∨ ∃ e ∈ L, t = [(server, (e.id, e.timestamp))]
  last : ∀ e ∈ L, IdLe e.id ⟨server, 0, 0⟩ ∨ ∃ v, (server, v) ∈ t ∧ IdLe e.id v.1

theorem updateSystem_ok {server : Int} {L : List Event07} {t : Table Int (EventId × Timestamp)} (h : SysInv server L t)
    (M : List Event07) (hs : U64 server) (hr : ∀ e ∈ M, IdRange e.id ∧ TimeRange e.timestamp) :
    ∃ t', updateSystemLatest t server (M.foldl laterEvent none) = .ok t' ∧ SysInv server (L ++ M) t' := by
  obtain ⟨h1, h2⟩ := later_spec M none
  cases hm : M.foldl laterEvent none with
  | none =>
    have := (h1.1 hm).1
    subst this
    exact ⟨t, rfl, by simpa using h⟩
  | some m =>
    obtain ⟨h3, h4, -⟩ := h2 m hm
    have h3 : m ∈ M := by rcases h3 with h3 | h3 <;> [exact h3; cases h3]
    have hput : ∃ b, Encodable.encode server = .ok b := enc_uint hs
    have hwr : Table.write t [(server, (m.id, m.timestamp))] = .ok [(server, (m.id, m.timestamp))] := by
      rw [Table.write_ok t [(server, (m.id, m.timestamp))] (by
        simpa using ⟨hput, enc_system (v := (m.id, m.timestamp)) (hr m h3).1 (hr m h3).2⟩)]
      rcases h.shape with rfl | ⟨e, -, rfl⟩
      · rfl
      · simp [Table.put]
    show ∃ t', updateSystem07 t server m = .ok t' ∧ _
    unfold updateSystem07
    obtain ⟨b, hb⟩ := hput
    rcases h.shape with hh | ⟨e, he, hh⟩
    · subst hh
      rw [show systemEventId [] server = ⟨server, 0, 0⟩ from rfl]
      by_cases hlt : EventId.lt ⟨server, 0, 0⟩ m.id = true
      · rw [if_pos hlt]
        refine ⟨_, hwr, .inr ⟨m, List.mem_append_right _ h3, rfl⟩, fun x hx => ?_⟩
        rcases List.mem_append.1 hx with hx | hx
        · rcases h.last x hx with h5 | ⟨v, h5, -⟩
          · exact .inl h5
          · cases h5
        · exact .inr ⟨_, List.mem_singleton.2 rfl, h4 x hx⟩
      · rw [if_neg hlt]
        refine ⟨[], by rw [show encodeUint server = .ok b from hb]; rfl, .inl rfl, fun x hx => .inl ?_⟩
        have hle := not_idLt.1 fun hh => hlt (EventId.lt_iff.2 hh)
        rcases List.mem_append.1 hx with hx | hx
        · rcases h.last x hx with h5 | ⟨v, h5, -⟩
          · exact h5
          · cases h5
        · exact (h4 x hx).trans hle
    · subst hh
      rw [show systemEventId [(server, (e.id, e.timestamp))] server = e.id by simp [systemEventId, Dict.get_cons]]
      by_cases hlt : e.id.lt m.id = true
      · rw [if_pos hlt]
        refine ⟨_, hwr, .inr ⟨m, List.mem_append_right _ h3, rfl⟩, fun x hx => ?_⟩
        rcases List.mem_append.1 hx with hx | hx
        · rcases h.last x hx with h5 | ⟨v, h5, h6⟩
          · exact .inl h5
          · simp only [List.mem_singleton, Prod.mk.injEq, true_and] at h5
            subst h5
            exact .inr ⟨_, List.mem_singleton.2 rfl, h6.trans (.inl (EventId.lt_iff.1 hlt))⟩
        · exact .inr ⟨_, List.mem_singleton.2 rfl, h4 x hx⟩
      · rw [if_neg hlt]
        have hle := not_idLt.1 fun hh => hlt (EventId.lt_iff.2 hh)
        refine ⟨_, by rw [show encodeUint server = .ok b from hb]; rfl, .inr ⟨e, List.mem_append_left _ he, rfl⟩, fun x hx => ?_⟩
        rcases List.mem_append.1 hx with hx | hx
        · exact h.last x hx
        · exact .inr ⟨_, List.mem_singleton.2 rfl, (h4 x hx).trans hle⟩

end HatEvent
