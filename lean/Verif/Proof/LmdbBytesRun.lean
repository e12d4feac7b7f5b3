import Verif.Proof.LmdbBytesOps
import Verif.Proof.LmdbReturned

/-! # Histories of the backend on bytes -/

namespace HatEvent
open Spec

/-! ### Cleanup -/

theorem exceptOk_bind {ε α β : Type} (a : α) (f : α → Except ε β) : (Except.ok a >>= f) = f a := rfl

theorem RelE.ite {α β : Type} {R : α → β → Prop} {c d : Prop} [Decidable c] [Decidable d] (h : c ↔ d)
    {a a' : Except PyErr α} {b b' : Except PyErr β} (h1 : RelE R a b) (h2 : RelE R a' b') :
    RelE R (if c then a else a') (if d then b else b') := by
  by_cases hc : c
  · rw [if_pos hc, if_pos (h.1 hc)]; exact h1
  · rw [if_neg hc, if_neg fun hd => hc (h.2 hd)]; exact h2

/-- The duration keys agree. -/
def DurRel (b : Option Bytes) (k : Option TimeseriesKey) : Prop :=
  match b, k with
  | none, none => True
  | some b, some k => encodeTimeseriesKey k = .ok b
  | _, _ => False

theorem withinDuration_eq {env : ByteEnv} (he : LawfulEnv env) {db : Option Bytes} {dk : Option TimeseriesKey}
    (h : DurRel db dk) {k : TimeseriesKey} {b : Bytes} (hk : encodeTimeseriesKey k = .ok b) :
    withinDurationB db b = withinDuration dk k := by
  cases db <;> cases dk
  · rfl
  · exact h.elim
  · exact h.elim
  · unfold withinDurationB withinDuration
    simp only
    rw [(lawful_tsData he).lt hk h]

theorem cleanupLoop_rel {env : ByteEnv} (he : LawfulEnv env) {mr : Option Int} {mn : Rat} {mx : Option Rat}
    {db : Option Bytes} {dk : Option TimeseriesKey} {sb : Bytes} {sk : TimeseriesKey} {n : Int} (hmn : 0 ≤ mn)
    (hd : DurRel db dk) (hs : encodeTimeseriesKey sk = .ok sb) {tb : ByteTable} {td : Table TimeseriesKey Event}
    (h : Enc (tsDataDef env) (GoodEvent env) tb td) (rc : Int) (hn : n ≤ rc + td.length) :
    ∃ l, cleanupLoopB env mr mn mx db sb n rc tb = .ok l ∧ l.map Prod.snd = cleanupLoop mr mn mx dk sk n rc td ∧
      ∀ x ∈ l, encodeTimeseriesKey x.2 = .ok x.1 := by
  induction h generalizing rc with
  | nil =>
    refine ⟨[], ?_, rfl, by simp⟩
    rw [cleanupLoopB]
    split
    · rfl
    · have h1 : ((n - rc : Int) : Rat) ≤ mn := by
        have : n - rc ≤ 0 := by simp at hn; omega
        exact le_trans (by exact_mod_cast this) hmn
      have h2 : cleanupStops mr mn mx db sb n rc [] = true := by
        unfold cleanupStops
        simp only [Bool.or_eq_true]
        exact .inl (.inl (.inr (by simpa using h1)))
      rw [if_pos h2]
  | @cons x y tb td hxy ht ih =>
    obtain ⟨x1, x2⟩ := x
    obtain ⟨y1, y2⟩ := y
    have hk : encodeTimeseriesKey y1 = .ok x1 := hxy.1
    rw [cleanupLoopB, cleanupLoop]
    have h1 : cleanupStops mr mn mx db sb n rc x1 = (resultsReached mr rc ||
        decide (((n - rc : Int) : Rat) ≤ mn) || !DbKey.lt y1 sk ||
        (withinMaxEntries mx ((n - rc : Int) : Rat) && withinDuration dk y1)) := by
      unfold cleanupStops
      rw [(lawful_tsData he).lt hk hs, withinDuration_eq he hd hk]
    rw [h1]
    by_cases c1 : resultsReached mr rc = true
    · refine ⟨[], ?_, ?_, by simp⟩
      · simp [c1]
      · simp [c1]
    by_cases c2 : ((n - rc : Int) : Rat) ≤ mn
    · refine ⟨[], ?_, ?_, by simp⟩
      · rw [if_pos (by simp only [decide_eq_true c2, Bool.or_true, Bool.true_or])]
      · rw [if_neg c1, if_pos c2]; rfl
    by_cases c3 : (!DbKey.lt y1 sk) = true
    · refine ⟨[], ?_, ?_, by simp⟩
      · rw [if_pos (by simp only [c3, Bool.or_true, Bool.true_or])]
      · rw [if_neg c1, if_neg c2, if_pos c3]; rfl
    by_cases c4 : (withinMaxEntries mx ((n - rc : Int) : Rat) && withinDuration dk y1) = true
    · refine ⟨[], ?_, ?_, by simp⟩
      · rw [if_pos (by simp only [c4, Bool.or_true])]
      · rw [if_neg c1, if_neg c2, if_neg c3, if_pos c4]; rfl
    obtain ⟨l, h2, h3, h4⟩ := ih (rc + 1) (by rw [List.length_cons] at hn; push_cast at hn; omega)
    refine ⟨(x1, y1) :: l, ?_, ?_, ?_⟩
    · rw [if_neg (by
        simp only [Bool.or_eq_true, not_or]
        exact ⟨⟨⟨c1, by simpa using c2⟩, c3⟩, c4⟩)]
      rw [(lawful_tsData he).readKey hk, h2]
      rfl
    · rw [if_neg c1, if_neg c2, if_neg c3, if_neg c4, ← h3]; rfl
    · intro z hz
      rcases List.mem_cons.1 hz with rfl | hz
      · exact hk
      · exact h4 z hz

theorem enc_dels {env : ByteEnv} (he : LawfulEnv env) (l : List (Bytes × TimeseriesKey))
    (hl : ∀ x ∈ l, encodeTimeseriesKey x.2 = .ok x.1) {tb : ByteTable} {td : Table TimeseriesKey Event}
    (h : Enc (tsDataDef env) (GoodEvent env) tb td) :
    Enc (tsDataDef env) (GoodEvent env) ((l.map Prod.fst).foldl Dict.del tb) ((l.map Prod.snd).foldl Dict.del td) := by
  induction l generalizing tb td with
  | nil => exact h
  | cons x l ih =>
    exact ih (fun y hy => hl y (by simp [hy])) (enc_del (lawful_tsData he) h (hl x (by simp)))

theorem limitDurationKey_rel {env : ByteEnv} (he : LawfulEnv env) (fl : Rat → Rat) (now : Timestamp) (p : Int)
    (limit : Limit) : RelE DurRel (limitDurationKeyB env fl now p limit) (limitDurationKey fl now p limit) := by
  unfold limitDurationKeyB limitDurationKey
  cases limit.duration with
  | none => trivial
  | some x =>
    have := encodeKey_rel (lawful_tsData he) ⟨p, now.add fl (-x), ⟨0, 0, 0⟩⟩
    simp only
    have hk : (tsDataDef env).encodeKey ⟨p, now.add fl (-x), ⟨0, 0, 0⟩⟩ =
        encodeTimeseriesKey ⟨p, now.add fl (-x), ⟨0, 0, 0⟩⟩ := rfl
    rw [hk]
    cases h : encodeTimeseriesKey ⟨p, now.add fl (-x), ⟨0, 0, 0⟩⟩ with
    | error e => exact rfl
    | ok b => exact h

theorem encodeUint_of_key {k : TimeseriesKey} {b : Bytes} (h : encodeTimeseriesKey k = .ok b) :
    ∃ c, encodeUint k.partition = .ok c := by
  unfold encodeTimeseriesKey at h
  obtain ⟨c, hc, _⟩ := bind_ok h
  exact ⟨c, hc⟩

theorem cleanupPartition_rel {env : ByteEnv} (he : LawfulEnv env) {fl : Rat → Rat} {se : Rat → Option Int}
    {now : Timestamp} {p : Int} {limit : Limit} (hm : ∀ n, limit.minEntries = some n → 0 ≤ n) {mr : Option Int}
    {data : Table TimeseriesKey Event} {counts : Table Int Int} {dataB countsB : ByteTable}
    (hs : Table.Sorted data) (hr : ∀ x ∈ data, KeyRange x.1)
    (hc : (Dict.get counts p).getD 0 = (entriesOf data p).length)
    (hd : Enc (tsDataDef env) (GoodEvent env) dataB data) (hct : Enc tsCountDef (fun _ => True) countsB counts) :
    RelE (fun a b => a.1 = b.1 ∧ Enc (tsDataDef env) (GoodEvent env) a.2.1 b.2.1 ∧
        Enc tsCountDef (fun _ => True) a.2.2 b.2.2)
      (cleanupPartitionB env fl se now p limit mr dataB countsB)
      (cleanupPartition fl se now p limit mr data counts) := by
  unfold cleanupPartitionB cleanupPartition
  refine RelE.bind (encodeKey_rel (lawful_tsData he) ⟨p, minTimestamp, ⟨0, 0, 0⟩⟩) fun sb _ hsb => ?_
  refine RelE.bind (encodeKey_rel (lawful_tsData he) ⟨p + 1, minTimestamp, ⟨0, 0, 0⟩⟩) fun tb _ htb => ?_
  refine RelE.bind (limitDurationKey_rel he fl now p limit) fun db dk hdk => ?_
  obtain ⟨pb, hpb⟩ := encodeUint_of_key (k := ⟨p, minTimestamp, ⟨0, 0, 0⟩⟩) hsb
  have hcount : getPartitionCountB countsB p = .ok ((Dict.get counts p).getD 0) := by
    unfold getPartitionCountB
    show (encodeUint p >>= _) = _
    rw [hpb]
    show (tsCountDef.decodeFound (Dict.get countsB pb) >>= _) = _
    rw [enc_get lawful_tsCount nonEmpty_tsCount hct hpb]
    rfl
  rw [hcount]
  have hmn : (0 : Rat) ≤ limit.minEntries.getD 0 := by
    cases h : limit.minEntries with
    | none => exact le_refl _
    | some n => exact hm n h
  have hfrom : (Dict.get counts p).getD 0 ≤
      0 + ((Table.fromKey data (⟨p, minTimestamp, ⟨0, 0, 0⟩⟩ : TimeseriesKey)).length : Int) := by
    rw [hc, Table.fromKey_eq hs, zero_add]
    unfold entriesOf
    rw [← List.countP_eq_length_filter, ← List.countP_eq_length_filter]
    refine Int.ofNat_le.2 (List.countP_mono_left fun x hx hp => ?_)
    have hxp : x.1.partition = p := by simpa using hp
    have : ¬ KeyLt x.1 ⟨p, minTimestamp, ⟨0, 0, 0⟩⟩ := by
      rw [not_lt_startKey (hr x hx)]; omega
    rw [← tsKey_lt] at this
    simpa using this
  obtain ⟨l, h1, h2, h3⟩ := cleanupLoop_rel he (mr := mr) (mx := limitMaxEntries se limit) hmn hdk htb
    (enc_fromKey (lawful_tsData he) hd hsb) 0 hfrom
  show RelE _ ((cleanupLoopB env mr (limit.minEntries.getD 0) (limitMaxEntries se limit) db tb
    ((Dict.get counts p).getD 0) 0 (Table.fromKey dataB sb)) >>= _) _
  rw [h1, exceptOk_bind]
  simp only [← h2]
  have hnil : (l.map Prod.snd = []) = (l = []) := by simp
  simp only [hnil, List.length_map]
  refine RelE.bind (enc_write lawful_tsCount _ (fun _ _ => trivial) hct) fun a b hab => ?_
  exact ⟨rfl, enc_dels he l h3 hd, hab⟩

theorem cleanupPartitions_rel {env : ByteEnv} (he : LawfulEnv env) {fl : Rat → Rat} {se : Rat → Option Int}
    {now : Timestamp} {mr : Option Int} (parts : List (Int × Partition))
    (hm : ∀ x ∈ parts, ∀ limit, x.2.limit = some limit → ∀ n, limit.minEntries = some n → 0 ≤ n)
    (result : List TimeseriesKey) {data : Table TimeseriesKey Event} {counts : Table Int Int}
    {dataB countsB : ByteTable} (hs : Table.Sorted data) (hr : ∀ x ∈ data, KeyRange x.1)
    (hc : ∀ q, (Dict.get counts q).getD 0 = ((entriesOf data q).length : Int))
    (hd : Enc (tsDataDef env) (GoodEvent env) dataB data) (hct : Enc tsCountDef (fun _ => True) countsB counts) :
    RelE (fun a b => a.1 = b.1 ∧ Enc (tsDataDef env) (GoodEvent env) a.2.1 b.2.1 ∧
        Enc tsCountDef (fun _ => True) a.2.2 b.2.2)
      (cleanupPartitionsB env fl se now mr parts result dataB countsB)
      (cleanupPartitions fl se now mr parts result data counts) := by
  induction parts generalizing result data counts dataB countsB with
  | nil => exact ⟨rfl, hd, hct⟩
  | cons x parts ih =>
    obtain ⟨p, part⟩ := x
    have ih' := fun result {data counts dataB countsB} hs hr hc hd hct =>
      ih (fun y hy => hm y (by simp [hy])) result (data := data) (counts := counts) (dataB := dataB)
        (countsB := countsB) hs hr hc hd hct
    rw [cleanupPartitionsB, cleanupPartitions]
    cases hl : part.limit with
    | none => exact ih' result hs hr hc hd hct
    | some limit =>
      refine RelE.ite Iff.rfl ?_ ?_
      · exact ⟨rfl, hd, hct⟩
      · have h1 := cleanupPartition_rel he (fl := fl) (se := se) (now := now) (p := p) (limit := limit)
          (hm (p, part) (by simp) limit hl) (mr := mr.map fun n => n - (result.length : Int)) hs hr (hc p) hd hct
        cases hb : cleanupPartitionB env fl se now p limit (mr.map fun n => n - (result.length : Int)) dataB countsB with
        | error e =>
          rw [hb] at h1
          cases ha : cleanupPartition fl se now p limit (mr.map fun n => n - (result.length : Int)) data counts with
          | error f => rw [ha] at h1; cases h1; exact rfl
          | ok r => rw [ha] at h1; exact h1.elim
        | ok rb =>
          rw [hb] at h1
          cases ha : cleanupPartition fl se now p limit (mr.map fun n => n - (result.length : Int)) data counts with
          | error f => rw [ha] at h1; exact h1.elim
          | ok r =>
            rw [ha] at h1
            obtain ⟨rmB, d1B, c1B⟩ := rb
            obtain ⟨rm, d1, c1⟩ := r
            obtain ⟨rfl, h2, h3⟩ : rmB = rm ∧ Enc (tsDataDef env) (GoodEvent env) d1B d1 ∧
              Enc tsCountDef (fun _ => True) c1B c1 := h1
            obtain ⟨old, rest, a1, a2, a3, a4, a5, a6, a7, a8, a9⟩ := cleanupPartition_spec hs hr (hc p) ha
            have hrmsub : ∀ k ∈ rmB, k ∈ data.map Prod.fst := by
              intro k hk; rw [a2] at hk
              obtain ⟨x, hx, rfl⟩ := List.mem_map.1 hk
              have : x ∈ entriesOf data p := by rw [a1.split]; simp [hx]
              exact List.mem_map_of_mem (List.mem_filter.1 this).1
            have hrmnd : rmB.Nodup := by
              rw [a2]
              have h' : ((entriesOf data p).map Prod.fst).Nodup := (Table.Sorted.nodup hs).sublist
                (List.Sublist.map Prod.fst (show List.Sublist (entriesOf data p) data from List.filter_sublist))
              rw [a1.split, List.map_append] at h'
              exact (List.nodup_append.1 h').1
            exact ih' (result ++ rmB) (by rw [a3]; exact List.Pairwise.filter _ hs)
              (fun x hx => by rw [a3] at hx; exact hr x (List.mem_filter.1 hx).1)
              (fun q => by rw [a8, hc, a3, entriesOf_filter_length data hs rmB hrmnd hrmsub]) h2 h3

theorem del_of_get_none {κ υ : Type} [DecidableEq κ] {t : Dict κ υ} {k : κ} (h : Dict.get t k = none) :
    Dict.del t k = t := by
  induction t with
  | nil => rfl
  | cons p t ih =>
    obtain ⟨k', v⟩ := p
    rw [Dict.get] at h
    split at h
    · cases h
    · next hne => rw [Dict.del, if_neg hne, ih h]

theorem refCleanup_rel (l : List TimeseriesKey) {tb : ByteTable} {td : Table EventId (List EventRef)}
    (h : Enc refDef GoodRefs tb td) : RelE (Enc refDef GoodRefs) (refCleanupB tb l) (refCleanup td l) := by
  induction l generalizing tb td with
  | nil => exact h
  | cons key l ih =>
    rw [refCleanupB, refCleanup]
    refine RelE.bind (encodeKey_rel lawful_ref key.id) fun b _ hb => ?_
    rw [enc_get lawful_ref nonEmpty_ref h hb]
    have hdel := enc_del lawful_ref h hb
    show RelE _ (match Dict.get td key.id with | none => _ | some value => _) _
    cases hg : Dict.get td key.id with
    | none =>
      rw [del_of_get_none hg] at hdel
      exact ih hdel
    | some value =>
      simp only
      split
      · exact ih hdel
      · next hn =>
        refine RelE.bind (encodeValue_rel lawful_ref _) fun w _ hw => ?_
        exact ih (enc_put lawful_ref hdel hb hw ⟨(enc_good h hg).1.filter _, hn⟩)

theorem extCleanup_rel {env : ByteEnv} (he : LawfulEnv env) {fl : Rat → Rat} {se : Rat → Option Int}
    {now : Timestamp} {parts : Dict Int Partition}
    (hm : ∀ x ∈ parts, ∀ limit, x.2.limit = some limit → ∀ n, limit.minEntries = some n → 0 ≤ n)
    {bd : ByteDisk} {d : Disk} (h : DiskEnc env bd d) (hs : Table.Sorted d.tsData)
    (hr : ∀ x ∈ d.tsData, KeyRange x.1)
    (hc : ∀ q, (Dict.get d.tsCount q).getD 0 = ((entriesOf d.tsData q).length : Int)) :
    RelE (fun a b => DiskEnc env a.1 b.1 ∧ a.2 = b.2) (extCleanupB env fl se now parts bd)
      (extCleanup fl se now parts d) := by
  unfold extCleanupB extCleanup
  refine RelE.bind (cleanupPartitions_rel he parts hm [] hs hr hc h.tsData h.tsCount) fun a b hab => ?_
  obtain ⟨ra, da, ca⟩ := a
  obtain ⟨rb, db, cb⟩ := b
  obtain ⟨rfl, h1, h2⟩ : ra = rb ∧ Enc (tsDataDef env) (GoodEvent env) da db ∧ Enc tsCountDef (fun _ => True) ca cb := hab
  simp only
  split
  · exact ⟨h, rfl⟩
  · refine RelE.bind (refCleanup_rel ra h.ref) fun x y hxy => ?_
    exact ⟨{ h with ref := hxy, tsData := h1, tsCount := h2 }, rfl⟩

/-! ### Pending changes -/

/-- The changes that wait to be written. -/
def Mem.pending (m : Mem) : Changes := ⟨m.system.changes, m.latest.changes, m.timeseries.changes, m.ref.changes⟩

theorem mem_of_mem_del {κ υ : Type} [DecidableEq κ] {d : Dict κ υ} {k : κ} {p : κ × υ} (h : p ∈ Dict.del d k) :
    p ∈ d := by
  induction d with
  | nil => simp [Dict.del] at h
  | cons q d ih =>
    rw [Dict.del] at h
    split at h
    · exact List.mem_cons_of_mem _ (ih h)
    · rcases List.mem_cons.1 h with rfl | h
      · simp
      · exact List.mem_cons_of_mem _ (ih h)

theorem latestAdd_good {env : ByteEnv} {conf : Conf} {db : LatestDb} (h : ∀ p ∈ db.changes.data, GoodEvent env p.2)
    {e : Event} (he : GoodEvent env e) : ∀ p ∈ (db.add conf e).1.changes.data, GoodEvent env p.2 := by
  have hr : (db.typeRef e.type).2.changes.data = db.changes.data := by
    unfold LatestDb.typeRef; split <;> rfl
  unfold LatestDb.add
  split
  · exact h
  · simp only
    split
    · exact h
    · intro p hp
      simp only [hr] at hp
      rcases Dict.mem_set hp with rfl | hp
      · exact he
      · exact h p hp

theorem timeseriesAdd_good {env : ByteEnv} {e : Event} (he : GoodEvent env e) (l : List (Int × Partition))
    {c : TimeseriesChanges} (h : ∀ p ∈ c, ∀ q ∈ p.2, GoodEvent env q.2) :
    ∀ p ∈ (timeseriesAdd e l c).1, ∀ q ∈ p.2, GoodEvent env q.2 := by
  induction l generalizing c with
  | nil => exact h
  | cons x l ih =>
    obtain ⟨i, part⟩ := x
    rw [timeseriesAdd]
    split
    · exact ih h
    · refine ih fun p hp q hq => ?_
      rcases Dict.mem_set hp with rfl | hp
      · rcases List.mem_append.1 hq with hq | hq
        · cases hg : Dict.get c i with
          | none => simp [hg] at hq
          | some v => rw [hg] at hq; exact h _ (Dict.mem_of_get hg) q hq
        · simp only [List.mem_singleton] at hq; subst hq; exact he
      · exact h p hp q hq

/-- References waiting to be added. -/
def AddedNodup (c : RefChanges) : Prop := ∀ s ∈ c, ∀ p ∈ s.2.added, p.2.2.Nodup

theorem AddedNodup.getD {c : RefChanges} (h : AddedNodup c) (s : Int) :
    ∀ p ∈ ((Dict.get c s).getD .empty).added, p.2.2.Nodup := by
  cases hg : Dict.get c s with
  | none => simp [ServerChanges.empty]
  | some sc => exact h _ (Dict.mem_of_get hg)

theorem ite_error_ok {ε α : Type} {c : Prop} [Decidable c] {x : ε} {a b : α}
    (h : (if c then Except.error x else .ok a) = .ok b) : a = b := by
  by_cases hc : c
  · rw [if_pos hc] at h; cases h
  · rw [if_neg hc] at h; cases h; rfl

theorem refAdd_nodup {db db' : RefDb} (h : AddedNodup db.changes) {e : Event} {refs : List EventRef}
    (hr : db.add e refs = .ok db') : AddedNodup db'.changes := by
  unfold RefDb.add at hr
  have hd := ite_error_ok hr
  subst hd
  intro s hs p hp
  rcases Dict.mem_set hs with rfl | hs
  · rcases Dict.mem_set hp with rfl | hp
    · exact nodup_toSet _
    · exact h.getD _ p hp
  · exact h s hs p hp

theorem refRemove_nodup {db : RefDb} (h : AddedNodup db.changes) (o : Option (EventId × EventRef)) :
    AddedNodup (db.removeRef o).changes := by
  cases o with
  | none => exact h
  | some x =>
    obtain ⟨i, r⟩ := x
    intro s hs p hp
    rcases Dict.mem_set hs with rfl | hs
    · have h' := h.getD i.server
      generalize (Dict.get db.changes i.server).getD .empty = sc at hp h'
      unfold ServerChanges.remove at hp
      cases hg : Dict.get sc.added i with
      | none => simp only [hg] at hp; exact h' p hp
      | some v =>
        obtain ⟨e, refs⟩ := v
        have hn : refs.Nodup := h' _ (Dict.mem_of_get hg)
        simp only [hg] at hp
        split at hp
        · split at hp
          · exact h' p (mem_of_mem_del hp)
          · rcases Dict.mem_set hp with rfl | hp
            · exact hn.filter _
            · exact h' p hp
        · exact h' p hp
    · exact h s hs p hp

theorem registerEvent_good {env : ByteEnv} {conf : Conf} {m m' : Mem} (h : GoodChanges env m.pending) {e : Event}
    (he : GoodEvent env e) (hm : registerEvent conf m e = .ok m') : GoodChanges env m'.pending := by
  unfold registerEvent at hm
  split at hm
  · cases hm; exact h
  split at hm
  · cases hm; exact h
  split at hm
  · cases hm; exact h
  have h1 := latestAdd_good (conf := conf) h.latest he
  have h2 : ∀ p ∈ (m.timeseries.add conf e).1.changes, ∀ q ∈ p.2, GoodEvent env q.2 :=
    timeseriesAdd_good he _ h.timeseries
  have h3 : AddedNodup (m.ref.removeRef (m.latest.add conf e).2.removedRef).changes := refRemove_nodup h.ref _
  unfold storeEvent at hm
  simp only at hm
  split at hm
  · cases hm; exact ⟨h1, h2, h3⟩
  · obtain ⟨ref, hr, hm⟩ := bind_ok hm
    cases hm
    exact ⟨h1, h2, refAdd_nodup h3 hr⟩

theorem register_good {env : ByteEnv} {conf : Conf} {m m' : Mem} (h : GoodChanges env m.pending) {es : List Event}
    (he : ∀ e ∈ es, GoodEvent env e) (hm : m.register conf es = .ok m') : GoodChanges env m'.pending := by
  unfold Mem.register at hm
  obtain ⟨m1, h1, hm⟩ := bind_ok hm
  cases hm
  show GoodChanges env m1.pending
  clear * - h he h1
  induction es generalizing m with
  | nil => cases h1; exact h
  | cons e es ih =>
    rw [List.foldlM_cons] at h1
    obtain ⟨m2, h2, h1⟩ := bind_ok h1
    exact ih (registerEvent_good h (he e (by simp)) h2) (fun x hx => he x (by simp [hx])) h1

theorem goodChanges_empty {env : ByteEnv} (s : SystemChanges) (t : LatestChanges) (h : t.data = []) :
    GoodChanges env ⟨s, t, [], []⟩ := by
  constructor <;> simp [h]

/-! ### Histories -/

/-- The backend on bytes does what the backend on entries does. -/
structure SameRun (env : ByteEnv) (bb : ByteBackend) (b : Backend) : Prop where
  disk : DiskEnc env bb.disk b.disk
  conf : bb.conf = b.conf
  mem : bb.mem = b.mem
  flushedCb : bb.flushedCb = b.flushedCb
  good : ∀ m, b.mem = some m → GoodChanges env m.pending

theorem sameRun_step {env : ByteEnv} (he : LawfulEnv env) {bb : ByteBackend} {b : Backend} (h : SameRun env bb b)
    {op : BackendOp} (hr : ∀ events, op = .register events → ∀ e ∈ events, GoodEvent env e)
    (hp : ∀ fl se now, op = .cleanup fl se now → ∀ m, b.mem = some m → ∀ x ∈ m.timeseries.partitions, ∀ limit, x.2.limit = some limit →
      ∀ n, limit.minEntries = some n → 0 ≤ n)
    (hs : Table.Sorted b.disk.tsData) (hrange : ∀ x ∈ b.disk.tsData, KeyRange x.1)
    (hc : ∀ q, (Dict.get b.disk.tsCount q).getD 0 = ((entriesOf b.disk.tsData q).length : Int)) :
    SameRun env (bb.step env op) (b.step op) := by
  obtain ⟨bdisk, bconf, bmem, bcb⟩ := bb
  obtain ⟨disk, conf, mem, cb⟩ := b
  obtain ⟨h1, h2, h3, h4, h5⟩ := h
  simp only at h1 h2 h3 h4 h5 hp hs hrange hc
  subst h2 h3 h4
  cases op with
  | register events =>
    cases bmem with
    | none => exact ⟨h1, rfl, rfl, rfl, by simp [Backend.step]⟩
    | some m =>
      cases hm : m.register bconf events with
      | error e =>
        simp only [ByteBackend.step, Backend.step, hm]
        exact ⟨h1, rfl, rfl, rfl, by simp⟩
      | ok m' =>
        simp only [ByteBackend.step, Backend.step, hm]
        refine ⟨h1, rfl, rfl, rfl, fun m2 hm2 => ?_⟩
        cases hm2
        exact register_good (h5 m rfl) (hr events rfl) hm
  | touch p =>
    cases bmem with
    | none => exact ⟨h1, rfl, rfl, rfl, by simp [Backend.step]⟩
    | some m =>
      refine ⟨h1, rfl, rfl, rfl, fun m2 hm2 => ?_⟩
      cases hm2
      have h6 := h5 m rfl
      refine ⟨h6.latest, fun x hx q hq => ?_, h6.ref⟩
      rcases Dict.mem_set hx with rfl | hx
      · cases hg : Dict.get m.timeseries.changes p with
        | none => simp [hg] at hq
        | some v => simp only [hg] at hq; exact h6.timeseries _ (Dict.mem_of_get hg) q hq
      · exact h6.timeseries x hx q hq
  | flush =>
    cases bmem with
    | none => exact ⟨h1, rfl, rfl, rfl, by simp [Backend.step]⟩
    | some m =>
      have hf := extFlush_rel he h1 (c := m.createChanges.1) (h5 m rfl)
      simp only [ByteBackend.step, Backend.step]
      cases ha : extFlushB env bdisk m.createChanges.1 with
      | error e =>
        cases hb : extFlush disk m.createChanges.1 with
        | error f => exact ⟨h1, rfl, rfl, rfl, by simp⟩
        | ok d => rw [ha, hb] at hf; exact hf.elim
      | ok bd =>
        cases hb : extFlush disk m.createChanges.1 with
        | error f => rw [ha, hb] at hf; exact hf.elim
        | ok d =>
          rw [ha, hb] at hf
          refine ⟨hf, rfl, rfl, rfl, fun m2 hm2 => ?_⟩
          cases hm2
          exact goodChanges_empty _ _ rfl
  | cleanup fl se now =>
    cases bmem with
    | none => exact ⟨h1, rfl, rfl, rfl, by simp [Backend.step]⟩
    | some m =>
      have hf := extCleanup_rel he (fl := fl) (se := se) (now := now) (hp fl se now rfl m rfl) h1 hs hrange hc
      simp only [ByteBackend.step, Backend.step]
      cases ha : extCleanupB env fl se now m.timeseries.partitions bdisk with
      | error e =>
        cases hb : extCleanup fl se now m.timeseries.partitions disk with
        | error f => exact ⟨h1, rfl, rfl, rfl, by simp⟩
        | ok d => rw [ha, hb] at hf; exact hf.elim
      | ok bd =>
        cases hb : extCleanup fl se now m.timeseries.partitions disk with
        | error f => rw [ha, hb] at hf; exact hf.elim
        | ok d =>
          rw [ha, hb] at hf
          exact ⟨hf.1, rfl, rfl, rfl, fun m2 hm2 => h5 m2 hm2⟩
  | reopen c =>
    have hf := createDbs_rel he h1 c
    simp only [ByteBackend.step, Backend.step]
    cases ha : createDbsB env c bdisk with
    | error e =>
      cases hb : createDbs c disk with
      | error f => exact ⟨h1, rfl, rfl, rfl, by simp⟩
      | ok d => rw [ha, hb] at hf; exact hf.elim
    | ok bd =>
      cases hb : createDbs c disk with
      | error f => rw [ha, hb] at hf; exact hf.elim
      | ok d =>
        rw [ha, hb] at hf
        obtain ⟨bd, bm⟩ := bd
        obtain ⟨d, m⟩ := d
        obtain ⟨h6, h7⟩ := hf
        simp only at h7
        subst h7
        refine ⟨h6, rfl, rfl, rfl, fun m2 hm2 => ?_⟩
        cases hm2
        obtain ⟨s, p, _, _, _, rfl⟩ := createDbs_ok hb
        exact goodChanges_empty _ _ rfl

theorem byteRun_snoc (env : ByteEnv) (b : ByteBackend) (ops : List BackendOp) (op : BackendOp) :
    b.run env (ops ++ [op]) = (b.run env ops).step env op := by
  unfold ByteBackend.run; rw [List.foldl_append]; rfl

theorem sameRun {env : ByteEnv} (he : LawfulEnv env) (conf : Conf) (ops : List BackendOp) (hl : LookupLaws ops)
    (hn : (∀ fl se now, .cleanup fl se now ∉ ops) ∨ NonNegMins ops) (hr : ReadableEvents env.json ops) :
    SameRun env ((ByteBackend.new conf).run env ops) ((Backend.new conf).run ops) := by
  induction ops using List.reverseRecOn with
  | nil => exact ⟨diskEnc_empty env, rfl, rfl, rfl, by simp [Backend.run, Backend.new]⟩
  | append_singleton ops op ih =>
    have hl' : LookupLaws ops := fun c hc => hl c (by simp [hc])
    have h := ih hl' (hn.imp (fun h fl se now hc => h fl se now (by simp [hc])) fun h c hc => h c (by simp [hc])) (fun e hx => hr e (by simp [hx]))
    obtain ⟨w, hw⟩ := reached conf ops hl'
    rw [run_snoc, byteRun_snoc]
    refine sameRun_step he h (fun events ho e hx => hr events (by simp [ho]) e hx) 
      (fun fl se now ho m hm x hx limit hlim => ?_)
      hw.rel.disk.sortTs hw.rel.disk.range hw.rel.disk.counts
    have hmr := (hw.rel.opened m hm).2
    rw [hmr.partsEq] at hx
    have hin := hmr.partsIn.2 x hx
    rw [← hw.rel.conf] at hin
    rcases hn with hn | hn
    · exact absurd (by simp [ho]) (hn fl se now)
    exact hn _ (List.mem_append_left _ (run_conf conf ops (by simp [hm]))) _ hin limit hlim

end HatEvent
