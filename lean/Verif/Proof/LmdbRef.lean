import Verif.Proof.LmdbRefine

/-! # The reference database -/

namespace HatEvent
open Spec

/-! ### Tables of references -/

/-- `r` is stored as a reference of the event `id`. -/
def HasRef (t : Table EventId (List EventRef)) (id : EventId) (r : EventRef) : Prop :=
  ∃ refs, Dict.get t id = some refs ∧ r ∈ refs

/-- Sorted, and no empty sets of references. -/
structure RefTableOk (t : Table EventId (List EventRef)) : Prop where
  sorted : Table.Sorted t
  nonempty : ∀ id refs, Dict.get t id = some refs → refs ≠ []

theorem hasRef_getD {t : Table EventId (List EventRef)} {id : EventId} {r : EventRef} :
    r ∈ (Dict.get t id).getD [] ↔ HasRef t id r := by
  unfold HasRef
  cases Dict.get t id <;> simp

def ServerChanges.HasAdded (sc : ServerChanges) (id : EventId) (r : EventRef) : Prop :=
  ∃ e refs, Dict.get sc.added id = some (e, refs) ∧ r ∈ refs

def ServerChanges.HasRemoved (sc : ServerChanges) (id : EventId) (r : EventRef) : Prop :=
  ∃ refs, Dict.get sc.removed id = some refs ∧ r ∈ refs

theorem refWriteOne_spec {sc : ServerChanges} {t t' : Table EventId (List EventRef)} {id : EventId}
    (ht : RefTableOk t) (h : refWriteOne sc t id = .ok t') :
    RefTableOk t' ∧ (∀ id', id' ≠ id → Dict.get t' id' = Dict.get t id') ∧
      ∀ r, HasRef t' id r ↔ (HasRef t id r ∨ sc.HasAdded id r) ∧ ¬ sc.HasRemoved id r := by
  unfold refWriteOne at h
  obtain ⟨_, _, h⟩ := bind_ok h
  simp only at h
  -- the new set
  have hval : ∀ r, r ∈ refValue sc ((Dict.get t id).getD []) id ↔
      (HasRef t id r ∨ sc.HasAdded id r) ∧ ¬ sc.HasRemoved id r := by
    intro r
    unfold refValue
    have h1 : r ∈ (match Dict.get sc.added id with
          | some (_, refs) => setUnion ((Dict.get t id).getD []) refs
          | none => (Dict.get t id).getD []) ↔ (HasRef t id r ∨ sc.HasAdded id r) := by
      unfold ServerChanges.HasAdded
      cases ha : Dict.get sc.added id with
      | none => simp [hasRef_getD]
      | some x =>
        obtain ⟨e, refs⟩ := x
        simp only [mem_setUnion, hasRef_getD, Option.some.injEq]
        constructor
        · rintro (h | h)
          · exact .inl h
          · exact .inr ⟨e, refs, rfl, h⟩
        · rintro (h | ⟨e', refs', h, h'⟩)
          · exact .inl h
          · cases h; exact .inr h'
    unfold ServerChanges.HasRemoved
    cases hr : Dict.get sc.removed id with
    | none => exact Iff.trans h1 (by simp)
    | some refs => exact Iff.trans mem_setDiff (and_congr h1 (by simp))
  generalize refValue sc ((Dict.get t id).getD []) id = value at h hval
  have hdel : RefTableOk (Dict.del t id) := by
    refine ⟨Table.sorted_del _ ht.sorted, ?_⟩
    intro i refs hi
    rw [Dict.get_del] at hi
    split at hi
    · simp at hi
    · exact ht.nonempty i refs hi
  by_cases hnil : value = []
  · rw [if_pos hnil] at h
    cases h
    refine ⟨hdel, ?_, ?_⟩
    · intro id' hne
      rw [Dict.get_del, if_neg]
      exact fun e => hne e.symm
    · intro r
      rw [← hval, hnil]
      unfold HasRef
      rw [Dict.get_del]; simp
  · rw [if_neg hnil] at h
    obtain ⟨_, _, h⟩ := bind_ok h
    cases h
    refine ⟨⟨Table.sorted_put _ _ hdel.sorted, ?_⟩, ?_, ?_⟩
    · intro i refs hi
      rw [Table.get_put] at hi
      split at hi
      · cases hi; exact hnil
      · exact hdel.nonempty i refs hi
    · intro id' hne
      have hne' : ¬ id = id' := fun e => hne e.symm
      rw [Table.get_put, if_neg hne', Dict.get_del, if_neg hne']
    · intro r
      rw [← hval]
      unfold HasRef
      rw [Table.get_put]; simp

theorem hasRef_congr {t t' : Table EventId (List EventRef)} {id : EventId}
    (h : Dict.get t' id = Dict.get t id) (r : EventRef) : HasRef t' id r ↔ HasRef t id r := by
  unfold HasRef; rw [h]

theorem refWriteServer_spec {sc : ServerChanges} {t t' : Table EventId (List EventRef)}
    (ht : RefTableOk t) (h : refWriteServer t sc = .ok t') :
    RefTableOk t' ∧
      ∀ id r, HasRef t' id r ↔ (HasRef t id r ∨ sc.HasAdded id r) ∧ ¬ sc.HasRemoved id r := by
  have key : ∀ (ids : List EventId) (t t' : Table EventId (List EventRef)), RefTableOk t →
      ids.foldlM (refWriteOne sc) t = .ok t' → RefTableOk t' ∧
      ∀ id r, (id ∈ ids → (HasRef t' id r ↔ (HasRef t id r ∨ sc.HasAdded id r) ∧ ¬ sc.HasRemoved id r)) ∧
        (id ∉ ids → (HasRef t' id r ↔ HasRef t id r)) := by
    intro ids
    induction ids with
    | nil => intro t t' ht h; cases h; exact ⟨ht, fun id r => ⟨by simp, fun _ => Iff.rfl⟩⟩
    | cons i ids ih =>
      intro t t' ht h
      rw [List.foldlM_cons] at h
      obtain ⟨t1, h1, h⟩ := bind_ok h
      obtain ⟨o1, o2, o3⟩ := refWriteOne_spec ht h1
      obtain ⟨p1, p2⟩ := ih t1 t' o1 h
      refine ⟨p1, fun id r => ?_⟩
      obtain ⟨q1, q2⟩ := p2 id r
      by_cases hi : id = i
      · subst hi
        refine ⟨fun _ => ?_, fun hn => absurd (by simp) hn⟩
        by_cases hm : id ∈ ids
        · rw [q1 hm, o3]; tauto
        · rw [q2 hm, o3]
      · have he := hasRef_congr (o2 id hi) r
        constructor
        · intro hm
          have : id ∈ ids := by simpa [hi] using hm
          rw [q1 this, he]
        · intro hm
          have : id ∉ ids := by simpa [hi] using hm
          rw [q2 this, he]
  obtain ⟨h1, h2⟩ := key _ t t' ht h
  refine ⟨h1, fun id r => ?_⟩
  by_cases hm : id ∈ toSet (Dict.keys sc.added ++ Dict.keys sc.removed)
  · exact (h2 id r).1 hm
  · rw [(h2 id r).2 hm]
    rw [mem_toSet, List.mem_append, not_or, ← Dict.get_eq_none_iff, ← Dict.get_eq_none_iff] at hm
    unfold ServerChanges.HasAdded ServerChanges.HasRemoved
    simp [hm.1, hm.2]

/-- References added and removed by pending changes. -/
def PendAdded (ch : RefChanges) (id : EventId) (r : EventRef) : Prop :=
  ∃ sc, Dict.get ch id.server = some sc ∧ sc.HasAdded id r

def PendRemoved (ch : RefChanges) (id : EventId) (r : EventRef) : Prop :=
  ∃ sc, Dict.get ch id.server = some sc ∧ sc.HasRemoved id r

/-- Pending changes are filed under the server of the event. -/
structure ChangesOk (ch : RefChanges) : Prop where
  nod : (Dict.keys ch).Nodup
  added : ∀ s sc, Dict.get ch s = some sc → ∀ id x, Dict.get sc.added id = some x → id.server = s
  removed : ∀ s sc, Dict.get ch s = some sc → ∀ id x, Dict.get sc.removed id = some x → id.server = s

theorem refWrite_spec {ch : RefChanges} {t t' : Table EventId (List EventRef)} (hch : ChangesOk ch)
    (ht : RefTableOk t) (h : (ch.map Prod.snd).foldlM refWriteServer t = .ok t') :
    RefTableOk t' ∧
      ∀ id r, HasRef t' id r ↔ (HasRef t id r ∨ PendAdded ch id r) ∧ ¬ PendRemoved ch id r := by
  induction ch generalizing t with
  | nil =>
    cases h
    exact ⟨ht, fun id r => by simp [PendAdded, PendRemoved]⟩
  | cons p ch ih =>
    obtain ⟨s, sc⟩ := p
    rw [List.map_cons, List.foldlM_cons] at h
    obtain ⟨t1, h1, h⟩ := bind_ok h
    obtain ⟨o1, o2⟩ := refWriteServer_spec ht h1
    have hn := hch.nod
    simp only [Dict.keys_cons, List.nodup_cons] at hn
    have hnone : Dict.get ch s = none := Dict.get_eq_none_iff.2 hn.1
    have hget : ∀ s', s' ≠ s → Dict.get ((s, sc) :: ch) s' = Dict.get ch s' := by
      intro s' hs; rw [Dict.get_cons]; simp [Ne.symm hs]
    have hch' : ChangesOk ch := by
      refine ⟨hn.2, ?_, ?_⟩
      · intro s' sc' hg
        have hne : s' ≠ s := by rintro rfl; rw [hnone] at hg; simp at hg
        exact hch.added s' sc' (by rw [hget s' hne]; exact hg)
      · intro s' sc' hg
        have hne : s' ≠ s := by rintro rfl; rw [hnone] at hg; simp at hg
        exact hch.removed s' sc' (by rw [hget s' hne]; exact hg)
    obtain ⟨p1, p2⟩ := ih hch' o1 h
    refine ⟨p1, fun id r => ?_⟩
    rw [p2, o2]
    have hhead : Dict.get ((s, sc) :: ch) s = some sc := by rw [Dict.get_cons]; simp
    by_cases hs : id.server = s
    · have e1 : ¬ PendAdded ch id r := by rintro ⟨_, hg, _⟩; rw [hs, hnone] at hg; simp at hg
      have e2 : ¬ PendRemoved ch id r := by rintro ⟨_, hg, _⟩; rw [hs, hnone] at hg; simp at hg
      have e3 : PendAdded ((s, sc) :: ch) id r ↔ sc.HasAdded id r := by
        unfold PendAdded; rw [hs, hhead]; simp
      have e4 : PendRemoved ((s, sc) :: ch) id r ↔ sc.HasRemoved id r := by
        unfold PendRemoved; rw [hs, hhead]; simp
      rw [e3, e4]; tauto
    · have e1 : ¬ sc.HasAdded id r := by
        rintro ⟨e, refs, hg, _⟩; exact hs (hch.added s sc hhead id _ hg)
      have e2 : ¬ sc.HasRemoved id r := by
        rintro ⟨refs, hg, _⟩; exact hs (hch.removed s sc hhead id _ hg)
      have e3 : PendAdded ((s, sc) :: ch) id r ↔ PendAdded ch id r := by
        unfold PendAdded; rw [hget _ hs]
      have e4 : PendRemoved ((s, sc) :: ch) id r ↔ PendRemoved ch id r := by
        unfold PendRemoved; rw [hget _ hs]
      rw [e3, e4]; tauto

theorem refCleanup_spec {rem : List TimeseriesKey} {t t' : Table EventId (List EventRef)}
    (ht : RefTableOk t) (h : refCleanup t rem = .ok t') :
    RefTableOk t' ∧ ∀ id r, HasRef t' id r ↔ HasRef t id r ∧
      ¬ ∃ k ∈ rem, k.id = id ∧ r = .timeseries k := by
  induction rem generalizing t with
  | nil => cases h; exact ⟨ht, by simp⟩
  | cons k rem ih =>
    rw [refCleanup] at h
    obtain ⟨_, _, h⟩ := bind_ok h
    have main : ∀ t1, RefTableOk t1 → (∀ id r, HasRef t1 id r ↔ HasRef t id r ∧
        ¬ (k.id = id ∧ r = .timeseries k)) → refCleanup t1 rem = .ok t' →
        RefTableOk t' ∧ ∀ id r, HasRef t' id r ↔ HasRef t id r ∧
          ¬ ∃ k' ∈ k :: rem, k'.id = id ∧ r = .timeseries k' := by
      intro t1 h1 h2 h3
      obtain ⟨p1, p2⟩ := ih h1 h3
      refine ⟨p1, fun id r => ?_⟩
      rw [p2, h2]
      simp only [List.mem_cons, exists_eq_or_imp]
      rw [not_or, and_assoc]
    cases hg : Dict.get t k.id with
    | none =>
      rw [hg] at h
      refine main t ht ?_ h
      intro id r
      constructor
      · intro hr
        refine ⟨hr, ?_⟩
        rintro ⟨rfl, _⟩
        obtain ⟨refs, hr1, _⟩ := hr
        rw [hg] at hr1; simp at hr1
      · exact fun hr => hr.1
    | some value =>
      rw [hg] at h
      simp only at h
      have hdel : RefTableOk (Dict.del t k.id) := by
        refine ⟨Table.sorted_del _ ht.sorted, ?_⟩
        intro i refs hi
        rw [Dict.get_del] at hi
        split at hi
        · simp at hi
        · exact ht.nonempty i refs hi
      by_cases hnil : value.filter (fun x => decide (x ≠ EventRef.timeseries k)) = []
      · rw [if_pos hnil] at h
        refine main _ hdel ?_ h
        intro id r
        by_cases hid : k.id = id
        · subst hid
          have : ¬ HasRef (Dict.del t k.id) k.id r := by
            rintro ⟨refs, hr, _⟩; rw [Dict.get_del] at hr; simp at hr
          simp only [this, true_and, false_iff, not_and, not_not]
          rintro ⟨refs, hr, hm⟩
          rw [hg] at hr; cases hr
          rw [List.filter_eq_nil_iff] at hnil
          simpa using hnil r hm
        · have : Dict.get (Dict.del t k.id) id = Dict.get t id := by
            rw [Dict.get_del, if_neg hid]
          rw [hasRef_congr this]; simp [hid]
      · rw [if_neg hnil] at h
        obtain ⟨_, _, h⟩ := bind_ok h
        refine main _ ⟨Table.sorted_put _ _ hdel.sorted, ?_⟩ ?_ h
        · intro i refs hi
          rw [Table.get_put] at hi
          split at hi
          · cases hi; exact hnil
          · exact hdel.nonempty i refs hi
        · intro id r
          by_cases hid : k.id = id
          · subst hid
            unfold HasRef
            rw [Table.get_put, hg]
            simp
          · have : Dict.get (Table.put (Dict.del t k.id) k.id
                (value.filter (fun x => decide (x ≠ EventRef.timeseries k)))) id = Dict.get t id := by
              rw [Table.get_put, if_neg hid, Dict.get_del, if_neg hid]
            rw [hasRef_congr this]; simp [hid]

/-! ### Pending changes -/

/-- Event with its references in pending changes. -/
def addedOf (ch : RefChanges) (id : EventId) : Option (Event × List EventRef) :=
  (Dict.get ch id.server).bind fun sc => Dict.get sc.added id

theorem pendAdded_iff {ch : RefChanges} {id : EventId} {r : EventRef} :
    PendAdded ch id r ↔ ∃ e refs, addedOf ch id = some (e, refs) ∧ r ∈ refs := by
  unfold PendAdded ServerChanges.HasAdded addedOf
  cases Dict.get ch id.server with
  | none => simp
  | some sc => simp

/-- Pending changes are sorted lists of events with non-empty reference sets. -/
structure AddedOk (ch : RefChanges) : Prop extends ChangesOk ch where
  sorted : ∀ s sc, Dict.get ch s = some sc → sc.added.Pairwise fun a b => IdLt a.1 b.1
  event : ∀ id e refs, addedOf ch id = some (e, refs) → e.id = id ∧ refs ≠ []

theorem AddedOk.nodup {ch : RefChanges} (h : AddedOk ch) {s : Int} {sc : ServerChanges}
    (hg : Dict.get ch s = some sc) : (Dict.keys sc.added).Nodup := by
  unfold Dict.keys
  rw [List.Nodup, List.pairwise_map]
  exact (h.sorted s sc hg).imp fun hlt => hlt.ne

theorem addedOk_nil : AddedOk [] :=
  ⟨⟨by simp, by simp, by simp⟩, by simp, by simp [addedOf]⟩

theorem getD_cases (ch : RefChanges) (s : Int) :
    Dict.get ch s = some ((Dict.get ch s).getD .empty) ∨
      (Dict.get ch s = none ∧ (Dict.get ch s).getD .empty = .empty) := by
  cases Dict.get ch s <;> simp

/-- Setting the value of an existing key keeps the keys in place. -/
theorem keys_set_mem {κ υ : Type} [DecidableEq κ] {d : Dict κ υ} {k : κ} (h : k ∈ Dict.keys d) (v : υ) :
    Dict.keys (Dict.set d k v) = Dict.keys d := by
  induction d with
  | nil => simp at h
  | cons p d ih =>
    obtain ⟨a, b⟩ := p
    by_cases hk : a = k
    · simp [Dict.set, hk, Dict.keys]
    · simp only [Dict.keys_cons, List.mem_cons] at h
      have hm : k ∈ Dict.keys d := by
        rcases h with h | h
        · exact absurd h.symm hk
        · exact h
      simp only [Dict.set, hk, if_false, Dict.keys_cons, ih hm]

theorem set_not_mem {κ υ : Type} [DecidableEq κ] {d : Dict κ υ} {k : κ} (h : k ∉ Dict.keys d) (v : υ) :
    Dict.set d k v = d ++ [(k, v)] := by
  induction d with
  | nil => rfl
  | cons p d ih =>
    obtain ⟨a, b⟩ := p
    simp only [Dict.keys_cons, List.mem_cons, not_or] at h
    have hk : ¬ a = k := fun e => h.1 e.symm
    simp only [Dict.set, hk, if_false, ih h.2, List.cons_append]

/-- Order of keys, as a property of the keys. -/
theorem pairwise_keys {υ : Type} {d : Dict EventId υ} :
    d.Pairwise (fun a b => IdLt a.1 b.1) ↔ (Dict.keys d).Pairwise IdLt := by
  unfold Dict.keys; rw [List.pairwise_map]

/-- Effect of removing a reference from pending changes. -/
def RemoveSpec (ch ch' : RefChanges) (id0 : EventId) (r0 : EventRef) : Prop :=
    AddedOk ch' ∧
      (∀ id r, PendAdded ch' id r ↔ PendAdded ch id r ∧ ¬ (id = id0 ∧ r = r0)) ∧
      (∀ id r, PendRemoved ch' id r ↔
        PendRemoved ch id r ∨ (id = id0 ∧ r = r0 ∧ ¬ PendAdded ch id0 r0)) ∧
      (∀ id e refs, addedOf ch' id = some (e, refs) → ∃ refs', addedOf ch id = some (e, refs'))

/-- `RefDb.remove` on pending changes. -/
theorem refRemove_spec {db : RefDb} (h : AddedOk db.changes) (id0 : EventId) (r0 : EventRef) :
    RemoveSpec db.changes (db.remove id0 r0).changes id0 r0 := by
  obtain ⟨last, ch⟩ := db
  simp only at h
  unfold RefDb.remove
  simp only
  generalize hsc : (Dict.get ch id0.server).getD .empty = sc
  have hget : ∀ s', Dict.get (Dict.set ch id0.server (sc.remove id0 r0)) s' =
      if id0.server = s' then some (sc.remove id0 r0) else Dict.get ch s' := fun s' => Dict.get_set ..
  -- facts about the changes of the server
  have hA : ∀ id, id.server = id0.server → addedOf ch id = Dict.get sc.added id := by
    intro id hid
    unfold addedOf
    rw [hid]
    rcases getD_cases ch id0.server with hc | ⟨hc, hc'⟩
    · rw [hc, hsc]; rfl
    · rw [hc]; rw [hc'] at hsc; rw [← hsc]; rfl
  have hR : ∀ id r, id.server = id0.server → (PendRemoved ch id r ↔ sc.HasRemoved id r) := by
    intro id r hid
    unfold PendRemoved
    rw [hid]
    rcases getD_cases ch id0.server with hc | ⟨hc, hc'⟩
    · rw [hc, hsc]; simp
    · rw [hc]; rw [hc'] at hsc; rw [← hsc]; simp [ServerChanges.HasRemoved, ServerChanges.empty]
  have hsort : sc.added.Pairwise fun a b => IdLt a.1 b.1 := by
    rcases getD_cases ch id0.server with hc | ⟨hc, hc'⟩
    · rw [hsc] at hc; exact h.sorted _ _ hc
    · rw [hc'] at hsc; rw [← hsc]; exact List.Pairwise.nil
  have hsadd : ∀ id x, Dict.get sc.added id = some x → id.server = id0.server := by
    rcases getD_cases ch id0.server with hc | ⟨hc, hc'⟩
    · rw [hsc] at hc; exact h.added _ _ hc
    · rw [hc'] at hsc; rw [← hsc]; simp [ServerChanges.empty]
  have hsrem : ∀ id x, Dict.get sc.removed id = some x → id.server = id0.server := by
    rcases getD_cases ch id0.server with hc | ⟨hc, hc'⟩
    · rw [hsc] at hc; exact h.removed _ _ hc
    · rw [hc'] at hsc; rw [← hsc]; simp [ServerChanges.empty]
  -- it is enough to describe the changes of the server
  have main : ∀ sc' : ServerChanges, sc.remove id0 r0 = sc' →
      (sc'.added.Pairwise fun a b => IdLt a.1 b.1) →
      (∀ id x, Dict.get sc'.added id = some x → id.server = id0.server) →
      (∀ id x, Dict.get sc'.removed id = some x → id.server = id0.server) →
      (∀ id e refs, Dict.get sc'.added id = some (e, refs) → refs ≠ [] ∧
        ∃ refs', Dict.get sc.added id = some (e, refs')) →
      (∀ id r, sc'.HasAdded id r ↔ sc.HasAdded id r ∧ ¬ (id = id0 ∧ r = r0)) →
      (∀ id r, sc'.HasRemoved id r ↔ sc.HasRemoved id r ∨ (id = id0 ∧ r = r0 ∧ ¬ sc.HasAdded id0 r0)) →
      RemoveSpec ch (Dict.set ch id0.server (sc.remove id0 r0)) id0 r0 := by
    intro sc' he m1 m2 m3 m4 m5 m6
    rw [he] at hget ⊢
    have hA' : ∀ id, addedOf (Dict.set ch id0.server sc') id =
        if id.server = id0.server then Dict.get sc'.added id else addedOf ch id := by
      intro id
      unfold addedOf
      rw [hget]
      by_cases hid : id.server = id0.server
      · simp [hid]
      · have : ¬ id0.server = id.server := fun e => hid e.symm
        simp [hid, this]
    have hR' : ∀ id r, PendRemoved (Dict.set ch id0.server sc') id r ↔
        if id.server = id0.server then sc'.HasRemoved id r else PendRemoved ch id r := by
      intro id r
      unfold PendRemoved
      rw [hget]
      by_cases hid : id.server = id0.server
      · simp [hid]
      · have : ¬ id0.server = id.server := fun e => hid e.symm
        simp [hid, this]
    have hAA : ∀ id r, id.server = id0.server → (PendAdded ch id r ↔ sc.HasAdded id r) := by
      intro id r hid
      rw [pendAdded_iff, hA id hid]; rfl
    refine ⟨⟨⟨Dict.nodup_keys_set h.nod, ?_, ?_⟩, ?_, ?_⟩, ?_, ?_, ?_⟩
    · intro s x hs id y hy
      rw [hget] at hs
      split at hs
      · next hs' => cases hs; rw [← hs']; exact m2 id y hy
      · exact h.added s x hs id y hy
    · intro s x hs id y hy
      rw [hget] at hs
      split at hs
      · next hs' => cases hs; rw [← hs']; exact m3 id y hy
      · exact h.removed s x hs id y hy
    · intro s x hs
      rw [hget] at hs
      split at hs
      · cases hs; exact m1
      · exact h.sorted s x hs
    · intro id e refs hx
      rw [hA'] at hx
      split at hx
      · next hid =>
        obtain ⟨n1, refs', n2⟩ := m4 id e refs hx
        refine ⟨(h.event id e refs' ?_).1, n1⟩
        rw [hA id hid]; exact n2
      · exact h.event id e refs hx
    · intro id r
      by_cases hid : id.server = id0.server
      · rw [hAA id r hid, pendAdded_iff, hA', if_pos hid]
        exact m5 id r
      · rw [pendAdded_iff, hA', if_neg hid, ← pendAdded_iff]
        constructor
        · exact fun hp => ⟨hp, fun hh => hid (by rw [hh.1])⟩
        · exact fun hp => hp.1
    · intro id r
      rw [hR', hAA id0 r0 rfl]
      by_cases hid : id.server = id0.server
      · rw [if_pos hid, hR id r hid]; exact m6 id r
      · rw [if_neg hid]
        constructor
        · exact .inl
        · rintro (hp | ⟨rfl, _⟩)
          · exact hp
          · exact absurd rfl hid
    · intro id e refs hx
      rw [hA'] at hx
      split at hx
      · next hid =>
        obtain ⟨_, refs', n2⟩ := m4 id e refs hx
        exact ⟨refs', by rw [hA id hid]; exact n2⟩
      · exact ⟨refs, hx⟩
  -- the cases of the method
  have hB : ¬ sc.HasAdded id0 r0 →
      sc.remove id0 r0 = ({ sc with removed := (Dict.set sc.removed id0
        (setAdd ((Dict.get sc.removed id0).getD []) r0)) } : ServerChanges) := by
    intro hno
    unfold ServerChanges.remove
    cases hg : Dict.get sc.added id0 with
    | none => rfl
    | some x =>
      obtain ⟨e, refs⟩ := x
      simp only
      rw [if_neg]
      exact fun hm => hno ⟨e, refs, hg, hm⟩
  by_cases hin : sc.HasAdded id0 r0
  · obtain ⟨e, refs, hg, hm⟩ := hin
    have hnodup : (Dict.keys sc.added).Nodup := by
      unfold Dict.keys
      rw [List.Nodup, List.pairwise_map]
      exact hsort.imp fun hlt => hlt.ne
    have hkey : id0 ∈ Dict.keys sc.added := by
      by_contra hne
      rw [Dict.get_eq_none_iff.2 hne] at hg; simp at hg
    have hrem : sc.remove id0 r0 =
        if refs.filter (fun x => decide (x ≠ r0)) = [] then { sc with added := Dict.del sc.added id0 }
        else { sc with added := Dict.set sc.added id0 (e, refs.filter (fun x => decide (x ≠ r0))) } := by
      unfold ServerChanges.remove
      simp only [hg]
      rw [if_pos hm]
    by_cases hnil : refs.filter (fun x => decide (x ≠ r0)) = []
    · rw [if_pos hnil] at hrem
      refine main _ hrem ?_ ?_ hsrem ?_ ?_ ?_
      · rw [show (Dict.del sc.added id0) = sc.added.filter (fun p => decide (p.1 ≠ id0)) from
          Table.del_eq_filter _ _]
        exact hsort.filter _
      · intro id x hx
        rw [Dict.get_del] at hx
        split at hx
        · simp at hx
        · exact hsadd id x hx
      · intro id e' refs' hx
        rw [Dict.get_del] at hx
        split at hx
        · simp at hx
        · next hne =>
          refine ⟨?_, refs', hx⟩
          have hid := hsadd id _ hx
          exact (h.event id e' refs' (by rw [hA id hid]; exact hx)).2
      · intro id r
        unfold ServerChanges.HasAdded
        simp only [Dict.get_del]
        by_cases hid : id0 = id
        · subst hid
          constructor
          · rintro ⟨_, _, hx, _⟩; simp at hx
          · rintro ⟨⟨e', refs', hx, hr⟩, hne⟩
            rw [hg] at hx; cases hx
            rw [List.filter_eq_nil_iff] at hnil
            exact absurd ⟨rfl, by simpa using hnil r hr⟩ hne
        · have hid' : ¬ id = id0 := fun e => hid e.symm
          simp [hid, hid']
      · intro id r
        constructor
        · exact .inl
        · rintro (hp | ⟨_, _, hno⟩)
          · exact hp
          · exact absurd ⟨e, refs, hg, hm⟩ hno
    · rw [if_neg hnil] at hrem
      refine main _ hrem ?_ ?_ hsrem ?_ ?_ ?_
      · simp only
        rw [pairwise_keys, keys_set_mem hkey, ← pairwise_keys]; exact hsort
      · intro id x hx
        simp only [Dict.get_set] at hx
        split at hx
        · next hid => rw [← hid]
        · exact hsadd id x hx
      · intro id e' refs' hx
        simp only [Dict.get_set] at hx
        split at hx
        · next hid =>
          cases hx; subst hid
          exact ⟨hnil, refs, hg⟩
        · next hne =>
          refine ⟨?_, refs', hx⟩
          have hid := hsadd id _ hx
          exact (h.event id e' refs' (by rw [hA id hid]; exact hx)).2
      · intro id r
        unfold ServerChanges.HasAdded
        simp only [Dict.get_set]
        by_cases hid : id0 = id
        · subst hid
          simp only [if_true, true_and]
          constructor
          · rintro ⟨e', refs', hx, hr⟩
            cases hx
            simp only [List.mem_filter, decide_eq_true_eq] at hr
            exact ⟨⟨e, refs, hg, hr.1⟩, hr.2⟩
          · rintro ⟨⟨e', refs', hx, hr⟩, hne⟩
            rw [hg] at hx; cases hx
            exact ⟨e, _, rfl, by simp [hr, hne]⟩
        · have hid' : ¬ id = id0 := fun e => hid e.symm
          simp [hid, hid']
      · intro id r
        constructor
        · exact .inl
        · rintro (hp | ⟨_, _, hno⟩)
          · exact hp
          · exact absurd ⟨e, refs, hg, hm⟩ hno
  · refine main _ (hB hin) hsort hsadd ?_ ?_ ?_ ?_
    · intro id x hx
      simp only [Dict.get_set] at hx
      split at hx
      · next hid => rw [← hid]
      · exact hsrem id x hx
    · intro id e refs hx
      refine ⟨?_, refs, hx⟩
      have hid := hsadd id _ hx
      exact (h.event id e refs (by rw [hA id hid]; exact hx)).2
    · intro id r
      constructor
      · intro hp
        refine ⟨hp, ?_⟩
        rintro ⟨rfl, rfl⟩
        exact hin hp
      · exact fun hp => hp.1
    · intro id r
      unfold ServerChanges.HasRemoved
      simp only [Dict.get_set]
      by_cases hid : id0 = id
      · subst hid
        simp only [if_true, Option.some.injEq, exists_eq_left', mem_setAdd, true_and, hin,
          not_false_eq_true, and_true]
        cases Dict.get sc.removed id0 <;> simp
      · have hid' : ¬ id = id0 := fun e => hid e.symm
        simp [hid, hid']

/-- `RefDb.add` on pending changes. -/
theorem refAdd_spec {db db' : RefDb} (h : AddedOk db.changes) {e : Event} {refs : List EventRef}
    (hr : refs ≠ [])
    (hnew : ∀ sc, Dict.get db.changes e.id.server = some sc → ∀ x ∈ sc.added, IdLt x.1 e.id)
    (ha : db.add e refs = .ok db') :
    AddedOk db'.changes ∧
      (∀ id r, PendAdded db'.changes id r ↔ PendAdded db.changes id r ∨ (id = e.id ∧ r ∈ refs)) ∧
      (∀ id r, PendRemoved db'.changes id r ↔ PendRemoved db.changes id r) ∧
      (∀ id, addedOf db'.changes id = if id = e.id then some (e, toSet refs) else addedOf db.changes id) := by
  obtain ⟨last, ch⟩ := db
  simp only at h hnew
  unfold RefDb.add at ha
  simp only at ha
  generalize hsc : (Dict.get ch e.id.server).getD .empty = sc at ha
  obtain ⟨last', ch'⟩ := db'
  have hch' : ch' = Dict.set ch e.id.server { sc with added := Dict.set sc.added e.id (e, toSet refs) } := by
    repeat' split at ha
    all_goals first | (cases ha; rfl) | (cases ha)
  clear ha
  subst hch'
  simp only
  have hlt : ∀ x ∈ sc.added, IdLt x.1 e.id := by
    rcases getD_cases ch e.id.server with hc | ⟨hc, hc'⟩
    · rw [hsc] at hc; exact hnew _ hc
    · rw [hc'] at hsc; rw [← hsc]; simp [ServerChanges.empty]
  have hnk : e.id ∉ Dict.keys sc.added := by
    intro hm
    obtain ⟨x, hx, hx'⟩ := List.mem_map.1 hm
    exact (hlt x hx).ne hx'
  have hset : Dict.set sc.added e.id (e, toSet refs) = sc.added ++ [(e.id, (e, toSet refs))] :=
    set_not_mem hnk _
  have hsort : sc.added.Pairwise fun a b => IdLt a.1 b.1 := by
    rcases getD_cases ch e.id.server with hc | ⟨hc, hc'⟩
    · rw [hsc] at hc; exact h.sorted _ _ hc
    · rw [hc'] at hsc; rw [← hsc]; exact List.Pairwise.nil
  have hA : ∀ id, id.server = e.id.server → addedOf ch id = Dict.get sc.added id := by
    intro id hid
    unfold addedOf
    rw [hid]
    rcases getD_cases ch e.id.server with hc | ⟨hc, hc'⟩
    · rw [hc, hsc]; rfl
    · rw [hc]; rw [hc'] at hsc; rw [← hsc]; rfl
  have hA' : ∀ id, addedOf (Dict.set ch e.id.server
      { sc with added := Dict.set sc.added e.id (e, toSet refs) }) id =
      if id = e.id then some (e, toSet refs) else addedOf ch id := by
    intro id
    by_cases hid : id.server = e.id.server
    · rw [hA id hid]
      unfold addedOf
      rw [Dict.get_set, if_pos hid.symm]
      simp only [Option.bind_some, Dict.get_set]
      by_cases hi : id = e.id
      · simp [hi]
      · have : ¬ e.id = id := fun x => hi x.symm
        simp [hi, this]
    · have h1 : ¬ id = e.id := fun x => hid (by rw [x])
      have h2 : ¬ e.id.server = id.server := fun x => hid x.symm
      unfold addedOf
      rw [Dict.get_set, if_neg h2, if_neg h1]
  have hnone : addedOf ch e.id = none := by
    rw [hA _ rfl, Dict.get_eq_none_iff]; exact hnk
  have htoset : toSet refs ≠ [] := by
    intro hnil
    obtain ⟨x, hx⟩ := List.exists_mem_of_ne_nil _ hr
    have := (mem_toSet (v := x)).2 hx
    rw [hnil] at this; simp at this
  refine ⟨⟨⟨Dict.nodup_keys_set h.nod, ?_, ?_⟩, ?_, ?_⟩, ?_, ?_, hA'⟩
  · intro s x hs id y hy
    rw [Dict.get_set] at hs
    split at hs
    · next hs' =>
      cases hs
      simp only [Dict.get_set] at hy
      split at hy
      · next hi => rw [← hi]; exact hs'
      · rcases getD_cases ch e.id.server with hc | ⟨hc, hc'⟩
        · rw [hsc] at hc; rw [← hs']; exact h.added _ _ hc id y hy
        · rw [hc'] at hsc; rw [← hsc] at hy; simp [ServerChanges.empty] at hy
    · exact h.added s x hs id y hy
  · intro s x hs id y hy
    rw [Dict.get_set] at hs
    split at hs
    · next hs' =>
      cases hs
      rcases getD_cases ch e.id.server with hc | ⟨hc, hc'⟩
      · rw [hsc] at hc; rw [← hs']; exact h.removed _ _ hc id y hy
      · rw [hc'] at hsc; rw [← hsc] at hy; simp [ServerChanges.empty] at hy
    · exact h.removed s x hs id y hy
  · intro s x hs
    rw [Dict.get_set] at hs
    split at hs
    · cases hs
      simp only
      rw [hset, List.pairwise_append]
      refine ⟨hsort, by simp, ?_⟩
      intro a ha b hb
      simp only [List.mem_singleton] at hb
      subst hb
      exact hlt a ha
    · exact h.sorted s x hs
  · intro id x rs hx
    rw [hA'] at hx
    split at hx
    · next hi => cases hx; exact ⟨hi.symm, htoset⟩
    · exact h.event id x rs hx
  · intro id r
    rw [pendAdded_iff, pendAdded_iff, hA']
    by_cases hi : id = e.id
    · subst hi
      rw [if_pos rfl, hnone]
      simp [mem_toSet]
    · simp [hi]
  · intro id r
    unfold PendRemoved
    rw [Dict.get_set]
    by_cases hi : e.id.server = id.server
    · rw [if_pos hi, ← hi]
      rcases getD_cases ch e.id.server with hc | ⟨hc, hc'⟩
      · rw [hsc] at hc; rw [hc]; simp [ServerChanges.HasRemoved]
      · rw [hc]; rw [hc'] at hsc; rw [← hsc]; simp [ServerChanges.HasRemoved, ServerChanges.empty]
    · rw [if_neg hi]

end HatEvent
