import Verif.Model.Table
import Verif.Proof.Dict
import Verif.Proof.Codec
import Verif.Proof.Event
import Verif.Proof.Sbs

/-! # Lemmas about tables -/

namespace HatEvent
open Spec

/-- The order of keys is a strict total order. -/
class LawfulKey (κ : Type) [DbKey κ] : Prop where
  irrefl : ∀ a : κ, DbKey.lt a a = false
  trans : ∀ a b c : κ, DbKey.lt a b = true → DbKey.lt b c = true → DbKey.lt a c = true
  tri : ∀ a b : κ, DbKey.lt a b = true ∨ a = b ∨ DbKey.lt b a = true

instance : LawfulKey Int where
  irrefl a := by simp [DbKey.lt]
  trans a b c h1 h2 := by simp [DbKey.lt] at *; omega
  tri a b := by simp [DbKey.lt]; omega

theorem idKey_lt {a b : EventId} : DbKey.lt a b = true ↔ IdLt a b := EventId.lt_iff

instance : LawfulKey EventId where
  irrefl a := by
    have : ¬ DbKey.lt a a = true := fun h => IdLt.irrefl (idKey_lt.1 h)
    simpa using this
  trans a b c h1 h2 := by rw [idKey_lt] at *; exact h1.trans h2
  tri a b := by rw [idKey_lt, idKey_lt]; exact id_trichotomy a b

theorem TimeseriesKey.ext' {a b : TimeseriesKey} (h1 : a.partition = b.partition)
    (h2 : a.timestamp = b.timestamp) (h3 : a.id = b.id) : a = b := by
  cases a; cases b; simp_all

theorem tsKey_lt {a b : TimeseriesKey} : DbKey.lt a b = true ↔ KeyLt a b := by
  show TimeseriesKey.lt a b = true ↔ KeyLt a b
  unfold TimeseriesKey.lt KeyLt
  by_cases h1 : a.partition = b.partition
  · by_cases h2 : a.timestamp = b.timestamp
    · simp [h1, h2, EventId.lt_iff, TimeLt.irrefl]
    · simp [h1, h2, Timestamp.lt_iff]
  · simp [h1]

theorem Spec.KeyLt.trans {a b c : TimeseriesKey} (h1 : KeyLt a b) (h2 : KeyLt b c) : KeyLt a c := by
  unfold KeyLt at *
  rcases h1 with h1 | ⟨h1, h1' | ⟨h1', h1''⟩⟩ <;> rcases h2 with h2 | ⟨h2, h2' | ⟨h2', h2''⟩⟩
  all_goals first
    | exact .inl (by omega)
    | exact .inr ⟨by omega, .inl (h1'.trans h2')⟩
    | exact .inr ⟨by omega, .inl (h2' ▸ h1')⟩
    | exact .inr ⟨by omega, .inl (h1' ▸ h2')⟩
    | exact .inr ⟨by omega, .inr ⟨h1'.trans h2', h1''.trans h2''⟩⟩

theorem Spec.KeyLt.irrefl {a : TimeseriesKey} : ¬ KeyLt a a := by
  rintro (h | ⟨_, h | ⟨_, h⟩⟩)
  · omega
  · exact h.irrefl
  · exact h.irrefl

theorem key_trichotomy (a b : TimeseriesKey) : KeyLt a b ∨ a = b ∨ KeyLt b a := by
  by_cases h1 : a.partition = b.partition
  · rcases time_trichotomy a.timestamp b.timestamp with h | h | h
    · exact .inl (.inr ⟨h1, .inl h⟩)
    · rcases id_trichotomy a.id b.id with g | g | g
      · exact .inl (.inr ⟨h1, .inr ⟨h, g⟩⟩)
      · exact .inr (.inl (TimeseriesKey.ext' h1 h g))
      · exact .inr (.inr (.inr ⟨h1.symm, .inr ⟨h.symm, g⟩⟩))
    · exact .inr (.inr (.inr ⟨h1.symm, .inl h⟩))
  · by_cases h : a.partition < b.partition
    · exact .inl (.inl h)
    · exact .inr (.inr (.inl (by omega)))

instance : LawfulKey TimeseriesKey where
  irrefl a := by
    have : ¬ DbKey.lt a a = true := fun h => KeyLt.irrefl (tsKey_lt.1 h)
    simpa using this
  trans a b c h1 h2 := by rw [tsKey_lt] at *; exact h1.trans h2
  tri a b := by rw [tsKey_lt, tsKey_lt]; exact key_trichotomy a b

namespace Table
variable {κ υ : Type} [DecidableEq κ] [DbKey κ] [LawfulKey κ]

/-- Entries are in strictly increasing key order. -/
def Sorted (t : Table κ υ) : Prop := t.Pairwise fun a b => DbKey.lt a.1 b.1 = true

theorem lt_ne {a b : κ} (h : DbKey.lt a b = true) : a ≠ b := by
  rintro rfl; rw [LawfulKey.irrefl] at h; exact absurd h (by simp)

theorem lt_asymm {a b : κ} (h : DbKey.lt a b = true) : DbKey.lt b a = false := by
  by_contra h'
  have := LawfulKey.trans a b a h (by simpa using h')
  rw [LawfulKey.irrefl] at this; exact absurd this (by simp)

omit [LawfulKey κ] in
theorem get_put (t : Table κ υ) (k k' : κ) (v : υ) :
    Dict.get (put t k v) k' = if k = k' then some v else Dict.get t k' := by
  induction t with
  | nil => simp [put, Dict.get_cons]
  | cons p t ih =>
    obtain ⟨a, b⟩ := p
    unfold put
    by_cases h : a = k
    · subst h; simp only [if_true, Dict.get_cons]; split <;> rfl
    · simp only [if_neg h]
      by_cases h2 : DbKey.lt k a = true
      · simp only [h2, if_true, Dict.get_cons]
      · simp only [h2, Dict.get_cons, Bool.false_eq_true, if_false, ih]
        by_cases h3 : a = k'
        · subst h3; simp [Ne.symm h]
        · simp [h3]

omit [LawfulKey κ] in
theorem mem_put {t : Table κ υ} {k : κ} {v : υ} {p : κ × υ} (h : p ∈ put t k v) :
    p = (k, v) ∨ p ∈ t := by
  induction t with
  | nil => simp [put] at h; exact .inl h
  | cons q t ih =>
    obtain ⟨a, b⟩ := q
    unfold put at h
    by_cases h1 : a = k
    · rw [if_pos h1] at h
      rcases List.mem_cons.1 h with h | h
      · exact .inl h
      · exact .inr (List.mem_cons_of_mem _ h)
    · rw [if_neg h1] at h
      by_cases h2 : DbKey.lt k a = true
      · rw [if_pos h2] at h
        rcases List.mem_cons.1 h with h | h
        · exact .inl h
        · exact .inr h
      · rw [if_neg h2] at h
        rcases List.mem_cons.1 h with h | h
        · exact .inr (h ▸ List.mem_cons_self)
        · exact (ih h).imp id (List.mem_cons_of_mem _)

theorem sorted_put {t : Table κ υ} (k : κ) (v : υ) (h : Sorted t) : Sorted (put t k v) := by
  induction t with
  | nil => simp [put, Sorted]
  | cons q t ih =>
    obtain ⟨a, b⟩ := q
    have hh := List.pairwise_cons.1 h
    unfold put
    by_cases h1 : a = k
    · subst h1
      rw [if_pos rfl]
      exact List.pairwise_cons.2 ⟨hh.1, hh.2⟩
    · rw [if_neg h1]
      by_cases h2 : DbKey.lt k a = true
      · rw [if_pos h2]
        refine List.pairwise_cons.2 ⟨?_, h⟩
        intro p hp
        rcases List.mem_cons.1 hp with rfl | hp
        · exact h2
        · exact LawfulKey.trans _ _ _ h2 (hh.1 p hp)
      · rw [if_neg h2]
        refine List.pairwise_cons.2 ⟨?_, ih hh.2⟩
        intro p hp
        rcases mem_put hp with rfl | hp
        · rcases LawfulKey.tri a k with h3 | h3 | h3
          · exact h3
          · exact absurd h3 h1
          · exact absurd h3 h2
        · exact hh.1 p hp

theorem Sorted.nodup {t : Table κ υ} (h : Sorted t) : (Dict.keys t).Nodup := by
  unfold Dict.keys
  rw [List.Nodup, List.pairwise_map]
  exact List.Pairwise.imp (fun h => lt_ne h) h

omit [DbKey κ] [LawfulKey κ] in
theorem del_eq_filter (t : Dict κ υ) (k : κ) : Dict.del t k = t.filter fun p => p.1 ≠ k := by
  induction t with
  | nil => rfl
  | cons p t ih =>
    obtain ⟨a, b⟩ := p
    unfold Dict.del
    by_cases h : a = k
    · rw [if_pos h, ih, List.filter_cons_of_neg (by simp [h])]
    · rw [if_neg h, ih, List.filter_cons_of_pos (by simp [h])]

omit [LawfulKey κ] in
theorem sorted_del {t : Table κ υ} (k : κ) (h : Sorted t) : Sorted (Dict.del t k) := by
  rw [del_eq_filter]; exact List.Pairwise.filter _ h

omit [LawfulKey κ] in
theorem put_perm {t : Table κ υ} {k : κ} {v : υ} (h : k ∉ Dict.keys t) :
    (put t k v).Perm ((k, v) :: t) := by
  induction t with
  | nil => simp [put]
  | cons q t ih =>
    obtain ⟨a, b⟩ := q
    simp only [Dict.keys_cons, List.mem_cons, not_or] at h
    unfold put
    rw [if_neg (fun e => h.1 e.symm)]
    by_cases h2 : DbKey.lt k a = true
    · rw [if_pos h2]
    · rw [if_neg h2]
      exact ((ih h.2).cons _).trans (List.Perm.swap _ _ _)

omit [LawfulKey κ] in
theorem mem_keys_put {t : Table κ υ} {k x : κ} {v : υ} :
    x ∈ Dict.keys (put t k v) ↔ x = k ∨ x ∈ Dict.keys t := by
  have h1 := Dict.get_eq_none_iff (d := put t k v) (k := x)
  have h2 := Dict.get_eq_none_iff (d := t) (k := x)
  rw [get_put] at h1
  by_cases h : k = x
  · subst h; simp at h1; simp [h1]
  · simp only [if_neg h] at h1
    rw [h2] at h1
    have : x ≠ k := fun e => h e.symm
    tauto

section write
variable [Encodable υ]

omit [LawfulKey κ] in
/-- A successful write is a sequence of `put`. -/
theorem write_eq {t t' : Table κ υ} {l : List (κ × υ)} (h : write t l = .ok t') :
    t' = l.foldl (fun t p => put t p.1 p.2) t ∧
      ∀ p ∈ l, (∃ b, Encodable.encode p.1 = .ok b) ∧ (∃ b, Encodable.encode p.2 = .ok b) := by
  induction l generalizing t with
  | nil => simp [write] at h; simp [h]
  | cons p l ih =>
    obtain ⟨k, v⟩ := p
    unfold write at h
    cases h1 : Encodable.encode k with
    | error e => rw [h1] at h; simp [bind, Except.bind] at h
    | ok b =>
      cases h2 : Encodable.encode v with
      | error e => rw [h1, h2] at h; simp [bind, Except.bind] at h
      | ok c =>
        rw [h1, h2] at h
        simp only [ok_bind] at h
        obtain ⟨h3, h4⟩ := ih h
        refine ⟨h3, ?_⟩
        intro p hp
        rcases List.mem_cons.1 hp with rfl | hp
        · exact ⟨⟨b, h1⟩, ⟨c, h2⟩⟩
        · exact h4 p hp

omit [LawfulKey κ] in
theorem write_ok (t : Table κ υ) (l : List (κ × υ))
    (h : ∀ p ∈ l, (∃ b, Encodable.encode p.1 = .ok b) ∧ (∃ b, Encodable.encode p.2 = .ok b)) :
    write t l = .ok (l.foldl (fun t p => put t p.1 p.2) t) := by
  induction l generalizing t with
  | nil => simp [write]
  | cons p l ih =>
    obtain ⟨k, v⟩ := p
    obtain ⟨⟨b, hb⟩, ⟨c, hc⟩⟩ := h (k, v) List.mem_cons_self
    unfold write
    simp only at hb hc
    rw [hb, hc]
    simp only [ok_bind, List.foldl_cons]
    exact ih _ fun p hp => h p (List.mem_cons_of_mem _ hp)

theorem sorted_puts {t : Table κ υ} (l : List (κ × υ)) (h : Sorted t) :
    Sorted (l.foldl (fun t p => put t p.1 p.2) t) := by
  induction l generalizing t with
  | nil => exact h
  | cons p l ih => exact ih (sorted_put _ _ h)

omit [LawfulKey κ] in
theorem get_puts {t : Table κ υ} {l : List (κ × υ)} (hn : (Dict.keys l).Nodup) (k : κ) :
    Dict.get (l.foldl (fun t p => put t p.1 p.2) t) k =
      (match Dict.get l k with
       | some v => some v
       | none => Dict.get t k) := by
  induction l generalizing t with
  | nil => simp
  | cons p l ih =>
    simp only [Dict.keys_cons, List.nodup_cons] at hn
    rw [List.foldl_cons, ih hn.2, Dict.get_cons]
    by_cases h : p.1 = k
    · have : Dict.get l k = none := Dict.get_eq_none_iff.2 (h ▸ hn.1)
      simp [this, get_put, h]
    · simp [get_put, h]

omit [LawfulKey κ] in
theorem puts_perm {t : Table κ υ} {l : List (κ × υ)} (hn : (Dict.keys l).Nodup)
    (hd : ∀ k ∈ Dict.keys l, k ∉ Dict.keys t) :
    (l.foldl (fun t p => put t p.1 p.2) t).Perm (t ++ l) := by
  induction l generalizing t with
  | nil => simp
  | cons p l ih =>
    simp only [Dict.keys_cons, List.nodup_cons] at hn
    rw [List.foldl_cons]
    have hp : p.1 ∉ Dict.keys t := hd p.1 (by simp)
    refine (ih hn.2 ?_).trans ?_
    · intro k hk h
      rcases mem_keys_put.1 h with rfl | h
      · exact hn.1 hk
      · exact hd k (by simp [hk]) h
    · refine ((put_perm hp).append_right l).trans ?_
      exact List.perm_middle.symm

end write

/-! ### Ranges -/

theorem dropWhile_sorted {t : Table κ υ} (h : Sorted t) (p : κ → Bool)
    (hp : ∀ a b : κ, DbKey.lt a b = true → p b = true → p a = true) :
    t.dropWhile (fun x => p x.1) = t.filter (fun x => !p x.1) := by
  induction t with
  | nil => rfl
  | cons q t ih =>
    have hh := List.pairwise_cons.1 h
    by_cases hq : p q.1 = true
    · rw [List.dropWhile_cons_of_pos (p := fun x : κ × υ => p x.1) hq, List.filter_cons_of_neg (by simp [hq]), ih hh.2]
    · rw [List.dropWhile_cons_of_neg (p := fun x : κ × υ => p x.1) hq, List.filter_cons_of_pos (by simp [hq])]
      congr 1
      symm
      rw [List.filter_eq_self]
      intro x hx
      by_contra hc
      exact hq (hp _ _ (hh.1 x hx) (by simpa using hc))

theorem takeWhile_sorted {t : Table κ υ} (h : Sorted t) (p : κ → Bool)
    (hp : ∀ a b : κ, DbKey.lt a b = true → p b = true → p a = true) :
    t.takeWhile (fun x => p x.1) = t.filter (fun x => p x.1) := by
  induction t with
  | nil => rfl
  | cons q t ih =>
    have hh := List.pairwise_cons.1 h
    by_cases hq : p q.1 = true
    · rw [List.takeWhile_cons_of_pos (p := fun x : κ × υ => p x.1) hq, List.filter_cons_of_pos (p := fun x : κ × υ => p x.1) hq, ih hh.2]
    · rw [List.takeWhile_cons_of_neg (p := fun x : κ × υ => p x.1) hq, List.filter_cons_of_neg (p := fun x : κ × υ => p x.1) hq]
      symm
      rw [List.filter_eq_nil_iff]
      intro x hx hc
      exact hq (hp _ _ (hh.1 x hx) hc)

theorem fromKey_eq {t : Table κ υ} (h : Sorted t) (k : κ) :
    fromKey t k = t.filter fun p => !DbKey.lt p.1 k :=
  dropWhile_sorted h (fun a => DbKey.lt a k) fun a b h1 h2 => LawfulKey.trans a b k h1 h2

theorem beforeKey_eq {t : Table κ υ} (h : Sorted t) (k : κ) :
    beforeKey t k = (t.filter fun p => DbKey.lt p.1 k).reverse := by
  unfold beforeKey
  rw [takeWhile_sorted h (fun a => DbKey.lt a k) fun a b h1 h2 => LawfulKey.trans a b k h1 h2]

end Table

/-! ### Sets -/

section sets
variable {α : Type} [DecidableEq α]

theorem mem_setUnion {a b : List α} {x : α} : x ∈ setUnion a b ↔ x ∈ a ∨ x ∈ b := by
  unfold setUnion
  simp only [List.mem_append, List.mem_filter, decide_eq_true_eq]
  by_cases x ∈ a <;> simp_all

theorem mem_setDiff {a b : List α} {x : α} : x ∈ setDiff a b ↔ x ∈ a ∧ x ∉ b := by
  simp [setDiff]

theorem mem_setAdd {s : List α} {x y : α} : y ∈ setAdd s x ↔ y ∈ s ∨ y = x := by
  unfold setAdd
  by_cases h : x ∈ s
  · simp only [if_pos h]
    constructor
    · exact .inl
    · rintro (h' | rfl); exacts [h', h]
  · simp [if_neg h]

end sets

end HatEvent
