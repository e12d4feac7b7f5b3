import Verif.Spec.Event
import Verif.Proof.Tactics

/-! Lemmas about orders. -/

namespace HatEvent
open Spec

theorem Timestamp.ext' {a b : Timestamp} (h1 : a.s = b.s) (h2 : a.us = b.us) : a = b := by
  cases a; cases b; simp_all

theorem EventId.ext' {a b : EventId} (h1 : a.server = b.server) (h2 : a.session = b.session)
    (h3 : a.instance_ = b.instance_) : a = b := by
  cases a; cases b; simp_all

theorem Timestamp.lt_iff {a b : Timestamp} : a.lt b = true ↔ TimeLt a b := by
  unfold Timestamp.lt TimeLt
  split_ifs with h
  · simp; omega
  · simp at h; simp [h]

theorem Timestamp.le_iff {a b : Timestamp} : a.le b = true ↔ TimeLe a b := by
  unfold Timestamp.le TimeLe TimeLt
  constructor
  · split_ifs with h
    · intro hd
      exact .inl (.inl (by simpa using hd))
    · intro hd
      simp at h hd
      rcases Int.lt_or_eq_of_le hd with hd | hd
      · exact .inl (.inr ⟨h, hd⟩)
      · exact .inr (Timestamp.ext' h hd)
  · rintro ((h | ⟨h1, h2⟩) | rfl)
    · rw [if_pos (by omega)]; simpa using h
    · rw [if_neg (by omega)]; simp; omega
    · simp

theorem EventId.lt_iff {a b : EventId} : a.lt b = true ↔ IdLt a b := by
  unfold EventId.lt IdLt
  split_ifs with h h'
  · simp; omega
  · simp at h; simp; omega
  · simp at h h'; simp [h, h']

theorem EventId.le_iff {a b : EventId} : a.le b = true ↔ IdLe a b := by
  unfold EventId.le IdLe IdLt
  constructor
  · split_ifs with h h'
    · intro hd; left; simp at hd; omega
    · intro hd; left; simp at hd h; omega
    · intro hd
      simp at h h' hd
      rcases Int.lt_or_eq_of_le hd with hd | hd
      · left; omega
      · exact .inr (EventId.ext' h h' hd)
  · rintro (h | rfl)
    · split_ifs with h1 h2 <;> simp <;> omega
    · simp

namespace Spec

theorem TimeLt.trans {a b c : Timestamp} (h1 : TimeLt a b) (h2 : TimeLt b c) : TimeLt a c := by
  unfold TimeLt at *; omega

theorem TimeLt.irrefl {a : Timestamp} : ¬ TimeLt a a := by unfold TimeLt; omega

theorem TimeLt.ne {a b : Timestamp} (h : TimeLt a b) : a ≠ b := by
  rintro rfl; exact TimeLt.irrefl h

theorem TimeLt.asymm {a b : Timestamp} (h1 : TimeLt a b) : ¬ TimeLt b a := by
  unfold TimeLt at *; omega

theorem time_trichotomy (a b : Timestamp) : TimeLt a b ∨ a = b ∨ TimeLt b a := by
  by_cases h : a = b
  · exact .inr (.inl h)
  · have : ¬ (a.s = b.s ∧ a.us = b.us) := fun h' => h (Timestamp.ext' h'.1 h'.2)
    unfold TimeLt; omega

theorem TimeLe.trans {a b c : Timestamp} (h1 : TimeLe a b) (h2 : TimeLe b c) : TimeLe a c := by
  rcases h1 with h1 | rfl
  · rcases h2 with h2 | rfl
    · exact .inl (h1.trans h2)
    · exact .inl h1
  · exact h2

theorem TimeLe.refl {a : Timestamp} : TimeLe a a := .inr rfl

theorem TimeLe.antisymm {a b : Timestamp} (h1 : TimeLe a b) (h2 : TimeLe b a) : a = b := by
  rcases h1 with h1 | h1
  · rcases h2 with h2 | h2
    · exact absurd h2 h1.asymm
    · exact h2.symm
  · exact h1

theorem not_timeLt {a b : Timestamp} : ¬ TimeLt a b ↔ TimeLe b a := by
  constructor
  · intro h
    rcases time_trichotomy a b with h' | h' | h'
    · exact absurd h' h
    · exact .inr h'.symm
    · exact .inl h'
  · rintro (h | rfl)
    · exact h.asymm
    · exact TimeLt.irrefl

theorem not_timeLe {a b : Timestamp} : ¬ TimeLe a b ↔ TimeLt b a := by
  rw [← not_timeLt, not_not]

theorem TimeLt.trans_le {a b c : Timestamp} (h1 : TimeLt a b) (h2 : TimeLe b c) : TimeLt a c := by
  rcases h2 with h2 | rfl
  · exact h1.trans h2
  · exact h1

theorem TimeLe.trans_lt {a b c : Timestamp} (h1 : TimeLe a b) (h2 : TimeLt b c) : TimeLt a c := by
  rcases h1 with h1 | rfl
  · exact h1.trans h2
  · exact h2

theorem IdLt.trans {a b c : EventId} (h1 : IdLt a b) (h2 : IdLt b c) : IdLt a c := by
  unfold IdLt at *; omega

theorem IdLt.irrefl {a : EventId} : ¬ IdLt a a := by unfold IdLt; omega

theorem IdLt.ne {a b : EventId} (h : IdLt a b) : a ≠ b := by
  rintro rfl; exact IdLt.irrefl h

theorem IdLt.asymm {a b : EventId} (h1 : IdLt a b) : ¬ IdLt b a := by
  unfold IdLt at *; omega

theorem id_trichotomy (a b : EventId) : IdLt a b ∨ a = b ∨ IdLt b a := by
  by_cases h : a = b
  · exact .inr (.inl h)
  · have : ¬ (a.server = b.server ∧ a.session = b.session ∧ a.instance_ = b.instance_) :=
      fun h' => h (EventId.ext' h'.1 h'.2.1 h'.2.2)
    unfold IdLt; omega

theorem IdLe.refl {a : EventId} : IdLe a a := .inr rfl

theorem not_idLt {a b : EventId} : ¬ IdLt a b ↔ IdLe b a := by
  constructor
  · intro h
    rcases id_trichotomy a b with h' | h' | h'
    · exact absurd h' h
    · exact .inr h'.symm
    · exact .inl h'
  · rintro (h | rfl)
    · exact h.asymm
    · exact IdLt.irrefl

theorem not_idLe {a b : EventId} : ¬ IdLe a b ↔ IdLt b a := by
  rw [← not_idLt, not_not]

theorem IdLe.trans {a b c : EventId} (h1 : IdLe a b) (h2 : IdLe b c) : IdLe a c := by
  rcases h1 with h1 | rfl
  · rcases h2 with h2 | rfl
    · exact .inl (h1.trans h2)
    · exact .inl h1
  · exact h2

theorem IdLt.trans_le {a b c : EventId} (h1 : IdLt a b) (h2 : IdLe b c) : IdLt a c := by
  rcases h2 with h2 | rfl
  · exact h1.trans h2
  · exact h1

theorem IdLe.trans_lt {a b c : EventId} (h1 : IdLe a b) (h2 : IdLt b c) : IdLt a c := by
  rcases h1 with h1 | rfl
  · exact h1.trans h2
  · exact h2

end Spec

theorem Event.gt_iff {a b : Event} : a.gt b = true ↔ Newer a b := by
  unfold Event.gt Newer
  split_ifs with h1 h2 h3 h4
  · simp [h1, IdLt.irrefl]
  · exact absurd (by rw [h1]) h2
  · exact EventId.lt_iff
  · exact Timestamp.lt_iff
  · simp at h4; simp [h4, TimeLt.irrefl]

end HatEvent
