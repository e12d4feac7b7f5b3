import Verif.Proof.Event

/-!
# C10: natural ordering of events
-/

namespace HatEvent
open Spec

/-- C10: `a > b` says that `a` is newer in the documented natural order. -/
theorem C10_gt_is_newer (a b : Event) : a.gt b = true ↔ Newer a b := Event.gt_iff

/-- C10: `>` is irreflexive. -/
theorem C10_irreflexive (a : Event) : a.gt a = false := by simp [Event.gt]

/-- C10: `>` is asymmetric. -/
theorem C10_asymmetric (a b : Event) (h : a.gt b = true) : b.gt a = false := by
  rw [Bool.eq_false_iff]
  intro h'
  rw [Event.gt_iff] at h h'
  unfold Newer at h h'
  split_ifs at h h' with h1 h2
  · exact IdLt.asymm h h'
  · exact absurd h1.symm h2
  · rename_i h2; exact absurd h2.symm h1
  · exact TimeLt.asymm h h'

example : ∃ a b : Event, a.gt b = true :=
  ⟨⟨⟨1, 2, 1⟩, [], ⟨0, 0⟩, none, none⟩, ⟨⟨1, 1, 5⟩, [], ⟨9, 0⟩, none, none⟩, by decide⟩

/-- C10: events of one server are totally ordered by identifier. -/
theorem C10_server_total (a b : Event) (hs : a.id.server = b.id.server) (hne : a.id ≠ b.id) :
    a.gt b = true ∨ b.gt a = true := by
  rw [Event.gt_iff, Event.gt_iff]
  unfold Newer
  rw [if_pos hs, if_pos hs.symm]
  rcases id_trichotomy a.id b.id with h | h | h
  · exact .inr h
  · exact absurd h hne
  · exact .inl h

example : ∃ a b : Event, a.id.server = b.id.server ∧ a.id ≠ b.id :=
  ⟨⟨⟨1, 2, 1⟩, [], ⟨0, 0⟩, none, none⟩, ⟨⟨1, 1, 5⟩, [], ⟨9, 0⟩, none, none⟩, rfl, by decide⟩

/-- C10: with per server monotone timestamps a newer event has no earlier
timestamp. -/
theorem C10_refines_time {S : Event → Prop} (hm : Monotone S) {a b : Event} (ha : S a) (hb : S b)
    (h : a.gt b = true) : TimeLe b.timestamp a.timestamp := by
  rw [Event.gt_iff] at h
  unfold Newer at h
  split_ifs at h with hs
  · exact hm b a hb ha hs.symm (.inl h)
  · exact .inl h

/-- C10: with per server monotone timestamps `>` is transitive. -/
theorem C10_transitive {S : Event → Prop} (hm : Monotone S) {a b c : Event}
    (ha : S a) (hb : S b) (hc : S c) (hab : a.gt b = true) (hbc : b.gt c = true) :
    a.gt c = true := by
  have t1 := C10_refines_time hm ha hb hab
  have t2 := C10_refines_time hm hb hc hbc
  rw [Event.gt_iff] at *
  unfold Newer at *
  split_ifs at hab hbc with h1 h2 h2
  · rw [if_pos (h1.trans h2)]
    exact hbc.trans hab
  · rw [if_neg (by rw [h1]; exact h2)]
    exact hbc.trans_le t1
  · rw [if_neg (by rw [← h2]; exact h1)]
    exact t2.trans_lt hab
  · have ht : TimeLt c.timestamp a.timestamp := hbc.trans hab
    split_ifs with h3
    · by_contra hn
      exact absurd (hm a c ha hc h3 (not_idLt.1 hn)) (not_timeLe.2 ht)
    · exact ht

/-- Three events of two servers, monotone per server. -/
def exEvents : List Event :=
  [⟨⟨1, 1, 1⟩, ["a"], ⟨0, 0⟩, none, none⟩, ⟨⟨2, 7, 1⟩, ["a"], ⟨3, 0⟩, none, none⟩,
   ⟨⟨1, 2, 1⟩, ["a"], ⟨5, 0⟩, none, none⟩]

example : Monotone (· ∈ exEvents) := by
  intro a b ha hb
  simp only [exEvents, List.mem_cons, List.not_mem_nil, or_false] at ha hb
  rcases ha with rfl | rfl | rfl <;> rcases hb with rfl | rfl | rfl <;>
    simp [IdLe, IdLt, TimeLe, TimeLt]
example : (exEvents[2]).gt exEvents[1] = true ∧ (exEvents[1]).gt exEvents[0] = true := by decide

/-- C10: `<` is `>` swapped, except for events of different servers with equal
timestamps, where `<` always holds. -/
theorem C10_lt_iff (a b : Event) :
    a.lt b = true ↔
      b.gt a = true ∨ (a.id.server ≠ b.id.server ∧ a.timestamp = b.timestamp) := by
  unfold Event.lt Event.gt
  by_cases h1 : a.id = b.id
  · simp [h1]
  · by_cases h2 : a.id.server = b.id.server
    · simp [h1, Ne.symm h1, h2]
    · by_cases h3 : a.timestamp = b.timestamp
      · simp [h1, h2, h3]
      · simp [h1, Ne.symm h1, h2, Ne.symm h2, h3, Ne.symm h3]

/-- `<` alone is no order: two different events can each be smaller than the
other. -/
theorem C10_lt_asymmetric_refuted : ∃ a b : Event, a.lt b = true ∧ b.lt a = true :=
  ⟨⟨⟨1, 1, 1⟩, [], ⟨0, 0⟩, none, none⟩, ⟨⟨2, 1, 1⟩, [], ⟨0, 0⟩, none, none⟩, by decide⟩

/-- Without monotone timestamps `>` is not transitive (and has cycles). -/
theorem C10_transitive_refuted : ∃ a b c : Event,
    a.gt b = true ∧ b.gt c = true ∧ c.gt a = true :=
  ⟨⟨⟨1, 1, 1⟩, [], ⟨9, 0⟩, none, none⟩, ⟨⟨2, 1, 1⟩, [], ⟨5, 0⟩, none, none⟩,
   ⟨⟨1, 2, 1⟩, [], ⟨0, 0⟩, none, none⟩, by decide⟩

end HatEvent
