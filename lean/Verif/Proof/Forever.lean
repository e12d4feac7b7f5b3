import Verif.Proof.Schedule

/-!
# Schedules that repeat some actions

Used by examples of theorems about endless schedules.
-/

namespace HatEvent
open Spec

/-- A history, and then some actions over and over again. -/
def exForever {α : Type} (pre : List α) (cycle : List α) (hc : cycle ≠ []) (n : Nat) : α :=
  if h : n < pre.length then pre[n]
  else cycle[(n - pre.length) % cycle.length]'(Nat.mod_lt _ (List.length_pos_of_ne_nil hc))

section
variable {α : Type} {pre cycle : List α} {hc : cycle ≠ []}

theorem exForever_after (k : Nat) : exForever pre cycle hc (pre.length + k) ∈ cycle := by
  unfold exForever
  rw [dif_neg (by omega)]
  exact List.getElem_mem _

theorem exForever_upTo {n : Nat} (h : n ≤ pre.length) : upTo (exForever pre cycle hc) n = pre.take n := by
  induction n with
  | zero => rfl
  | succ n ih =>
    rw [upTo_succ, ih (by omega), List.take_succ, List.getElem?_eq_getElem (by omega)]
    simp [exForever, show n < pre.length by omega]

theorem exForever_more (k : Nat) :
    ∃ more, upTo (exForever pre cycle hc) (pre.length + k) = pre ++ more ∧ ∀ a ∈ more, a ∈ cycle := by
  induction k with
  | zero => exact ⟨[], by rw [Nat.add_zero, exForever_upTo (Nat.le_refl _)]; simp, by simp⟩
  | succ k ih =>
    obtain ⟨more, h1, h2⟩ := ih
    refine ⟨more ++ [exForever pre cycle hc (pre.length + k)], ?_, ?_⟩
    · rw [show pre.length + (k + 1) = pre.length + k + 1 by omega, upTo_succ, h1, List.append_assoc]
    · intro a ha
      rcases List.mem_append.1 ha with ha | ha
      · exact h2 a ha
      · rw [List.mem_singleton.1 ha]; exact exForever_after k

theorem exForever_mem {n : Nat} {a : α} (h : a ∈ upTo (exForever pre cycle hc) n) : a ∈ pre ∨ a ∈ cycle := by
  rcases Nat.le_total n pre.length with hn | hn
  · rw [exForever_upTo hn] at h
    exact .inl (List.mem_of_mem_take h)
  · obtain ⟨k, rfl⟩ := Nat.exists_eq_add_of_le hn
    obtain ⟨more, h1, h2⟩ := exForever_more (pre := pre) (cycle := cycle) (hc := hc) k
    rw [h1] at h
    exact (List.mem_append.1 h).imp_right (h2 a)

theorem exForever_often {a : α} (h : a ∈ cycle) : Often (exForever pre cycle hc) a := by
  intro n
  obtain ⟨i, hi, rfl⟩ := List.getElem_of_mem h
  refine ⟨pre.length + (n * cycle.length + i), ?_, ?_⟩
  · have : n ≤ n * cycle.length := Nat.le_mul_of_pos_right n (by omega)
    omega
  · unfold exForever
    rw [dif_neg (by omega)]
    have : (pre.length + (n * cycle.length + i) - pre.length) % cycle.length = i := by
      rw [Nat.add_sub_cancel_left, Nat.add_comm, Nat.add_mul_mod_self_right, Nat.mod_eq_of_lt hi]
    simp only [this]

/-- If the actions change nothing, only prefixes of the history matter. -/
theorem exForever_states {σ : Type} {step : σ → α → σ} {s : σ} (hfix : ∀ a ∈ cycle, step (pre.foldl step s) a = pre.foldl step s)
    (n : Nat) : ∃ h, h <+: pre ∧ (upTo (exForever pre cycle hc) n).foldl step s = h.foldl step s ∧
      h.length = min n pre.length := by
  rcases Nat.le_total n pre.length with hn | hn
  · exact ⟨pre.take n, List.take_prefix _ _, by rw [exForever_upTo hn], by simp⟩
  · obtain ⟨k, rfl⟩ := Nat.exists_eq_add_of_le hn
    obtain ⟨more, h1, h2⟩ := exForever_more (pre := pre) (cycle := cycle) (hc := hc) k
    refine ⟨pre, List.prefix_rfl, ?_, by omega⟩
    rw [h1, List.foldl_append]
    clear h1
    induction more with
    | nil => rfl
    | cons a more ih => rw [List.foldl_cons, hfix a (h2 a (by simp))]; exact ih fun b hb => h2 b (by simp [hb])

end

end HatEvent
