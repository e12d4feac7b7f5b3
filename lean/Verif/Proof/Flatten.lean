import Verif.Proof.Schedule

/-!
# Schedules of lists of actions
-/

namespace HatEvent
open Spec

/-- `acts` does the actions of `b 0`, `b 1`, … one after the other, and those of `b n` from time `f n` on. -/
structure Flat {α : Type} (b : Nat → List α) (acts : Nat → α) (f : Nat → Nat) : Prop where
  zero : f 0 = 0
  succ : ∀ n, f (n + 1) = f n + (b n).length
  acts : ∀ n j (h : j < (b n).length), acts (f n + j) = (b n)[j]
  at_ : ∀ i, ∃ n j, j < (b n).length ∧ i = f n + j

/-- The beginning of each list. -/
def flatStart {α : Type} (b : Nat → List α) : Nat → Nat
  | 0 => 0
  | n + 1 => flatStart b n + (b n).length

theorem flatStart_le {α : Type} (b : Nat → List α) {m n : Nat} (h : m ≤ n) : flatStart b m ≤ flatStart b n := by
  induction n, h using Nat.le_induction with
  | base => exact Nat.le_refl _
  | succ n _ ih => exact Nat.le_trans ih (Nat.le_add_right _ _)

theorem exists_flat {α : Type} (b : Nat → List α) (hne : ∀ n, b n ≠ []) : ∃ acts f, Flat b acts f := by
  have hat : ∀ i, ∃ n j, j < (b n).length ∧ i = flatStart b n + j := by
    intro i
    induction i with
    | zero => exact ⟨0, 0, List.length_pos_iff.2 (hne 0), rfl⟩
    | succ i ih =>
      obtain ⟨n, j, hj, rfl⟩ := ih
      by_cases h : j + 1 < (b n).length
      · exact ⟨n, j + 1, h, rfl⟩
      · exact ⟨n + 1, 0, List.length_pos_iff.2 (hne _), by simp only [flatStart]; omega⟩
  have huniq : ∀ {n j n' j'}, j < (b n).length → j' < (b n').length → flatStart b n + j = flatStart b n' + j' → n = n' ∧ j = j' := by
    intro n j n' j' h h' he
    have : n = n' := by
      rcases Nat.lt_trichotomy n n' with hl | hl | hl
      · have := flatStart_le b (show n + 1 ≤ n' from hl); simp only [flatStart] at this; omega
      · exact hl
      · have := flatStart_le b (show n' + 1 ≤ n from hl); simp only [flatStart] at this; omega
    subst this
    exact ⟨rfl, by omega⟩
  choose N J hJ hI using hat
  refine ⟨fun i => (b (N i))[J i]'(hJ i), flatStart b, rfl, fun _ => rfl, fun n j h => ?_, fun i => ⟨N i, J i, hJ i, hI i⟩⟩
  obtain ⟨h1, h2⟩ := huniq (hJ (flatStart b n + j)) h (hI _).symm
  simp only [h2]
  congr 1
  rw [h1]

namespace Flat
variable {α σ : Type} {b : Nat → List α} {acts : Nat → α} {f : Nat → Nat}

theorem le (h : Flat b acts f) {m n : Nat} (hmn : m ≤ n) : f m ≤ f n := by
  induction n, hmn using Nat.le_induction with
  | base => exact Nat.le_refl _
  | succ n _ ih => rw [h.succ]; exact Nat.le_trans ih (Nat.le_add_right _ _)

theorem ge (h : Flat b acts f) (hne : ∀ n, b n ≠ []) (n : Nat) : n ≤ f n := by
  induction n with
  | zero => exact Nat.zero_le _
  | succ n ih =>
    have := List.length_pos_iff.2 (hne n)
    rw [h.succ]
    omega

/-- The state at each time. -/
theorem run (h : Flat b acts f) {step : σ → α → σ} {t : Nat → σ} (ht : ∀ n, t (n + 1) = (b n).foldl step (t n)) (n j : Nat)
    (hj : j ≤ (b n).length) : (upTo acts (f n + j)).foldl step (t 0) = ((b n).take j).foldl step (t n) := by
  have inner : ∀ n, (upTo acts (f n)).foldl step (t 0) = t n → ∀ j, j ≤ (b n).length →
      (upTo acts (f n + j)).foldl step (t 0) = ((b n).take j).foldl step (t n) := by
    intro n hn j
    induction j with
    | zero => intro _; simpa using hn
    | succ j ih =>
      intro hj
      rw [← Nat.add_assoc, upTo_succ, List.foldl_append, ih (by omega), h.acts n j (by omega)]
      rw [List.take_succ, List.foldl_append, List.getElem?_eq_getElem (by omega)]
      rfl
  have base : ∀ n, (upTo acts (f n)).foldl step (t 0) = t n := by
    intro n
    induction n with
    | zero => rw [h.zero]; rfl
    | succ n ih => rw [h.succ, inner n ih _ (Nat.le_refl _), List.take_length, ht]
  exact inner n (base n) j hj

theorem run_at (h : Flat b acts f) {step : σ → α → σ} {t : Nat → σ} (ht : ∀ n, t (n + 1) = (b n).foldl step (t n)) (n : Nat) :
    (upTo acts (f n)).foldl step (t 0) = t n := by
  simpa using h.run ht n 0 (Nat.zero_le _)

/-- What is in the lists again and again is done again and again. -/
theorem often (h : Flat b acts f) (hne : ∀ n, b n ≠ []) {P : α → Prop} (hp : ∀ n, ∃ m, n ≤ m ∧ ∃ a ∈ b m, P a) :
    ∀ n, ∃ m, n ≤ m ∧ P (acts m) := by
  intro n
  obtain ⟨m, hm, a, ha, hpa⟩ := hp n
  obtain ⟨j, hj, rfl⟩ := List.mem_iff_getElem.1 ha
  exact ⟨f m + j, by have := h.ge hne m; omega, by rw [h.acts m j hj]; exact hpa⟩

end Flat
end HatEvent
