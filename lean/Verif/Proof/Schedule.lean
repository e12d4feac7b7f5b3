import Verif.Spec.Schedule
import Mathlib.Data.List.Basic
import Mathlib.Data.Nat.Init

/-!
# Endless schedules
-/

namespace HatEvent
open Spec

theorem upTo_succ {α : Type} (acts : Nat → α) (n : Nat) : upTo acts (n + 1) = upTo acts n ++ [acts n] := by
  simp [upTo, List.range_succ]

theorem upTo_prefix {α : Type} (acts : Nat → α) {m n : Nat} (h : m ≤ n) : upTo acts m <+: upTo acts n := by
  induction n, h using Nat.le_induction with
  | base => exact List.prefix_rfl
  | succ n _ ih => rw [upTo_succ]; exact ih.trans (List.prefix_append _ _)

theorem mem_upTo {α : Type} (acts : Nat → α) (n : Nat) : acts n ∈ upTo acts (n + 1) := by
  rw [upTo_succ]; simp

theorem of_mem_upTo {α : Type} {acts : Nat → α} {n : Nat} {a : α} (h : a ∈ upTo acts n) : ∃ m, m < n ∧ acts m = a := by
  unfold upTo at h
  obtain ⟨m, h1, h2⟩ := List.mem_map.1 h
  exact ⟨m, List.mem_range.1 h1, h2⟩

theorem often_imp {α β : Type} {acts : Nat → α} {acts' : Nat → β} {a : α} {P : β → Prop} (h : Often acts a)
    (hp : ∀ n, acts n = a → P (acts' n)) : ∀ n, ∃ m, n ≤ m ∧ P (acts' m) := by
  intro n
  obtain ⟨m, h1, h2⟩ := h n
  exact ⟨m, h1, hp m h2⟩

theorem often_shift {α : Type} {acts : Nat → α} {a : α} (h : Often acts a) (N : Nat) : Often (fun n => acts (N + n)) a := by
  intro n
  obtain ⟨m, h1, h2⟩ := h (N + n)
  exact ⟨m - N, by omega, by show acts (N + (m - N)) = a; rw [show N + (m - N) = m by omega]; exact h2⟩

/-- Actions that are done again and again lead to the end, if each change brings it nearer and always one of them does. -/
theorem settle_measure {σ α : Type} {acts : Nat → α} {s : Nat → σ} {f : σ → Nat} {same : σ → σ → Prop} {helps : α → σ → Prop} {N : Nat}
    (hrefl : ∀ x, same x x) (htrans : ∀ x y z, same x y → same y z → same x z) (hf : ∀ x y, same x y → f y = f x)
    (hstep : ∀ n, N ≤ n → same (s n) (s (n + 1)) ∨ f (s (n + 1)) < f (s n))
    (hkeep : ∀ a x y, same x y → helps a x → helps a y)
    (hdoes : ∀ n, N ≤ n → helps (acts n) (s n) → f (s (n + 1)) < f (s n))
    (hgo : ∀ n, N ≤ n → f (s n) ≠ 0 → ∃ a, helps a (s n) ∧ Often acts a) : ∃ m, N ≤ m ∧ f (s m) = 0 := by
  have key : ∀ k n, N ≤ n → f (s n) = k → ∃ m, N ≤ m ∧ f (s m) = 0 := by
    intro k
    induction k using Nat.strong_induction_on with
    | _ k ih =>
      intro n hn hk
      by_cases h0 : k = 0
      · exact ⟨n, hn, hk.trans h0⟩
      · obtain ⟨a, ha, hoft⟩ := hgo n hn (by omega)
        obtain ⟨m, hm, hma⟩ := hoft n
        have : ∀ j, n ≤ j → j ≤ m → same (s n) (s j) ∨ ∃ i, N ≤ i ∧ f (s i) < k := by
          intro j hj
          induction j, hj using Nat.le_induction with
          | base => exact fun _ => .inl (hrefl _)
          | succ j hj ihj =>
            intro hjm
            rcases ihj (by omega) with h | h
            · rcases hstep j (by omega) with h' | h'
              · exact .inl (htrans _ _ _ h h')
              · exact .inr ⟨j + 1, by omega, by rw [hf _ _ h, hk] at h'; exact h'⟩
            · exact .inr h
        rcases this m hm (Nat.le_refl _) with h | ⟨i, hi, hlt⟩
        · have h1 := hdoes m (by omega) (by rw [hma]; exact hkeep a _ _ h ha)
          rw [hf _ _ h, hk] at h1
          exact ih _ h1 (m + 1) (by omega) rfl
        · exact ih _ hlt i hi rfl
  exact key _ N (Nat.le_refl _) rfl

end HatEvent
