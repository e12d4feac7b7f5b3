import Verif.Spec.Time
import Verif.Proof.Event
import Mathlib.Tactic.NormNum
import Mathlib.Tactic.Positivity
import Mathlib.Tactic.FieldSimp

/-! Lemmas about timestamp arithmetic. -/

namespace HatEvent
open Spec

theorem rat_floor_le (q : ℚ) : (q.floor : ℚ) ≤ q := by
  exact Int.floor_le q

theorem rat_lt_floor (q : ℚ) : q < q.floor + 1 := by
  exact Int.lt_floor_add_one q

theorem pyInt_nonneg {q : ℚ} (h : 0 ≤ q) : (pyInt q : ℚ) ≤ q ∧ q < pyInt q + 1 := by
  unfold pyInt
  rw [if_neg (by linarith)]
  exact ⟨rat_floor_le q, rat_lt_floor q⟩

theorem pyInt_neg {q : ℚ} (h : q < 0) : q ≤ pyInt q ∧ (pyInt q : ℚ) < q + 1 := by
  unfold pyInt
  rw [if_pos h]
  have h1 := rat_floor_le (-q)
  have h2 := rat_lt_floor (-q)
  push_cast
  constructor <;> linarith

theorem int_eq_of_abs_lt {a b : ℤ} (h1 : (a : ℚ) < b + 1) (h2 : (b : ℚ) < a + 1) : a = b := by
  have h1' : a < b + 1 := by exact_mod_cast h1
  have h2' : b < a + 1 := by exact_mod_cast h2
  omega

theorem pyRound_eq {q : ℚ} {k : ℤ} (h1 : q - k < 1 / 2) (h2 : k - q < 1 / 2) : pyRound q = k := by
  have f1 := rat_floor_le q
  have f2 := rat_lt_floor q
  unfold pyRound
  simp only
  split_ifs with c1 c2 c3
  · exact int_eq_of_abs_lt (by linarith) (by linarith)
  · exact int_eq_of_abs_lt (by push_cast; linarith) (by push_cast; linarith)
  · exfalso
    have e : q = q.floor + 1 / 2 := by linarith
    have : (k : ℚ) < q.floor + 1 := by linarith
    have : (q.floor : ℚ) < k := by linarith
    have a : k < q.floor + 1 := by exact_mod_cast ‹(k : ℚ) < q.floor + 1›
    have b : q.floor < k := by exact_mod_cast ‹(q.floor : ℚ) < k›
    omega
  · exfalso
    have e : q = q.floor + 1 / 2 := by linarith
    have a : k < q.floor + 1 := by
      have : (k : ℚ) < q.floor + 1 := by linarith
      exact_mod_cast this
    have b : q.floor < k := by
      have : (q.floor : ℚ) < k := by linarith
      exact_mod_cast this
    omega

theorem pyRound_near (q : ℚ) : |(pyRound q : ℚ) - q| ≤ 1 / 2 := by
  have f1 := rat_floor_le q
  have f2 := rat_lt_floor q
  unfold pyRound
  simp only
  rw [abs_le]
  split_ifs with c1 c2 c3 <;> push_cast <;> constructor <;> linarith

theorem pyRound_tie (m : ℤ) : pyRound (m + 1 / 2) = if m % 2 = 0 then m else m + 1 := by
  have hf : Rat.floor ((m : ℚ) + 1 / 2) = m := by
    have f1 := rat_floor_le ((m : ℚ) + 1 / 2)
    have f2 := rat_lt_floor ((m : ℚ) + 1 / 2)
    exact int_eq_of_abs_lt (by linarith) (by linarith)
  unfold pyRound
  simp only [hf]
  rw [if_neg (by linarith), if_neg (by linarith)]

theorem double_bound {fl : ℚ → ℚ} (h : IsDouble fl) {x B : ℚ} (hx : |x| ≤ B) :
    |fl x - x| ≤ B / 2 ^ 53 + 1 / 2 ^ 200 := by
  refine (h.error x).trans ?_
  gcongr

theorem normal_unique {a b : Timestamp} (ha : Normal a) (hb : Normal b) (h : micros a = micros b) :
    a = b := by
  unfold Normal micros at *
  exact Timestamp.ext' (by omega) (by omega)

end HatEvent
