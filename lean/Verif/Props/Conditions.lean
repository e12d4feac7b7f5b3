import Verif.Proof.Conditions

/-!
# C47: conditions
-/

namespace HatEvent
open Spec

/-- The configuration's subscriptions are obtainable. -/
def ObtainableConf (conf : List (Sub × Condition)) : Prop := ∀ s c, (s, c) ∈ conf → Obtainable s

theorem satisfiesAll_iff {conf : List (Sub × Condition)} {found : List Nat} {e : Event}
    (h : ∀ i, i ∈ found ↔ Registered (condOps conf) i e.type) :
    conditionsMatch conf found e = true ↔ SatisfiesAll conf e := by
  rw [conditionsMatch_iff]
  constructor
  · intro hf s c hm hs
    obtain ⟨i, hi⟩ := List.mem_iff_getElem?.1 hm
    exact hf i ((h i).2 (registered_condOps.2 ⟨s, c, hi, hs⟩)) s c hi
  · intro ha i hi s c hc
    obtain ⟨s', c', hc', hs⟩ := registered_condOps.1 ((h i).1 hi)
    rw [hc] at hc'
    cases hc'
    exact ha s c (List.mem_of_getElem? hc) hs

/-- C47 with the C tree collection. -/
theorem C47_conditions_c (conf : List (Sub × Condition)) (h : ObtainableConf conf) :
    ∃ coll, conditionsC conf = .ok coll ∧
      ∀ e, conditionsMatch conf (coll.get e.type) e = true ↔ SatisfiesAll conf e := by
  obtain ⟨c, h1, h2⟩ := C09_ctree (condOps conf) (condOps_obtainable h)
  exact ⟨c, h1, fun e => satisfiesAll_iff (h2 e.type).2⟩

/-- C47 with the Python tree collection. -/
theorem C47_conditions_py (conf : List (Sub × Condition)) (h : ObtainableConf conf) :
    ∃ coll, conditionsPy conf = .ok coll ∧
      ∀ e, conditionsMatch conf (coll.get e.type) e = true ↔ SatisfiesAll conf e := by
  obtain ⟨c, h1, h2⟩ := C09_pytree_partial (condOps conf) (condOps_obtainable h) (condOps_noReAdd conf)
  exact ⟨c, h1, fun e => satisfiesAll_iff (h2 e.type).2⟩

/-- C47 for a single condition. -/
theorem C47_condition (c : Condition) (e : Event) : c.matches e = true ↔ Satisfies e c :=
  condition_iff c e

/-- Example configuration: events of type `a` must have a JSON payload with a
number at `x`, or a null document. -/
def exConditions : List (Sub × Condition) :=
  [(exA, .any [.json (some (.name "x")) (some .number) none, .json none (some .null) none])]

example : ObtainableConf exConditions := by
  intro s c h
  simp only [exConditions, List.mem_singleton, Prod.mk.injEq] at h
  rw [h.1]
  exact exA_obtainable

example : SatisfiesAll exConditions
    ⟨⟨1, 1, 1⟩, ["a"], ⟨0, 0⟩, none, some (.json (.obj [("x", .int 3)]))⟩ := by
  intro s c h _
  simp only [exConditions, List.mem_singleton, Prod.mk.injEq] at h
  rw [h.2]
  rw [← C47_condition]
  decide

example : ¬ SatisfiesAll exConditions ⟨⟨1, 1, 1⟩, ["a"], ⟨0, 0⟩, none, none⟩ := by
  intro h
  have := h exA _ (by simp [exConditions]; rfl) (by decide)
  rw [← C47_condition] at this
  exact absurd this (by decide)

end HatEvent
