import Verif.Proof.Collection
import Verif.Props.Subscription

/-!
# C09: event type collections

After any history of additions and removals, looking up an event type yields
exactly the values registered with a subscription matching it, each once.
-/

namespace HatEvent
open Spec

variable {V : Type} [DecidableEq V]

theorem Spec.ObtainableOps.valid {ops : List (CollOp V)} (h : ObtainableOps ops) :
    ∀ s v, .add s v ∈ ops → s.Valid := fun s v hm => (h s v hm).valid

/-- C09 for the list implementation, every history. -/
theorem C09_list (ops : List (CollOp V)) (h : ObtainableOps ops) :
    ∃ c, PyList.run ops = .ok c ∧ ∀ e, (c.get e).Nodup ∧ ∀ v, v ∈ c.get e ↔ Registered ops v e := by
  obtain ⟨c, h1, h2, _, h4⟩ := PyList.run_inv ops [] ⟨[]⟩ h.valid (by
    refine ⟨by simp [Dict.keys_nil], by simp, fun v e => ?_⟩
    simp only [Dict.get_nil]
    simp [Registered, registeredWith_nil])
  refine ⟨c, h1, fun e => ⟨?_, fun v => ?_⟩⟩
  · unfold PyList.get
    have : (Dict.keys c.values).Nodup := h2
    unfold Dict.keys at this
    exact this.sublist (List.Sublist.map _ List.filter_sublist)
  · rw [List.nil_append] at h4
    rw [h4]
    unfold PyList.get
    constructor
    · intro hv
      obtain ⟨p, hp, rfl⟩ := List.mem_map.1 hv
      rw [List.mem_filter] at hp
      exact ⟨p.2, Dict.get_of_mem h2 hp.1, hp.2⟩
    · rintro ⟨s, hs, hm⟩
      exact List.mem_map.2 ⟨(v, s), List.mem_filter.2 ⟨Dict.mem_of_get hs, hm⟩, rfl⟩

/-- C09 for the C tree implementation, every history: no removal touches a
freed cell, and the lookup is exact. -/
theorem C09_ctree (ops : List (CollOp V)) (h : ObtainableOps ops) :
    ∃ c, CTree.run ops = .ok c ∧ ∀ e, (c.get e).Nodup ∧ ∀ v, v ∈ c.get e ↔ Registered ops v e := by
  obtain ⟨c, h1, h2, h3⟩ := CTree.run_inv ops [] _ h.valid CTree.inv_empty
  refine ⟨c, h1, fun e => ⟨nodup_toSet _, fun v => ?_⟩⟩
  rw [List.nil_append] at h3
  rw [CTree.get, mem_toSet, TNode.mem_get e c.root v h2.ok, registered_iff h.valid]
  constructor
  · rintro ⟨q, a, hw, hc, hm⟩
    exact ⟨q, (h3 v q).1 ⟨a, (h2.cells v q a hw).1 hc⟩, hm⟩
  · rintro ⟨q, hr, hm⟩
    obtain ⟨a, ha⟩ := (h3 v q).2 hr
    have hw := (h2.bound v q a ha).1
    exact ⟨q, a, hw, (h2.cells v q a hw).2 ha, hm⟩

/-- C09 for the Python tree, the half that holds for every history: no
operation raises, and only registered values are found, each once (missing:
all registered values are found, which is false in general, see
`C09_pytree_refuted`). -/
theorem C09_pytree_sound_partial (ops : List (CollOp V)) (h : ObtainableOps ops) :
    ∃ c, PyTree.run ops = .ok c ∧ ∀ e, (c.get e).Nodup ∧ ∀ v, v ∈ c.get e → Registered ops v e := by
  obtain ⟨c, h1, h2, h3, _⟩ := PyTree.run_inv ops [] _ h.valid PyTree.inv_empty
  refine ⟨c, h1, fun e => ⟨nodup_toSet _, fun v => ?_⟩⟩
  rw [List.nil_append] at h3
  rw [PyTree.get, mem_toSet, PNode.mem_get, registered_iff h.valid]
  rintro ⟨q, hc, hm⟩
  exact ⟨q, h3 v q ((h2.1 v q).1 hc), hm⟩

/-- C09 for the Python tree, both directions, for histories in which no value
is added again while it is registered (missing: the other histories). -/
theorem C09_pytree_partial (ops : List (CollOp V)) (h : ObtainableOps ops)
    (hno : NoReAdd ops) :
    ∃ c, PyTree.run ops = .ok c ∧ ∀ e, (c.get e).Nodup ∧ ∀ v, v ∈ c.get e ↔ Registered ops v e := by
  obtain ⟨c, h1, h2, h3, h4⟩ := PyTree.run_inv ops [] _ h.valid PyTree.inv_empty
  refine ⟨c, h1, fun e => ⟨nodup_toSet _, fun v => ?_⟩⟩
  rw [List.nil_append] at h3 h4
  rw [PyTree.get, mem_toSet, PNode.mem_get, registered_iff h.valid]
  constructor
  · rintro ⟨q, hc, hm⟩
    exact ⟨q, h3 v q ((h2.1 v q).1 hc), hm⟩
  · rintro ⟨q, hr, hm⟩
    exact ⟨q, (h2.1 v q).2 (h4 hno v q hr), hm⟩

/-- A subscription to `a`. -/
def exA : Sub := .py (.mk false [("a", .mk true [])])

/-- A subscription to `a` and `b`. -/
def exAB : Sub := .py (.mk false [("a", .mk true []), ("b", .mk true [])])

theorem exA_obtainable : Obtainable exA := 
  .create (i := .py) (qs := [["a"]]) (by unfold NulFree; decide) rfl
theorem exAB_obtainable : Obtainable exAB := 
  .create (i := .py) (qs := [["a"], ["b"]]) (by unfold NulFree; decide) rfl

/-- C09 is false for the Python tree: adding a value again with a subscription
that shares a query type with the previous one drops the rest of the new
subscription. -/
theorem C09_pytree_refuted :
    ∃ (ops : List (CollOp Nat)) (v : Nat) (e : EventType) (c : PyTree Nat), ObtainableOps ops ∧
      Registered ops v e ∧ PyTree.run ops = .ok c ∧ v ∉ c.get e := by
  refine ⟨[.add exA 1, .add exAB 1], 1, ["b"], _, ?_, ⟨[.add exA 1], exAB, [], rfl, by simp, rfl⟩,
    rfl, by decide⟩
  intro s v hm
  simp only [List.mem_cons, CollOp.add.injEq, List.not_mem_nil, or_false] at hm
  rcases hm with ⟨rfl, _⟩ | ⟨rfl, _⟩
  · exact exA_obtainable
  · exact exAB_obtainable

/-! A history meeting the hypotheses: two values, one removed and added again. -/

/-- Example history. -/
def exOps : List (CollOp Nat) := [.add exA 1, .add exAB 2, .remove 1, .add exAB 1]

example : ObtainableOps exOps := by
  intro s v hm
  simp only [exOps, List.mem_cons, CollOp.add.injEq, List.not_mem_nil, or_false, reduceCtorEq,
    false_or] at hm
  rcases hm with ⟨rfl, _⟩ | ⟨rfl, _⟩ | ⟨rfl, _⟩
  · exact exA_obtainable
  · exact exAB_obtainable
  · exact exAB_obtainable

example : NoReAdd exOps := by
  rintro pre s v post h ⟨pre', t, post', rfl, hr, _⟩
  simp only [exOps] at h
  match pre', post', h with
  | [], [], h => simp at h; grind
  | [], [x], h => simp at h
  | [], [x, y], h => simp at h; grind
  | [], x :: y :: z :: w, h => simp at h
  | [x], [], h => simp at h
  | [x], [y], h => simp at h; grind
  | [x], y :: z :: w, h => simp at h
  | [x, y], [], h => simp at h
  | [x, y], z :: l, h => simp at h
  | [x, y, z], l, h => simp at h
  | x :: y :: z :: w :: l, l', h => simp at h

example : (CTree.run exOps).toOption.map (·.get ["b"]) = some [1, 2] := by decide
example : (PyTree.run exOps).toOption.map (·.get ["b"]) = some [1, 2] := by decide
example : (PyList.run exOps).toOption.map (·.get ["b"]) = some [2, 1] := by decide

end HatEvent
