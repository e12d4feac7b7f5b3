import Verif.Proof.CTreeHeapInv
import Verif.Props.Collection

/-!
# C65: memory of the C tree collection

For every history of additions and removals, and whatever allocations fail: `_ctree.c` never uses memory that is not allocated, never
frees twice, and never follows a wrong pointer; a failed addition raises an exception and leaves the other registrations as they are; values are
referenced only while they are registered; and when the collection is destroyed all memory and all references are given back.
-/

namespace HatEvent
open Spec

variable {V : Type} [DecidableEq V]

/-- C65: safety, lookup, references and destruction, for every history and every pattern of failing allocations. -/
theorem C65 (ops : List (CollOp V)) (fails : List Bool) (h : ObtainableOps ops) :
    (∃ m, HeapTree.create (CMem.empty fails : CMem V) = .ok (none, m) ∧ ∀ a, m.objs a = none) ∨
    ∃ c0 m0, HeapTree.create (CMem.empty fails : CMem V) = .ok (some c0, m0) ∧
      ∃ c flags, HeapTree.run ops c0 = .ok (c, flags) ∧ flags.length = ops.length ∧
        (∀ e, ∃ vs, c.get e = .ok vs ∧ vs.Nodup ∧ ∀ v,
          (v ∈ vs → Registered ops v e) ∧ (Registered (succeeded ops flags) v e → v ∈ vs)) ∧
        (∀ v, 0 ≤ c.mem.counts v ∧ (c.mem.counts v ≠ 0 → RegisteredWith (fun _ => True) ops v)) ∧
        ∃ m, c.destroy = .ok m ∧ (∀ a, m.objs a = none) ∧ ∀ v, m.counts v = 0 := by
  have hE : Holds (CMem.empty fails : CMem V) 0 := by
    refine ⟨by simp, ?_, by simp, by simp [CMem.empty]⟩
    intro x p
    simp [CMem.empty]
  unfold HeapTree.create
  rcases createTree_ok hE with ⟨m, e1, _, h1⟩ | ⟨m, a, e1, ha, c1, h1⟩
  · left
    refine ⟨m, ?_, ?_⟩
    · simp only [e1, ub_bind, if_true]
      rfl
    · intro a
      cases ho : m.objs a with
      | none => rfl
      | some o => exact absurd ((h1.objs a o).1 ho) (by simp)
  · right
    refine ⟨⟨m, a, []⟩, m, ?_, ?_⟩
    · simp only [e1, ub_bind, ha, if_false]
      rfl
    have hI : HInv (⟨m, a, []⟩ : HeapTree V) (ATree.leaf a) [] := by
      refine ⟨⟨rfl, ATree.leaf_ok a, ?_, ?_, rfl, by simp, ?_, ?_, ?_⟩, h1.of_eq (by simp [allObjs])⟩
      · intro v
        show m.counts v = _
        rw [c1, ATree.leaf_hp]
        simp [CObj.refsTo, CMem.empty]
      · intro v
        show m.counts v = _
        rw [c1]
        simp [recsOf, CMem.empty]
      · intro v r hr; simp [recsOf] at hr
      · intro q lp l x v _ hat hx
        rw [ATree.leaf_at a q lp l hat] at hx
        cases hx
      · intro v; simp [recsOf]
    obtain ⟨c, flags, t, D, e2, hl, i2, _, k1, k2⟩ := heap_run_ok ops [] [] _ _ _ h.valid hI
      (by intro v r hr; simp [recsOf] at hr) (by intro v q hr; exact absurd hr registeredWith_nil)
    rw [List.nil_append] at k1 k2
    refine ⟨c, flags, e2, hl, ?_, ?_, destroy_ok i2⟩
    · intro e
      obtain ⟨vs, e3, hn, hv⟩ := get_ok i2 e
      refine ⟨vs, e3, hn, fun v => ⟨fun hm => ?_, fun hr => ?_⟩⟩
      · obtain ⟨r, hr, hq⟩ := (hv v).1 hm
        exact (registered_iff h.valid).2 ⟨r.q, k1 v r hr, hq⟩
      · have hval : ∀ s v, .add s v ∈ succeeded ops flags → s.Valid := by
          intro s v hm
          unfold succeeded at hm
          obtain ⟨p, hp, hp'⟩ := List.mem_map.1 hm
          refine h.valid s v ?_
          rw [← hp']
          exact (List.of_mem_zip (List.mem_filter.1 hp).1).1
        obtain ⟨q, hr, hq⟩ := (registered_iff hval).1 hr
        obtain ⟨r, hr2, rfl⟩ := k2 v q hr
        exact (hv v).2 ⟨r, hr2, hq⟩
    · intro v
      rw [i2.book.recs]
      refine ⟨by omega, fun hne => ?_⟩
      cases hrs : recsOf D v with
      | nil => rw [hrs] at hne; simp at hne
      | cons r rs => exact RegisteredWith.mono (k1 v r (by rw [hrs]; simp)) (fun _ _ _ => trivial)

/-- C65: if no allocation fails, the collection is created, no operation raises an exception, and the lookup is exact. -/
theorem C65_no_failure (ops : List (CollOp V)) (fails : List Bool) (hf : ∀ b ∈ fails, b = false) (h : ObtainableOps ops) :
    ∃ c0 m0 c flags, HeapTree.create (CMem.empty fails : CMem V) = .ok (some c0, m0) ∧ HeapTree.run ops c0 = .ok (c, flags) ∧
      (∀ b ∈ flags, b = true) ∧ ∀ e, ∃ vs, c.get e = .ok vs ∧ vs.Nodup ∧ ∀ v, v ∈ vs ↔ Registered ops v e := by
  have hN : NoFail (CMem.empty fails : CMem V) := ⟨hf, by simp [CMem.empty]⟩
  have hE : Holds (CMem.empty fails : CMem V) 0 := by
    refine ⟨by simp, ?_, by simp, by simp [CMem.empty]⟩
    intro x p
    simp [CMem.empty]
  unfold HeapTree.create
  rcases createTree_ok hE with ⟨m, e1, _, h1⟩ | ⟨m, a, e1, ha, c1, h1⟩
  · exact absurd rfl (createTree_noFail hN e1).1
  · have hN1 := (createTree_noFail hN e1).2
    have hI : HInv (⟨m, a, []⟩ : HeapTree V) (ATree.leaf a) [] := by
      refine ⟨⟨rfl, ATree.leaf_ok a, ?_, ?_, rfl, by simp, ?_, ?_, ?_⟩, h1.of_eq (by simp [allObjs])⟩
      · intro v
        show m.counts v = _
        rw [c1, ATree.leaf_hp]
        simp [CObj.refsTo, CMem.empty]
      · intro v
        show m.counts v = _
        rw [c1]
        simp [recsOf, CMem.empty]
      · intro v r hr; simp [recsOf] at hr
      · intro q lp l x v _ hat hx
        rw [ATree.leaf_at a q lp l hat] at hx
        cases hx
      · intro v; simp [recsOf]
    obtain ⟨c, flags, t, D, e2, hl, i2, k0, k1, k2⟩ := heap_run_ok ops [] [] _ _ _ h.valid hI
      (by intro v r hr; simp [recsOf] at hr) (by intro v q hr; exact absurd hr registeredWith_nil)
    rw [List.nil_append] at k1 k2
    have hs : succeeded ops flags = ops := by
      have hall := k0 hN1
      clear k0 k1 k2 e2 i2
      unfold succeeded
      rw [List.filter_eq_self.2 (fun p hp => hall _ (List.of_mem_zip hp).2), List.map_fst_zip (by omega)]
    rw [hs] at k2
    refine ⟨⟨m, a, []⟩, m, c, flags, ?_, e2, k0 hN1, fun e => ?_⟩
    · simp only [e1, ub_bind, ha, if_false]
      rfl
    obtain ⟨vs, e3, hn, hv⟩ := get_ok i2 e
    refine ⟨vs, e3, hn, fun v => ?_⟩
    rw [hv, registered_iff h.valid]
    constructor
    · rintro ⟨r, hr, hq⟩
      exact ⟨r.q, k1 v r hr, hq⟩
    · rintro ⟨q, hr, hq⟩
      obtain ⟨r, hr2, rfl⟩ := k2 v q hr
      exact ⟨r, hr2, hq⟩

/-! A history meeting the hypotheses, in which the second addition fails because its cell can not be allocated, and what is looked up. -/

/-- Results of the operations, and the values found for `a` and `b`. -/
def exHeap (fails : List Bool) (ops : List (CollOp Nat)) : Option (List Bool × List Nat × List Nat) :=
  match HeapTree.create (CMem.empty fails : CMem Nat) with
  | .ok (some c0, _) =>
    match HeapTree.run ops c0 with
    | .ok (c, flags) =>
      match c.get ["a"], c.get ["b"] with
      | .ok va, .ok vb => some (flags, va, vb)
      | _, _ => none
    | .error _ => none
  | _ => none

example : ObtainableOps exOps := by
  intro s v hm
  simp only [exOps, List.mem_cons, CollOp.add.injEq, List.not_mem_nil, or_false, reduceCtorEq,
    false_or] at hm
  rcases hm with ⟨rfl, _⟩ | ⟨rfl, _⟩ | ⟨rfl, _⟩
  · exact exA_obtainable
  · exact exAB_obtainable
  · exact exAB_obtainable

example : exHeap [] exOps = some ([true, true, true, true], [1, 2], [1, 2]) := by decide

example : exHeap [false, false, false, false, false, false, false, false, false, false, false, false, true] exOps =
    some ([true, false, true, true], [1, 2], [1]) := by decide

end HatEvent
