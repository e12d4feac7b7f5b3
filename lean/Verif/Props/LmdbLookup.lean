import Verif.Props.LmdbOpen
import Verif.Spec.Lmdb

/-!
# The event type collections find the partitions of an event

`LookupLaw` is an assumption of the theorems about the backend.  It holds for
each implementation of the event type collection.
-/

namespace HatEvent
open Spec

theorem C09_created {V : Type} [DecidableEq V] (i : CollImpl) (items : List (Sub × V)) (t : EventType)
    (hn : (items.map Prod.snd).Nodup) (ho : ∀ x ∈ items, Obtainable x.1) :
    ∃ l, i.get items t = .ok l ∧ l.Nodup ∧
      ∀ v, v ∈ l ↔ ∃ s, (s, v) ∈ items ∧ s.matches t = true := by
  have hob : ObtainableOps (items.map fun x => CollOp.add x.1 x.2) := by
    intro s v h
    obtain ⟨x, hx, he⟩ := List.mem_map.1 h
    cases he
    exact ho x hx
  have hreg : ∀ (P : Sub → Prop) (v : V), RegisteredWith P (items.map fun x => CollOp.add x.1 x.2) v ↔
      ∃ s, (s, v) ∈ items ∧ P s := by
    intro P v
    constructor
    · rintro ⟨pre, s, post, h1, _, h3⟩
      have : CollOp.add s v ∈ items.map fun x => CollOp.add x.1 x.2 := by rw [h1]; simp
      obtain ⟨x, hx, he⟩ := List.mem_map.1 this
      cases he
      exact ⟨x.1, hx, h3⟩
    · rintro ⟨s, h1, h2⟩
      obtain ⟨a, b, rfl⟩ := List.append_of_mem h1
      refine ⟨a.map fun x => .add x.1 x.2, s, b.map fun x => .add x.1 x.2, by simp, ?_, h2⟩
      intro h
      obtain ⟨x, _, hx⟩ := List.mem_map.1 h
      cases hx
  have hno : NoReAdd (items.map fun x => CollOp.add x.1 x.2) := by
    rintro pre s v post h ⟨pre', s', post', h1, _, _⟩
    have h2 : (items.map Prod.snd) = (pre' ++ .add s' v :: post' ++ .add s v :: post).filterMap
        (fun op => match op with | CollOp.add _ v => some v | .remove _ => none) := by
      rw [← h1, ← h, List.filterMap_map]
      induction items with
      | nil => rfl
      | cons x items ih => simp
    rw [h2] at hn
    simp only [List.filterMap_append, List.filterMap_cons, List.append_assoc, List.cons_append,
      List.nodup_append, List.nodup_cons] at hn
    exact hn.2.1.1 (by simp)
  cases i with
  | list =>
    obtain ⟨c, h1, h2⟩ := C09_list _ hob
    refine ⟨c.get t, by simp [CollImpl.get, h1, Except.map], (h2 t).1, fun v => ?_⟩
    rw [(h2 t).2 v]; exact hreg _ v
  | pytree =>
    obtain ⟨c, h1, h2⟩ := C09_pytree_partial _ hob hno
    refine ⟨c.get t, by simp [CollImpl.get, h1, Except.map], (h2 t).1, fun v => ?_⟩
    rw [(h2 t).2 v]; exact hreg _ v
  | ctree =>
    obtain ⟨c, h1, h2⟩ := C09_ctree _ hob
    refine ⟨c.get t, by simp [CollImpl.get, h1, Except.map], (h2 t).1, fun v => ?_⟩
    rw [(h2 t).2 v]; exact hreg _ v

/-- Events are assigned to timeseries partitions as configured, whichever event
type collection is used. -/
theorem C09_partitions (i : CollImpl) (conf : Conf) (hl : conf.lookup = lookupPartitions i)
    (ho : ∀ p ∈ conf.partitions, Obtainable p.subscription) : LookupLaw conf := by
  intro d t hn hin
  rw [hl]
  obtain ⟨l, h1, h2, h3⟩ := C09_created i (d.map fun x => (x.2.subscription, x.1)) t
    (by rw [List.map_map]; exact hn)
    (by
      intro x hx
      obtain ⟨y, hy, rfl⟩ := List.mem_map.1 hx
      exact ho _ (hin y hy))
  unfold lookupPartitions
  rw [h1]
  simp only
  constructor
  · refine List.Nodup.filterMap ?_ h2
    intro a b x ha hb
    simp only [Option.mem_def, Option.map_eq_some_iff] at ha hb
    obtain ⟨p, _, rfl⟩ := ha
    obtain ⟨q, _, hq⟩ := hb
    exact (congrArg Prod.fst hq).symm
  · intro x
    rw [List.mem_filterMap]
    constructor
    · rintro ⟨a, ha, hx⟩
      simp only [Option.map_eq_some_iff] at hx
      obtain ⟨p, hp, rfl⟩ := hx
      refine ⟨Dict.mem_of_get hp, ?_⟩
      obtain ⟨s, hs, hm⟩ := (h3 a).1 ha
      obtain ⟨y, hy, hye⟩ := List.mem_map.1 hs
      cases hye
      rw [Dict.get_of_mem hn hy] at hp
      cases hp
      exact hm
    · rintro ⟨hx, hm⟩
      refine ⟨x.1, (h3 x.1).2 ⟨x.2.subscription, List.mem_map.2 ⟨x, hx, rfl⟩, hm⟩, ?_⟩
      rw [Dict.get_of_mem hn hx]; rfl

/-- The hypotheses hold for a configuration with two partitions. -/
example (i : CollImpl) : LookupLaw { exConf none exPartitions with lookup := lookupPartitions i } :=
  C09_partitions i _ rfl (by
    intro p hp
    simp only [exConf, exPartitions, List.mem_cons, List.not_mem_nil, or_false] at hp
    rcases hp with rfl | rfl
    · exact exA_obtainable
    · exact exAB_obtainable)

/-- The collection of the example configurations satisfies the law as well. -/
theorem exConf_lookup (i : Option String) (p : List Partition) : LookupLaw (exConf i p) := by
  intro d t hn _
  have h : d.Nodup := List.Nodup.of_map _ hn
  exact ⟨h.filter _, fun x => by simp [exConf]⟩

end HatEvent
