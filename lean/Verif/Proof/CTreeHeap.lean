import Verif.Model.CTreeHeap
import Verif.Proof.Collection
import Mathlib.Data.Multiset.Basic
import Mathlib.Data.Multiset.MapFold
import Mathlib.Data.Multiset.Range
import Mathlib.Data.Multiset.UnionInter
import Mathlib.Algebra.BigOperators.Group.Multiset.Basic
import Mathlib.Tactic.Abel

/-! Memory of the C tree collection: which objects are allocated. -/

namespace HatEvent
open Spec

variable {V : Type} [DecidableEq V]

/-- Allocated objects. -/
abbrev Objs (V : Type) := Multiset (Addr × CObj V)

/-- Exactly these objects are allocated. -/
structure Holds (m : CMem V) (L : Objs V) : Prop where
  nodup : (L.map Prod.fst).Nodup
  objs : ∀ x o, m.objs x = some o ↔ (x, o) ∈ L
  range : ∀ x o, (x, o) ∈ L → 0 < x ∧ x < m.next
  pos : 0 < m.next

/-- References to a value in an object. -/
def CObj.refsTo (v : V) : CObj V → Nat
  | .cell _ _ w => if w = v then 1 else 0
  | _ => 0

/-- References to a value in objects. -/
def cellCount (v : V) (L : Objs V) : Nat := (L.map fun p => p.2.refsTo v).sum

@[simp] theorem cellCount_add (v : V) (A B : Objs V) : cellCount v (A + B) = cellCount v A + cellCount v B := by
  simp [cellCount]

@[simp] theorem cellCount_single (v : V) (p : Addr × CObj V) : cellCount v {p} = p.2.refsTo v := by
  simp [cellCount]

@[simp] theorem cellCount_zero (v : V) : cellCount v (0 : Objs V) = 0 := by
  simp [cellCount]

theorem Holds.of_eq {m : CMem V} {L L' : Objs V} (h : Holds m L) (he : L = L') : Holds m L' := he ▸ h

theorem Holds.get {m : CMem V} {a : Addr} {o : CObj V} {L : Objs V} (h : Holds m ({(a, o)} + L)) : m.objs a = some o :=
  (h.objs a o).2 (by simp)

theorem Holds.ne_zero {m : CMem V} {a : Addr} {o : CObj V} {L : Objs V} (h : Holds m ({(a, o)} + L)) : a ≠ 0 := by
  have := h.range a o (by simp)
  omega

theorem Holds.fresh {m : CMem V} {a : Addr} {o : CObj V} {L : Objs V} (h : Holds m ({(a, o)} + L)) : ∀ o', (a, o') ∉ L := by
  intro o' hm
  have := h.nodup
  rw [Multiset.map_add, Multiset.map_singleton, Multiset.singleton_add, Multiset.nodup_cons] at this
  exact this.1 (Multiset.mem_map.2 ⟨_, hm, rfl⟩)

theorem Holds.put {m : CMem V} {a : Addr} {o o' : CObj V} {L : Objs V} (h : Holds m ({(a, o)} + L)) :
    Holds (m.put a (some o')) ({(a, o')} + L) := by
  refine ⟨?_, ?_, ?_, h.pos⟩
  · have := h.nodup
    simpa using this
  · intro x p
    show (if x = a then some o' else m.objs x) = some p ↔ _
    have hf := h.fresh
    rw [Multiset.mem_add, Multiset.mem_singleton, Prod.mk.injEq]
    split
    · next hx =>
      subst hx
      constructor
      · intro h; cases h; exact .inl ⟨rfl, rfl⟩
      · rintro (⟨-, rfl⟩ | hm)
        · rfl
        · exact absurd hm (hf p)
    · next hx =>
      rw [h.objs x p, Multiset.mem_add, Multiset.mem_singleton, Prod.mk.injEq]
      simp [hx]
  · intro x p hm
    rw [Multiset.mem_add, Multiset.mem_singleton, Prod.mk.injEq] at hm
    rcases hm with ⟨rfl, -⟩ | hm
    · exact h.range x o (by simp)
    · exact h.range x p (by simp [hm])

theorem Holds.removed {m : CMem V} {a : Addr} {o : CObj V} {L : Objs V} (h : Holds m ({(a, o)} + L)) :
    Holds (m.put a none) L := by
  have hf := h.fresh
  refine ⟨?_, ?_, ?_, h.pos⟩
  · have := h.nodup
    rw [Multiset.map_add, Multiset.map_singleton, Multiset.singleton_add, Multiset.nodup_cons] at this
    exact this.2
  · intro x p
    show (if x = a then none else m.objs x) = some p ↔ _
    split
    · next hx =>
      subst hx
      constructor
      · intro h; cases h
      · intro hm; exact absurd hm (hf p)
    · next hx =>
      rw [h.objs x p, Multiset.mem_add, Multiset.mem_singleton, Prod.mk.injEq]
      simp [hx]
  · intro x p hm
    exact h.range x p (by simp [hm])

theorem Holds.addCount {m : CMem V} {L : Objs V} (h : Holds m L) (v : V) (n : Int) : Holds (m.addCount v n) L :=
  ⟨h.nodup, h.objs, h.range, h.pos⟩

theorem Holds.tried {m : CMem V} {L : Objs V} (h : Holds m L) : Holds m.tried L := ⟨h.nodup, h.objs, h.range, h.pos⟩

/-- What `malloc` does. -/
theorem malloc_ok {m : CMem V} {L : Objs V} (h : Holds m L) :
    (m.malloc.1 = 0 ∧ Holds m.malloc.2 L ∧ m.malloc.2.counts = m.counts) ∨
      (m.malloc.1 ≠ 0 ∧ Holds m.malloc.2 ({(m.malloc.1, .raw)} + L) ∧ m.malloc.2.counts = m.counts) := by
  unfold CMem.malloc
  split
  · exact .inl ⟨rfl, h.tried, rfl⟩
  · refine .inr ⟨by have := h.pos; show m.next ≠ 0; omega, ?_, rfl⟩
    have hf : ∀ o, (m.next, o) ∉ L := fun o hm => by have := h.range _ _ hm; omega
    refine ⟨?_, ?_, ?_, by show 0 < m.next + 1; omega⟩
    · rw [Multiset.map_add, Multiset.map_singleton, Multiset.singleton_add, Multiset.nodup_cons]
      refine ⟨?_, h.nodup⟩
      intro hm
      obtain ⟨⟨x, o⟩, hp, hx⟩ := Multiset.mem_map.1 hm
      have hx : x = m.next := hx
      subst hx
      exact hf o hp
    · intro x p
      show (if x = m.next then some .raw else m.objs x) = some p ↔ _
      rw [Multiset.mem_add, Multiset.mem_singleton, Prod.mk.injEq]
      split
      · next hx =>
        subst hx
        constructor
        · intro h; cases h; exact .inl ⟨rfl, rfl⟩
        · rintro (⟨-, rfl⟩ | hm)
          · rfl
          · exact absurd hm (hf p)
      · next hx =>
        rw [h.objs x p]
        simp [hx]
    · intro x p hm
      rw [Multiset.mem_add, Multiset.mem_singleton, Prod.mk.injEq] at hm
      rcases hm with ⟨rfl, -⟩ | hm
      · exact ⟨h.pos, by show m.next < m.next + 1; omega⟩
      · have := h.range x p hm
        exact ⟨this.1, by show x < m.next + 1; omega⟩

theorem free_ok {m : CMem V} {a : Addr} {o : CObj V} {L : Objs V} (h : Holds m ({(a, o)} + L)) :
    m.free a = .ok (m.put a none) ∧ Holds (m.put a none) L := by
  refine ⟨?_, h.removed⟩
  unfold CMem.free
  rw [if_neg h.ne_zero, h.get]

theorem store_ok {m : CMem V} {a : Addr} {o : CObj V} {L : Objs V} (h : Holds m ({(a, o)} + L)) (o' : CObj V) :
    m.store a o' = .ok (m.put a (some o')) ∧ Holds (m.put a (some o')) ({(a, o')} + L) := by
  refine ⟨?_, h.put⟩
  unfold CMem.store
  rw [h.get]

theorem getCell_ok {m : CMem V} {a p n : Addr} {v : V} {L : Objs V} (h : Holds m ({(a, .cell p n v)} + L)) :
    m.getCell a = .ok (p, n, v) := by
  unfold CMem.getCell; rw [h.get]

theorem getTree_ok {m : CMem V} {a vs as q : Addr} {ch : Option (List (Segment × Addr))} {L : Objs V}
    (h : Holds m ({(a, .tree vs as ch q)} + L)) : m.getTree a = .ok (vs, as, ch, q) := by
  unfold CMem.getTree; rw [h.get]

theorem getRef_ok {m : CMem V} {a n : Addr} {l : ListPtr} {L : Objs V}
    (h : Holds m ({(a, .ref l n)} + L)) : m.getRef a = .ok (l, n) := by
  unfold CMem.getRef; rw [h.get]

/-- There are not more objects than addresses. -/
theorem Holds.card {m : CMem V} {L : Objs V} (h : Holds m L) : Multiset.card L < m.next := by
  have hs : L.map Prod.fst ≤ (Multiset.range m.next).erase 0 := by
    rw [Multiset.le_iff_subset h.nodup]
    intro x hx
    obtain ⟨⟨y, o⟩, hp, rfl⟩ := Multiset.mem_map.1 hx
    have := h.range y o hp
    show y ∈ _
    rw [Multiset.mem_erase_of_ne (by omega)]
    exact Multiset.mem_range.2 this.2
  have := Multiset.card_le_card hs
  rw [Multiset.card_map, Multiset.card_erase_of_mem (Multiset.mem_range.2 h.pos), Multiset.card_range] at this
  have := h.pos
  rw [Nat.pred_eq_sub_one] at *
  omega

/-! ## Lists -/

/-- Address of the first cell, or of what follows. -/
def headAddr (l : List (Addr × V)) (n : Addr) : Addr :=
  match l with
  | [] => n
  | (x, _) :: _ => x

/-- Address of the last cell, or of what precedes. -/
def lastAddr (p : Addr) : List (Addr × V) → Addr
  | [] => p
  | (x, _) :: l => lastAddr x l

/-- Linked cells, between `p` and `n`. -/
def chain (p : Addr) : List (Addr × V) → Addr → Objs V
  | [], _ => 0
  | (x, v) :: l, n => {(x, .cell p (headAddr l n) v)} + chain x l n

theorem chain_append (p : Addr) (a b : List (Addr × V)) (n : Addr) :
    chain p (a ++ b) n = chain p a (headAddr b n) + chain (lastAddr p a) b n := by
  induction a generalizing p with
  | nil => simp [chain, lastAddr]
  | cons x a ih =>
    obtain ⟨x, v⟩ := x
    simp only [List.cons_append, chain, lastAddr, ih]
    rw [add_assoc]
    congr 2
    cases a <;> rfl

theorem chain_count (p : Addr) (l : List (Addr × V)) (n : Addr) (v : V) :
    cellCount v (chain p l n) = (l.filter fun x => x.2 = v).length := by
  induction l generalizing p with
  | nil => simp [chain]
  | cons x l ih =>
    obtain ⟨x, w⟩ := x
    simp only [chain, cellCount_add, cellCount_single, CObj.refsTo, ih]
    by_cases hw : w = v
    · simp [hw]; omega
    · simp [hw]

theorem chain_card (p : Addr) (l : List (Addr × V)) (n : Addr) : Multiset.card (chain p l n) = l.length := by
  induction l generalizing p with
  | nil => simp [chain]
  | cons x l ih =>
    obtain ⟨x, w⟩ := x
    simp only [chain, Multiset.card_add, Multiset.card_singleton, ih, List.length_cons]
    omega

theorem chain_mem {p : Addr} {l : List (Addr × V)} {n : Addr} {x : Addr} {v : V} (h : (x, v) ∈ l) :
    ∃ o, (x, o) ∈ chain p l n := by
  induction l generalizing p with
  | nil => cases h
  | cons y l ih =>
    obtain ⟨y, w⟩ := y
    rcases List.mem_cons.1 h with h | h
    · cases h; exact ⟨_, by rw [chain]; exact Multiset.mem_add.2 (.inl (Multiset.mem_singleton.2 rfl))⟩
    · obtain ⟨o, ho⟩ := ih (p := y) h
      exact ⟨o, by rw [chain]; exact Multiset.mem_add.2 (.inr ho)⟩

theorem chain_nodup {p : Addr} {l : List (Addr × V)} {n : Addr} (h : ((chain p l n).map Prod.fst).Nodup) : (l.map Prod.fst).Nodup := by
  induction l generalizing p with
  | nil => simp
  | cons y l ih =>
    obtain ⟨y, w⟩ := y
    rw [chain, Multiset.map_add, Multiset.map_singleton, Multiset.singleton_add, Multiset.nodup_cons] at h
    rw [List.map_cons, List.nodup_cons]
    refine ⟨?_, ih h.2⟩
    intro hm
    obtain ⟨⟨x, v⟩, hx, he⟩ := List.mem_map.1 hm
    obtain ⟨o, ho⟩ := chain_mem (p := y) (n := n) hx
    exact h.1 (Multiset.mem_map.2 ⟨_, ho, he⟩)

/-- A tree node with one of its lists in front. -/
def treeObj (b : Bool) (head other : Addr) (ch : Option (List (Segment × Addr))) (q : Addr) : CObj V :=
  if b then .tree other head ch q else .tree head other ch q

theorem getHead_ok {m : CMem V} {lp : ListPtr} {head other q : Addr} {ch : Option (List (Segment × Addr))} {L : Objs V}
    (h : Holds m ({(lp.owner, treeObj lp.asterisk head other ch q)} + L)) : m.getHead lp = .ok head := by
  obtain ⟨a, b⟩ := lp
  cases b
  all_goals
    unfold CMem.getHead
    rw [getTree_ok h]
    rfl

theorem setHead_ok {m : CMem V} {lp : ListPtr} {head other q : Addr} {ch : Option (List (Segment × Addr))} {L : Objs V}
    (h : Holds m ({(lp.owner, treeObj lp.asterisk head other ch q)} + L)) (x : Addr) :
    ∃ m', m.setHead lp x = .ok m' ∧ m'.counts = m.counts ∧ Holds m' ({(lp.owner, treeObj lp.asterisk x other ch q)} + L) := by
  obtain ⟨a, b⟩ := lp
  cases b
  · refine ⟨m.put a (some (.tree x other ch q)), ?_, rfl, (store_ok h _).2⟩
    unfold CMem.setHead
    rw [getTree_ok h]
    exact (store_ok h _).1
  · refine ⟨m.put a (some (.tree other x ch q)), ?_, rfl, (store_ok h _).2⟩
    unfold CMem.setHead
    rw [getTree_ok h]
    exact (store_ok h _).1

theorem setPrev_ok {m : CMem V} {a p n : Addr} {v : V} {L : Objs V} (h : Holds m ({(a, .cell p n v)} + L)) (x : Addr) :
    ∃ m', m.setPrev a x = .ok m' ∧ m'.counts = m.counts ∧ Holds m' ({(a, .cell x n v)} + L) := by
  refine ⟨m.put a (some (.cell x n v)), ?_, rfl, (store_ok h _).2⟩
  unfold CMem.setPrev
  rw [getCell_ok h]
  exact (store_ok h _).1

theorem setNext_ok {m : CMem V} {a p n : Addr} {v : V} {L : Objs V} (h : Holds m ({(a, .cell p n v)} + L)) (x : Addr) :
    ∃ m', m.setNext a x = .ok m' ∧ m'.counts = m.counts ∧ Holds m' ({(a, .cell p x v)} + L) := by
  refine ⟨m.put a (some (.cell p x v)), ?_, rfl, (store_ok h _).2⟩
  unfold CMem.setNext
  rw [getCell_ok h]
  exact (store_ok h _).1

/-- Change of a function at a value. -/
def bump (f : V → Int) (v : V) (n : Int) : V → Int := fun w => if w = v then f w + n else f w

theorem ub_bind {α β : Type} (a : α) (f : α → Except Ub β) : (Except.ok a >>= f) = f a := rfl

theorem link_ok {m : CMem V} {lp : ListPtr} {l : List (Addr × V)} {other q node ref : Addr} {ch : Option (List (Segment × Addr))}
    {R : Objs V} (v : V)
    (h : Holds m ({(lp.owner, treeObj lp.asterisk (headAddr l 0) other ch q)} + chain 0 l 0 + R + {(node, .raw)} + {(ref, .raw)})) :
    ∃ m', m.linkValue lp v node ref = .ok (ref, m') ∧ m'.counts = bump m.counts v 1 ∧
      Holds m' ({(lp.owner, treeObj lp.asterisk node other ch q)} + chain 0 ((node, v) :: l) 0 + R + {(ref, .ref lp node)}) := by
  have h0 := h.addCount v 1
  have e1 := getHead_ok (m := m.addCount v 1) (lp := lp) (L := chain 0 l 0 + R + {(node, .raw)} + {(ref, .raw)})
    (h0.of_eq (by abel))
  obtain ⟨e2, h2⟩ := store_ok (m := m.addCount v 1) (a := node) (o := .raw)
    (L := {(lp.owner, treeObj lp.asterisk (headAddr l 0) other ch q)} + chain 0 l 0 + R + {(ref, .raw)})
    (h0.of_eq (by abel)) (.cell 0 (headAddr l 0) v)
  have : ∃ m3, ((m.addCount v 1).put node (some (.cell 0 (headAddr l 0) v))).linkPrev (headAddr l 0) node = .ok m3 ∧
      m3.counts = bump m.counts v 1 ∧
      Holds m3 ({(lp.owner, treeObj lp.asterisk (headAddr l 0) other ch q)} + chain 0 ((node, v) :: l) 0 + R + {(ref, .raw)}) := by
    cases l with
    | nil =>
      refine ⟨_, rfl, rfl, h2.of_eq ?_⟩
      simp only [chain, headAddr]
      abel
    | cons x l =>
      obtain ⟨x, w⟩ := x
      have h2' := h2.of_eq (L' := {(x, .cell 0 (headAddr l 0) w)} + ({(node, .cell 0 x v)} +
        ({(lp.owner, treeObj lp.asterisk x other ch q)} + chain x l 0 + R + {(ref, .raw)}))) (by
          simp only [chain, headAddr]
          abel)
      obtain ⟨m3, e3, c3, h3⟩ := setPrev_ok h2' node
      have hx : x ≠ 0 := h2'.ne_zero
      refine ⟨m3, ?_, c3.trans rfl, h3.of_eq ?_⟩
      · show (if x = 0 then _ else _) = _
        rw [if_neg hx]
        exact e3
      · simp only [chain, headAddr]
        abel
  obtain ⟨m3, e3, c3, h3⟩ := this
  obtain ⟨m4, e4, c4, h4⟩ := setHead_ok (lp := lp) (L := chain 0 ((node, v) :: l) 0 + R + {(ref, .raw)}) (h3.of_eq (by abel)) node
  obtain ⟨e5, h5⟩ := store_ok (m := m4) (a := ref) (o := .raw)
    (L := {(lp.owner, treeObj lp.asterisk node other ch q)} + chain 0 ((node, v) :: l) 0 + R) (h4.of_eq (by abel)) (.ref lp node)
  refine ⟨m4.put ref (some (.ref lp node)), ?_, (show m4.counts = _ from c4.trans c3), h5.of_eq (by abel)⟩
  unfold CMem.linkValue
  simp only [e1, ub_bind, e2, e3, e4, e5]
  rfl

theorem addToList_ok {m : CMem V} {lp : ListPtr} {l : List (Addr × V)} {other q : Addr} {ch : Option (List (Segment × Addr))}
    {R : Objs V} (v : V)
    (h : Holds m ({(lp.owner, treeObj lp.asterisk (headAddr l 0) other ch q)} + chain 0 l 0 + R)) :
    (∃ m', m.addToList lp v = .ok (0, m') ∧ m'.counts = m.counts ∧
      Holds m' ({(lp.owner, treeObj lp.asterisk (headAddr l 0) other ch q)} + chain 0 l 0 + R)) ∨
    (∃ m' node ref, m.addToList lp v = .ok (ref, m') ∧ ref ≠ 0 ∧ m'.counts = bump m.counts v 1 ∧
      Holds m' ({(lp.owner, treeObj lp.asterisk node other ch q)} + chain 0 ((node, v) :: l) 0 + R + {(ref, .ref lp node)})) := by
  unfold CMem.addToList
  rcases malloc_ok h with ⟨e1, h1, c1⟩ | ⟨e1, h1, c1⟩
  · left
    refine ⟨m.malloc.2, ?_, c1, h1⟩
    simp only [e1, if_true]
    rfl
  · simp only [e1, if_false]
    rcases malloc_ok h1 with ⟨e2, h2, c2⟩ | ⟨e2, h2, c2⟩
    · left
      obtain ⟨e3, h3⟩ := free_ok h2
      refine ⟨_, ?_, ?_, h3⟩
      · simp only [e2, if_true, e3, ub_bind]
        rfl
      · show m.malloc.2.malloc.2.counts = _
        rw [c2, c1]
    · simp only [e2, if_false]
      by_cases hf : m.malloc.2.malloc.2.failing = true
      · left
        obtain ⟨e3, h3⟩ := free_ok (m := m.malloc.2.malloc.2.tried) (a := m.malloc.1) (o := .raw) (L := {(m.malloc.2.malloc.1, .raw)} +
            ({(lp.owner, treeObj lp.asterisk (headAddr l 0) other ch q)} + chain 0 l 0 + R))
          (h2.tried.of_eq (by abel))
        obtain ⟨e4, h4⟩ := free_ok h3
        refine ⟨_, ?_, ?_, h4⟩
        · simp only [hf, if_true, e3, ub_bind, e4]
          rfl
        · show m.malloc.2.malloc.2.counts = _
          rw [c2, c1]
      · right
        obtain ⟨m', e3, c3, h3⟩ := link_ok (m := m.malloc.2.malloc.2.tried) (lp := lp) (l := l) (node := m.malloc.1)
          (ref := m.malloc.2.malloc.1) (other := other) (q := q) (ch := ch) (R := R) v (h2.tried.of_eq (by abel))
        refine ⟨m', m.malloc.1, m.malloc.2.malloc.1, ?_, e2, ?_, h3⟩
        · simp only [hf]
          exact e3
        · rw [c3]
          show bump m.malloc.2.malloc.2.counts v 1 = _
          rw [c2, c1]

end HatEvent
