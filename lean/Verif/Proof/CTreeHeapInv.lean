import Verif.Proof.CTreeHeapNoFail
import Verif.Proof.Collection

/-! Memory of the C tree collection: histories. -/

namespace HatEvent
open Spec

variable {V : Type} [DecidableEq V]

open ATree

/-- What a capsule stands for. -/
structure Rec where
  ref : Nat
  q : EventType
  lp : ListPtr
  node : Nat

/-- The `ref_t` objects of records. -/
def recObjs (rs : List Rec) : Objs V := (((rs.map fun r => (r.ref, CObj.ref r.lp r.node)) : List (Nat × CObj V)) : Multiset (Nat × CObj V))

/-- The records of a value. -/
def recsOf (D : Dict V (List Rec)) (v : V) : List Rec := (Dict.get D v).getD []

/-- The `ref_t` objects of all records. -/
def allObjs : Dict V (List Rec) → Objs V
  | [] => 0
  | p :: D => recObjs p.2 + allObjs D

theorem recObjs_nil : recObjs [] = (0 : Objs V) := rfl

theorem recObjs_cons (r : Rec) (rs : List Rec) : (recObjs (r :: rs) : Objs V) = {(r.ref, .ref r.lp r.node)} + recObjs rs := by
  unfold recObjs
  rw [List.map_cons, ← Multiset.cons_coe, Multiset.singleton_add]

theorem recObjs_append (a b : List Rec) : (recObjs (a ++ b) : Objs V) = recObjs a + recObjs b := by
  unfold recObjs
  rw [List.map_append, Multiset.coe_add]

theorem allObjs_set (D : Dict V (List Rec)) (v : V) (rs : List Rec) :
    (allObjs (Dict.set D v (recsOf D v ++ rs)) : Objs V) = allObjs D + recObjs rs := by
  induction D with
  | nil => simp [Dict.set, allObjs, recsOf, recObjs_nil]
  | cons p D ih =>
    obtain ⟨w, x⟩ := p
    by_cases h : w = v
    · subst h
      simp only [recsOf, Dict.get_cons, if_true, Option.getD_some, Dict.set, allObjs, recObjs_append]
      abel
    · have hr : recsOf ((w, x) :: D) v = recsOf D v := by simp [recsOf, Dict.get_cons, h]
      rw [hr, Dict.set, if_neg h, allObjs, allObjs, ih]
      abel

theorem allObjs_del (D : Dict V (List Rec)) (v : V) (hn : (Dict.keys D).Nodup) :
    (allObjs D : Objs V) = recObjs (recsOf D v) + allObjs (Dict.del D v) := by
  induction D with
  | nil => simp [Dict.del, allObjs, recsOf, recObjs_nil]
  | cons p D ih =>
    obtain ⟨w, x⟩ := p
    rw [Dict.keys_cons, List.nodup_cons] at hn
    by_cases h : w = v
    · subst h
      have hr : recsOf ((w, x) :: D) w = x := by simp [recsOf, Dict.get_cons]
      have hd : recsOf D w = [] := by rw [recsOf, Dict.get_eq_none_iff.2 hn.1]; rfl
      have := ih hn.2
      rw [hd, recObjs_nil, zero_add] at this
      rw [hr, allObjs, Dict.del, if_pos rfl, ← this]
    · have hr : recsOf ((w, x) :: D) v = recsOf D v := by simp [recsOf, Dict.get_cons, h]
      rw [hr, Dict.del, if_neg h, allObjs, allObjs, ih hn.2]
      abel

/-- The capsules of records. -/
def refsOf (D : Dict V (List Rec)) : Dict V (List Nat) := D.map fun p => (p.1, p.2.map Rec.ref)

theorem refsOf_get (D : Dict V (List Rec)) (v : V) : (Dict.get (refsOf D) v).getD [] = (recsOf D v).map Rec.ref := by
  unfold refsOf recsOf
  rw [ATree.get_map]
  cases Dict.get D v <;> rfl

theorem refsOf_set (D : Dict V (List Rec)) (v : V) (rs : List Rec) :
    refsOf (Dict.set D v rs) = Dict.set (refsOf D) v (rs.map Rec.ref) := ATree.map_set (fun rs : List Rec => rs.map Rec.ref) D v rs

theorem refsOf_del (D : Dict V (List Rec)) (v : V) : refsOf (Dict.del D v) = Dict.del (refsOf D) v := by
  unfold refsOf
  induction D with
  | nil => rfl
  | cons p D ih =>
    obtain ⟨w, x⟩ := p
    simp only [Dict.del, List.map_cons]
    split
    · exact ih
    · rw [List.map_cons, ih]

/-- The records agree with the tree. -/
structure Book (rt : Nat) (rs : Dict V (List Nat)) (cs : V → Int) (t : ATree V) (D : Dict V (List Rec)) : Prop where
  root : rt = t.addr
  ok : Ok t
  counts : ∀ v, cs v = cellCount v t.hp
  recs : ∀ v, cs v = (recsOf D v).length
  refs : rs = refsOf D
  keys : (Dict.keys D).Nodup
  cell : ∀ v r, r ∈ recsOf D v → WellFormed r.q ∧ ∃ l, t.at_ r.q = some (r.lp, l) ∧ (r.node, v) ∈ l
  known : ∀ q lp l x v, WellFormed q → t.at_ q = some (lp, l) → (x, v) ∈ l → ∃ r ∈ recsOf D v, r.q = q ∧ r.node = x
  distinct : ∀ v, ((recsOf D v).map Rec.node).Nodup

/-- The invariant of the collection. -/
structure HInv (c : HeapTree V) (t : ATree V) (D : Dict V (List Rec)) : Prop where
  book : Book c.root c.refs c.mem.counts t D
  holds : Holds c.mem (t.hp + allObjs D)

theorem chain_fst (p : Addr) (l : List (Addr × V)) (n : Addr) : (chain p l n).map Prod.fst = ((l.map Prod.fst : List Nat) : Multiset Nat) := by
  induction l generalizing p with
  | nil => rfl
  | cons x l ih =>
    obtain ⟨x, v⟩ := x
    rw [chain, Multiset.map_add, ih]
    simp

/-- Addresses of a tree with a list changed. -/
theorem setAt_fst {t : ATree V} {q : EventType} {lp : ListPtr} {l : List (Addr × V)} (h : t.at_ q = some (lp, l)) :
    ∃ A : Multiset Nat, ∀ l', (t.setAt q l').hp.map Prod.fst = ((l'.map Prod.fst : List Nat) : Multiset Nat) + A := by
  obtain ⟨e, R, other, ch, qq, hR⟩ := focus q t lp l h
  refine ⟨{lp.owner} + R.map Prod.fst, fun l' => ?_⟩
  rw [hR, Multiset.map_add, Multiset.map_add, chain_fst, Multiset.map_singleton]
  abel

theorem mem_fst {t : ATree V} {q : EventType} {lp : ListPtr} {l : List (Addr × V)} (h : t.at_ q = some (lp, l)) {x : Addr} {v : V}
    (hx : (x, v) ∈ l) : x ∈ t.hp.map Prod.fst := by
  obtain ⟨A, hA⟩ := setAt_fst h
  have := hA l
  rw [(focus q t lp l h).1] at this
  rw [this, Multiset.mem_add]
  left
  exact Multiset.mem_coe.2 (List.mem_map.2 ⟨_, hx, rfl⟩)

theorem list_nodup {t : ATree V} {q : EventType} {lp : ListPtr} {l : List (Addr × V)} (h : t.at_ q = some (lp, l)) {m : CMem V} {F : Objs V}
    (hm : Holds m (t.hp + F)) : (l.map Prod.fst).Nodup := by
  obtain ⟨A, hA⟩ := setAt_fst h
  have := hA l
  rw [(focus q t lp l h).1] at this
  have hn := hm.nodup
  rw [Multiset.map_add, this] at hn
  have hn2 := Multiset.nodup_of_le (Multiset.le_add_right _ _) (Multiset.nodup_of_le (Multiset.le_add_right _ _) hn)
  exact Multiset.coe_nodup.1 hn2

/-- A new cell is not an old one. -/
theorem new_node_ne {t : ATree V} {q q' : EventType} {lp lp' : ListPtr} {l l' : List (Addr × V)} {node x : Addr} {v w : V} {m : CMem V} {F : Objs V}
    (h : t.at_ q = some (lp, l)) (h' : t.at_ q' = some (lp', l')) (hx : (x, w) ∈ l') (hm : Holds m ((t.setAt q ((node, v) :: l)).hp + F)) : x ≠ node := by
  rintro rfl
  have hmem := mem_fst h' hx
  obtain ⟨A, hA⟩ := setAt_fst h
  have h1 := hA l
  rw [(focus q t lp l h).1] at h1
  rw [h1] at hmem
  have hn := hm.nodup
  rw [Multiset.map_add, hA, List.map_cons, ← Multiset.cons_coe, Multiset.cons_add, Multiset.cons_add, Multiset.nodup_cons] at hn
  exact hn.1 (Multiset.mem_add.2 (.inl hmem))

theorem Book.grown {root : Nat} {refs : Dict V (List Nat)} {counts : V → Int} {t t' : ATree V} {D : Dict V (List Rec)}
    (h : Book root refs counts t D) (g : Grown t t') : Book root refs counts t' D := by
  refine ⟨h.root.trans g.addr.symm, g.ok h.ok, ?_, h.recs, h.refs, h.keys, ?_, ?_, h.distinct⟩
  · intro v; rw [g.count, ← h.counts]
  · intro v r hr
    obtain ⟨hw, l, h1, h2⟩ := h.cell v r hr
    exact ⟨hw, l, g.same _ _ h1, h2⟩
  · intro q lp l x v hw ha hx
    cases ht : t.at_ q with
    | none =>
      have := g.empty q ht lp l ha
      subst this
      cases hx
    | some y =>
      rw [g.same _ _ ht] at ha
      cases ha
      exact h.known q lp l x v hw ht hx

/-- The value was added to the list of a query type. -/
theorem Book.added {root : Nat} {refs : Dict V (List Nat)} {counts : V → Int} {t : ATree V} {D : Dict V (List Rec)} {m : CMem V} {q : EventType}
    {lp : ListPtr} {l : List (Addr × V)} {F : Objs V}
    {v : V} {node ref : Addr} (h : Book root refs counts t D) (hw : WellFormed q) (ha : t.at_ q = some (lp, l))
    (hm' : Holds m ((t.setAt q ((node, v) :: l)).hp + F)) :
    Book root (Dict.set refs v (((Dict.get refs v).getD []) ++ [ref])) (bump counts v 1) (t.setAt q ((node, v) :: l))
      (Dict.set D v (recsOf D v ++ [⟨ref, q, lp, node⟩])) := by
  have hrec : ∀ w, recsOf (Dict.set D v (recsOf D v ++ [⟨ref, q, lp, node⟩])) w =
      if v = w then recsOf D w ++ [⟨ref, q, lp, node⟩] else recsOf D w := by
    intro w
    rw [recsOf, Dict.get_set]
    split
    · next hv => subst hv; rfl
    · rfl
  refine ⟨h.root.trans (setAt_addr _ _ _).symm, h.ok.setAt q _, ?_, ?_, ?_, Dict.nodup_keys_set h.keys, ?_, ?_, ?_⟩
  · intro w
    have := cellCount_setAt ha ((node, v) :: l) w
    unfold bump
    rw [h.counts]
    by_cases hv : w = v
    · subst hv
      rw [List.filter_cons_of_pos (by simp), List.length_cons] at this
      rw [if_pos rfl]
      omega
    · rw [List.filter_cons_of_neg (by simp [Ne.symm hv])] at this
      rw [if_neg hv]
      omega
  · intro w
    unfold bump
    rw [h.recs, hrec]
    by_cases hv : w = v
    · subst hv; simp
    · simp [hv, Ne.symm hv]
  · rw [refsOf_set, h.refs, refsOf_get]
    simp
  · intro w r hr
    rw [hrec] at hr
    have old : ∀ r ∈ recsOf D w, WellFormed r.q ∧ ∃ l', (t.setAt q ((node, v) :: l)).at_ r.q = some (r.lp, l') ∧ (r.node, w) ∈ l' := by
      intro r hr
      obtain ⟨hw', l', h1, h2⟩ := h.cell w r hr
      refine ⟨hw', ?_⟩
      rw [at_setAt q r.q t lp l _ hw hw' ha]
      split
      · next he =>
        rw [he, ha] at h1
        cases h1
        exact ⟨_, rfl, List.mem_cons_of_mem _ h2⟩
      · exact ⟨l', h1, h2⟩
    split at hr
    · next hv =>
      subst hv
      rcases List.mem_append.1 hr with hr | hr
      · exact old r hr
      · rw [List.mem_singleton] at hr
        subst hr
        refine ⟨hw, (node, v) :: l, ?_, List.mem_cons_self⟩
        show (t.setAt q ((node, v) :: l)).at_ q = _
        rw [at_setAt q q t lp l _ hw hw ha, if_pos rfl]
    · exact old r hr
  · intro q' lp' l' x w hw' ha' hx
    rw [at_setAt q q' t lp l _ hw hw' ha] at ha'
    rw [hrec]
    split at ha'
    · next he =>
      subst he
      cases ha'
      rcases List.mem_cons.1 hx with hx | hx
      · cases hx
        rw [if_pos rfl]
        exact ⟨⟨ref, q', lp, node⟩, by simp, rfl, rfl⟩
      · obtain ⟨r, hr, h1, h2⟩ := h.known q' lp l x w hw ha hx
        refine ⟨r, ?_, h1, h2⟩
        split
        · exact List.mem_append_left _ hr
        · exact hr
    · obtain ⟨r, hr, h1, h2⟩ := h.known q' lp' l' x w hw' ha' hx
      refine ⟨r, ?_, h1, h2⟩
      split
      · exact List.mem_append_left _ hr
      · exact hr
  · intro w
    rw [hrec]
    split
    · next hv =>
      subst hv
      rw [List.map_append, List.nodup_append]
      refine ⟨h.distinct v, by simp, ?_⟩
      intro a hA b hb
      simp only [List.map_cons, List.map_nil, List.mem_singleton] at hb
      subst hb
      obtain ⟨r, hr, rfl⟩ := List.mem_map.1 hA
      obtain ⟨_, l', h1, h2⟩ := h.cell v r hr
      exact new_node_ne ha h1 h2 hm'
    · exact h.distinct w

/-- The loop of `add`. -/
theorem addLoop_ok (v : V) : ∀ (qs : List EventType) (c : HeapTree V) (t : ATree V) (D : Dict V (List Rec)), (∀ q ∈ qs, WellFormed q) → HInv c t D →
    ∃ c' b t' D' new, HeapTree.addLoop v qs c = .ok (c', b) ∧ HInv c' t' D' ∧ (∀ w, w ≠ v → recsOf D' w = recsOf D w) ∧
      recsOf D' v = recsOf D v ++ new ∧ (∀ r ∈ new, r.q ∈ qs) ∧ (b = true → new.map Rec.q = qs) ∧
      (NoFail c.mem → b = true ∧ NoFail c'.mem) := by
  intro qs
  induction qs with
  | nil =>
    intro c t D _ h
    exact ⟨c, true, t, D, [], rfl, h, fun _ _ => rfl, by simp, by simp, fun _ => rfl, fun h => ⟨rfl, h⟩⟩
  | cons q qs ih =>
    intro c t D hw h
    rw [HeapTree.addLoop, h.book.root]
    rcases addToTree_ok v q c.mem t (allObjs D) h.holds with ⟨m', t', e1, c1, h1, g1⟩ | ⟨m', t1, lp, l, node, ref, e1, hr, c1, g1, ha, h1⟩
    · refine ⟨{ c with mem := m' }, false, t', D, [], ?_, ⟨by show Book _ _ m'.counts _ _; rw [c1]; exact h.book.grown g1, h1⟩, fun _ _ => rfl, by simp, by simp, by simp,
        fun hn => absurd rfl (addToTree_noFail v q c.mem t _ h.holds hn 0 m' e1).1⟩
      simp only [e1, ub_bind, if_true]
      rw [h.book.root]
      rfl
    · have hD : HInv ⟨m', c.root, Dict.set c.refs v (((Dict.get c.refs v).getD []) ++ [ref])⟩ (t1.setAt q ((node, v) :: l))
          (Dict.set D v (recsOf D v ++ [⟨ref, q, lp, node⟩])) := by
        have h1' : Holds m' ((t1.setAt q ((node, v) :: l)).hp + ({(ref, .ref lp node)} + allObjs D)) := h1.of_eq (by abel)
        refine ⟨?_, h1.of_eq ?_⟩
        · show Book _ _ m'.counts _ _
          rw [c1]
          exact (h.book.grown g1).added (hw q (by simp)) ha h1'
        · rw [allObjs_set, recObjs_cons, recObjs_nil]
          abel
      obtain ⟨c', b, t', D', new, e2, h2, k1, k2, k3, k4, k5⟩ := ih _ _ _ (fun q' hq' => hw q' (by simp [hq'])) hD
      refine ⟨c', b, t', D', ⟨ref, q, lp, node⟩ :: new, ?_, h2, ?_, ?_, ?_, ?_,
        fun hn => k5 (addToTree_noFail v q c.mem t _ h.holds hn ref m' e1).2⟩
      · rw [h.book.root] at e2
        simp only [e1, ub_bind, hr, if_false]
        exact e2
      · intro w hne
        rw [k1 w hne, recsOf, Dict.get_set_ne _ _ (Ne.symm hne)]
        rfl
      · rw [k2]
        conv => lhs; rw [recsOf, Dict.get_set_self, Option.getD_some]
        simp
      · intro r hr
        rcases List.mem_cons.1 hr with rfl | hr
        · simp
        · exact List.mem_cons_of_mem _ (k3 r hr)
      · intro hb
        rw [List.map_cons, k4 hb]


/-! ## Removing -/

theorem removeLoop_ok (v : V) : ∀ (rs : List Rec) (m : CMem V) (t : ATree V) (F : Objs V), (rs.map Rec.node).Nodup →
    (∀ r ∈ rs, WellFormed r.q ∧ ∃ l, t.at_ r.q = some (r.lp, l) ∧ (r.node, v) ∈ l) → Holds m (t.hp + recObjs rs + F) → Ok t →
    (∀ w, m.counts w = cellCount w t.hp) →
    ∃ m' t', (rs.map Rec.ref).foldlM (fun m r => m.unlink r) m = .ok m' ∧ Holds m' (t'.hp + recObjs rs + F) ∧ Ok t' ∧ t'.addr = t.addr ∧
      (∀ w, m'.counts w = cellCount w t'.hp) ∧ m'.counts = bump m.counts v (-rs.length) ∧
      (∀ q lp l, WellFormed q → t.at_ q = some (lp, l) → ∃ l', t'.at_ q = some (lp, l') ∧
        ∀ c, c ∈ l' ↔ c ∈ l ∧ ∀ r ∈ rs, ¬ (r.q = q ∧ r.node = c.1)) ∧
      (∀ q, WellFormed q → t.at_ q = none → t'.at_ q = none) := by
  intro rs
  induction rs with
  | nil =>
    intro m t F _ _ h hok hc
    refine ⟨m, t, rfl, h, hok, rfl, hc, ?_, fun q lp l _ ha => ⟨l, ha, by simp⟩, fun q _ h => h⟩
    funext w
    simp [bump]
  | cons r rs ih =>
    intro m t F hn hr h hok hc
    rw [List.map_cons, List.nodup_cons] at hn
    obtain ⟨hw, l, ha, hmem⟩ := hr r (by simp)
    obtain ⟨l1, l2, hl⟩ := List.append_of_mem hmem
    subst hl
    have h0 : Holds m (t.hp + {(r.ref, .ref r.lp r.node)} + (recObjs rs + F)) := h.of_eq (by rw [recObjs_cons]; abel)
    obtain ⟨m1, e1, c1, h1⟩ := unlink_tree ha h0
    have hnd := list_nodup ha (h0.of_eq (L' := t.hp + ({(r.ref, .ref r.lp r.node)} + (recObjs rs + F))) (by abel))
    have hc1 : ∀ w, m1.counts w = cellCount w (t.setAt r.q (l1 ++ l2)).hp := by
      intro w
      have := cellCount_setAt ha (l1 ++ l2) w
      rw [c1]
      unfold bump
      rw [hc]
      rw [List.filter_append, List.filter_append, List.length_append, List.length_append] at this
      by_cases hv : w = v
      · subst hv
        rw [List.filter_cons_of_pos (by simp), List.length_cons] at this
        rw [if_pos rfl]
        omega
      · rw [List.filter_cons_of_neg (by simp [Ne.symm hv])] at this
        rw [if_neg hv]
        omega
    have hmem' : ∀ c, c ∈ l1 ++ l2 ↔ c ∈ l1 ++ (r.node, v) :: l2 ∧ r.node ≠ c.1 := by
      intro c
      rw [List.map_append, List.map_cons, List.nodup_append] at hnd
      obtain ⟨_, n2, n3⟩ := hnd
      rw [List.nodup_cons] at n2
      constructor
      · intro hcm
        refine ⟨?_, ?_⟩
        · rcases List.mem_append.1 hcm with h | h
          · exact List.mem_append_left _ h
          · exact List.mem_append_right _ (List.mem_cons_of_mem _ h)
        · intro he
          rcases List.mem_append.1 hcm with h | h
          · exact n3 c.1 (List.mem_map.2 ⟨c, h, rfl⟩) r.node (by simp) he.symm
          · exact n2.1 (he ▸ List.mem_map.2 ⟨c, h, rfl⟩)
      · rintro ⟨hcm, hne⟩
        rcases List.mem_append.1 hcm with h | h
        · exact List.mem_append_left _ h
        · rcases List.mem_cons.1 h with h | h
          · subst h; exact absurd rfl hne
          · exact List.mem_append_right _ h
    have hr' : ∀ r' ∈ rs, WellFormed r'.q ∧ ∃ l, (t.setAt r.q (l1 ++ l2)).at_ r'.q = some (r'.lp, l) ∧ (r'.node, v) ∈ l := by
      intro r' hr'
      obtain ⟨hw', l', ha', hm'⟩ := hr r' (List.mem_cons_of_mem _ hr')
      refine ⟨hw', ?_⟩
      rw [at_setAt r.q r'.q t r.lp _ _ hw hw' ha]
      split
      · next he =>
        rw [he, ha] at ha'
        injection ha' with ha'
        injection ha' with hlp hl'
        subst hl'
        refine ⟨l1 ++ l2, by rw [hlp], (hmem' _).2 ⟨hm', ?_⟩⟩
        intro he2
        exact hn.1 (List.mem_map.2 ⟨r', hr', he2.symm⟩)
      · exact ⟨l', ha', hm'⟩
    obtain ⟨m2, t2, e2, h2, ok2, a2, k1, k2, k3, k4⟩ := ih m1 (t.setAt r.q (l1 ++ l2)) ({(r.ref, .ref r.lp r.node)} + F) hn.2 hr'
      (h1.of_eq (by abel)) (hok.setAt _ _) hc1
    refine ⟨m2, t2, ?_, h2.of_eq ?_, ok2, a2.trans (setAt_addr _ _ _), k1, ?_, ?_, ?_⟩
    · rw [List.map_cons, List.foldlM_cons]
      simp only [e1, ub_bind]
      exact e2
    · rw [recObjs_cons]; abel
    · rw [k2, c1]
      funext w
      unfold bump
      split
      · rw [List.length_cons]; push_cast; omega
      · rfl
    · intro q lp l hwq hq
      by_cases he : q = r.q
      · subst he
        rw [ha] at hq
        cases hq
        obtain ⟨l', h3, h4⟩ := k3 r.q r.lp (l1 ++ l2) hw (by rw [at_setAt r.q r.q t r.lp _ _ hw hw ha, if_pos rfl])
        refine ⟨l', h3, fun c => ?_⟩
        rw [h4, hmem']
        simp only [List.mem_cons, forall_eq_or_imp, true_and]
        tauto
      · obtain ⟨l', h3, h4⟩ := k3 q lp l hwq (by rw [at_setAt r.q q t r.lp _ _ hw hwq ha, if_neg he]; exact hq)
        refine ⟨l', h3, fun c => ?_⟩
        rw [h4]
        simp only [List.mem_cons, forall_eq_or_imp]
        have : r.q ≠ q := Ne.symm he
        tauto
    · intro q hwq hq
      refine k4 q hwq ?_
      rw [at_setAt r.q q t r.lp _ _ hw hwq ha]
      split
      · next he => rw [he, ha] at hq; cases hq
      · exact hq

theorem dropRefs_ok : ∀ (rs : List Rec) (m : CMem V) (F : Objs V), Holds m (recObjs rs + F) →
    ∃ m', HeapTree.dropRefs m (rs.map Rec.ref) = .ok m' ∧ m'.counts = m.counts ∧ Holds m' F := by
  intro rs
  induction rs with
  | nil => intro m F h; exact ⟨m, rfl, rfl, h.of_eq (by rw [recObjs_nil]; abel)⟩
  | cons r rs ih =>
    intro m F h
    obtain ⟨e1, h1⟩ := free_ok (h.of_eq (L' := {(r.ref, .ref r.lp r.node)} + (recObjs rs + F)) (by rw [recObjs_cons]; abel))
    obtain ⟨m2, e2, c2, h2⟩ := ih _ F h1
    refine ⟨m2, ?_, c2, h2⟩
    unfold HeapTree.dropRefs at e2 ⊢
    rw [List.map_cons, List.foldlM_cons]
    simp only [e1, ub_bind]
    exact e2

theorem remove_ok {c : HeapTree V} {t : ATree V} {D : Dict V (List Rec)} (h : HInv c t D) (v : V) :
    ∃ c' t', c.remove v = .ok c' ∧ HInv c' t' (Dict.del D v) := by
  have hb := h.book
  obtain ⟨m1, t1, e1, h1, ok1, a1, k1, k2, k3, k4⟩ := removeLoop_ok v (recsOf D v) c.mem t (allObjs (Dict.del D v)) (hb.distinct v) (hb.cell v)
    (h.holds.of_eq (by rw [allObjs_del D v hb.keys]; abel)) hb.ok hb.counts
  obtain ⟨m2, e2, c2, h2⟩ := dropRefs_ok (recsOf D v) m1 (t1.hp + allObjs (Dict.del D v)) (h1.of_eq (by abel))
  have hrec : ∀ w, recsOf (Dict.del D v) w = if v = w then [] else recsOf D w := by
    intro w
    rw [recsOf, Dict.get_del]
    split <;> rfl
  refine ⟨⟨m2, c.root, Dict.del c.refs v⟩, t1, ?_, ⟨⟨hb.root.trans a1.symm, ok1, ?_, ?_, ?_, Dict.nodup_keys_del hb.keys, ?_, ?_, ?_⟩, h2⟩⟩
  · unfold HeapTree.remove
    rw [hb.refs, refsOf_get]
    simp only [e1, ub_bind, e2]
    rfl
  · intro w
    show m2.counts w = _
    rw [c2]; exact k1 w
  · intro w
    show m2.counts w = _
    rw [c2, k2, hrec]
    unfold bump
    rw [hb.recs w]
    by_cases hv : w = v
    · subst hv; simp
    · simp [hv, Ne.symm hv]
  · show Dict.del c.refs v = _
    rw [refsOf_del, hb.refs]
  · intro w r hr
    rw [hrec] at hr
    split at hr
    · cases hr
    · next hne =>
      obtain ⟨hw, l, ha, hm⟩ := hb.cell w r hr
      obtain ⟨l', ha', hl'⟩ := k3 r.q r.lp l hw ha
      refine ⟨hw, l', ha', (hl' _).2 ⟨hm, ?_⟩⟩
      rintro r' hr' ⟨hq, hnode⟩
      obtain ⟨_, l2, ha2, hm2⟩ := hb.cell v r' hr'
      rw [hq, ha] at ha2
      injection ha2 with ha2
      injection ha2 with _ hl2
      subst hl2
      have hnd := list_nodup ha h.holds
      rw [hnode] at hm2
      exact hne (congrArg Prod.snd (List.inj_on_of_nodup_map hnd hm2 hm rfl))
  · intro q lp l x w hw ha hx
    rw [hrec]
    cases ht : t.at_ q with
    | none => rw [k4 q hw ht] at ha; cases ha
    | some y =>
      obtain ⟨lp0, l0⟩ := y
      obtain ⟨l', ha', hl'⟩ := k3 q lp0 l0 hw ht
      rw [ha'] at ha
      cases ha
      obtain ⟨hx0, hno⟩ := (hl' _).1 hx
      obtain ⟨r, hr, h3, h4⟩ := hb.known q _ l0 x w hw ht hx0
      split
      · next hv =>
        subst hv
        exact absurd ⟨h3, h4⟩ (hno r hr)
      · exact ⟨r, hr, h3, h4⟩
  · intro w
    rw [hrec]
    split
    · simp
    · exact hb.distinct w

/-! ## Destroying -/

theorem refsOf_flat (D : Dict V (List Rec)) : (refsOf D).flatMap Prod.snd = (D.flatMap Prod.snd).map Rec.ref := by
  unfold refsOf
  induction D with
  | nil => rfl
  | cons p D ih => simp only [List.map_cons, List.flatMap_cons, List.map_append, ih]

theorem allObjs_flat (D : Dict V (List Rec)) : (allObjs D : Objs V) = recObjs (D.flatMap Prod.snd) := by
  induction D with
  | nil => rfl
  | cons p D ih => rw [allObjs, List.flatMap_cons, recObjs_append, ih]

theorem destroy_ok {c : HeapTree V} {t : ATree V} {D : Dict V (List Rec)} (h : HInv c t D) :
    ∃ m, c.destroy = .ok m ∧ (∀ a, m.objs a = none) ∧ ∀ v, m.counts v = 0 := by
  obtain ⟨m1, e1, h1, c1⟩ := freeTree_ok (c.mem.next + 1) t c.mem (allObjs D) (by
    have := h.holds.card
    rw [Multiset.card_add] at this
    omega) h.holds
  obtain ⟨m2, e2, c2, h2⟩ := dropRefs_ok (D.flatMap Prod.snd) m1 0 (h1.of_eq (by rw [allObjs_flat]; abel))
  refine ⟨m2, ?_, ?_, ?_⟩
  · unfold HeapTree.destroy
    rw [h.book.root, h.book.refs, refsOf_flat]
    simp only [e1, ub_bind]
    exact e2
  · intro a
    cases ho : m2.objs a with
    | none => rfl
    | some o => exact absurd ((h2.objs a o).1 ho) (by simp)
  · intro v
    rw [c2, c1, h.book.counts]
    omega

/-! ## Reading -/

theorem get_ok {c : HeapTree V} {t : ATree V} {D : Dict V (List Rec)} (h : HInv c t D) (e : EventType) :
    ∃ vs, c.get e = .ok vs ∧ vs.Nodup ∧ ∀ v, v ∈ vs ↔ ∃ r ∈ recsOf D v, Matches e r.q := by
  refine ⟨toSet (TNode.get e t.erase), ?_, nodup_toSet _, fun v => ?_⟩
  · unfold HeapTree.get
    rw [h.book.root, getValues_ok e c.mem t _ h.holds]
    rfl
  · rw [mem_toSet, TNode.mem_get e _ v h.book.ok.erase]
    constructor
    · rintro ⟨q, a, hw, hm, hq⟩
      rw [cellsAt_erase] at hm
      cases ha : t.at_ q with
      | none => rw [ha] at hm; simp at hm
      | some y =>
        obtain ⟨lp, l⟩ := y
        rw [ha] at hm
        obtain ⟨r, hr, rfl, _⟩ := h.book.known q lp l a v hw ha hm
        exact ⟨r, hr, hq⟩
    · rintro ⟨r, hr, hq⟩
      obtain ⟨hw, l, ha, hm⟩ := h.book.cell v r hr
      refine ⟨r.q, r.node, hw, ?_, hq⟩
      rw [cellsAt_erase, ha]
      exact hm

/-! ## Histories -/

/-- The operations that raised no exception. -/
def succeeded (ops : List (CollOp V)) (flags : List Bool) : List (CollOp V) := ((ops.zip flags).filter Prod.snd).map Prod.fst

theorem HInv.refs_entry {c : HeapTree V} {t : ATree V} {D : Dict V (List Rec)} (h : HInv c t D) (v : V) :
    HInv { c with refs := Dict.set c.refs v ((Dict.get c.refs v).getD []) } t (Dict.set D v (recsOf D v)) := by
  have hrec : ∀ w, recsOf (Dict.set D v (recsOf D v)) w = recsOf D w := by
    intro w
    rw [recsOf, Dict.get_set]
    split
    · next hv => subst hv; rfl
    · rfl
  have hb := h.book
  refine ⟨⟨hb.root, hb.ok, hb.counts, ?_, ?_, Dict.nodup_keys_set hb.keys, ?_, ?_, ?_⟩, ?_⟩
  · intro w; rw [hrec]; exact hb.recs w
  · show Dict.set c.refs v _ = _
    rw [refsOf_set, hb.refs, refsOf_get]
  · intro w r hr; rw [hrec] at hr; exact hb.cell w r hr
  · intro q lp l x w h1 h2 h3; rw [hrec]; exact hb.known q lp l x w h1 h2 h3
  · intro w; rw [hrec]; exact hb.distinct w
  · have := allObjs_set (V := V) D v []
    rw [List.append_nil, recObjs_nil, add_zero] at this
    rw [this]
    exact h.holds

theorem heap_run_ok : ∀ (ops : List (CollOp V)) (pre good : List (CollOp V)) (c : HeapTree V) (t : ATree V) (D : Dict V (List Rec)),
    (∀ s v, .add s v ∈ ops → s.Valid) → HInv c t D →
    (∀ v r, r ∈ recsOf D v → RegisteredWith (fun s => r.q ∈ s.getQueryTypes) pre v) →
    (∀ v q, RegisteredWith (fun s => q ∈ s.getQueryTypes) good v → ∃ r ∈ recsOf D v, r.q = q) →
    ∃ c' flags t' D', HeapTree.run ops c = .ok (c', flags) ∧ flags.length = ops.length ∧ HInv c' t' D' ∧ (NoFail c.mem → ∀ b ∈ flags, b = true) ∧
      (∀ v r, r ∈ recsOf D' v → RegisteredWith (fun s => r.q ∈ s.getQueryTypes) (pre ++ ops) v) ∧
      (∀ v q, RegisteredWith (fun s => q ∈ s.getQueryTypes) (good ++ succeeded ops flags) v → ∃ r ∈ recsOf D' v, r.q = q) := by
  intro ops
  induction ops with
  | nil =>
    intro pre good c t D _ h h1 h2
    exact ⟨c, [], t, D, rfl, rfl, h, by simp, by simpa using h1, by simpa [succeeded] using h2⟩
  | cons op ops ih =>
    intro pre good c t D hv h h1 h2
    cases op with
    | remove v =>
      obtain ⟨c1, t1, e1, i1⟩ := remove_ok h v
      have hrec : ∀ w, recsOf (Dict.del D v) w = if v = w then [] else recsOf D w := by
        intro w
        rw [recsOf, Dict.get_del]
        split <;> rfl
      obtain ⟨c', flags, t', D', e2, hl, i2, k0, k1, k2⟩ := ih (pre ++ [.remove v]) (good ++ [.remove v]) c1 t1 _
        (fun s w hm => hv s w (List.mem_cons_of_mem _ hm)) i1 (by
          intro w r hr
          rw [hrec] at hr
          split at hr
          · cases hr
          · next hne => exact registeredWith_remove.2 ⟨Ne.symm hne, h1 w r hr⟩) (by
          intro w q hr
          obtain ⟨hne, hr⟩ := registeredWith_remove.1 hr
          rw [hrec, if_neg (Ne.symm hne)]
          exact h2 w q hr)
      refine ⟨c', true :: flags, t', D', ?_, by simp [hl], i2, fun hn b hb => ?_, by simpa using k1, ?_⟩
      · rw [HeapTree.run, HeapTree.step]
        simp only [e1, ub_bind]
        show (HeapTree.run ops c1 >>= _) = _
        rw [e2]
        rfl
      · rcases List.mem_cons.1 hb with rfl | hb
        · rfl
        · exact k0 ((heap_remove_same e1).noFail hn) b hb
      · simpa [succeeded] using k2
    | add s v =>
      have hs : s.Valid := hv s v (by simp)
      obtain ⟨c1, b, t1, D1, new, e1, i1, j1, j2, j3, j4, j5⟩ := addLoop_ok v s.getQueryTypes _ _ _
        (fun q hq => (Sub.queryTypes_wellFormed hs q hq).1) (h.refs_entry v)
      have hrec : ∀ w, recsOf (Dict.set D v (recsOf D v)) w = recsOf D w := by
        intro w
        rw [recsOf, Dict.get_set]
        split
        · next hv => subst hv; rfl
        · rfl
      obtain ⟨c', flags, t', D', e2, hl, i2, k0, k1, k2⟩ := ih (pre ++ [.add s v]) (good ++ if b then [.add s v] else []) c1 t1 D1
        (fun s w hm => hv s w (List.mem_cons_of_mem _ hm)) i1 (by
          intro w r hr
          rw [registeredWith_add]
          by_cases hw : w = v
          · subst hw
            rw [j2, hrec] at hr
            rcases List.mem_append.1 hr with hr | hr
            · exact .inl (h1 w r hr)
            · exact .inr ⟨rfl, j3 r hr⟩
          · rw [j1 w hw, hrec] at hr
            exact .inl (h1 w r hr)) (by
          intro w q hr
          have old : RegisteredWith (fun s => q ∈ s.getQueryTypes) good w → ∃ r ∈ recsOf D1 w, r.q = q := by
            intro hg
            obtain ⟨r, hr2, hq⟩ := h2 w q hg
            refine ⟨r, ?_, hq⟩
            by_cases hw : w = v
            · subst hw; rw [j2, hrec]; exact List.mem_append_left _ hr2
            · rw [j1 w hw, hrec]; exact hr2
          cases b with
          | false => rw [if_neg (by simp), List.append_nil] at hr; exact old hr
          | true =>
            rw [if_pos rfl, registeredWith_add] at hr
            rcases hr with hr | ⟨rfl, hr⟩
            · exact old hr
            · rw [← j4 rfl] at hr
              obtain ⟨r, hr, hq⟩ := List.mem_map.1 hr
              refine ⟨r, ?_, hq⟩
              rw [j2]
              exact List.mem_append_right _ hr)
      refine ⟨c', b :: flags, t', D', ?_, by simp [hl], i2, fun hn b' hb => ?_, by simpa using k1, ?_⟩
      · rw [HeapTree.run, HeapTree.step, HeapTree.add]
        simp only [e1, ub_bind, e2]
        rfl
      · obtain ⟨hb1, hn1⟩ := j5 hn
        rcases List.mem_cons.1 hb with rfl | hb
        · exact hb1
        · exact k0 hn1 b' hb
      · cases b <;> simpa [succeeded] using k2

end HatEvent
