import Verif.Proof.CTreeHeapOps

/-! Memory of the C tree collection: removal and reading. -/

namespace HatEvent
open Spec

variable {V : Type} [DecidableEq V]

open ATree

/-! ## Removal -/

theorem headAddr_append (a b : List (Addr × V)) (n : Addr) : headAddr (a ++ b) n = headAddr a (headAddr b n) := by
  cases a <;> rfl

/-- The first link of `unlink`. -/
theorem linkNext_ok {m : CMem V} {lp : ListPtr} {l1 l2 : List (Addr × V)} {x : Addr} {v : V} {other q : Addr}
    {ch : Option (List (Segment × Addr))} {R : Objs V}
    (h : Holds m ({(lp.owner, treeObj lp.asterisk (headAddr (l1 ++ (x, v) :: l2) 0) other ch q)} + chain 0 (l1 ++ (x, v) :: l2) 0 + R)) :
    ∃ m', m.linkNext lp (lastAddr 0 l1) (headAddr l2 0) = .ok m' ∧ m'.counts = m.counts ∧
      Holds m' ({(lp.owner, treeObj lp.asterisk (headAddr (l1 ++ l2) 0) other ch q)} +
        (chain 0 l1 (headAddr l2 0) + {(x, .cell (lastAddr 0 l1) (headAddr l2 0) v)} + chain x l2 0) + R) := by
  unfold CMem.linkNext
  rcases List.eq_nil_or_concat l1 with rfl | ⟨l1, ⟨y, w⟩, rfl⟩
  · have h1 := h.of_eq (L' := {(lp.owner, treeObj lp.asterisk x other ch q)} +
      ({(x, .cell 0 (headAddr l2 0) v)} + chain x l2 0 + R)) (by simp only [List.nil_append, chain, headAddr]; abel)
    obtain ⟨m', e, c, h2⟩ := setHead_ok h1 (headAddr l2 0)
    refine ⟨m', ?_, c, h2.of_eq ?_⟩
    · rw [lastAddr, if_pos rfl]; exact e
    · simp only [List.nil_append, chain, lastAddr, headAddr_append, headAddr]; abel
  · have hl : lastAddr 0 (l1.concat (y, w)) = y := by
      rw [List.concat_eq_append]
      clear h
      generalize (0 : Nat) = p
      induction l1 generalizing p with
      | nil => rfl
      | cons z l1 ih => rw [List.cons_append, lastAddr]; exact ih _
    rw [hl]
    have h1 := h.of_eq (L' := {(y, .cell (lastAddr 0 l1) x w)} + ({(lp.owner, treeObj lp.asterisk (headAddr (l1.concat (y, w) ++ (x, v) :: l2) 0) other ch q)} +
      chain 0 l1 y + {(x, .cell y (headAddr l2 0) v)} + chain x l2 0 + R)) (by
        rw [List.concat_eq_append, List.append_assoc, chain_append]
        simp only [List.singleton_append, chain, headAddr]
        abel)
    obtain ⟨m', e, c, h2⟩ := setNext_ok h1 (headAddr l2 0)
    refine ⟨m', ?_, c, h2.of_eq ?_⟩
    · rw [if_neg h1.ne_zero]; exact e
    · have hh : headAddr (l1.concat (y, w) ++ (x, v) :: l2) 0 = headAddr (l1.concat (y, w) ++ l2) 0 := by cases l1 <;> rfl
      rw [hh, List.concat_eq_append, chain_append]
      simp only [chain, show ∀ n : Nat, headAddr [(y, w)] n = y from fun _ => rfl, show ∀ n : Nat, headAddr ([] : List (Nat × V)) n = n from fun _ => rfl]
      abel

/-- The second link of `unlink`. -/
theorem linkPrev_ok {m : CMem V} {l2 : List (Addr × V)} {x p : Addr} {R : Objs V} (h : Holds m (chain x l2 0 + R)) :
    ∃ m', m.linkPrev (headAddr l2 0) p = .ok m' ∧ m'.counts = m.counts ∧ Holds m' (chain p l2 0 + R) := by
  unfold CMem.linkPrev
  cases l2 with
  | nil => exact ⟨m, rfl, rfl, h⟩
  | cons y l2 =>
    obtain ⟨y, w⟩ := y
    have h1 := h.of_eq (L' := {(y, .cell x (headAddr l2 0) w)} + (chain y l2 0 + R)) (by simp only [chain]; abel)
    obtain ⟨m', e, c, h2⟩ := setPrev_ok h1 p
    refine ⟨m', ?_, c, h2.of_eq (by simp only [chain]; abel)⟩
    show (if y = 0 then _ else m.setPrev y p) = _
    rw [if_neg h1.ne_zero]
    exact e

theorem unlink_ok {m : CMem V} {lp : ListPtr} {l1 l2 : List (Addr × V)} {x r : Addr} {v : V} {other q : Addr}
    {ch : Option (List (Segment × Addr))} {R : Objs V}
    (h : Holds m ({(lp.owner, treeObj lp.asterisk (headAddr (l1 ++ (x, v) :: l2) 0) other ch q)} + chain 0 (l1 ++ (x, v) :: l2) 0 + R +
      {(r, .ref lp x)})) :
    ∃ m', m.unlink r = .ok m' ∧ m'.counts = bump m.counts v (-1) ∧
      Holds m' ({(lp.owner, treeObj lp.asterisk (headAddr (l1 ++ l2) 0) other ch q)} + chain 0 (l1 ++ l2) 0 + R + {(r, .ref lp x)}) := by
  have e1 := getRef_ok (h.of_eq (L' := {(r, .ref lp x)} + ({(lp.owner, treeObj lp.asterisk (headAddr (l1 ++ (x, v) :: l2) 0) other ch q)} +
    chain 0 (l1 ++ (x, v) :: l2) 0 + R)) (by abel))
  have e2 := getCell_ok (h.of_eq (L' := {(x, .cell (lastAddr 0 l1) (headAddr l2 0) v)} +
    ({(lp.owner, treeObj lp.asterisk (headAddr (l1 ++ (x, v) :: l2) 0) other ch q)} +
      chain 0 l1 x + chain x l2 0 + R + {(r, .ref lp x)})) (by
        rw [chain_append]
        simp only [chain, headAddr]
        abel))
  obtain ⟨m1, e3, c3, h3⟩ := linkNext_ok (R := R + {(r, .ref lp x)}) (h.of_eq (by abel))
  obtain ⟨m2, e4, c4, h4⟩ := linkPrev_ok (p := lastAddr 0 l1) (l2 := l2) (x := x)
    (R := {(lp.owner, treeObj lp.asterisk (headAddr (l1 ++ l2) 0) other ch q)} +
        chain 0 l1 (headAddr l2 0) + {(x, .cell (lastAddr 0 l1) (headAddr l2 0) v)} + R + {(r, .ref lp x)}) (h3.of_eq (by abel))
  obtain ⟨e5, h5⟩ := free_ok (m := m2.addCount v (-1)) (a := x) (o := .cell (lastAddr 0 l1) (headAddr l2 0) v)
    (L := {(lp.owner, treeObj lp.asterisk (headAddr (l1 ++ l2) 0) other ch q)} + chain 0 (l1 ++ l2) 0 + R + {(r, .ref lp x)})
    ((h4.addCount v (-1)).of_eq (by rw [chain_append]; abel))
  refine ⟨(m2.addCount v (-1)).put x none, ?_, ?_, h5⟩
  · unfold CMem.unlink
    simp only [e1, ub_bind, e2, e3, e4, e5]
  · show bump m2.counts v (-1) = _
    rw [c4, c3]

theorem cellCount_setAt {t : ATree V} {q : EventType} {lp : ListPtr} {l : List (Addr × V)} (h : t.at_ q = some (lp, l)) (l' : List (Addr × V)) (v : V) :
    cellCount v (t.setAt q l').hp + (l.filter fun x => x.2 = v).length = cellCount v t.hp + (l'.filter fun x => x.2 = v).length := by
  obtain ⟨e, R, other, ch, qq, hR⟩ := focus q t lp l h
  have h1 : cellCount v t.hp = cellCount v (t.setAt q l).hp := by rw [e]
  rw [h1, hR, hR]
  have h0 : ∀ a, (treeObj lp.asterisk a other ch qq : CObj V).refsTo v = 0 := by
    intro a; unfold treeObj; split <;> rfl
  simp only [cellCount_add, cellCount_single, chain_count, h0]
  omega

/-- `unlink` of a cell of the tree. -/
theorem unlink_tree {m : CMem V} {t : ATree V} {q : EventType} {lp : ListPtr} {l1 l2 : List (Addr × V)} {x r : Addr} {v : V} {F : Objs V}
    (ha : t.at_ q = some (lp, l1 ++ (x, v) :: l2)) (h : Holds m (t.hp + {(r, .ref lp x)} + F)) :
    ∃ m', m.unlink r = .ok m' ∧ m'.counts = bump m.counts v (-1) ∧ Holds m' ((t.setAt q (l1 ++ l2)).hp + {(r, .ref lp x)} + F) := by
  obtain ⟨e, R, other, ch, qq, hR⟩ := focus q t lp _ ha
  obtain ⟨m', e1, c1, h1⟩ := unlink_ok (R := R + F) (h.of_eq (L' := {(lp.owner, treeObj lp.asterisk (headAddr (l1 ++ (x, v) :: l2) 0) other ch qq)} +
    chain 0 (l1 ++ (x, v) :: l2) 0 + (R + F) + {(r, .ref lp x)}) (by
      rw [show t.hp = (t.setAt q (l1 ++ (x, v) :: l2)).hp by rw [e], hR]; abel))
  exact ⟨m', e1, c1, h1.of_eq (by rw [hR]; abel)⟩

/-! ## Reading -/

theorem listValues_ok : ∀ (l : List (Addr × V)) (n : Nat) (m : CMem V) (p : Addr) (F : Objs V), l.length < n → Holds m (chain p l 0 + F) →
    CMem.listValues n m (headAddr l 0) = .ok (l.map Prod.snd) := by
  intro l
  induction l with
  | nil =>
    intro n m p F hn h
    cases n with
    | zero => omega
    | succ n => simp [CMem.listValues, headAddr]
  | cons x l ih =>
    intro n m p F hn h
    obtain ⟨x, w⟩ := x
    cases n with
    | zero => simp at hn
    | succ n =>
      have h1 : Holds m ({(x, .cell p (headAddr l 0) w)} + (chain x l 0 + F)) := h.of_eq (by simp only [chain]; abel)
      have e1 := getCell_ok h1
      have e2 := ih n m x ({(x, .cell p (headAddr l 0) w)} + F) (by simp at hn; omega) (h1.of_eq (by abel))
      rw [show headAddr ((x, w) :: l) 0 = x from rfl, CMem.listValues, if_neg h1.ne_zero]
      simp only [e1, ub_bind, e2]
      rfl

theorem getValues_ok : ∀ (e : EventType) (m : CMem V) (t : ATree V) (F : Objs V), Holds m (t.hp + F) →
    CMem.getValues e m t.addr = .ok (TNode.get e t.erase) := by
  have hlen : ∀ (m : CMem V) (l : List (Addr × V)) (G : Objs V), Holds m (chain 0 l 0 + G) → l.length < m.next + 1 := by
    intro m l G hG
    have := hG.card
    rw [Multiset.card_add, chain_card] at this
    omega
  intro e
  induction e with
  | nil =>
    intro m t F h
    obtain ⟨a, vs, as, tb, ch, qc⟩ := t
    rw [hp] at h
    have e0 := getTree_ok (h.of_eq (L' := {(a, .tree (headAddr vs 0) (headAddr as 0) (tableOf tb ch) (qAddr qc))} +
      (chain 0 vs 0 + chain 0 as 0 + hpL ch + hpO qc + F)) (by abel))
    have h1 := h.of_eq (L' := chain 0 as 0 + ({(a, .tree (headAddr vs 0) (headAddr as 0) (tableOf tb ch) (qAddr qc))} +
      chain 0 vs 0 + hpL ch + hpO qc + F)) (by abel)
    have h2 := h.of_eq (L' := chain 0 vs 0 + ({(a, .tree (headAddr vs 0) (headAddr as 0) (tableOf tb ch) (qAddr qc))} +
      chain 0 as 0 + hpL ch + hpO qc + F)) (by abel)
    have e1 := listValues_ok as _ m 0 _ (hlen _ _ _ h1) h1
    have e2 := listValues_ok vs _ m 0 _ (hlen _ _ _ h2) h2
    rw [addr, CMem.getValues]
    simp only [e0, ub_bind, e1, e2]
    rw [erase, TNode.get]
    rfl
  | cons s e ih =>
    intro m t F h
    obtain ⟨a, vs, as, tb, ch, qc⟩ := t
    rw [hp] at h
    have e0 := getTree_ok (h.of_eq (L' := {(a, .tree (headAddr vs 0) (headAddr as 0) (tableOf tb ch) (qAddr qc))} +
      (chain 0 vs 0 + chain 0 as 0 + hpL ch + hpO qc + F)) (by abel))
    have h1 := h.of_eq (L' := chain 0 as 0 + ({(a, .tree (headAddr vs 0) (headAddr as 0) (tableOf tb ch) (qAddr qc))} +
      chain 0 vs 0 + hpL ch + hpO qc + F)) (by abel)
    have e1 := listValues_ok as _ m 0 _ (hlen _ _ _ h1) h1
    have e2 : (CMem.nonNull (qAddr qc)).mapM (CMem.getValues e m) = .ok ((eraseO qc).map (TNode.get e)) := by
      cases qc with
      | none => rfl
      | some c =>
        have h2 := h.of_eq (L' := c.hp + ({(a, .tree (headAddr vs 0) (headAddr as 0) (tableOf tb ch) (qAddr (some c)))} +
          chain 0 vs 0 + chain 0 as 0 + hpL ch + F)) (by rw [hpO]; abel)
        rw [qAddr, CMem.nonNull, if_neg (addr_ne h2), List.mapM_cons, ih m c _ h2, ub_bind]
        rfl
    have e3 : (Dict.get ((tableOf tb ch).getD []) s).toList.mapM (CMem.getValues e m) =
        .ok ((Dict.get ch s).toList.map fun c => TNode.get e c.erase) := by
      have ht : Dict.get ((tableOf tb ch).getD []) s = (Dict.get ch s).map addr := by
        unfold tableOf
        split
        · rw [Option.getD_some, get_map]
        · next hc =>
          cases ch with
          | nil => rfl
          | cons => simp at hc
      rw [ht]
      cases hg : Dict.get ch s with
      | none => rfl
      | some c =>
        obtain ⟨R, hR, _⟩ := hpL_set hg
        have h2 := h.of_eq (L' := c.hp + ({(a, .tree (headAddr vs 0) (headAddr as 0) (tableOf tb ch) (qAddr qc))} +
          chain 0 vs 0 + chain 0 as 0 + R + hpO qc + F)) (by rw [hR]; abel)
        rw [Option.map_some, Option.toList_some, List.mapM_cons, ih m c _ h2, ub_bind]
        rfl
    rw [addr, CMem.getValues]
    simp only [e0, ub_bind, e1, e2, e3]
    rw [erase, TNode.get, get_eraseL]
    show Except.ok _ = _
    congr 1
    congr 1
    · congr 1
      cases qc with
      | none => rfl
      | some c => simp [eraseO]
    · cases Dict.get ch s with
      | none => rfl
      | some c => simp

end HatEvent
