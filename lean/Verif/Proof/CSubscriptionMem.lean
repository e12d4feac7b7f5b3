import Verif.Model.CSubscriptionMem
import Verif.Proof.Dict
import Verif.Proof.Tactics

/-! # Memory of the C subscription: proofs -/

namespace HatEvent

namespace MNode

mutual
/-- Number of nodes below a node. -/
def nodeCount : MNode → Nat
  | mk _ _ _ ch => nodeCountL ch
/-- Number of nodes of children. -/
def nodeCountL : List (Segment × MNode) → Nat
  | [] => 0
  | (_, c) :: r => c.nodeCount + 1 + nodeCountL r
end

mutual
/-- Number of tables. -/
def tabs : MNode → Nat
  | mk _ _ t ch => (if t then 1 else 0) + tabsL ch
/-- Number of tables of children. -/
def tabsL : List (Segment × MNode) → Nat
  | [] => 0
  | (_, c) :: r => c.tabs + tabsL r
end

mutual
/-- The node without memory. -/
def erase : MNode → CNode
  | mk l s _ ch => .mk l s (eraseL ch)
/-- Children without memory. -/
def eraseL : List (Segment × MNode) → List (Segment × CNode)
  | [] => []
  | (k, c) :: r => (k, c.erase) :: eraseL r
end

/-- There are children only in a table. -/
inductive Wf : MNode → Prop
  | mk {l s t : Bool} {ch : List (Segment × MNode)} : (t = false → ch = []) → (∀ p ∈ ch, Wf p.2) → Wf (.mk l s t ch)

theorem Wf.empty : Wf MNode.empty := .mk (fun _ => rfl) (by simp)

end MNode
open MNode

/-- Memory after freeing. -/
def SubMem.less (m : SubMem) (n t : Nat) : SubMem := { m with nodes := m.nodes - n, tables := m.tables - t }

theorem SubMem.less_less (m : SubMem) (a b c d : Nat) : (m.less a b).less c d = m.less (a + c) (b + d) := by
  unfold SubMem.less
  simp only [SubMem.mk.injEq, and_self, and_true, true_and]
  constructor <;> push_cast <;> omega

theorem freeAll_of {ch : List (Segment × MNode)} (h : ∀ p ∈ ch, ∀ m, p.2.freeChildren m = m.less p.2.nodeCount p.2.tabs) (m : SubMem) :
    freeAll ch m = m.less (nodeCountL ch) (tabsL ch) := by
  induction ch generalizing m with
  | nil => simp [freeAll, nodeCountL, tabsL, SubMem.less]
  | cons p ch ih =>
    obtain ⟨k, c⟩ := p
    rw [freeAll, h (k, c) (by simp), ih (fun p hp => h p (by simp [hp])), nodeCountL, tabsL]
    have : ({ (m.less c.nodeCount c.tabs) with nodes := (m.less c.nodeCount c.tabs).nodes - 1 } : SubMem) = (m.less c.nodeCount c.tabs).less 1 0 := by
      simp [SubMem.less]
    simp only [this, SubMem.less_less, Nat.add_zero]

theorem freeChildren_eq {n : MNode} (h : Wf n) : ∀ m, n.freeChildren m = m.less n.nodeCount n.tabs := by
  induction h with
  | @mk l s t ch h1 _ ih =>
    intro m
    rw [freeChildren, nodeCount, tabs]
    cases t with
    | false => simp [h1 rfl, nodeCountL, tabsL, SubMem.less]
    | true =>
      simp only [if_true]
      rw [freeAll_of ih]
      have : ({ (m.less (nodeCountL ch) (tabsL ch)) with tables := (m.less (nodeCountL ch) (tabsL ch)).tables - 1 } : SubMem) =
          (m.less (nodeCountL ch) (tabsL ch)).less 0 1 := by simp [SubMem.less]
      rw [this, SubMem.less_less, Nat.add_zero, Nat.add_comm 1]

theorem below_set (ch : List (Segment × MNode)) (k : Segment) (c : MNode) :
    nodeCountL (Dict.set ch k c) + (match Dict.get ch k with | some o => Nat.succ o.nodeCount | none => 0) = nodeCountL ch + (c.nodeCount + 1) := by
  induction ch with
  | nil => simp [Dict.set, nodeCountL]
  | cons p ch ih =>
    obtain ⟨k', o⟩ := p
    rw [Dict.set, Dict.get_cons]
    by_cases h : k' = k
    · simp only [h, if_true, nodeCountL]
      change c.nodeCount + 1 + nodeCountL ch + (o.nodeCount + 1) = o.nodeCount + 1 + nodeCountL ch + (c.nodeCount + 1)
      omega
    · simp only [h, if_false, nodeCountL] at ih ⊢; omega

theorem tabs_set (ch : List (Segment × MNode)) (k : Segment) (c : MNode) :
    tabsL (Dict.set ch k c) + (match Dict.get ch k with | some o => o.tabs | none => 0) = tabsL ch + c.tabs := by
  induction ch with
  | nil => simp [Dict.set, tabsL]
  | cons p ch ih =>
    obtain ⟨k', o⟩ := p
    rw [Dict.set, Dict.get_cons]
    by_cases h : k' = k
    · simp only [h, if_true, tabsL]; omega
    · simp only [h, if_false, tabsL]; omega

theorem eraseL_get (ch : List (Segment × MNode)) (k : Segment) : Dict.get (eraseL ch) k = (Dict.get ch k).map MNode.erase := by
  induction ch with
  | nil => simp [eraseL]
  | cons p ch ih =>
    obtain ⟨k', o⟩ := p
    rw [eraseL, Dict.get_cons, Dict.get_cons]
    split
    · rfl
    · exact ih

theorem eraseL_set (ch : List (Segment × MNode)) (k : Segment) (c : MNode) : eraseL (Dict.set ch k c) = Dict.set (eraseL ch) k c.erase := by
  induction ch with
  | nil => simp [Dict.set, eraseL]
  | cons p ch ih =>
    obtain ⟨k', o⟩ := p
    rw [eraseL, Dict.set, Dict.set]
    split
    · rw [eraseL]
    · rw [eraseL, ih]

theorem ensureTable_spec (t : Bool) (m : SubMem) :
    ((ensureTable t m).2.refs = m.refs ∧ (ensureTable t m).2.objs = m.objs ∧ (ensureTable t m).2.nodes = m.nodes) ∧
      (ensureTable t m).2.tables = m.tables + (if (ensureTable t m).1 then 1 else 0) - (if t then 1 else 0) ∧
      ((ensureTable t m).1 = false → t = false) ∧
      ((∀ b ∈ m.fails, b = false) → (ensureTable t m).1 = true ∧ ∀ b ∈ (ensureTable t m).2.fails, b = false) := by
  unfold ensureTable
  cases t with
  | true => simp
  | false =>
    by_cases hf : m.failing = true
    · simp only [Bool.false_eq_true, if_false, hf, if_true]
      refine ⟨⟨rfl, rfl, rfl⟩, by simp [SubMem.tried], by simp, fun h => ?_⟩
      unfold SubMem.failing at hf
      cases hm : m.fails with
      | nil => rw [hm] at hf; cases hf
      | cons b r => rw [hm] at hf; have := h b (by rw [hm]; simp); rw [this] at hf; cases hf
    · simp only [Bool.false_eq_true, if_false, hf, if_true]
      refine ⟨⟨rfl, rfl, rfl⟩, by simp, by simp, fun h => ?_⟩
      simp only [true_and]
      exact fun b hb => h b (List.mem_of_mem_tail hb)

theorem not_failing {m : SubMem} (h : ∀ b ∈ m.fails, b = false) : m.failing = false := by
  unfold SubMem.failing
  cases hm : m.fails with
  | nil => rfl
  | cons b r => exact h b (by rw [hm]; simp)

theorem newNode_spec (m : SubMem) :
    ((newNode m).2.refs = m.refs ∧ (newNode m).2.objs = m.objs ∧ (newNode m).2.tables = m.tables) ∧
      (newNode m).2.nodes = m.nodes + (if (newNode m).1 then 1 else 0) ∧
      ((∀ b ∈ m.fails, b = false) → (newNode m).1 = true ∧ ∀ b ∈ (newNode m).2.fails, b = false) := by
  unfold newNode
  by_cases hf : m.failing = true
  · simp only [hf, if_true]
    refine ⟨⟨rfl, rfl, rfl⟩, by simp [SubMem.tried], fun h => ?_⟩
    rw [not_failing h] at hf; cases hf
  · simp only [hf, if_false]
    by_cases hf2 : ({ m.tried with nodes := m.nodes + 1 } : SubMem).failing = true
    · simp only [hf2]
      refine ⟨⟨rfl, rfl, rfl⟩, ?_, fun h => ?_⟩
      · simp
      · have := not_failing (m := { m.tried with nodes := m.nodes + 1 }) (fun b hb => h b (List.mem_of_mem_tail hb))
        rw [this] at hf2; cases hf2
    · simp only [hf2]
      refine ⟨⟨rfl, rfl, rfl⟩, by simp [SubMem.tried], fun h => ⟨rfl, fun b hb => h b (List.mem_of_mem_tail (List.mem_of_mem_tail hb))⟩⟩

/-- At most these references to a segment remain after a query type. -/
def starCount (x : Segment) (q : EventType) : Nat := if cIsStar x = true ∧ x ∈ q then 1 else 0

theorem starCount_tail (x y : Segment) (q : EventType) : starCount x q ≤ starCount x (y :: q) := by
  unfold starCount
  split_ifs with h1 h2 <;> simp_all

/-- What is owned agrees with the node, before and after. -/
structure AddSpec (q : EventType) (n n' : MNode) (err : AddEnd) (m m' : SubMem) : Prop where
  wf : Wf n'
  nodes : m'.nodes + n.nodeCount = m.nodes + n'.nodeCount
  tables : m'.tables + n.tabs = m.tables + n'.tabs
  objs : m'.objs = m.objs
  refs : ∀ x, m.refs x ≤ m'.refs x ∧ m'.refs x ≤ m.refs x + starCount x q
  done : err = .done → cAddQueryType q n.erase = .ok n'.erase
  invalid : err = .invalid → ∃ e, cAddQueryType q n.erase = .error e
  noFail : (∀ b ∈ m.fails, b = false) → err ≠ .memory ∧ ∀ b ∈ m'.fails, b = false

theorem addRef_cancel (m : SubMem) (s : Segment) : (m.addRef s 1).addRef s (-1) = m := by
  unfold SubMem.addRef
  cases m
  simp only [SubMem.mk.injEq, true_and, and_true]
  funext x
  split <;> omega

theorem addQueryTypeMem_spec (q : EventType) : ∀ (n : MNode) (m : SubMem), Wf n →
    AddSpec q n (addQueryTypeMem q n m).1 (addQueryTypeMem q n m).2.1 m (addQueryTypeMem q n m).2.2 := by
  induction q with
  | nil =>
    rintro ⟨l, s, t, ch⟩ m hw
    rw [addQueryTypeMem.eq_def]
    dsimp only
    cases s with
    | true =>
      simp only [if_true]
      exact ⟨hw, rfl, rfl, rfl, fun _ => ⟨le_refl _, by omega⟩, fun _ => by simp [erase, cAddQueryType], (fun e => nomatch e), fun h => ⟨by simp, h⟩⟩
    | false =>
      simp only [Bool.false_eq_true, if_false]
      cases hw with | mk h1 h2 =>
      exact ⟨.mk h1 h2, rfl, rfl, rfl, fun _ => ⟨le_refl _, by omega⟩, fun _ => by simp [erase, cAddQueryType], (fun e => nomatch e), fun h => ⟨by simp, h⟩⟩
  | cons x q ih =>
    rintro ⟨l, s, t, ch⟩ m hw
    rw [addQueryTypeMem.eq_def]
    dsimp only
    cases s with
    | true =>
      simp only [if_true]
      exact ⟨hw, rfl, rfl, rfl, fun _ => ⟨le_refl _, by omega⟩, fun _ => by simp [erase, cAddQueryType], (fun e => nomatch e), fun h => ⟨by simp, h⟩⟩
    | false =>
      simp only [Bool.false_eq_true, if_false]
      by_cases hx : cIsStar x = true
      · simp only [hx, if_true]
        by_cases hq : q = []
        · subst hq
          simp only [ne_eq, not_true_eq_false, if_false]
          rw [freeChildren_eq hw]
          refine ⟨.mk (fun _ => rfl) (by simp), ?_, ?_, rfl, ?_, ?_, (fun e => nomatch e), fun h => ⟨by simp, h⟩⟩
          · simp only [SubMem.less, SubMem.addRef, nodeCount, nodeCountL]; omega
          · simp only [SubMem.less, SubMem.addRef, tabs, tabsL, Bool.false_eq_true, if_false]; push_cast; omega
          · intro y
            simp only [SubMem.less, SubMem.addRef, starCount, List.mem_singleton]
            split_ifs with h1 h2 <;> simp_all
          · intro _
            simp [erase, eraseL, cAddQueryType, hx]
        · simp only [ne_eq, hq, not_false_eq_true, if_true, addRef_cancel]
          refine ⟨hw, rfl, rfl, rfl, fun _ => ⟨le_refl _, by omega⟩, (fun e => nomatch e), fun _ => ?_, fun h => ⟨by simp, h⟩⟩
          simp [erase, cAddQueryType, hx, hq]
      · simp only [hx, Bool.false_eq_true, if_false]
        obtain ⟨⟨a1, a2, a3⟩, a4, a5, a6⟩ := ensureTable_spec t (m.addRef x 1)
        cases he : ensureTable t (m.addRef x 1) with
        | mk b m1 =>
        rw [he] at a1 a2 a3 a4 a5 a6
        dsimp only at a1 a2 a3 a4 a5 a6
        cases b with
        | false =>
          dsimp only
          have ht := a5 rfl
          subst ht
          refine ⟨hw, ?_, ?_, ?_, ?_, (fun e => nomatch e), (fun e => nomatch e), ?_⟩
          · simp only [SubMem.addRef] at a3 ⊢; omega
          · simp only [SubMem.addRef, Bool.false_eq_true, if_false] at a4 ⊢; omega
          · simp only [SubMem.addRef] at a2 ⊢; exact a2
          · intro y
            simp only [SubMem.addRef] at a1 ⊢
            simp only [a1]
            split <;> omega
          · intro h; have := (a6 h).1; cases this
        | true =>
          have hw' := hw
          cases hw with | mk w1 w2 =>
          dsimp only
          cases hg : Dict.get ch x with
          | some c =>
            have hc : Wf c := w2 (x, c) (Dict.mem_of_get hg)
            have hs := ih c (m1.addRef x (-1)) hc
            rcases hr : addQueryTypeMem q c (m1.addRef x (-1)) with ⟨c', err, m2⟩
            rw [hr] at hs
            simp only [hr]
            dsimp only at hs
            have hb := below_set ch x c'
            have htb := tabs_set ch x c'
            rw [hg] at hb htb
            simp only [Nat.succ_eq_add_one] at hb htb
            refine ⟨.mk (fun e => nomatch e) ?_, ?_, ?_, ?_, ?_, ?_, ?_, ?_⟩
            · intro p hp
              rcases Dict.mem_set hp with hp | hp
              · subst hp; exact hs.wf
              · exact w2 p hp
            · have := hs.nodes
              simp only [SubMem.addRef] at this a3
              rw [MNode.nodeCount, MNode.nodeCount]; omega
            · have := hs.tables
              simp only [SubMem.addRef, if_true] at this a4
              rw [tabs, tabs, if_pos rfl]
              split at a4 <;> simp_all <;> omega
            · have := hs.objs
              simp only [SubMem.addRef] at this a2
              rw [this, a2]
            · intro y
              have h1 := hs.refs y
              have h2 := starCount_tail y x q
              simp only [SubMem.addRef] at a1 h1 ⊢
              simp only [a1] at h1
              split at h1 <;> omega
            · intro h
              have := hs.done h
              simp [erase, cAddQueryType, hx, eraseL_get, hg, this, eraseL_set]
            · intro h
              obtain ⟨e, this⟩ := hs.invalid h
              exact ⟨e, by simp [erase, cAddQueryType, hx, eraseL_get, hg, this]⟩
            · intro h
              exact hs.noFail (a6 h).2
          | none =>
            dsimp only
            obtain ⟨⟨b1, b2, b3⟩, b4, b5⟩ := newNode_spec m1
            cases hn : newNode m1 with
            | mk b m2 =>
            rw [hn] at b1 b2 b3 b4 b5
            dsimp only at b1 b2 b3 b4 b5
            cases b with
            | false =>
              dsimp only
              refine ⟨.mk (fun e => nomatch e) w2, ?_, ?_, ?_, ?_, (fun e => nomatch e), (fun e => nomatch e), ?_⟩
              · simp only [SubMem.addRef, Bool.false_eq_true, if_false] at a3 b4 ⊢
                rw [MNode.nodeCount, MNode.nodeCount]; omega
              · simp only [SubMem.addRef, if_true] at a4 b3 ⊢
                rw [tabs, tabs, if_pos rfl]
                split at a4 <;> simp_all <;> omega
              · simp only [SubMem.addRef] at a2 ⊢; rw [b2, a2]
              · intro y
                simp only [SubMem.addRef] at a1 ⊢
                simp only [b1, a1]
                split <;> omega
              · intro h; have := (b5 (a6 h).2).1; cases this
            | true =>
              dsimp only
              have hs := ih MNode.empty (m2.addRef x (-1)) Wf.empty
              rcases hr : addQueryTypeMem q MNode.empty (m2.addRef x (-1)) with ⟨c', err, m3⟩
              rw [hr] at hs
              simp only [hr]
              dsimp only at hs
              have hb := below_set ch x c'
              have htb := tabs_set ch x c'
              rw [hg] at hb htb
              simp only [Nat.succ_eq_add_one] at hb htb
              have e1 : MNode.empty.nodeCount = 0 := rfl
              have e2 : MNode.empty.tabs = 0 := rfl
              refine ⟨.mk (fun e => nomatch e) ?_, ?_, ?_, ?_, ?_, ?_, ?_, ?_⟩
              · intro p hp
                rcases Dict.mem_set hp with hp | hp
                · subst hp; exact hs.wf
                · exact w2 p hp
              · have := hs.nodes
                simp only [SubMem.addRef, if_true, e1] at this a3 b4
                rw [MNode.nodeCount, MNode.nodeCount]; omega
              · have := hs.tables
                simp only [SubMem.addRef, if_true, e2] at this a4 b3
                rw [tabs, tabs, if_pos rfl]
                split at a4 <;> simp_all <;> omega
              · have := hs.objs
                simp only [SubMem.addRef] at this a2
                rw [this, b2, a2]
              · intro y
                have h1 := hs.refs y
                have h2 := starCount_tail y x q
                simp only [SubMem.addRef] at a1 h1 ⊢
                simp only [b1, a1] at h1
                split at h1 <;> omega
              · intro h
                have := hs.done h
                have he : MNode.empty.erase = CNode.empty := rfl
                rw [he] at this
                simp [erase, cAddQueryType, hx, eraseL_get, hg, this, eraseL_set]
              · intro h
                obtain ⟨e, this⟩ := hs.invalid h
                have he : MNode.empty.erase = CNode.empty := rfl
                rw [he] at this
                exact ⟨e, by simp [erase, cAddQueryType, hx, eraseL_get, hg, this]⟩
              · intro h
                exact hs.noFail (b5 (a6 h).2).2

/-- What is owned after a part of the loop. -/
structure AddAllSpec (qs : List EventType) (n n' : MNode) (err : AddEnd) (m m' : SubMem) : Prop where
  wf : Wf n'
  nodes : m'.nodes + n.nodeCount = m.nodes + n'.nodeCount
  tables : m'.tables + n.tabs = m.tables + n'.tabs
  objs : m'.objs = m.objs
  refs : ∀ x, m.refs x ≤ m'.refs x ∧ m'.refs x ≤ m.refs x + (qs.map (starCount x)).sum
  done : err = .done → qs.foldlM (fun node queryType => cAddQueryType queryType node) n.erase = .ok n'.erase
  invalid : err = .invalid → ∃ e, qs.foldlM (fun node queryType => cAddQueryType queryType node) n.erase = .error e
  noFail : (∀ b ∈ m.fails, b = false) → err ≠ .memory ∧ ∀ b ∈ m'.fails, b = false

theorem addQueryTypesMem_spec (qs : List EventType) : ∀ (n : MNode) (m : SubMem), Wf n →
    AddAllSpec qs n (addQueryTypesMem qs n m).1 (addQueryTypesMem qs n m).2.1 m (addQueryTypesMem qs n m).2.2 := by
  induction qs with
  | nil =>
    intro n m hw
    exact ⟨hw, rfl, rfl, rfl, fun _ => ⟨le_refl _, by simp [addQueryTypesMem]⟩, fun _ => rfl, (fun e => nomatch e), fun h => ⟨by simp [addQueryTypesMem], h⟩⟩
  | cons q qs ih =>
    intro n m hw
    rw [addQueryTypesMem]
    by_cases hf : (m.addObjs 1).failing = true
    · simp only [hf, if_true]
      refine ⟨hw, rfl, rfl, ?_, fun _ => ⟨le_refl _, by simp only [SubMem.addObjs, SubMem.tried]; omega⟩, (fun e => nomatch e), (fun e => nomatch e), fun h => ?_⟩
      · simp [SubMem.addObjs, SubMem.tried]
      · have := not_failing (m := m.addObjs 1) h
        rw [this] at hf; cases hf
    · simp only [hf, Bool.false_eq_true, if_false]
      have hs := addQueryTypeMem_spec q n ((m.addObjs 1).tried.addObjs 1) hw
      rcases hr : addQueryTypeMem q n ((m.addObjs 1).tried.addObjs 1) with ⟨n1, err, m1⟩
      rw [hr] at hs
      dsimp only at hs ⊢
      have hf1 : (∀ b ∈ m.fails, b = false) → ∀ b ∈ ((m.addObjs 1).tried.addObjs 1).fails, b = false :=
        fun h b hb => h b (List.mem_of_mem_tail hb)
      have ho := hs.objs
      simp only [SubMem.addObjs, SubMem.tried] at ho
      by_cases he : err = .done
      · rw [if_pos he]
        have hi := ih n1 (m1.addObjs (-2)) hs.wf
        refine ⟨hi.wf, ?_, ?_, ?_, ?_, ?_, ?_, ?_⟩
        · have h1 := hi.nodes; have h2 := hs.nodes
          simp only [SubMem.addObjs, SubMem.tried] at h1 h2 ⊢
          omega
        · have h1 := hi.tables; have h2 := hs.tables
          simp only [SubMem.addObjs, SubMem.tried] at h1 h2 ⊢
          omega
        · rw [hi.objs]; simp only [SubMem.addObjs]; omega
        · intro x
          have h1 := hi.refs x; have h2 := hs.refs x
          simp only [SubMem.addObjs, SubMem.tried, List.map_cons, List.sum_cons] at h1 h2 ⊢
          omega
        · intro h
          rw [List.foldlM_cons, hs.done he]
          exact hi.done h
        · intro h
          rw [List.foldlM_cons, hs.done he]
          exact hi.invalid h
        · intro h
          exact hi.noFail (hs.noFail (hf1 h)).2
      · rw [if_neg he]
        refine ⟨hs.wf, ?_, ?_, ?_, ?_, (fun e => absurd e he), ?_, ?_⟩
        · exact hs.nodes
        · exact hs.tables
        · simp only [SubMem.addObjs]; omega
        · intro x
          have h2 := hs.refs x
          simp only [SubMem.addObjs, SubMem.tried, List.map_cons, List.sum_cons] at h2 ⊢
          omega
        · intro h
          obtain ⟨e, h1⟩ := hs.invalid h
          exact ⟨e, by rw [List.foldlM_cons, h1]; rfl⟩
        · intro h; exact hs.noFail (hf1 h)

/-! ## Query types -/

theorem newTuple_spec {checked : Bool} {pre : EventType} {s : Segment} {m : SubMem} :
    (newTuple checked pre s m = .error .invalidUse ∧ checked = false ∧ ¬ (∀ b ∈ m.fails, b = false)) ∨
    (∃ m', newTuple checked pre s m = .ok (none, m') ∧ m'.objs = m.objs ∧ m'.nodes = m.nodes ∧ m'.tables = m.tables ∧ m'.refs = m.refs ∧
      ¬ (∀ b ∈ m.fails, b = false)) ∨
    (∃ m', newTuple checked pre s m = .ok (some (pre ++ [s]), m') ∧ m'.objs = m.objs + 1 ∧ m'.nodes = m.nodes ∧ m'.tables = m.tables ∧
      m'.refs = m.refs ∧ ((∀ b ∈ m.fails, b = false) → ∀ b ∈ m'.fails, b = false)) := by
  unfold newTuple
  by_cases hf : m.failing = true
  · have hn : ¬ (∀ b ∈ m.fails, b = false) := fun h => by rw [not_failing h] at hf; cases hf
    cases checked with
    | false => left; simp only [hf, if_true, Bool.false_eq_true, if_false]; exact ⟨trivial, trivial, hn⟩
    | true => right; left; simp only [hf, if_true]; exact ⟨_, rfl, rfl, rfl, rfl, rfl, hn⟩
  · simp only [hf, Bool.false_eq_true, if_false]
    right
    by_cases hf2 : (m.tried.addObjs 1).failing = true
    · left
      simp only [hf2, if_true]
      refine ⟨_, rfl, ?_, rfl, rfl, rfl, fun h => ?_⟩
      · simp [SubMem.addObjs, SubMem.tried]
      · have := not_failing (m := m.tried.addObjs 1) (fun b hb => h b (List.mem_of_mem_tail hb))
        rw [this] at hf2; cases hf2
    · right
      simp only [hf2, Bool.false_eq_true, if_false]
      exact ⟨_, rfl, rfl, rfl, rfl, rfl, fun h b hb => h b (List.mem_of_mem_tail (List.mem_of_mem_tail hb))⟩

/-- Outcome of a part of `get_query_types`: `want` is appended to the deque. -/
def GetSpec (starless : Prop) (want : List EventType) (acc : List EventType) (m : SubMem) (r : Except Ub (Option (List EventType) × SubMem)) : Prop :=
  match r with
  | .error e => e = .invalidUse ∧ ¬ starless ∧ ¬ (∀ b ∈ m.fails, b = false)
  | .ok (some acc', m') => acc' = acc ++ want ∧ m'.objs = m.objs ∧ m'.nodes = m.nodes ∧ m'.tables = m.tables ∧ m'.refs = m.refs ∧
      ((∀ b ∈ m.fails, b = false) → ∀ b ∈ m'.fails, b = false)
  | .ok (none, m') => m'.objs = m.objs ∧ m'.nodes = m.nodes ∧ m'.tables = m.tables ∧ m'.refs = m.refs ∧ ¬ (∀ b ∈ m.fails, b = false)

theorem appendTuple_spec (q : EventType) (acc : List EventType) (m : SubMem) : GetSpec True [q] acc m (.ok (appendTuple q acc m)) := by
  unfold appendTuple GetSpec
  by_cases hf : m.failing = true
  · simp only [hf, if_true]
    exact ⟨rfl, rfl, rfl, rfl, fun h => by rw [not_failing h] at hf; cases hf⟩
  · simp only [hf, Bool.false_eq_true, if_false]
    refine ⟨trivial, rfl, rfl, rfl, rfl, fun h b hb => h b (List.mem_of_mem_tail hb)⟩

mutual
/-- No node has a star. -/
def MNode.starless : MNode → Prop
  | .mk _ s _ ch => s = false ∧ MNode.starlessL ch
/-- No child has a star. -/
def MNode.starlessL : List (Segment × MNode) → Prop
  | [] => True
  | (_, c) :: r => c.starless ∧ MNode.starlessL r
end

theorem starQueryType_spec (pre : EventType) (acc : List EventType) (m : SubMem) :
    GetSpec False [pre ++ ["*"]] acc m (starQueryType pre acc m) := by
  unfold starQueryType
  rcases newTuple_spec (checked := false) (pre := pre) (s := "*") (m := m) with ⟨h, -, hf⟩ | ⟨m', h, h1, h2, h3, h4, hf⟩ | ⟨m', h, h1, h2, h3, h4, h5⟩
  · rw [h]; exact ⟨rfl, id, hf⟩
  · rw [h]; exact ⟨h1, h2, h3, h4, hf⟩
  · rw [h]
    have ha := appendTuple_spec (pre ++ ["*"]) acc m'
    simp only [bind, Except.bind]
    rcases hr : appendTuple (pre ++ ["*"]) acc m' with ⟨r, m2⟩
    rw [hr] at ha
    cases r with
    | none =>
      obtain ⟨b1, b2, b3, b4, b5⟩ := ha
      refine ⟨?_, ?_, ?_, ?_, fun h => b5 (h5 h)⟩
      · simp only [SubMem.addObjs]; omega
      · simp only [SubMem.addObjs]; omega
      · simp only [SubMem.addObjs]; omega
      · simp only [SubMem.addObjs]; rw [b4, h4]
    | some acc' =>
      obtain ⟨b0, b1, b2, b3, b4, b5⟩ := ha
      refine ⟨b0, ?_, ?_, ?_, ?_, fun h => b5 (h5 h)⟩
      · simp only [SubMem.addObjs]; omega
      · simp only [SubMem.addObjs]; omega
      · simp only [SubMem.addObjs]; omega
      · simp only [SubMem.addObjs]; rw [b4, h4]

mutual
theorem getQueryTypesMem_spec : ∀ (n : MNode) (pre : EventType) (acc : List EventType) (m : SubMem),
    GetSpec n.starless ((cGetQueryTypes n.erase).map (pre ++ ·)) acc m (getQueryTypesMem n pre acc m)
  | .mk l s t ch, pre, acc, m => by
    rw [getQueryTypesMem, MNode.erase, cGetQueryTypes]
    cases s with
    | true =>
      simp only [if_true]
      have h := starQueryType_spec pre acc m
      revert h
      generalize starQueryType pre acc m = r
      intro h
      rcases r with e | ⟨_ | acc', m'⟩
      · exact ⟨h.1, fun hs => by simp [MNode.starless] at hs, h.2.2⟩
      · exact h
      · exact h
    | false =>
      simp only [Bool.false_eq_true, if_false]
      have hl : GetSpec True (if l then [pre] else []) acc m (.ok (leafQueryType l pre acc m)) := by
        unfold leafQueryType
        cases l with
        | true => exact appendTuple_spec pre acc m
        | false => exact ⟨by simp, rfl, rfl, rfl, rfl, id⟩
      rcases hr : leafQueryType l pre acc m with ⟨_ | acc1, m1⟩
      · rw [hr] at hl; exact hl
      · rw [hr] at hl
        obtain ⟨a0, a1, a2, a3, a4, a5⟩ := hl
        have hc := childrenQueryTypesMem_spec ch pre acc1 m1
        dsimp only
        revert hc
        generalize childrenQueryTypesMem ch pre acc1 m1 = r
        intro hc
        rcases r with e | ⟨_ | acc', m'⟩
        · exact ⟨hc.1, fun hs => hc.2.1 hs.2, fun h => hc.2.2 (a5 h)⟩
        · obtain ⟨c1, c2, c3, c4, c5⟩ := hc
          exact ⟨c1.trans a1, c2.trans a2, c3.trans a3, c4.trans a4, fun h => c5 (a5 h)⟩
        · obtain ⟨c0, c1, c2, c3, c4, c5⟩ := hc
          refine ⟨?_, c1.trans a1, c2.trans a2, c3.trans a3, c4.trans a4, fun h => c5 (a5 h)⟩
          rw [c0, a0]
          cases l <;> simp
theorem childrenQueryTypesMem_spec : ∀ (ch : List (Segment × MNode)) (pre : EventType) (acc : List EventType) (m : SubMem),
    GetSpec (MNode.starlessL ch) ((cChildrenQueryTypes (MNode.eraseL ch)).map (pre ++ ·)) acc m (childrenQueryTypesMem ch pre acc m)
  | [], pre, acc, m => by
    rw [childrenQueryTypesMem, MNode.eraseL, cChildrenQueryTypes]
    exact ⟨by simp, rfl, rfl, rfl, rfl, id⟩
  | (k, c) :: r, pre, acc, m => by
    rw [childrenQueryTypesMem, MNode.eraseL, cChildrenQueryTypes]
    rcases newTuple_spec (checked := true) (pre := pre) (s := k) (m := m) with ⟨h, hb, hf⟩ | ⟨m', h, h1, h2, h3, h4, hf⟩ | ⟨m', h, h1, h2, h3, h4, h5⟩
    · cases hb
    · rw [h]; exact ⟨h1, h2, h3, h4, hf⟩
    · rw [h]
      dsimp only
      have hc := getQueryTypesMem_spec c (pre ++ [k]) acc m'
      revert hc
      generalize getQueryTypesMem c (pre ++ [k]) acc m' = x
      intro hc
      rcases x with e | ⟨_ | acc1, m1⟩
      · exact ⟨hc.1, fun hs => hc.2.1 hs.1, fun h => hc.2.2 (h5 h)⟩
      · obtain ⟨c1, c2, c3, c4, c5⟩ := hc
        refine ⟨?_, c2.trans h2, c3.trans h3, c4.trans h4, fun h => c5 (h5 h)⟩
        simp only [SubMem.addObjs]; omega
      · obtain ⟨c0, c1, c2, c3, c4, c5⟩ := hc
        dsimp only
        have hi := childrenQueryTypesMem_spec r pre acc1 (m1.addObjs (-1))
        revert hi
        generalize childrenQueryTypesMem r pre acc1 (m1.addObjs (-1)) = y
        intro hi
        rcases y with e | ⟨_ | acc2, m2⟩
        · exact ⟨hi.1, fun hs => hi.2.1 hs.2, fun h => hi.2.2 (c5 (h5 h))⟩
        · obtain ⟨d1, d2, d3, d4, d5⟩ := hi
          refine ⟨?_, (d2.trans c2).trans h2, (d3.trans c3).trans h3, (d4.trans c4).trans h4, fun h => d5 (c5 (h5 h))⟩
          simp only [SubMem.addObjs] at d1; omega
        · obtain ⟨d0, d1, d2, d3, d4, d5⟩ := hi
          refine ⟨?_, ?_, (d2.trans c2).trans h2, (d3.trans c3).trans h3, (d4.trans c4).trans h4, fun h => d5 (c5 (h5 h))⟩
          · rw [d0, c0]; simp
          · simp only [SubMem.addObjs] at d1; omega
end

end HatEvent
