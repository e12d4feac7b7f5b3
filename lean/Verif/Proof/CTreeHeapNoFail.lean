import Verif.Proof.CTreeHeapUse

/-! Memory of the C tree collection: if no allocation fails, no addition does. -/

namespace HatEvent
open ATree

variable {V : Type} [DecidableEq V]

/-- No allocation will fail. -/
def NoFail (m : CMem V) : Prop := (∀ b ∈ m.fails, b = false) ∧ 0 < m.next

/-- The same coming allocations. -/
def SameAlloc (m m' : CMem V) : Prop := m'.fails = m.fails ∧ m'.next = m.next

theorem SameAlloc.noFail {m m' : CMem V} (h : SameAlloc m m') (hn : NoFail m) : NoFail m' := by
  unfold NoFail; rw [h.1, h.2]; exact hn

theorem SameAlloc.trans {a b c : CMem V} (h : SameAlloc a b) (h' : SameAlloc b c) : SameAlloc a c := ⟨h'.1.trans h.1, h'.2.trans h.2⟩

theorem store_same {m m' : CMem V} {a : Nat} {o : CObj V} (h : m.store a o = .ok m') : SameAlloc m m' := by
  unfold CMem.store at h
  split at h
  · cases h
  · cases h; exact ⟨rfl, rfl⟩

theorem setHead_same {m m' : CMem V} {l : ListPtr} {a : Nat} (h : m.setHead l a = .ok m') : SameAlloc m m' := by
  unfold CMem.setHead at h
  cases hg : m.getTree l.owner with
  | error e => rw [hg] at h; cases h
  | ok x => rw [hg] at h; exact store_same h

theorem setPrev_same {m m' : CMem V} {a p : Nat} (h : m.setPrev a p = .ok m') : SameAlloc m m' := by
  unfold CMem.setPrev at h
  cases hg : m.getCell a with
  | error e => rw [hg] at h; cases h
  | ok x => rw [hg] at h; exact store_same h

theorem linkPrev_same {m m' : CMem V} {a p : Nat} (h : m.linkPrev a p = .ok m') : SameAlloc m m' := by
  unfold CMem.linkPrev at h
  split at h
  · cases h; exact ⟨rfl, rfl⟩
  · exact setPrev_same h

theorem NoFail.failing {m : CMem V} (h : NoFail m) : m.failing = false := by
  unfold CMem.failing
  cases hf : m.fails with
  | nil => rfl
  | cons b r => exact h.1 b (by rw [hf]; simp)

theorem NoFail.tried {m : CMem V} (h : NoFail m) : NoFail m.tried :=
  ⟨fun b hb => h.1 b (List.mem_of_mem_tail hb), h.2⟩

theorem NoFail.malloc {m : CMem V} (h : NoFail m) : m.malloc.1 ≠ 0 ∧ NoFail m.malloc.2 := by
  unfold CMem.malloc
  rw [h.failing]
  refine ⟨?_, ?_, ?_⟩
  · have := h.2; show m.next ≠ 0; omega
  · exact h.tried.1
  · show 0 < m.next + 1; omega

theorem linkValue_noFail {m m' : CMem V} {l : ListPtr} {v : V} {node ref r : Nat} (h : NoFail m) (he : m.linkValue l v node ref = .ok (r, m')) :
    r = ref ∧ NoFail m' := by
  unfold CMem.linkValue at he
  dsimp only at he
  cases h1 : (m.addCount v 1).getHead l with
  | error e => rw [h1] at he; cases he
  | ok x =>
    rw [h1] at he
    cases h2 : (m.addCount v 1).store node (.cell 0 x v) with
    | error e => simp only [bind, Except.bind, h2] at he; cases he
    | ok m2 =>
      simp only [bind, Except.bind, h2] at he
      cases h3 : m2.linkPrev x node with
      | error e => simp only [h3] at he; cases he
      | ok m3 =>
        simp only [h3] at he
        cases h4 : m3.setHead l node with
        | error e => simp only [h4] at he; cases he
        | ok m4 =>
          simp only [h4] at he
          cases h5 : m4.store ref (.ref l node) with
          | error e => simp only [h5] at he; cases he
          | ok m5 =>
            simp only [h5] at he
            cases he
            refine ⟨rfl, (((store_same h2).trans (linkPrev_same h3)).trans ((setHead_same h4).trans (store_same h5))).noFail ?_⟩
            exact h

theorem addToList_noFail {m m' : CMem V} {l : ListPtr} {v : V} {r : Nat} (h : NoFail m) (he : m.addToList l v = .ok (r, m')) :
    r ≠ 0 ∧ NoFail m' := by
  unfold CMem.addToList at he
  obtain ⟨h1, h2⟩ := h.malloc
  obtain ⟨h3, h4⟩ := h2.malloc
  simp only [h1, if_false, h3] at he
  simp only [h4.failing] at he
  obtain ⟨rfl, h5⟩ := linkValue_noFail h4.tried he
  exact ⟨h3, h5⟩

theorem createTree_noFail {m m' : CMem V} {r : Nat} (h : NoFail m) (he : m.createTree = .ok (r, m')) : r ≠ 0 ∧ NoFail m' := by
  unfold CMem.createTree at he
  obtain ⟨h1, h2⟩ := h.malloc
  rw [if_neg h1] at he
  cases h3 : m.malloc.2.store m.malloc.1 (.tree 0 0 none 0) with
  | error e => rw [h3] at he; cases he
  | ok m3 =>
    rw [h3] at he
    cases he
    exact ⟨h1, (store_same h3).noFail h2⟩

theorem newChild_noFail {m m' : CMem V} {a : Nat} {s : Segment} {vs as q r : Nat} {ch : List (Segment × Nat)} (h : NoFail m)
    (he : m.newChild a s vs as ch q = .ok (r, m')) : r ≠ 0 ∧ NoFail m' := by
  unfold CMem.newChild at he
  cases h1 : m.createTree with
  | error e => rw [h1] at he; cases he
  | ok x =>
    obtain ⟨x, m1⟩ := x
    obtain ⟨hx, h2⟩ := createTree_noFail h h1
    rw [h1] at he
    simp only [bind, Except.bind, hx, if_false] at he
    simp only [h2.failing] at he
    cases h3 : m1.tried.store a (.tree vs as (some (Dict.set ch s x)) q) with
    | error e => simp only [h3] at he; cases he
    | ok m3 =>
      simp only [h3] at he
      cases he
      exact ⟨hx, (store_same h3).noFail h2.tried⟩

theorem childFor_noFail {m m' : CMem V} {a r : Nat} {s : Segment} (h : NoFail m) (ht : ∀ vs as ch q x, m.getTree a = .ok (vs, as, some ch, q) →
    Dict.get ch s = some x → x ≠ 0) (he : m.childFor a s = .ok (r, m')) : r ≠ 0 ∧ NoFail m' := by
  unfold CMem.childFor at he
  split at he
  · unfold CMem.questionChild at he
    cases hg : m.getTree a with
    | error e => rw [hg] at he; cases he
    | ok x =>
      obtain ⟨vs, as, ch, q⟩ := x
      rw [hg] at he
      simp only [bind, Except.bind] at he
      split at he
      · next hq => cases he; exact ⟨hq, h⟩
      · cases h1 : m.createTree with
        | error e => rw [h1] at he; cases he
        | ok x =>
          obtain ⟨x, m1⟩ := x
          obtain ⟨hx, h2⟩ := createTree_noFail h h1
          rw [h1] at he
          simp only [] at he
          cases h3 : m1.store a (.tree vs as ch x) with
          | error e => simp only [h3] at he; cases he
          | ok m3 =>
            simp only [h3] at he
            cases he
            exact ⟨hx, (store_same h3).noFail h2⟩
  · unfold CMem.segmentChild at he
    cases hg : m.getTree a with
    | error e => rw [hg] at he; cases he
    | ok x =>
      obtain ⟨vs, as, ch, q⟩ := x
      rw [hg] at he
      simp only [bind, Except.bind] at he
      cases ch with
      | none =>
        simp only [h.failing] at he
        cases h3 : m.tried.store a (.tree vs as (some []) q) with
        | error e => simp only [h3] at he; cases he
        | ok m3 =>
          simp only [h3] at he
          exact newChild_noFail ((store_same h3).noFail h.tried) he
      | some ch =>
        simp only [] at he
        split at he
        · next c hc =>
          cases he
          exact ⟨ht vs as ch q _ hg hc, h⟩
        · exact newChild_noFail h he

theorem free_same {m m' : CMem V} {a : Nat} (h : m.free a = .ok m') : SameAlloc m m' := by
  unfold CMem.free at h
  split at h
  · cases h; exact ⟨rfl, rfl⟩
  · split at h
    · cases h
    · cases h; exact ⟨rfl, rfl⟩

theorem setNext_same {m m' : CMem V} {a p : Nat} (h : m.setNext a p = .ok m') : SameAlloc m m' := by
  unfold CMem.setNext at h
  cases hg : m.getCell a with
  | error e => rw [hg] at h; cases h
  | ok x => rw [hg] at h; exact store_same h

theorem unlink_same {m m' : CMem V} {r : Nat} (h : m.unlink r = .ok m') : SameAlloc m m' := by
  unfold CMem.unlink at h
  cases h1 : m.getRef r with
  | error e => rw [h1] at h; cases h
  | ok x =>
    obtain ⟨list, node⟩ := x
    rw [h1] at h
    simp only [bind, Except.bind] at h
    cases h2 : m.getCell node with
    | error e => simp only [h2] at h; cases h
    | ok x =>
      obtain ⟨prev, next, v⟩ := x
      simp only [h2] at h
      cases h3 : m.linkNext list prev next with
      | error e => simp only [h3] at h; cases h
      | ok m1 =>
        simp only [h3] at h
        cases h4 : m1.linkPrev next prev with
        | error e => simp only [h4] at h; cases h
        | ok m2 =>
          simp only [h4] at h
          have s1 : SameAlloc m m1 := by
            unfold CMem.linkNext at h3
            split at h3
            · exact setHead_same h3
            · exact setNext_same h3
          have s2 := linkPrev_same h4
          have s3 : SameAlloc (m2.addCount v (-1)) m' := free_same h
          exact (s1.trans s2).trans s3

theorem fold_same {f : CMem V → Nat → Except Ub (CMem V)} (hf : ∀ m a m', f m a = .ok m' → SameAlloc m m') :
    ∀ (l : List Nat) (m m' : CMem V), l.foldlM f m = .ok m' → SameAlloc m m' := by
  intro l
  induction l with
  | nil => intro m m' h; cases h; exact ⟨rfl, rfl⟩
  | cons a l ih =>
    intro m m' h
    rw [List.foldlM_cons] at h
    cases h1 : f m a with
    | error e => rw [h1] at h; cases h
    | ok m1 => rw [h1] at h; exact (hf _ _ _ h1).trans (ih _ _ h)

theorem heap_remove_same {c c' : HeapTree V} {v : V} (h : c.remove v = .ok c') : SameAlloc c.mem c'.mem := by
  unfold HeapTree.remove at h
  dsimp only at h
  cases h1 : ((Dict.get c.refs v).getD []).foldlM (fun m r => m.unlink r) c.mem with
  | error e => rw [h1] at h; cases h
  | ok m1 =>
    rw [h1] at h
    simp only [bind, Except.bind] at h
    cases h2 : HeapTree.dropRefs m1 ((Dict.get c.refs v).getD []) with
    | error e => simp only [h2] at h; cases h
    | ok m2 =>
      simp only [h2] at h
      cases h
      exact (fold_same (fun _ _ _ h => unlink_same h) _ _ _ h1).trans (fold_same (fun _ _ _ h => free_same h) _ _ _ h2)

theorem addToTree_noFail (v : V) : ∀ (q : EventType) (m : CMem V) (t : ATree V) (F : Objs V), Holds m (t.hp + F) → NoFail m →
    ∀ r m', CMem.addToTree q m t.addr v = .ok (r, m') → r ≠ 0 ∧ NoFail m' := by
  intro q
  induction q with
  | nil =>
    intro m t F _ hn r m' he
    exact addToList_noFail hn he
  | cons s q ih =>
    intro m t F h hn r m' he
    obtain ⟨a, vs, as, tb, ch, qc⟩ := t
    rw [CMem.addToTree] at he
    by_cases hs : s = "*"
    · rw [if_pos hs] at he
      exact addToList_noFail hn he
    · rw [if_neg hs, addr] at he
      have ht : ∀ vs' as' ch' q' x, m.getTree a = .ok (vs', as', some ch', q') → Dict.get ch' s = some x → x ≠ 0 := by
        intro vs' as' ch' q' x hg hx
        have e0 := getTree_ok (h.of_eq (L' := {(a, .tree (headAddr vs 0) (headAddr as 0) (tableOf tb ch) (qAddr qc))} +
          (chain 0 vs 0 + chain 0 as 0 + hpL ch + hpO qc + F)) (by rw [hp]; abel))
        rw [e0] at hg
        injection hg with hg
        have hc : tableOf tb ch = some ch' := congrArg (fun x => x.2.2.1) hg
        unfold tableOf at hc
        split at hc
        · cases hc
          rw [ATree.get_map] at hx
          cases hg' : Dict.get ch s with
          | none => rw [hg'] at hx; cases hx
          | some c =>
            rw [hg'] at hx
            cases hx
            obtain ⟨R, hR, _⟩ := hpL_set hg'
            exact addr_ne (h.of_eq (L' := c.hp + ({(a, .tree (headAddr vs 0) (headAddr as 0) (tableOf tb ch) (qAddr qc))} +
              chain 0 vs 0 + chain 0 as 0 + R + hpO qc + F)) (by rw [hp, hR]; abel))
        · cases hc
      cases h1 : m.childFor a s with
      | error e => rw [h1] at he; cases he
      | ok x =>
        obtain ⟨x, m1⟩ := x
        rw [h1] at he
        obtain ⟨hx, n1⟩ := childFor_noFail hn ht h1
        simp only [bind, Except.bind, hx, if_false] at he
        unfold CMem.childFor at h1
        by_cases hq : s = "?"
        · rw [if_pos hq] at h1
          rcases questionChild_ok h with ⟨m2, e2, _, _⟩ | ⟨m2, c, e2, _, h2, _⟩
          · rw [e2] at h1; cases h1; exact absurd rfl hx
          · rw [e2] at h1
            cases h1
            exact ih m1 c ({(a, .tree (headAddr vs 0) (headAddr as 0) (tableOf tb ch) c.addr)} + chain 0 vs 0 + chain 0 as 0 + hpL ch + F)
              (h2.of_eq (by rw [hp, hpO, qAddr]; abel)) n1 r m' he
        · rw [if_neg hq] at h1
          rcases segmentChild_ok hs hq h with ⟨m2, t', e2, _, _, _⟩ | ⟨m2, tb', ch', c, e2, _, h2, _, hg⟩
          · rw [e2] at h1; cases h1; exact absurd rfl hx
          · rw [e2] at h1
            cases h1
            obtain ⟨R, hR, _⟩ := hpL_set hg
            exact ih m1 c ({(a, .tree (headAddr vs 0) (headAddr as 0) (tableOf tb' ch') (qAddr qc))} + chain 0 vs 0 + chain 0 as 0 + R + hpO qc + F)
              (h2.of_eq (by rw [hp, hR]; abel)) n1 r m' he

end HatEvent
