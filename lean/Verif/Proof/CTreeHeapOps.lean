import Verif.Proof.CTreeHeapTree

/-! Memory of the C tree collection: operations of a tree. -/

namespace HatEvent
open Spec

variable {V : Type} [DecidableEq V]

open ATree

theorem ATree.hp_root (t : ATree V) : ∃ o R, t.hp = {(t.addr, o)} + R := by
  obtain ⟨a, vs, as, tb, ch, qc⟩ := t
  refine ⟨.tree (headAddr vs 0) (headAddr as 0) (tableOf tb ch) (qAddr qc), chain 0 vs 0 + chain 0 as 0 + hpL ch + hpO qc, ?_⟩
  rw [hp, addr]
  abel

theorem ATree.addr_ne {t : ATree V} {m : CMem V} {F : Objs V} (h : Holds m (t.hp + F)) : t.addr ≠ 0 := by
  obtain ⟨o, R, e⟩ := t.hp_root
  rw [e] at h
  exact (h.of_eq (L' := {(t.addr, o)} + (R + F)) (by abel)).ne_zero

/-! ## Freeing -/

theorem freeList_ok : ∀ (l : List (Addr × V)) (n : Nat) (m : CMem V) (p : Addr) (F : Objs V), l.length < n → Holds m (chain p l 0 + F) →
    ∃ m', CMem.freeList n m (headAddr l 0) = .ok m' ∧ Holds m' F ∧ ∀ v, m'.counts v = m.counts v - cellCount v (chain p l 0) := by
  intro l
  induction l with
  | nil =>
    intro n m p F hn h
    cases n with
    | zero => omega
    | succ n =>
      refine ⟨m, by simp [CMem.freeList, headAddr], h.of_eq (by simp [chain]), fun v => by simp [chain]⟩
  | cons x l ih =>
    intro n m p F hn h
    obtain ⟨x, w⟩ := x
    cases n with
    | zero => simp at hn
    | succ n =>
      have h1 : Holds m ({(x, .cell p (headAddr l 0) w)} + (chain x l 0 + F)) := h.of_eq (by simp only [chain]; abel)
      have e1 := getCell_ok h1
      obtain ⟨e2, h2⟩ := free_ok (h1.addCount w (-1))
      obtain ⟨m', e3, h3, c3⟩ := ih n _ x F (by simp at hn; omega) h2
      refine ⟨m', ?_, h3, ?_⟩
      · rw [show headAddr ((x, w) :: l) 0 = x from rfl, CMem.freeList, if_neg h1.ne_zero]
        simp only [e1, ub_bind, e2, e3]
      · intro v
        rw [c3]
        simp only [chain, cellCount_add, cellCount_single, CObj.refsTo]
        show (if v = w then m.counts v + -1 else m.counts v) - _ = _
        by_cases hv : v = w
        · subst hv; simp; omega
        · simp [hv, Ne.symm hv]

theorem fold_free_ok {n : Nat}
    (ih : ∀ (t : ATree V) (m : CMem V) (F : Objs V), Multiset.card t.hp ≤ n → Holds m (t.hp + F) →
      ∃ m', CMem.freeTree n m t.addr = .ok m' ∧ Holds m' F ∧ ∀ v, m'.counts v = m.counts v - cellCount v t.hp) :
    ∀ (ch : List (Segment × ATree V)) (m : CMem V) (F : Objs V), Multiset.card (hpL ch) ≤ n → Holds m (hpL ch + F) →
      ∃ m', (ch.map fun p => (p.1, p.2.addr)).foldlM (fun m p => CMem.freeTree n m p.2) m = .ok m' ∧ Holds m' F ∧
        ∀ v, m'.counts v = m.counts v - cellCount v (hpL ch) := by
  intro ch
  induction ch with
  | nil => intro m F _ h; exact ⟨m, rfl, h.of_eq (by simp [hpL]), fun v => by simp [hpL]⟩
  | cons p ch ihc =>
    intro m F hn h
    obtain ⟨k, t⟩ := p
    rw [hpL, Multiset.card_add] at hn
    rw [hpL] at h
    obtain ⟨m1, e1, h1, c1⟩ := ih t m (hpL ch + F) (by omega) (h.of_eq (by abel))
    obtain ⟨m2, e2, h2, c2⟩ := ihc m1 F (by omega) h1
    refine ⟨m2, ?_, h2, fun v => ?_⟩
    · rw [List.map_cons, List.foldlM_cons]
      simp only [e1, ub_bind]
      exact e2
    · rw [c2, c1, hpL, cellCount_add]; push_cast; omega

theorem freeTree_ok : ∀ (n : Nat) (t : ATree V) (m : CMem V) (F : Objs V), Multiset.card t.hp ≤ n → Holds m (t.hp + F) →
    ∃ m', CMem.freeTree n m t.addr = .ok m' ∧ Holds m' F ∧ ∀ v, m'.counts v = m.counts v - cellCount v t.hp := by
  intro n
  induction n with
  | zero =>
    intro t m F hn h
    obtain ⟨o, R, e⟩ := t.hp_root
    rw [e, Multiset.card_add, Multiset.card_singleton] at hn
    omega
  | succ n ih =>
    intro t m F hn h
    obtain ⟨a, vs, as, tb, ch, qc⟩ := t
    rw [hp, Multiset.card_add, Multiset.card_add, Multiset.card_add, Multiset.card_add, Multiset.card_singleton] at hn
    rw [hp] at h
    have h0 : Holds m ({(a, .tree (headAddr vs 0) (headAddr as 0) (tableOf tb ch) (qAddr qc))} +
      (chain 0 vs 0 + chain 0 as 0 + hpL ch + hpO qc + F)) := h.of_eq (by abel)
    have e0 := getTree_ok h0
    have hlen : ∀ (m : CMem V) (l : List (Addr × V)) (G : Objs V), Holds m (chain 0 l 0 + G) → l.length < m.next + 1 := by
      intro m l G hG
      have := hG.card
      rw [Multiset.card_add, chain_card] at this
      omega
    have h1 := h0.of_eq (L' := chain 0 vs 0 + ({(a, .tree (headAddr vs 0) (headAddr as 0) (tableOf tb ch) (qAddr qc))} +
      (chain 0 as 0 + hpL ch + hpO qc + F))) (by abel)
    obtain ⟨m1, e1, h1, c1⟩ := freeList_ok vs _ m 0 _ (hlen _ _ _ h1) h1
    have h2 := h1.of_eq (L' := chain 0 as 0 + ({(a, .tree (headAddr vs 0) (headAddr as 0) (tableOf tb ch) (qAddr qc))} +
      (hpL ch + hpO qc + F))) (by abel)
    obtain ⟨m2, e2, h2, c2⟩ := freeList_ok as _ m1 0 _ (hlen _ _ _ h2) h2
    obtain ⟨m3, e3, h3, c3⟩ := fold_free_ok ih ch m2 ({(a, .tree (headAddr vs 0) (headAddr as 0) (tableOf tb ch) (qAddr qc))} +
      (hpO qc + F)) (by omega) (h2.of_eq (by abel))
    have e3' : ((tableOf tb ch).getD []).foldlM (fun m p => CMem.freeTree n m p.2) m2 = .ok m3 := by
      rw [← e3]
      unfold tableOf
      split
      · rfl
      · next hc =>
        cases ch with
        | nil => rfl
        | cons => simp at hc
    have : ∃ m4, (CMem.nonNull (qAddr qc)).foldlM (fun m q => CMem.freeTree n m q) m3 = .ok m4 ∧
        Holds m4 ({(a, .tree (headAddr vs 0) (headAddr as 0) (tableOf tb ch) (qAddr qc))} + F) ∧
        ∀ v, m4.counts v = m3.counts v - cellCount v (hpO qc) := by
      cases qc with
      | none =>
        refine ⟨m3, rfl, h3.of_eq ?_, fun v => by simp [hpO]⟩
        simp only [hpO]
        abel
      | some c =>
        have h4 := h3.of_eq (L' := c.hp + ({(a, .tree (headAddr vs 0) (headAddr as 0) (tableOf tb ch) (qAddr (some c)))} + F)) (by
          simp only [hpO]
          abel)
        rw [hpO] at hn
        obtain ⟨m4, e4, h5, c4⟩ := ih c m3 _ (by omega) h4
        refine ⟨m4, ?_, h5, c4⟩
        rw [qAddr, CMem.nonNull, if_neg (addr_ne h4), List.foldlM_cons]
        simp only [e4, ub_bind]
        rfl
    obtain ⟨m4, e4, h4, c4⟩ := this
    obtain ⟨e5, h5⟩ := free_ok h4
    refine ⟨m4.put a none, ?_, h5, fun v => ?_⟩
    · rw [show (ATree.mk a vs as tb ch qc).addr = a from rfl, CMem.freeTree]
      simp only [e0, ub_bind, e1, e2, e3', e4, e5]
    · show m4.counts v = _
      rw [c4, c3, c2, c1, hp]
      simp only [cellCount_add, cellCount_single, CObj.refsTo]
      push_cast
      omega

/-! ## Adding -/

theorem dict_set_set {κ υ : Type} [DecidableEq κ] (d : Dict κ υ) (k : κ) (v w : υ) : Dict.set (Dict.set d k v) k w = Dict.set d k w := by
  induction d with
  | nil => simp [Dict.set]
  | cons p d ih =>
    obtain ⟨k', v'⟩ := p
    by_cases h : k' = k
    · simp [Dict.set, h]
    · simp [Dict.set, h, ih]

theorem createTree_ok {m : CMem V} {L : Objs V} (h : Holds m L) :
    (∃ m', m.createTree = .ok (0, m') ∧ m'.counts = m.counts ∧ Holds m' L) ∨
      (∃ m' a, m.createTree = .ok (a, m') ∧ a ≠ 0 ∧ m'.counts = m.counts ∧ Holds m' ((leaf a).hp + L)) := by
  unfold CMem.createTree
  rcases malloc_ok h with ⟨e1, h1, c1⟩ | ⟨e1, h1, c1⟩
  · left
    exact ⟨m.malloc.2, by rw [if_pos e1], c1, h1⟩
  · right
    obtain ⟨e2, h2⟩ := store_ok h1 (.tree 0 0 none 0)
    refine ⟨m.malloc.2.put m.malloc.1 (some (.tree 0 0 none 0)), m.malloc.1, ?_, e1, c1, ?_⟩
    · rw [if_neg e1, e2, ub_bind]
      rfl
    · rw [leaf_hp]
      exact h2

theorem newChild_ok {m : CMem V} {a : Addr} {vs as : List (Addr × V)} {tb : Bool} {ch : List (Segment × ATree V)} {qc : Option (ATree V)}
    {F : Objs V} {s : Segment} {table : List (Segment × Addr)} (ht : tableOf tb ch = some table) (hg : Dict.get ch s = none)
    (h : Holds m ((ATree.mk a vs as tb ch qc).hp + F)) :
    (∃ m', m.newChild a s (headAddr vs 0) (headAddr as 0) table (qAddr qc) = .ok (0, m') ∧ m'.counts = m.counts ∧
      Holds m' ((ATree.mk a vs as tb ch qc).hp + F)) ∨
    (∃ m' x, m.newChild a s (headAddr vs 0) (headAddr as 0) table (qAddr qc) = .ok (x, m') ∧ x ≠ 0 ∧ m'.counts = m.counts ∧
      Holds m' ((ATree.mk a vs as tb (Dict.set ch s (leaf x)) qc).hp + F)) := by
  unfold CMem.newChild
  rcases createTree_ok h with ⟨m1, e1, c1, h1⟩ | ⟨m1, x, e1, hx, c1, h1⟩
  · left
    refine ⟨m1, ?_, c1, h1⟩
    simp only [e1, ub_bind, if_true]
    rfl
  · simp only [e1, ub_bind, hx, if_false]
    by_cases hf : m1.failing = true
    · left
      obtain ⟨m2, e2, h2, c2⟩ := freeTree_ok (m1.next + 1) (leaf x) m1.tried _ (by
        have := h1.card
        rw [leaf_hp, Multiset.card_singleton]; omega) h1.tried
      refine ⟨m2, ?_, ?_, h2⟩
      · simp only [hf, if_true]
        show (CMem.freeTree (m1.next + 1) m1.tried (leaf x : ATree V).addr >>= _) = _
        rw [e2, ub_bind]
        rfl
      · funext v
        rw [c2]
        show m1.counts v - _ = _
        rw [c1, leaf_hp]
        simp [CObj.refsTo]
    · right
      have h1' := h1.tried.of_eq (L' := {(a, .tree (headAddr vs 0) (headAddr as 0) (tableOf tb ch) (qAddr qc))} +
        (chain 0 vs 0 + chain 0 as 0 + ((leaf x).hp + hpL ch) + hpO qc + F)) (by rw [hp]; abel)
      obtain ⟨e2, h2⟩ := store_ok h1' (.tree (headAddr vs 0) (headAddr as 0) (some (Dict.set table s x)) (qAddr qc))
      refine ⟨m1.tried.put a (some (.tree (headAddr vs 0) (headAddr as 0) (some (Dict.set table s x)) (qAddr qc))), x, ?_, hx, c1, h2.of_eq ?_⟩
      · simp only [hf]
        show (m1.tried.store a _ >>= _) = _
        rw [e2, ub_bind]
        rfl
      · rw [hp, hpL_new hg]
        have : tableOf tb (Dict.set ch s (leaf x)) = some (Dict.set table s x) := by
          unfold tableOf at ht ⊢
          have hne : (Dict.set ch s (leaf x)).isEmpty = false := by
            cases hs : Dict.set ch s (leaf x : ATree V) with
            | nil => exact absurd hs Dict.set_ne_nil
            | cons => rfl
          split at ht
          · cases ht
            rw [hne, map_set]
            simp [leaf, addr]
          · cases ht
        rw [this]
        abel

theorem segmentChild_ok {m : CMem V} {a : Addr} {vs as : List (Addr × V)} {tb : Bool} {ch : List (Segment × ATree V)} {qc : Option (ATree V)}
    {F : Objs V} {s : Segment} (h1 : s ≠ "*") (h2 : s ≠ "?") (h : Holds m ((ATree.mk a vs as tb ch qc).hp + F)) :
    (∃ m' t', m.segmentChild a s = .ok (0, m') ∧ m'.counts = m.counts ∧ Holds m' (t'.hp + F) ∧ Grown (ATree.mk a vs as tb ch qc) t') ∨
    (∃ m' tb' ch' c, m.segmentChild a s = .ok (c.addr, m') ∧ m'.counts = m.counts ∧ Holds m' ((ATree.mk a vs as tb' ch' qc).hp + F) ∧
      Grown (ATree.mk a vs as tb ch qc) (ATree.mk a vs as tb' ch' qc) ∧ Dict.get ch' s = some c) := by
  unfold CMem.segmentChild
  have h0 : Holds m ({(a, .tree (headAddr vs 0) (headAddr as 0) (tableOf tb ch) (qAddr qc))} +
      (chain 0 vs 0 + chain 0 as 0 + hpL ch + hpO qc + F)) := h.of_eq (by rw [hp]; abel)
  have e0 := getTree_ok h0
  simp only [e0, ub_bind]
  cases ht : tableOf tb ch with
  | none =>
    have hch : ch = [] ∧ tb = false := by
      unfold tableOf at ht
      split at ht
      · cases ht
      · next hc =>
        cases ch with
        | nil => simpa using hc
        | cons => simp at hc
    obtain ⟨rfl, rfl⟩ := hch
    simp only []
    by_cases hf : m.failing = true
    · left
      refine ⟨m.tried, _, ?_, rfl, h.tried, Grown.refl _⟩
      rw [if_pos hf]; rfl
    · rw [if_neg hf]
      obtain ⟨e1, h1'⟩ := store_ok h0.tried (.tree (headAddr vs 0) (headAddr as 0) (some []) (qAddr qc))
      simp only [e1, ub_bind]
      have h3 : Holds (m.tried.put a (some (.tree (headAddr vs 0) (headAddr as 0) (some []) (qAddr qc)))) ((ATree.mk a vs as true [] qc).hp + F) :=
        h1'.of_eq (by rw [hp]; simp only [tableOf, Bool.true_or, if_true, List.map_nil]; abel)
      rcases newChild_ok (s := s) (table := []) rfl rfl h3 with ⟨m4, e4, c4, h4⟩ | ⟨m4, x, e4, hx, c4, h4⟩
      · left
        exact ⟨m4, _, e4, c4, h4, grown_table⟩
      · right
        refine ⟨m4, true, Dict.set [] s (leaf x), leaf x, ?_, c4, h4, grown_new_child x h1 h2 rfl, Dict.get_set_self _ _ _⟩
        exact e4
  | some table =>
    have htab : table = ch.map fun p => (p.1, p.2.addr) := by
      unfold tableOf at ht
      split at ht
      · cases ht; rfl
      · cases ht
    simp only []
    cases hg : Dict.get ch s with
    | some c =>
      right
      refine ⟨m, tb, ch, c, ?_, rfl, h, Grown.refl _, hg⟩
      have : Dict.get table s = some c.addr := by rw [htab, get_map, hg]; rfl
      rw [this]; rfl
    | none =>
      have : Dict.get table s = none := by rw [htab, get_map, hg]; rfl
      rw [this]
      simp only []
      rcases newChild_ok (s := s) ht hg h with ⟨m4, e4, c4, h4⟩ | ⟨m4, x, e4, hx, c4, h4⟩
      · left
        exact ⟨m4, _, e4, c4, h4, Grown.refl _⟩
      · right
        exact ⟨m4, tb, Dict.set ch s (leaf x), leaf x, e4, c4, h4, grown_new_child x h1 h2 hg, Dict.get_set_self _ _ _⟩

theorem questionChild_ok {m : CMem V} {a : Addr} {vs as : List (Addr × V)} {tb : Bool} {ch : List (Segment × ATree V)} {qc : Option (ATree V)}
    {F : Objs V} (h : Holds m ((ATree.mk a vs as tb ch qc).hp + F)) :
    (∃ m', m.questionChild a = .ok (0, m') ∧ m'.counts = m.counts ∧ Holds m' ((ATree.mk a vs as tb ch qc).hp + F)) ∨
    (∃ m' c, m.questionChild a = .ok (c.addr, m') ∧ m'.counts = m.counts ∧ Holds m' ((ATree.mk a vs as tb ch (some c)).hp + F) ∧
      Grown (ATree.mk a vs as tb ch qc) (ATree.mk a vs as tb ch (some c))) := by
  unfold CMem.questionChild
  have h0 : Holds m ({(a, .tree (headAddr vs 0) (headAddr as 0) (tableOf tb ch) (qAddr qc))} +
      (chain 0 vs 0 + chain 0 as 0 + hpL ch + hpO qc + F)) := h.of_eq (by rw [hp]; abel)
  have e0 := getTree_ok h0
  simp only [e0, ub_bind]
  cases qc with
  | some c =>
    right
    refine ⟨m, c, ?_, rfl, h, Grown.refl _⟩
    have : c.addr ≠ 0 := addr_ne (h.of_eq (L' := c.hp + ({(a, .tree (headAddr vs 0) (headAddr as 0) (tableOf tb ch) c.addr)} +
      chain 0 vs 0 + chain 0 as 0 + hpL ch + F)) (by rw [hp, hpO, qAddr]; abel))
    rw [qAddr, if_pos this]
    rfl
  | none =>
    rw [qAddr] at h0
    simp only [qAddr, ne_eq, not_true_eq_false, if_false]
    rcases createTree_ok h0 with ⟨m1, e1, c1, h1⟩ | ⟨m1, x, e1, hx, c1, h1⟩
    · left
      obtain ⟨e2, h2⟩ := store_ok h1 (.tree (headAddr vs 0) (headAddr as 0) (tableOf tb ch) 0)
      refine ⟨m1.put a (some (.tree (headAddr vs 0) (headAddr as 0) (tableOf tb ch) 0)), ?_, c1, h2.of_eq ?_⟩
      · simp only [e1, ub_bind, e2]
        rfl
      · rw [hp, qAddr]; abel
    · right
      obtain ⟨e2, h2⟩ := store_ok (h1.of_eq (L' := {(a, .tree (headAddr vs 0) (headAddr as 0) (tableOf tb ch) 0)} +
        ((leaf x).hp + (chain 0 vs 0 + chain 0 as 0 + hpL ch + hpO none + F))) (by abel))
        (.tree (headAddr vs 0) (headAddr as 0) (tableOf tb ch) x)
      refine ⟨m1.put a (some (.tree (headAddr vs 0) (headAddr as 0) (tableOf tb ch) x)), leaf x, ?_, c1, h2.of_eq ?_, grown_new_question x⟩
      · simp only [e1, ub_bind, e2]
        rfl
      · rw [hp, hpO, hpO, qAddr]
        show {(a, CObj.tree _ _ _ x)} + _ = {(a, CObj.tree _ _ _ x)} + _ + _ + _ + _ + _
        abel

theorem list_add {m : CMem V} {t : ATree V} {q : EventType} {lp : ListPtr} {l : List (Addr × V)} {F : Objs V} (v : V) (ha : t.at_ q = some (lp, l))
    (h : Holds m (t.hp + F)) :
    (∃ m', m.addToList lp v = .ok (0, m') ∧ m'.counts = m.counts ∧ Holds m' (t.hp + F)) ∨
    (∃ m' node ref, m.addToList lp v = .ok (ref, m') ∧ ref ≠ 0 ∧ m'.counts = bump m.counts v 1 ∧
      Holds m' ((t.setAt q ((node, v) :: l)).hp + {(ref, .ref lp node)} + F)) := by
  obtain ⟨e, R, other, ch, qq, hR⟩ := focus q t lp l ha
  have h0 : Holds m ({(lp.owner, treeObj lp.asterisk (headAddr l 0) other ch qq)} + chain 0 l 0 + (R + F)) :=
    h.of_eq (by rw [← e, hR]; abel)
  rcases addToList_ok v h0 with ⟨m', e1, c1, h1⟩ | ⟨m', node, ref, e1, hr, c1, h1⟩
  · left
    exact ⟨m', e1, c1, h1.of_eq (by rw [← e, hR]; abel)⟩
  · right
    exact ⟨m', node, ref, e1, hr, c1, h1.of_eq (by rw [hR]; simp only [headAddr]; abel)⟩

/-- What `addToTree` does: nothing but new nodes if it fails, otherwise the value in front of the list of the query type. -/
theorem addToTree_ok (v : V) : ∀ (q : EventType) (m : CMem V) (t : ATree V) (F : Objs V), Holds m (t.hp + F) →
    (∃ m' t', CMem.addToTree q m t.addr v = .ok (0, m') ∧ m'.counts = m.counts ∧ Holds m' (t'.hp + F) ∧ Grown t t') ∨
    (∃ m' t1 lp l node ref, CMem.addToTree q m t.addr v = .ok (ref, m') ∧ ref ≠ 0 ∧ m'.counts = bump m.counts v 1 ∧
      Grown t t1 ∧ t1.at_ q = some (lp, l) ∧ Holds m' ((t1.setAt q ((node, v) :: l)).hp + {(ref, .ref lp node)} + F)) := by
  intro q
  induction q with
  | nil =>
    intro m t F h
    obtain ⟨a, vs, as, tb, ch, qc⟩ := t
    rcases list_add (q := []) (lp := ⟨a, false⟩) (l := vs) v rfl h with ⟨m', e1, c1, h1⟩ | ⟨m', node, ref, e1, hr, c1, h1⟩
    · left; exact ⟨m', _, e1, c1, h1, Grown.refl _⟩
    · right; exact ⟨m', _, _, _, node, ref, e1, hr, c1, Grown.refl _, rfl, h1⟩
  | cons s q ih =>
    intro m t F h
    obtain ⟨a, vs, as, tb, ch, qc⟩ := t
    rw [CMem.addToTree]
    by_cases hs : s = "*"
    · rw [if_pos hs]
      have ha : (ATree.mk a vs as tb ch qc).at_ (s :: q) = some (⟨a, true⟩, as) := by rw [at_, if_pos hs]
      rcases list_add v ha h with ⟨m', e1, c1, h1⟩ | ⟨m', node, ref, e1, hr, c1, h1⟩
      · left; exact ⟨m', _, e1, c1, h1, Grown.refl _⟩
      · right; exact ⟨m', _, _, _, node, ref, e1, hr, c1, Grown.refl _, ha, h1⟩
    · rw [if_neg hs]
      unfold CMem.childFor
      by_cases hq : s = "?"
      · rw [if_pos hq]
        simp only [addr]
        rcases questionChild_ok h with ⟨m1, e1, c1, h1⟩ | ⟨m1, c, e1, c1, h1, g1⟩
        · left
          refine ⟨m1, _, ?_, c1, h1, Grown.refl _⟩
          simp only [e1, ub_bind, if_true]
          rfl
        · have hsplit : ∀ c' : ATree V, c'.addr = c.addr → ∀ G : Objs V, (ATree.mk a vs as tb ch (some c')).hp + G =
              c'.hp + ({(a, .tree (headAddr vs 0) (headAddr as 0) (tableOf tb ch) c.addr)} + chain 0 vs 0 + chain 0 as 0 + hpL ch + G) := by
            intro c' hc' G
            rw [hp, hpO, qAddr, hc']
            abel
          have h1' := h1.of_eq (hsplit c rfl F)
          have hne : c.addr ≠ 0 := addr_ne h1'
          simp only [e1, ub_bind, hne, if_false]
          rcases ih m1 c _ h1' with ⟨m2, c', e2, c2, h2, g2⟩ | ⟨m2, c', lp, l, node, ref, e2, hr, c2, g2, hat, h2⟩
          · left
            exact ⟨m2, ATree.mk a vs as tb ch (some c'), e2, c2.trans c1, h2.of_eq (hsplit c' g2.addr F).symm, g1.trans (grown_question g2)⟩
          · right
            refine ⟨m2, ATree.mk a vs as tb ch (some c'), lp, l, node, ref, e2, hr, c2.trans (by rw [c1]), g1.trans (grown_question g2), ?_, ?_⟩
            · rw [at_, if_neg hs, if_pos hq]
              exact hat
            · rw [setAt, if_neg hs, if_pos hq, Option.map_some]
              refine h2.of_eq ?_
              rw [add_assoc (ATree.mk _ _ _ _ _ _).hp, hsplit _ ((setAt_addr _ _ _).trans g2.addr)]
              abel
      · rw [if_neg hq]
        simp only [addr]
        rcases segmentChild_ok hs hq h with ⟨m1, t', e1, c1, h1, g1⟩ | ⟨m1, tb', ch', c, e1, c1, h1, g1, hg⟩
        · left
          refine ⟨m1, t', ?_, c1, h1, g1⟩
          simp only [e1, ub_bind, if_true]
          rfl
        · obtain ⟨R, hR1, hR2⟩ := hpL_set hg
          have hsplit : ∀ c' : ATree V, c'.addr = c.addr → ∀ G : Objs V, (ATree.mk a vs as tb' (Dict.set ch' s c') qc).hp + G =
              c'.hp + ({(a, .tree (headAddr vs 0) (headAddr as 0) (tableOf tb' ch') (qAddr qc))} + chain 0 vs 0 + chain 0 as 0 + R + hpO qc + G) := by
            intro c' hc' G
            rw [hp, hR2, tableOf_set hg hc']
            abel
          have h1' := h1.of_eq (L' := c.hp + ({(a, .tree (headAddr vs 0) (headAddr as 0) (tableOf tb' ch') (qAddr qc))} + chain 0 vs 0 +
            chain 0 as 0 + R + hpO qc + F)) (by rw [hp, hR1]; abel)
          have hne : c.addr ≠ 0 := addr_ne h1'
          simp only [e1, ub_bind, hne, if_false]
          rcases ih m1 c _ h1' with ⟨m2, c', e2, c2, h2, g2⟩ | ⟨m2, c', lp, l, node, ref, e2, hr, c2, g2, hat, h2⟩
          · left
            exact ⟨m2, ATree.mk a vs as tb' (Dict.set ch' s c') qc, e2, c2.trans c1, h2.of_eq (hsplit c' g2.addr F).symm,
              g1.trans (grown_child hs hq hg g2)⟩
          · right
            refine ⟨m2, ATree.mk a vs as tb' (Dict.set ch' s c') qc, lp, l, node, ref, e2, hr, c2.trans (by rw [c1]),
              g1.trans (grown_child hs hq hg g2), ?_, ?_⟩
            · rw [at_, if_neg hs, if_neg hq, Dict.get_set_self]
              exact hat
            · rw [setAt, if_neg hs, if_neg hq, Dict.get_set_self]
              have : Dict.set (Dict.set ch' s c') s (setAt q ((node, v) :: l) c') = Dict.set ch' s (setAt q ((node, v) :: l) c') := by
                exact dict_set_set _ _ _ _
              simp only [this]
              refine h2.of_eq ?_
              rw [add_assoc (ATree.mk _ _ _ _ _ _).hp, hsplit _ ((setAt_addr _ _ _).trans g2.addr)]
              abel

end HatEvent
