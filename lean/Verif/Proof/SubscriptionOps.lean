import Verif.Proof.Subscription

/-! Lemmas about listing, union, intersection and disjointness of subscription
trees. -/

namespace HatEvent
open Spec

/-! ## Depth -/

theorem depthL_le {ch : List (Segment × Node)} {p : Segment × Node} (h : p ∈ ch) :
    p.2.depth ≤ Node.depthL ch := by
  induction ch with
  | nil => simp at h
  | cons q ch ih =>
    obtain ⟨k, c⟩ := q
    rw [Node.depthL]
    rcases List.mem_cons.1 h with rfl | h
    · exact Nat.le_max_left _ _
    · exact le_trans (ih h) (Nat.le_max_right _ _)

theorem depth_child {n : Node} {p : Segment × Node} (h : p ∈ n.children) :
    p.2.depth < n.depth := by
  cases n with | mk l ch =>
  rw [Node.depth]
  exact Nat.lt_succ_of_le (depthL_le h)

theorem depthL_bound {ch : List (Segment × Node)} {n : Nat}
    (h : ∀ p ∈ ch, p.2.depth ≤ n) : Node.depthL ch ≤ n := by
  induction ch with
  | nil => simp [Node.depthL]
  | cons q ch ih =>
    obtain ⟨k, c⟩ := q
    rw [Node.depthL]
    exact Nat.max_le.2 ⟨h (k, c) (by simp), ih fun p hp => h p (by simp [hp])⟩

theorem depth_pos (n : Node) : 0 < n.depth := by
  cases n; rw [Node.depth]; exact Nat.succ_pos _

/-! ## Listing query types -/

theorem childrenToQueryTypes_eq (ch : List (Segment × Node)) :
    childrenToQueryTypes ch =
      ch.flatMap fun p => (nodeToQueryTypes p.2).map (p.1 :: ·) := by
  induction ch with
  | nil => rw [childrenToQueryTypes]; rfl
  | cons q ch ih =>
    obtain ⟨k, c⟩ := q
    rw [childrenToQueryTypes, ih]
    rfl

theorem mem_nodeToQueryTypes {n : Node} {q : EventType} :
    q ∈ nodeToQueryTypes n ↔
      (q = [] ∧ n.isLeaf = true ∧ "*" ∉ Dict.keys n.children) ∨
      ∃ p ∈ n.children, ∃ r ∈ nodeToQueryTypes p.2, q = p.1 :: r := by
  cases n with | mk l ch =>
  rw [nodeToQueryTypes, childrenToQueryTypes_eq, List.mem_append]
  simp only [isLeaf_mk, children_mk, List.mem_flatMap, List.mem_map]
  refine or_congr ?_ ?_
  · by_cases h : "*" ∈ Dict.keys ch
    · simp [Dict.has_iff.2 h, h]
    · cases l <;> simp [Dict.has_eq_false_iff.2 h, h]
  · constructor
    · rintro ⟨p, hp, r, hr, rfl⟩; exact ⟨p, hp, r, hr, rfl⟩
    · rintro ⟨p, hp, r, hr, rfl⟩; exact ⟨p, hp, r, hr, rfl⟩

theorem nodeToQueryTypes_leaf : nodeToQueryTypes (.mk true []) = [[]] := by
  simp [nodeToQueryTypes, childrenToQueryTypes, Dict.has]

theorem nodeToQueryTypes_spec (e : EventType) :
    ∀ n, WF n → (nodeMatches e n = true ↔ MatchesAny (nodeToQueryTypes n) e) := by
  induction e with
  | nil =>
    intro n hw
    rw [nodeMatches_nil]
    constructor
    · intro h
      by_cases hs : "*" ∈ Dict.keys n.children
      · refine ⟨["*"], mem_nodeToQueryTypes.2 (.inr ?_), .star _⟩
        rw [hw.star hs]
        exact ⟨("*", .mk true []), by simp, [], by simp [nodeToQueryTypes_leaf], rfl⟩
      · refine ⟨[], mem_nodeToQueryTypes.2 (.inl ⟨rfl, by tauto, hs⟩), .nil⟩
    · rintro ⟨q, hq, hm⟩
      rcases mem_nodeToQueryTypes.1 hq with ⟨rfl, h, _⟩ | ⟨p, hp, r, hr, rfl⟩
      · exact .inr h
      · rcases Matches.nil_left.1 hm with h | h
        · simp at h
        · left
          have : p.1 = "*" := by simpa using (List.cons.inj h).1
          rw [← this]
          exact Dict.mem_keys_of_mem (v := p.2) hp
  | cons s e ih =>
    intro n hw
    rw [nodeMatches_cons]
    by_cases hs : "*" ∈ Dict.keys n.children
    · simp only [hs, true_or, true_iff]
      refine ⟨["*"], mem_nodeToQueryTypes.2 (.inr ?_), .star _⟩
      rw [hw.star hs]
      exact ⟨("*", .mk true []), by simp, [], by simp [nodeToQueryTypes_leaf], rfl⟩
    · simp only [hs, false_or]
      constructor
      · rintro ⟨k, c, hk, hg, hm⟩
        obtain ⟨q, hq, hmq⟩ := (ih c (hw.get hg)).1 hm
        refine ⟨k :: q, mem_nodeToQueryTypes.2 (.inr ⟨(k, c), Dict.mem_of_get hg, q, hq, rfl⟩), ?_⟩
        rw [Matches.cons_cons]
        exact .inr ⟨by tauto, hmq⟩
      · rintro ⟨q, hq, hm⟩
        rcases mem_nodeToQueryTypes.1 hq with ⟨rfl, _, _⟩ | ⟨p, hp, r, hr, rfl⟩
        · rw [Matches.nil_right] at hm; simp at hm
        · have hp1 : p.1 ≠ "*" := by
            intro h
            apply hs
            rw [← h]
            exact Dict.mem_keys_of_mem (v := p.2) hp
          rw [Matches.cons_cons] at hm
          simp only [hp1, false_and, false_or] at hm
          exact ⟨p.1, p.2, by tauto, Dict.get_of_mem hw.nodup hp,
            (ih p.2 (hw.child hp)).2 ⟨r, hr, hm.2⟩⟩

theorem nodeToQueryTypes_wellFormed :
    ∀ (d : Nat) (n : Node), n.depth ≤ d → WF n →
      ∀ q ∈ nodeToQueryTypes n, WellFormed q := by
  intro d
  induction d with
  | zero => intro n hd; exact absurd hd (by have := depth_pos n; omega)
  | succ d ih =>
    intro n hd hw q hq
    rcases mem_nodeToQueryTypes.1 hq with ⟨rfl, _, _⟩ | ⟨p, hp, r, hr, rfl⟩
    · simp [WellFormed]
    · by_cases hs : "*" ∈ Dict.keys n.children
      · rw [hw.star hs] at hp
        simp at hp
        subst hp
        simp [nodeToQueryTypes_leaf] at hr
        subst hr
        simp [WellFormed]
      · have hp1 : p.1 ≠ "*" := by
          intro h
          apply hs
          rw [← h]
          exact Dict.mem_keys_of_mem (v := p.2) hp
        have hr' := ih p.2 (by have := depth_child hp; omega) (hw.child hp) r hr
        unfold WellFormed at hr' ⊢
        by_cases h0 : r = []
        · simp [h0]
        · rw [List.dropLast_cons_of_ne_nil h0, List.mem_cons]
          rintro (h | h)
          · exact hp1 h.symm
          · exact hr' h

/-! ## Merging children -/

/-- `c` accepts `e` below name `k` of the dictionary `ch`. -/
def ChildMatches (ch : Dict Segment Node) (k : Segment) (e : EventType) : Prop :=
  ∃ c, Dict.get ch k = some c ∧ nodeMatches e c = true

theorem foldl_mergeChild {merge : Node → Node → Node} {P : Node → Prop}
    (hm : ∀ a b, P a → P b → P (merge a b) ∧
      ∀ e, nodeMatches e (merge a b) = true ↔
        (nodeMatches e a = true ∨ nodeMatches e b = true)) :
    ∀ (l : List (Segment × Node)) (acc : Dict Segment Node),
      (Dict.keys acc).Nodup → (∀ p ∈ acc, P p.2) → (∀ p ∈ l, P p.2) →
      let r := l.foldl (mergeChild merge) acc
      (Dict.keys r).Nodup ∧ (∀ p ∈ r, P p.2) ∧
      (∀ k, k ∈ Dict.keys r ↔ k ∈ Dict.keys acc ∨ ∃ p ∈ l, p.1 = k) ∧
      (∀ k e, ChildMatches r k e ↔
        ChildMatches acc k e ∨ ∃ p ∈ l, p.1 = k ∧ nodeMatches e p.2 = true) := by
  intro l
  induction l with
  | nil =>
    intro acc hn ha _
    simp only [List.foldl_nil]
    exact ⟨hn, ha, by simp, by simp⟩
  | cons p l ih =>
    intro acc hn ha hl
    obtain ⟨name, c⟩ := p
    simp only [List.foldl_cons]
    have hPc : P c := hl (name, c) (by simp)
    -- the accumulator after one step
    have hstep : (Dict.keys (mergeChild merge acc (name, c))).Nodup ∧
        (∀ p ∈ mergeChild merge acc (name, c), P p.2) ∧
        (∀ k, k ∈ Dict.keys (mergeChild merge acc (name, c)) ↔
          k ∈ Dict.keys acc ∨ name = k) ∧
        (∀ k e, ChildMatches (mergeChild merge acc (name, c)) k e ↔
          ChildMatches acc k e ∨ (name = k ∧ nodeMatches e c = true)) := by
      unfold mergeChild
      refine ⟨Dict.nodup_keys_set hn, ?_, ?_, ?_⟩
      · intro p hp
        rcases Dict.mem_set hp with rfl | hp
        · cases hg : Dict.get acc name with
          | none => simpa [hg] using hPc
          | some prev =>
            simpa [hg] using (hm prev c (ha _ (Dict.mem_of_get hg)) hPc).1
        · exact ha p hp
      · intro k
        rw [Dict.mem_keys_set]
        constructor
        · rintro (h | h)
          · exact .inr h.symm
          · exact .inl h
        · rintro (h | h)
          · exact .inr h
          · exact .inl h.symm
      · intro k e
        unfold ChildMatches
        simp only [Dict.get_set]
        by_cases hk : name = k
        · subst hk
          simp only [if_true, Option.some.injEq, exists_eq_left', true_and]
          cases hg : Dict.get acc name with
          | none => simp
          | some prev =>
            simp [(hm prev c (ha _ (Dict.mem_of_get hg)) hPc).2 e]
        · simp [hk]
    obtain ⟨h1, h2, h3, h4⟩ := hstep
    obtain ⟨r1, r2, r3, r4⟩ := ih _ h1 h2 (fun p hp => hl p (by simp [hp]))
    refine ⟨r1, r2, ?_, ?_⟩
    · intro k
      rw [r3, h3]
      simp only [List.mem_cons, exists_eq_or_imp]
      tauto
    · intro k e
      rw [r4, h4]
      simp only [List.mem_cons, exists_eq_or_imp]
      tauto

theorem nodeMatches_cons' {n : Node} (s : Segment) (e : EventType) :
    nodeMatches (s :: e) n = true ↔
      "*" ∈ Dict.keys n.children ∨
      ChildMatches n.children s e ∨ ChildMatches n.children "?" e := by
  rw [nodeMatches_cons]
  unfold ChildMatches
  constructor
  · rintro (h | ⟨k, c, rfl | rfl, h⟩)
    · exact .inl h
    · exact .inr (.inl ⟨c, h⟩)
    · exact .inr (.inr ⟨c, h⟩)
  · rintro (h | ⟨c, h⟩ | ⟨c, h⟩)
    · exact .inl h
    · exact .inr ⟨s, c, .inl rfl, h⟩
    · exact .inr ⟨"?", c, .inr rfl, h⟩

theorem childMatches_iff_mem {n : Node} (hw : WF n) {k : Segment} {e : EventType} :
    ChildMatches n.children k e ↔
      ∃ p ∈ n.children, p.1 = k ∧ nodeMatches e p.2 = true := by
  constructor
  · rintro ⟨c, hg, hm⟩
    exact ⟨(k, c), Dict.mem_of_get hg, rfl, hm⟩
  · rintro ⟨p, hp, rfl, hm⟩
    exact ⟨p.2, Dict.get_of_mem hw.nodup hp, hm⟩

/-! ## Union -/

theorem unionF_spec : ∀ (d : Nat) (a b : Node), WF a → WF b → a.depth ≤ d → b.depth ≤ d →
    (WF (unionF d a b) ∧ (unionF d a b).depth ≤ d) ∧
    ∀ e, nodeMatches e (unionF d a b) = true ↔
      (nodeMatches e a = true ∨ nodeMatches e b = true) := by
  intro d
  induction d with
  | zero => intro a b _ _ hd; exact absurd hd (by have := depth_pos a; omega)
  | succ d ih =>
    intro a b ha hb hda hdb
    rw [unionF]
    by_cases hs : "*" ∈ Dict.keys a.children ∨ "*" ∈ Dict.keys b.children
    · have hb' : (Dict.has a.children "*" || Dict.has b.children "*") = true := by
        rw [Bool.or_eq_true, Dict.has_iff, Dict.has_iff]; exact hs
      simp only [hb', if_true]
      have hd1 : 1 ≤ d := by
        by_contra hd0
        have hd0 : d = 0 := by omega
        subst hd0
        rcases hs with hs | hs
        · have := depth_child (n := a) (p := ("*", .mk true []))
            (by rw [ha.star hs]; simp)
          have := depth_pos (("*", Node.mk true []) : Segment × Node).2
          omega
        · have := depth_child (n := b) (p := ("*", .mk true []))
            (by rw [hb.star hs]; simp)
          have := depth_pos (("*", Node.mk true []) : Segment × Node).2
          omega
      refine ⟨⟨WF.starNode, ?_⟩, fun e => ?_⟩
      · simp [Node.depth, Node.depthL]; omega
      · rw [nodeMatches_star (by simp [children_mk])]
        simp only [true_iff]
        rcases hs with hs | hs
        · exact .inl (nodeMatches_star hs e)
        · exact .inr (nodeMatches_star hs e)
    · have hb' : (Dict.has a.children "*" || Dict.has b.children "*") = false := by
        rw [Bool.eq_false_iff, ne_eq, Bool.or_eq_true, Dict.has_iff, Dict.has_iff]
        exact hs
      simp only [hb', Bool.false_eq_true, if_false]
      push Not at hs
      have hP : ∀ p ∈ a.children ++ b.children, WF p.2 ∧ p.2.depth ≤ d := by
        intro p hp
        rcases List.mem_append.1 hp with hp | hp
        · exact ⟨ha.child hp, by have := depth_child hp; omega⟩
        · exact ⟨hb.child hp, by have := depth_child hp; omega⟩
      obtain ⟨r1, r2, r3, r4⟩ := foldl_mergeChild (merge := unionF d)
        (P := fun n => WF n ∧ n.depth ≤ d)
        (fun x y hx hy => ih x y hx.1 hy.1 hx.2 hy.2)
        (a.children ++ b.children) [] (by simp) (by simp) hP
      set r := (a.children ++ b.children).foldl (mergeChild (unionF d)) [] with hr
      have hstar : "*" ∉ Dict.keys r := by
        rw [r3]
        rintro (h | ⟨p, hp, h⟩)
        · simp at h
        · rcases List.mem_append.1 hp with hp | hp
          · exact hs.1 (h ▸ Dict.mem_keys_of_mem (v := p.2) hp)
          · exact hs.2 (h ▸ Dict.mem_keys_of_mem (v := p.2) hp)
      refine ⟨⟨.mk r1 (fun h => absurd h hstar) (fun p hp => (r2 p hp).1), ?_⟩, fun e => ?_⟩
      · rw [Node.depth]
        exact Nat.succ_le_succ (depthL_bound fun p hp => (r2 p hp).2)
      · cases e with
        | nil =>
          rw [nodeMatches_nil, nodeMatches_nil, nodeMatches_nil]
          simp [hstar, hs.1, hs.2]
        | cons s e =>
          have key : ∀ k, ChildMatches r k e ↔
              ChildMatches a.children k e ∨ ChildMatches b.children k e := by
            intro k
            rw [r4, childMatches_iff_mem ha, childMatches_iff_mem hb]
            constructor
            · rintro (⟨c, h, _⟩ | ⟨p, hp, h⟩)
              · simp at h
              · rcases List.mem_append.1 hp with hp | hp
                · exact .inl ⟨p, hp, h⟩
                · exact .inr ⟨p, hp, h⟩
            · rintro (⟨p, hp, h⟩ | ⟨p, hp, h⟩)
              · exact .inr ⟨p, List.mem_append.2 (.inl hp), h⟩
              · exact .inr ⟨p, List.mem_append.2 (.inr hp), h⟩
          rw [nodeMatches_cons', nodeMatches_cons', nodeMatches_cons']
          simp only [children_mk]
          have hsa : "*" ∉ Dict.keys a.children := hs.1
          have hsb : "*" ∉ Dict.keys b.children := hs.2
          cases a; cases b
          simp only [children_mk] at *
          rw [key, key]
          tauto

theorem unionNode_spec {a b : Node} (ha : WF a) (hb : WF b) :
    WF (unionNode a b) ∧ ∀ e, nodeMatches e (unionNode a b) = true ↔
      (nodeMatches e a = true ∨ nodeMatches e b = true) := by
  have h := unionF_spec (a.depth + b.depth) a b ha hb (by omega) (by omega)
  exact ⟨h.1.1, h.2⟩

/-! ## Intersection -/

theorem mem_intersectionCandidates {name k : Segment} {other : Dict Segment Node} {c : Node}
    (hn : (Dict.keys other).Nodup) :
    (k, c) ∈ intersectionCandidates name other ↔
      Dict.get other k = some c ∧ (name = "?" ∨ k = name ∨ k = "?") := by
  unfold intersectionCandidates
  by_cases h : name = "?"
  · simp [h, Dict.get_eq_some_iff hn]
  · simp only [h, if_false, false_or]
    have hne : ¬ "?" = name := fun hh => h hh.symm
    cases h1 : Dict.get other name with
    | none =>
      cases h2 : Dict.get other "?" with
      | none =>
        simp only [List.not_mem_nil, false_iff, not_and, not_or]
        intro hg
        constructor
        · rintro rfl; rw [h1] at hg; cases hg
        · rintro rfl; rw [h2] at hg; cases hg
      | some d =>
        simp only [Dict.set, List.mem_singleton, Prod.mk.injEq]
        constructor
        · rintro ⟨rfl, rfl⟩; exact ⟨h2, .inr rfl⟩
        · rintro ⟨hg, rfl | rfl⟩
          · rw [h1] at hg; cases hg
          · rw [h2] at hg; cases hg; exact ⟨rfl, rfl⟩
    | some b =>
      cases h2 : Dict.get other "?" with
      | none =>
        simp only [Dict.set, List.mem_singleton, Prod.mk.injEq]
        constructor
        · rintro ⟨rfl, rfl⟩; exact ⟨h1, .inl rfl⟩
        · rintro ⟨hg, rfl | rfl⟩
          · rw [h1] at hg; cases hg; exact ⟨rfl, rfl⟩
          · rw [h2] at hg; cases hg
      | some d =>
        simp only [Dict.set, h, if_false, List.mem_cons, Prod.mk.injEq, List.not_mem_nil,
          or_false]
        constructor
        · rintro (⟨rfl, rfl⟩ | ⟨rfl, rfl⟩)
          · exact ⟨h1, .inl rfl⟩
          · exact ⟨h2, .inr rfl⟩
        · rintro ⟨hg, rfl | rfl⟩
          · rw [h1] at hg; cases hg; exact .inl ⟨rfl, rfl⟩
          · rw [h2] at hg; cases hg; exact .inr ⟨rfl, rfl⟩

/-- Which pairs of children contribute to which name of the result. -/
theorem mem_intersectionResults {inter : Node → Node → Node} {a b : Dict Segment Node}
    (ha : (Dict.keys a).Nodup) (hb : (Dict.keys b).Nodup) {k : Segment} {r : Node} :
    (k, r) ∈ intersectionResults inter a b ↔
      ∃ k1 k2 c1 c2, Dict.get a k1 = some c1 ∧ Dict.get b k2 = some c2 ∧
        r = inter c1 c2 ∧
        ((k1 ≠ "?" ∧ k = k1 ∧ (k2 = k1 ∨ k2 = "?")) ∨ (k1 = "?" ∧ k = k2)) := by
  unfold intersectionResults
  simp only [List.mem_flatMap, List.mem_map]
  constructor
  · rintro ⟨⟨k1, c1⟩, hm1, ⟨k2, c2⟩, hm2, heq⟩
    rw [mem_intersectionCandidates hb] at hm2
    simp only [Prod.mk.injEq] at heq
    refine ⟨k1, k2, c1, c2, Dict.get_of_mem ha hm1, hm2.1, heq.2.symm, ?_⟩
    by_cases h : k1 = "?"
    · right; simp [h] at heq; exact ⟨h, heq.1.symm⟩
    · left
      simp [h] at heq
      exact ⟨h, heq.1.symm, by tauto⟩
  · rintro ⟨k1, k2, c1, c2, h1, h2, rfl, h⟩
    refine ⟨(k1, c1), Dict.mem_of_get h1, (k2, c2), ?_, ?_⟩
    · rw [mem_intersectionCandidates hb]
      exact ⟨h2, by tauto⟩
    · rcases h with ⟨h, rfl, _⟩ | ⟨rfl, rfl⟩
      · simp [h]
      · simp

/-- The children of an intersection without `*`. -/
theorem intersection_children {inter : Node → Node → Node} {a b : Node} (ha : WF a) (hb : WF b)
    (hsa : "*" ∉ Dict.keys a.children) (hsb : "*" ∉ Dict.keys b.children)
    (hwf : ∀ x y, (∃ k, Dict.get a.children k = some x) → (∃ k, Dict.get b.children k = some y) →
      WF (inter x y) ∧ WF (inter y x)) :
    let r := (intersectionResults inter a.children b.children ++
        intersectionResults inter b.children a.children).foldl (mergeChild unionNode) []
    (∀ l, WF (.mk l r)) ∧ "*" ∉ Dict.keys r ∧
    ∀ k e, ChildMatches r k e ↔
      ∃ k1 k2 c1 c2, Dict.get a.children k1 = some c1 ∧ Dict.get b.children k2 = some c2 ∧
        ((k1 = k ∧ k2 = k) ∨ (k1 = k ∧ k2 = "?") ∨ (k1 = "?" ∧ k2 = k)) ∧
        (nodeMatches e (inter c1 c2) = true ∨ nodeMatches e (inter c2 c1) = true) := by
  intro r
  have hP : ∀ p ∈ intersectionResults inter a.children b.children ++
        intersectionResults inter b.children a.children, WF p.2 := by
    rintro ⟨k, r⟩ hp
    rcases List.mem_append.1 hp with hp | hp
    · obtain ⟨k1, k2, c1, c2, h1, h2, rfl, _⟩ :=
        (mem_intersectionResults ha.nodup hb.nodup).1 hp
      exact (hwf c1 c2 ⟨k1, h1⟩ ⟨k2, h2⟩).1
    · obtain ⟨k1, k2, c1, c2, h1, h2, rfl, _⟩ :=
        (mem_intersectionResults hb.nodup ha.nodup).1 hp
      exact (hwf c2 c1 ⟨k2, h2⟩ ⟨k1, h1⟩).2
  obtain ⟨r1, r2, r3, r4⟩ := foldl_mergeChild (merge := unionNode) (P := WF)
    (fun x y hx hy => unionNode_spec hx hy) _ [] (by simp) (by simp) hP
  have hkeys : ∀ {n : Node} {k : Segment} {c : Node}, Dict.get n.children k = some c →
      k ∈ Dict.keys n.children := fun hg => Dict.mem_keys_of_mem (Dict.mem_of_get hg)
  have hstar : "*" ∉ Dict.keys r := by
    rw [r3]
    rintro (h | ⟨⟨k, c⟩, hp, h⟩)
    · simp at h
    · simp only at h
      subst h
      rcases List.mem_append.1 hp with hp | hp
      · obtain ⟨k1, k2, c1, c2, h1, h2, rfl, h⟩ :=
          (mem_intersectionResults ha.nodup hb.nodup).1 hp
        rcases h with ⟨_, h, _⟩ | ⟨_, h⟩
        · exact hsa (h ▸ hkeys h1)
        · exact hsb (h ▸ hkeys h2)
      · obtain ⟨k1, k2, c1, c2, h1, h2, rfl, h⟩ :=
          (mem_intersectionResults hb.nodup ha.nodup).1 hp
        rcases h with ⟨_, h, _⟩ | ⟨_, h⟩
        · exact hsb (h ▸ hkeys h1)
        · exact hsa (h ▸ hkeys h2)
  refine ⟨fun l => .mk r1 (fun h => absurd h hstar) r2, hstar, fun k e => ?_⟩
  rw [r4]
  constructor
  · rintro (⟨c, h, _⟩ | ⟨⟨k', c⟩, hp, rfl, hm⟩)
    · simp at h
    · rcases List.mem_append.1 hp with hp | hp
      · obtain ⟨k1, k2, c1, c2, h1, h2, rfl, h⟩ :=
          (mem_intersectionResults ha.nodup hb.nodup).1 hp
        refine ⟨k1, k2, c1, c2, h1, h2, ?_, .inl hm⟩
        simp only
        rcases h with ⟨_, rfl, h⟩ | ⟨rfl, rfl⟩
        · tauto
        · exact .inr (.inr ⟨rfl, rfl⟩)
      · obtain ⟨k1, k2, c1, c2, h1, h2, rfl, h⟩ :=
          (mem_intersectionResults hb.nodup ha.nodup).1 hp
        refine ⟨k2, k1, c2, c1, h2, h1, ?_, .inr hm⟩
        simp only
        rcases h with ⟨_, rfl, h⟩ | ⟨rfl, rfl⟩
        · tauto
        · exact .inr (.inl ⟨rfl, rfl⟩)
  · rintro ⟨k1, k2, c1, c2, h1, h2, hk, hm⟩
    -- `inter c1 c2` appears under `k` in the first list, `inter c2 c1` in the second
    have hA : (k, inter c1 c2) ∈ intersectionResults inter a.children b.children := by
      rw [mem_intersectionResults ha.nodup hb.nodup]
      refine ⟨k1, k2, c1, c2, h1, h2, rfl, ?_⟩
      by_cases hq : k1 = "?"
      · right
        refine ⟨hq, ?_⟩
        rcases hk with ⟨rfl, rfl⟩ | ⟨rfl, rfl⟩ | ⟨_, rfl⟩
        · rfl
        · exact hq
        · rfl
      · left
        refine ⟨hq, ?_⟩
        rcases hk with ⟨rfl, rfl⟩ | ⟨rfl, rfl⟩ | ⟨h, _⟩
        · exact ⟨rfl, .inl rfl⟩
        · exact ⟨rfl, .inr rfl⟩
        · exact absurd h hq
    have hB : (k, inter c2 c1) ∈ intersectionResults inter b.children a.children := by
      rw [mem_intersectionResults hb.nodup ha.nodup]
      refine ⟨k2, k1, c2, c1, h2, h1, rfl, ?_⟩
      by_cases hq : k2 = "?"
      · right
        refine ⟨hq, ?_⟩
        rcases hk with ⟨rfl, rfl⟩ | ⟨rfl, _⟩ | ⟨rfl, rfl⟩
        · rfl
        · rfl
        · exact hq
      · left
        refine ⟨hq, ?_⟩
        rcases hk with ⟨rfl, rfl⟩ | ⟨_, h⟩ | ⟨rfl, rfl⟩
        · exact ⟨rfl, .inl rfl⟩
        · exact absurd h hq
        · exact ⟨rfl, .inr rfl⟩
    rcases hm with hm | hm
    · exact .inr ⟨_, List.mem_append.2 (.inl hA), rfl, hm⟩
    · exact .inr ⟨_, List.mem_append.2 (.inr hB), rfl, hm⟩

/-- Everything matched by an intersection is matched by both operands. -/
theorem intersectionF_sound : ∀ (d : Nat) (a b : Node), WF a → WF b →
    WF (intersectionF d a b) ∧
    ∀ e, nodeMatches e (intersectionF d a b) = true →
      nodeMatches e a = true ∧ nodeMatches e b = true := by
  intro d
  induction d with
  | zero =>
    intro a b _ _
    refine ⟨WF.empty, fun e he => ?_⟩
    rw [intersectionF, nodeMatches_empty] at he
    cases he
  | succ d ih =>
    intro a b ha hb
    rw [intersectionF]
    have hmono : ∀ (n : Node) (l : Bool) (hn : WF n),
        (l = true → n.isLeaf = true) → WF (.mk l n.children) ∧
        ∀ e, nodeMatches e (.mk l n.children) = true → nodeMatches e n = true := by
      rintro ⟨l', ch⟩ l hn hl
      refine ⟨?_, fun e he => ?_⟩
      · cases hn with | mk h1 h2 h3 => exact .mk h1 h2 h3
      · cases e with
        | nil =>
          rw [nodeMatches_nil] at he ⊢
          simp only [children_mk, isLeaf_mk] at *
          tauto
        | cons s e =>
          rw [nodeMatches_cons'] at he ⊢
          exact he
    by_cases hsa : "*" ∈ Dict.keys a.children
    · simp only [Dict.has_iff.2 hsa, if_true]
      obtain ⟨h1, h2⟩ := hmono b (a.isLeaf && b.isLeaf) hb (by simp)
      exact ⟨h1, fun e he => ⟨nodeMatches_star hsa e, h2 e he⟩⟩
    · by_cases hsb : "*" ∈ Dict.keys b.children
      · simp only [Dict.has_eq_false_iff.2 hsa, Dict.has_iff.2 hsb, if_true,
          Bool.false_eq_true, if_false]
        obtain ⟨h1, h2⟩ := hmono a (a.isLeaf && b.isLeaf) ha (by simp; tauto)
        exact ⟨h1, fun e he => ⟨h2 e he, nodeMatches_star hsb e⟩⟩
      · simp only [Dict.has_eq_false_iff.2 hsa, Dict.has_eq_false_iff.2 hsb,
          Bool.false_eq_true, if_false]
        obtain ⟨r1, r2, r3⟩ := intersection_children (inter := intersectionF d) ha hb hsa hsb
          (fun x y hx hy => by
            obtain ⟨k1, h1⟩ := hx
            obtain ⟨k2, h2⟩ := hy
            exact ⟨(ih x y (ha.get h1) (hb.get h2)).1, (ih y x (hb.get h2) (ha.get h1)).1⟩)
        refine ⟨r1 _, fun e he => ?_⟩
        cases e with
        | nil =>
          rw [nodeMatches_nil] at he
          rw [nodeMatches_nil, nodeMatches_nil]
          simp only [children_mk, isLeaf_mk, r2, false_or, Bool.and_eq_true] at he
          exact ⟨.inr he.1, .inr he.2⟩
        | cons s e =>
          rw [nodeMatches_cons'] at he
          rw [nodeMatches_cons', nodeMatches_cons']
          simp only [children_mk, r2, false_or] at he
          have hk : ∃ k, (k = s ∨ k = "?") ∧ ChildMatches ((intersectionResults (intersectionF d) a.children b.children ++
              intersectionResults (intersectionF d) b.children a.children).foldl (mergeChild unionNode) []) k e := by
            rcases he with he | he
            · exact ⟨s, .inl rfl, he⟩
            · exact ⟨"?", .inr rfl, he⟩
          obtain ⟨k, hk, hm⟩ := hk
          obtain ⟨k1, k2, c1, c2, h1, h2, hkk, hm⟩ := (r3 k e).1 hm
          have hm' : nodeMatches e c1 = true ∧ nodeMatches e c2 = true := by
            rcases hm with hm | hm
            · exact (ih c1 c2 (ha.get h1) (hb.get h2)).2 e hm
            · exact ((ih c2 c1 (hb.get h2) (ha.get h1)).2 e hm).symm
          have hk1 : k1 = s ∨ k1 = "?" := by
            rcases hkk with ⟨rfl, _⟩ | ⟨rfl, _⟩ | ⟨rfl, _⟩ <;> tauto
          have hk2 : k2 = s ∨ k2 = "?" := by
            rcases hkk with ⟨_, rfl⟩ | ⟨_, rfl⟩ | ⟨_, rfl⟩ <;> tauto
          constructor
          · rcases hk1 with rfl | rfl
            · exact .inr (.inl ⟨c1, h1, hm'.1⟩)
            · exact .inr (.inr ⟨c1, h1, hm'.1⟩)
          · rcases hk2 with rfl | rfl
            · exact .inr (.inl ⟨c2, h2, hm'.2⟩)
            · exact .inr (.inr ⟨c2, h2, hm'.2⟩)

end HatEvent
