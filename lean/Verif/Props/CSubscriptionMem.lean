import Verif.Proof.CSubscriptionMem

/-!
# C66: memory and references of the C subscription

Creating, using and destroying a subscription of the C implementation gives back everything it took, also if allocations fail, and a failed allocation
only raises an exception.  This is false in two ways: a query type that ends with `*` leaves a reference to its last segment behind, and
`get_query_types` uses a tuple that could not be allocated.
-/

namespace HatEvent
open MNode

/-- Nothing is owned. -/
def SubMem.clean (m : SubMem) : Prop := m.nodes = 0 ∧ m.tables = 0 ∧ m.objs = 0 ∧ ∀ s, m.refs s = 0

/-- `get_query_types` is called a number of times; the caller catches its exceptions. -/
def getMany (root : MNode) : Nat → SubMem → Except Ub SubMem
  | 0, m => .ok m
  | n + 1, m =>
    match subscriptionGetQueryTypes root m with
    | .error e => .error e
    | .ok (_, m) => getMany root n m

/-- A subscription is created, its query types are read a number of times, and it is destroyed. -/
def subscriptionLife (queryTypes : List EventType) (n : Nat) (m : SubMem) : Except Ub SubMem :=
  match subscriptionNew queryTypes m with
  | (.error _, m) => .ok m
  | (.ok root, m) =>
    match getMany root n m with
    | .error e => .error e
    | .ok m => .ok (subscriptionDealloc root m)

/-! ## Creation and destruction -/

/-- After the destruction, or a failed creation, no memory and no object is owned, and for each processed query type with a `*` at most one reference to
it; the subscription is the one of the functional model.  Allocations are the only reason of a failure other than invalid query types. -/
theorem C66_new_partial (qs : List EventType) (fails : List Bool) :
    match subscriptionNew qs (SubMem.empty fails) with
    | (.ok root, m) => cFromQueryTypes qs = .ok root.erase ∧ m.objs = 0 ∧ (subscriptionDealloc root m).nodes = 0 ∧
        (subscriptionDealloc root m).tables = 0 ∧ (subscriptionDealloc root m).objs = 0 ∧
        ∀ s, 0 ≤ (subscriptionDealloc root m).refs s ∧ (subscriptionDealloc root m).refs s ≤ (qs.map (starCount s)).sum
    | (.error e, m) => (e = .invalid ∧ (∃ x, cFromQueryTypes qs = .error x) ∨ e = .memory ∧ true ∈ fails) ∧ m.nodes = 0 ∧ m.tables = 0 ∧ m.objs = 0 ∧
        ∀ s, 0 ≤ m.refs s ∧ m.refs s ≤ (qs.map (starCount s)).sum := by
  have key : ∀ {m : SubMem}, m.failing = true → true ∈ m.fails := by
    intro m h
    by_contra hn
    rw [not_failing (m := m) (fun b hb => by cases b with | false => rfl | true => exact absurd hb hn)] at h
    cases h
  unfold subscriptionNew
  by_cases h1 : (SubMem.empty fails).failing = true
  · simp only [h1, if_true]
    exact ⟨.inr ⟨trivial, key h1⟩, rfl, rfl, rfl, fun s => ⟨le_refl _, by simp only [SubMem.empty, SubMem.tried]; omega⟩⟩
  · simp only [h1, Bool.false_eq_true, if_false]
    by_cases h2 : ((SubMem.empty fails).tried.addObjs 1).failing = true
    · simp only [h2, if_true]
      exact ⟨.inr ⟨trivial, List.mem_of_mem_tail (key h2)⟩, rfl, rfl, rfl,
        fun s => ⟨le_refl _, by simp only [SubMem.empty, SubMem.tried, SubMem.addObjs]; omega⟩⟩
    · simp only [h2, Bool.false_eq_true, if_false]
      generalize hm : ({ ((SubMem.empty fails).tried.addObjs 1).tried with nodes := ((SubMem.empty fails).tried.addObjs 1).nodes + 1 } : SubMem) = m0
      have e1 : m0.nodes = 1 := by subst hm; rfl
      have e2 : m0.tables = 0 := by subst hm; rfl
      have e3 : m0.objs = 1 := by subst hm; rfl
      have e4 : ∀ s, m0.refs s = 0 := by subst hm; intro s; rfl
      have e5 : m0.fails = fails.tail.tail := by subst hm; rfl
      have hs := addQueryTypesMem_spec qs MNode.empty m0 Wf.empty
      rcases hr : addQueryTypesMem qs MNode.empty m0 with ⟨root, err, m1⟩
      rw [hr] at hs
      dsimp only at hs
      have f1 := hs.nodes
      have f2 := hs.tables
      have f3 := hs.objs
      have c1 : MNode.empty.nodeCount = 0 := rfl
      have c2 : MNode.empty.tabs = 0 := rfl
      rw [e1, c1] at f1
      rw [e2, c2] at f2
      have hfree := freeChildren_eq hs.wf
      cases err with
      | done =>
        dsimp only
        refine ⟨hs.done rfl, ?_, ?_, ?_, ?_, ?_⟩
        · simp only [SubMem.addObjs]; omega
        · simp only [subscriptionDealloc, hfree, SubMem.less, SubMem.addObjs]; omega
        · simp only [subscriptionDealloc, hfree, SubMem.less, SubMem.addObjs]; omega
        · simp only [subscriptionDealloc, hfree, SubMem.less, SubMem.addObjs]; omega
        · intro s
          have := hs.refs s
          rw [e4] at this
          simp only [subscriptionDealloc, hfree, SubMem.less, SubMem.addObjs]; omega
      | invalid =>
        dsimp only
        refine ⟨.inl ⟨rfl, hs.invalid rfl⟩, ?_, ?_, ?_, ?_⟩
        · simp only [hfree, SubMem.less, SubMem.addObjs]; omega
        · simp only [hfree, SubMem.less, SubMem.addObjs]; omega
        · simp only [hfree, SubMem.less, SubMem.addObjs]; omega
        · intro s
          have := hs.refs s
          rw [e4] at this
          simp only [hfree, SubMem.less, SubMem.addObjs]; omega
      | memory =>
        dsimp only
        refine ⟨.inr ⟨rfl, ?_⟩, ?_, ?_, ?_, ?_⟩
        · by_contra hn
          refine (hs.noFail fun b hb => ?_).1 rfl
          rw [e5] at hb
          cases b with
          | false => rfl
          | true => exact absurd (List.mem_of_mem_tail (List.mem_of_mem_tail hb)) hn
        · simp only [hfree, SubMem.less, SubMem.addObjs]; omega
        · simp only [hfree, SubMem.less, SubMem.addObjs]; omega
        · simp only [hfree, SubMem.less, SubMem.addObjs]; omega
        · intro s
          have := hs.refs s
          rw [e4] at this
          simp only [hfree, SubMem.less, SubMem.addObjs]; omega

/-! ## Query types -/

/-- The deque has the query types of the functional model and nothing else is owned afterwards; there is an exception only if an allocation failed, and
an invalid use only if an allocation failed and there is a star. -/
theorem C66_get_partial (root : MNode) (m : SubMem) :
    GetSpec root.starless (cGetQueryTypes root.erase) [] m (subscriptionGetQueryTypes root m) := by
  have key : ∀ {m' : SubMem}, m'.failing = true → (∀ b ∈ m'.fails, b ∈ m.fails) → ¬ (∀ b ∈ m.fails, b = false) := by
    intro m' h hsub hn
    rw [not_failing (m := m') (fun b hb => hn b (hsub b hb))] at h
    cases h
  unfold subscriptionGetQueryTypes
  by_cases h1 : m.failing = true
  · simp only [h1, if_true]
    exact ⟨rfl, rfl, rfl, rfl, key h1 fun b hb => hb⟩
  simp only [h1, Bool.false_eq_true, if_false]
  by_cases h2 : m.tried.failing = true
  · simp only [h2, if_true]
    exact ⟨rfl, rfl, rfl, rfl, key h2 fun b hb => List.mem_of_mem_tail hb⟩
  simp only [h2, Bool.false_eq_true, if_false]
  by_cases h3 : m.tried.tried.failing = true
  · simp only [h3, if_true]
    exact ⟨rfl, rfl, rfl, rfl, key h3 fun b hb => List.mem_of_mem_tail (List.mem_of_mem_tail hb)⟩
  simp only [h3, Bool.false_eq_true, if_false]
  by_cases h4 : (m.tried.tried.tried.addObjs 1).failing = true
  · simp only [h4, if_true]
    exact ⟨by simp [SubMem.addObjs, SubMem.tried], rfl, rfl, rfl,
      key h4 fun b hb => List.mem_of_mem_tail (List.mem_of_mem_tail (List.mem_of_mem_tail hb))⟩
  simp only [h4, Bool.false_eq_true, if_false]
  generalize hm : ((m.tried.tried.tried.addObjs 1).tried.addObjs 1) = m0
  have e1 : m0.nodes = m.nodes := by subst hm; rfl
  have e2 : m0.tables = m.tables := by subst hm; rfl
  have e3 : m0.objs = m.objs + 2 := by subst hm; simp only [SubMem.addObjs, SubMem.tried]; omega
  have e4 : m0.refs = m.refs := by subst hm; rfl
  have e5 : (∀ b ∈ m.fails, b = false) → ∀ b ∈ m0.fails, b = false := by
    subst hm
    exact fun h b hb => h b (List.mem_of_mem_tail (List.mem_of_mem_tail (List.mem_of_mem_tail (List.mem_of_mem_tail hb))))
  have hg := getQueryTypesMem_spec root [] [] m0
  revert hg
  generalize getQueryTypesMem root [] [] m0 = r
  intro hg
  rcases r with e | ⟨_ | acc, m1⟩
  · exact ⟨hg.1, hg.2.1, fun h => hg.2.2 (e5 h)⟩
  · obtain ⟨c1, c2, c3, c4, c5⟩ := hg
    refine ⟨?_, c2.trans e1, c3.trans e2, c4.trans e4, fun h => c5 (e5 h)⟩
    simp only [SubMem.addObjs]; omega
  · obtain ⟨c0, c1, c2, c3, c4, c5⟩ := hg
    refine ⟨?_, ?_, c2.trans e1, c3.trans e2, c4.trans e4, fun h => c5 (e5 h)⟩
    · rw [c0]; simp
    · simp only [SubMem.addObjs]; omega

/-! ## Without stars -/

theorem starlessL_iff (ch : List (Segment × MNode)) : starlessL ch ↔ ∀ p ∈ ch, p.2.starless := by
  induction ch with
  | nil => simp [starlessL]
  | cons p ch ih => obtain ⟨k, c⟩ := p; simp [starlessL, ih]

theorem starlessL_set {ch : List (Segment × MNode)} {k : Segment} {c : MNode} (h : starlessL ch) (hc : c.starless) : starlessL (Dict.set ch k c) := by
  rw [starlessL_iff] at h ⊢
  intro p hp
  rcases Dict.mem_set hp with hp | hp
  · subst hp; exact hc
  · exact h p hp

theorem starless_add (q : EventType) : ∀ (n : MNode) (m : SubMem), (∀ s ∈ q, cIsStar s = false) → n.starless → (addQueryTypeMem q n m).1.starless := by
  induction q with
  | nil =>
    rintro ⟨l, s, t, ch⟩ m _ hn
    rw [addQueryTypeMem.eq_def]
    dsimp only
    obtain ⟨hs, hc⟩ := hn
    subst hs
    exact ⟨rfl, hc⟩
  | cons x q ih =>
    rintro ⟨l, s, t, ch⟩ m hq hn
    rw [addQueryTypeMem.eq_def]
    dsimp only
    obtain ⟨hs, hc⟩ := hn
    subst hs
    have hq' : ∀ s ∈ q, cIsStar s = false := fun s h => hq s (by simp [h])
    simp only [Bool.false_eq_true, if_false, hq x (by simp)]
    rcases ensureTable t (m.addRef x 1) with ⟨_ | _, m1⟩
    · exact ⟨rfl, hc⟩
    · dsimp only
      cases hg : Dict.get ch x with
      | some c =>
        exact ⟨rfl, starlessL_set hc (ih c _ hq' ((starlessL_iff ch).1 hc _ (Dict.mem_of_get hg)))⟩
      | none =>
        dsimp only
        rcases newNode m1 with ⟨_ | _, m2⟩
        · exact ⟨rfl, hc⟩
        · exact ⟨rfl, starlessL_set hc (ih MNode.empty _ hq' ⟨rfl, trivial⟩)⟩

theorem starless_addAll (qs : List EventType) : ∀ (n : MNode) (m : SubMem), (∀ q ∈ qs, ∀ s ∈ q, cIsStar s = false) → n.starless →
    (addQueryTypesMem qs n m).1.starless := by
  induction qs with
  | nil => intro n m _ hn; exact hn
  | cons q qs ih =>
    intro n m hq hn
    rw [addQueryTypesMem]
    dsimp only
    split
    · exact hn
    · have h1 := starless_add q n ((m.addObjs 1).tried.addObjs 1) (hq q (by simp)) hn
      split
      · exact ih _ _ (fun q h => hq q (by simp [h])) h1
      · exact h1

theorem starless_new {qs : List EventType} {m m' : SubMem} {root : MNode} (hq : ∀ q ∈ qs, ∀ s ∈ q, cIsStar s = false)
    (h : subscriptionNew qs m = (.ok root, m')) : root.starless := by
  unfold subscriptionNew at h
  dsimp only at h
  split at h
  · cases h
  · split at h
    · cases h
    · split at h
      · rename_i r m1 hr
        cases h
        have := congrArg Prod.fst hr
        dsimp only at this
        rw [← this]
        exact starless_addAll qs MNode.empty _ hq ⟨rfl, trivial⟩
      · cases h

/-! ## The life of a subscription -/

theorem getMany_spec (root : MNode) (n : Nat) : ∀ m : SubMem,
    (∀ e, getMany root n m = .error e → ¬ root.starless ∧ ¬ (∀ b ∈ m.fails, b = false)) ∧
      ∀ m', getMany root n m = .ok m' → m'.objs = m.objs ∧ m'.nodes = m.nodes ∧ m'.tables = m.tables ∧ m'.refs = m.refs := by
  induction n with
  | zero =>
    intro m
    refine ⟨(fun e h => nomatch h), fun m' h => ?_⟩
    cases h
    exact ⟨rfl, rfl, rfl, rfl⟩
  | succ n ih =>
    intro m
    have hg := C66_get_partial root m
    rw [getMany]
    revert hg
    generalize subscriptionGetQueryTypes root m = r
    intro hg
    rcases r with e | ⟨_ | qs, m1⟩
    · exact ⟨fun _ _ => ⟨hg.2.1, hg.2.2⟩, fun m' h => by cases h⟩
    · obtain ⟨a1, a2, a3, a4, a5⟩ := hg
      refine ⟨fun e h => ⟨((ih m1).1 e h).1, a5⟩, fun m' h => ?_⟩
      obtain ⟨b1, b2, b3, b4⟩ := (ih m1).2 m' h
      exact ⟨b1.trans a1, b2.trans a2, b3.trans a3, b4.trans a4⟩
    · obtain ⟨a0, a1, a2, a3, a4, a5⟩ := hg
      refine ⟨fun e h => ⟨((ih m1).1 e h).1, fun hf => ((ih m1).1 e h).2 (a5 hf)⟩, fun m' h => ?_⟩
      obtain ⟨b1, b2, b3, b4⟩ := (ih m1).2 m' h
      exact ⟨b1.trans a1, b2.trans a2, b3.trans a3, b4.trans a4⟩

/-- Only references to `*` remain, at most one for each query type with a `*`. -/
theorem life_owned {qs : List EventType} {n : Nat} {fails : List Bool} {m : SubMem} (h : subscriptionLife qs n (SubMem.empty fails) = .ok m) :
    m.nodes = 0 ∧ m.tables = 0 ∧ m.objs = 0 ∧ ∀ s, 0 ≤ m.refs s ∧ m.refs s ≤ (qs.map (starCount s)).sum := by
  have hn := C66_new_partial qs fails
  unfold subscriptionLife at h
  rcases hr : subscriptionNew qs (SubMem.empty fails) with ⟨e | root, m1⟩
  · rw [hr] at hn h
    cases h
    exact hn.2
  · rw [hr] at hn h
    dsimp only at hn h
    obtain ⟨-, h1, h2, h3, h4, h5⟩ := hn
    have hg := getMany_spec root n m1
    revert hg h
    generalize getMany root n m1 = r
    intro h hg
    rcases r with e | m2
    · cases h
    · cases h
      obtain ⟨b1, b2, b3, b4⟩ := hg.2 m2 rfl
      have hs : (subscriptionDealloc root m2).nodes = (subscriptionDealloc root m1).nodes ∧
          (subscriptionDealloc root m2).tables = (subscriptionDealloc root m1).tables ∧
          (subscriptionDealloc root m2).objs = (subscriptionDealloc root m1).objs ∧
          (subscriptionDealloc root m2).refs = (subscriptionDealloc root m1).refs := by
        have hc : Wf root := by
          have := addQueryTypesMem_spec qs MNode.empty
          unfold subscriptionNew at hr
          dsimp only at hr
          split at hr
          · cases hr
          · split at hr
            · cases hr
            · split at hr
              · rename_i r m3 hr2
                cases hr
                have h6 := congrArg Prod.fst hr2
                dsimp only at h6
                rw [← h6]
                exact (this _ Wf.empty).wf
              · cases hr
        simp only [subscriptionDealloc, freeChildren_eq hc, SubMem.less, b1, b2, b3, b4, and_self]
      rw [hs.1, hs.2.1, hs.2.2.1, hs.2.2.2]
      exact ⟨h2, h3, h4, h5⟩

theorem sum_map_zero {α : Type} {f : α → Nat} {l : List α} (h : ∀ x ∈ l, f x = 0) : (l.map f).sum = 0 := by
  induction l with
  | nil => rfl
  | cons x l ih => rw [List.map_cons, List.sum_cons, h x (by simp), ih fun y hy => h y (by simp [hy])]

/-- Without `*` in the query types everything is given back and nothing is used in an invalid way, whichever allocations fail. -/
theorem C66_partial (qs : List EventType) (hq : ∀ q ∈ qs, ∀ s ∈ q, cIsStar s = false) (n : Nat) (fails : List Bool) :
    ∃ m, subscriptionLife qs n (SubMem.empty fails) = .ok m ∧ m.clean := by
  have hz : ∀ s, (qs.map (starCount s)).sum = 0 := by
    intro s
    refine sum_map_zero fun q hq2 => ?_
    unfold starCount
    rw [if_neg]
    rintro ⟨h1, h2⟩
    rw [hq q hq2 s h2] at h1
    cases h1
  have hex : ∃ m, subscriptionLife qs n (SubMem.empty fails) = .ok m := by
    unfold subscriptionLife
    rcases hr : subscriptionNew qs (SubMem.empty fails) with ⟨e | root, m1⟩
    · exact ⟨_, rfl⟩
    · dsimp only
      have hg := (getMany_spec root n m1).1
      cases hm : getMany root n m1 with
      | error e => exact absurd (starless_new hq hr) (hg e hm).1
      | ok m2 => exact ⟨_, rfl⟩
  obtain ⟨m, hm⟩ := hex
  obtain ⟨h1, h2, h3, h4⟩ := life_owned hm
  exact ⟨m, hm, h1, h2, h3, fun s => by have := h4 s; rw [hz s] at this; omega⟩

/-- If no allocation fails, nothing is used in an invalid way and only references to `*` remain. -/
theorem C66_no_failure_partial (qs : List EventType) (n : Nat) (fails : List Bool) (hf : true ∉ fails) :
    ∃ m, subscriptionLife qs n (SubMem.empty fails) = .ok m ∧ m.nodes = 0 ∧ m.tables = 0 ∧ m.objs = 0 ∧ (∀ s, cIsStar s = false → m.refs s = 0) ∧
      ∀ s, m.refs s ≤ qs.countP (fun q => s ∈ q) := by
  have hex : ∃ m, subscriptionLife qs n (SubMem.empty fails) = .ok m := by
    unfold subscriptionLife
    rcases hr : subscriptionNew qs (SubMem.empty fails) with ⟨e | root, m1⟩
    · exact ⟨_, rfl⟩
    · dsimp only
      cases hm : getMany root n m1 with
      | error e =>
        refine absurd ?_ ((getMany_spec root n m1).1 e hm).2
        have hfe : ∀ b ∈ fails, b = false := fun b hb => by cases b with | false => rfl | true => exact absurd hb hf
        unfold subscriptionNew at hr
        dsimp only at hr
        split at hr
        · cases hr
        · split at hr
          · cases hr
          · split at hr
            · rename_i r m3 hr2
              cases hr
              have h6 := congrArg (fun x => x.2.2) hr2
              dsimp only at h6
              simp only [SubMem.addObjs]
              rw [← h6]
              refine ((addQueryTypesMem_spec qs MNode.empty _ Wf.empty).noFail ?_).2
              exact fun b hb => hfe b (List.mem_of_mem_tail (List.mem_of_mem_tail hb))
            · cases hr
      | ok m2 => exact ⟨_, rfl⟩
  obtain ⟨m, hm⟩ := hex
  obtain ⟨h1, h2, h3, h4⟩ := life_owned hm
  refine ⟨m, hm, h1, h2, h3, fun s hs => ?_, fun s => ?_⟩
  · have := h4 s
    rw [sum_map_zero (f := starCount s) fun q _ => by simp [starCount, hs]] at this
    omega
  · refine le_trans (h4 s).2 ?_
    have : (qs.map (starCount s)).sum ≤ qs.countP (fun q => s ∈ q) := by
      clear * -
      induction qs with
      | nil => simp
      | cons q qs ih =>
        rw [List.map_cons, List.sum_cons, List.countP_cons]
        have : starCount s q ≤ if decide (s ∈ q) = true then 1 else 0 := by
          unfold starCount; split_ifs <;> simp_all
        omega
    exact_mod_cast this

/-- Query types for the examples. -/
def exMemTypes : List EventType := [["a", "b"], ["a", "?"], ["c"], ["a", "b", "d"]]

example : ∀ q ∈ exMemTypes, ∀ s ∈ q, cIsStar s = false := by decide

/-- An allocation fails while the third query type is added. -/
example : ((subscriptionNew exMemTypes (SubMem.empty (List.replicate 12 false ++ [true]))).1.toOption.isNone = true) ∧
    ((subscriptionNew exMemTypes (SubMem.empty [])).1.toOption.isSome = true) := by
  constructor <;> rfl

/-! ## What is not given back -/

/-- The reference to `*` remains although no allocation fails: one is lost with each new subscription to everything. -/
theorem C66_refuted : ∃ qs m, subscriptionLife qs 0 (SubMem.empty []) = .ok m ∧ m.refs "*" = 1 :=
  ⟨[["*"]], _, rfl, by decide⟩

mutual
theorem freeChildren_refs : ∀ (n : MNode) (m : SubMem), (n.freeChildren m).refs = m.refs
  | .mk l s t ch, m => by
    rw [freeChildren]
    split
    · exact freeAll_refs ch m
    · rfl
theorem freeAll_refs : ∀ (ch : List (Segment × MNode)) (m : SubMem), (freeAll ch m).refs = m.refs
  | [], m => by rw [freeAll]
  | (k, c) :: r, m => by
    rw [freeAll]
    exact (freeAll_refs r _).trans (freeChildren_refs c m)
end

theorem add_star_leaks (q : EventType) (hq : ∀ s ∈ q, cIsStar s = false) : ∀ (n : MNode) (m : SubMem), n.starless → (∀ b ∈ m.fails, b = false) →
    (addQueryTypeMem (q ++ ["*"]) n m).2.2.refs "*" = m.refs "*" + 1 ∧ (addQueryTypeMem (q ++ ["*"]) n m).2.1 = .done := by
  have hstar : cIsStar "*" = true := by decide
  induction q with
  | nil =>
    rintro ⟨l, s, t, ch⟩ m hn hf
    rw [addQueryTypeMem.eq_def]
    dsimp only [List.nil_append]
    obtain ⟨hs, hc⟩ := hn
    subst hs
    simp only [Bool.false_eq_true, if_false, hstar, if_true, ne_eq, not_true_eq_false, and_true]
    rw [freeChildren_refs]
    simp [SubMem.addRef]
  | cons x q ih =>
    rintro ⟨l, s, t, ch⟩ m hn hf
    rw [List.cons_append, addQueryTypeMem.eq_def]
    dsimp only
    obtain ⟨hs, hc⟩ := hn
    subst hs
    have hx : cIsStar x = false := hq x (by simp)
    have hne : "*" ≠ x := by rintro rfl; rw [hstar] at hx; cases hx
    simp only [Bool.false_eq_true, if_false, hx]
    obtain ⟨⟨a1, -, -⟩, -, -, a6⟩ := ensureTable_spec t (m.addRef x 1)
    obtain ⟨a7, a8⟩ := a6 hf
    rcases he : ensureTable t (m.addRef x 1) with ⟨b, m1⟩
    rw [he] at a1 a7 a8
    dsimp only at a1 a7 a8
    subst a7
    dsimp only
    have hq' : ∀ s ∈ q, cIsStar s = false := fun s h => hq s (by simp [h])
    cases hg : Dict.get ch x with
    | some c =>
      dsimp only
      have := ih hq' c (m1.addRef x (-1)) ((starlessL_iff ch).1 hc _ (Dict.mem_of_get hg)) a8
      refine ⟨this.1.trans ?_, this.2⟩
      simp [SubMem.addRef, a1, hne]
    | none =>
      dsimp only
      obtain ⟨⟨b1, -, -⟩, -, b5⟩ := newNode_spec m1
      obtain ⟨b7, b8⟩ := b5 a8
      rcases hn : newNode m1 with ⟨b, m2⟩
      rw [hn] at b1 b7 b8
      dsimp only at b1 b7 b8
      subst b7
      dsimp only
      have := ih hq' MNode.empty (m2.addRef x (-1)) ⟨rfl, trivial⟩ b8
      refine ⟨this.1.trans ?_, this.2⟩
      simp [SubMem.addRef, b1, a1, hne]

theorem new_star_leaks (q : EventType) (hq : ∀ s ∈ q, cIsStar s = false) :
    ∃ root m, subscriptionNew [q ++ ["*"]] (SubMem.empty []) = (.ok root, m) ∧ m.refs "*" = 1 := by
  have h : ∀ m : SubMem, m.fails = [] → (addQueryTypesMem [q ++ ["*"]] MNode.empty m).2.1 = .done ∧
      (addQueryTypesMem [q ++ ["*"]] MNode.empty m).2.2.refs "*" = m.refs "*" + 1 := by
    intro m hm
    have hl := add_star_leaks q hq MNode.empty ((m.addObjs 1).tried.addObjs 1) ⟨rfl, trivial⟩ (by simp [SubMem.addObjs, SubMem.tried, hm])
    have hf : ¬ (m.addObjs 1).failing = true := by simp [SubMem.failing, SubMem.addObjs, hm]
    rw [addQueryTypesMem]
    dsimp only
    rw [if_neg hf, if_pos hl.2, addQueryTypesMem]
    exact ⟨rfl, hl.1⟩
  unfold subscriptionNew
  have h1 : ¬ (SubMem.empty []).failing = true := by decide
  have h2 : ¬ ((SubMem.empty []).tried.addObjs 1).failing = true := by decide
  dsimp only
  rw [if_neg h1, if_neg h2]
  have h3 := h { ((SubMem.empty []).tried.addObjs 1).tried with nodes := ((SubMem.empty []).tried.addObjs 1).nodes + 1 } rfl
  revert h3
  generalize addQueryTypesMem [q ++ ["*"]] MNode.empty _ = r
  intro h3
  obtain ⟨root, err, m⟩ := r
  obtain ⟨rfl, h4⟩ := h3
  exact ⟨_, _, rfl, h4⟩

/-- The same for every subscription with one query type that ends with `*`, however it is used. -/
theorem C66_leak_refuted (q : EventType) (hq : ∀ s ∈ q, cIsStar s = false) (n : Nat) :
    ∃ m, subscriptionLife [q ++ ["*"]] n (SubMem.empty []) = .ok m ∧ m.refs "*" = 1 := by
  obtain ⟨m, hm, -⟩ := C66_no_failure_partial [q ++ ["*"]] n [] (by simp)
  refine ⟨m, hm, ?_⟩
  obtain ⟨root, m1, hr, h1⟩ := new_star_leaks q hq
  unfold subscriptionLife at hm
  rw [hr] at hm
  dsimp only at hm
  have hg := (getMany_spec root n m1).2
  revert hg hm
  generalize getMany root n m1 = r
  intro hm hg
  rcases r with e | m2
  · cases hm
  · cases hm
    rw [subscriptionDealloc]
    dsimp only
    rw [freeChildren_refs, (hg m2 rfl).2.2.2, h1]

/-- If the tuple of a query type with a star cannot be allocated, it is used nevertheless. -/
theorem C66_get_refuted : ∃ qs fails, subscriptionLife qs 1 (SubMem.empty fails) = .error .invalidUse :=
  ⟨[["*"]], List.replicate 7 false ++ [true], rfl⟩

end HatEvent
