import Verif.Proof.SubscriptionOps

/-! Completeness of intersection away from `*` ends, and `isdisjoint`. -/

namespace HatEvent
open Spec

/-! ## Intersection: completeness -/

/-- A match whose `*` (if any) consumes at least one segment. -/
def StrictNode : EventType → Node → Prop
  | [], n => n.isLeaf = true
  | s :: e, n => "*" ∈ Dict.keys n.children ∨
      ∃ k c, (k = s ∨ k = "?") ∧ Dict.get n.children k = some c ∧ StrictNode e c

/-- The event type leads to a node with `*`. -/
def StarAt : EventType → Node → Prop
  | [], n => "*" ∈ Dict.keys n.children
  | s :: e, n => ∃ k c, (k = s ∨ k = "?") ∧ k ≠ "*" ∧
      Dict.get n.children k = some c ∧ StarAt e c

theorem strict_or_starAt (e : EventType) : ∀ n, WF n → nodeMatches e n = true →
    StrictNode e n ∨ StarAt e n := by
  induction e with
  | nil =>
    intro n _ h
    rw [nodeMatches_nil] at h
    exact h.symm
  | cons s e ih =>
    intro n hw h
    rw [nodeMatches_cons] at h
    by_cases hs : "*" ∈ Dict.keys n.children
    · exact .inl (.inl hs)
    · rcases h with h | ⟨k, c, hk, hg, hm⟩
      · exact absurd h hs
      · have hk' : k ≠ "*" := by
          rintro rfl
          exact hs (Dict.mem_keys_of_mem (Dict.mem_of_get hg))
        rcases ih c (hw.get hg) hm with h | h
        · exact .inl (.inr ⟨k, c, hk, hg, h⟩)
        · exact .inr ⟨k, c, hk, hk', hg, h⟩

theorem starAt_empty (e : EventType) : ¬ StarAt e Node.empty := by
  cases e with
  | nil => simp [StarAt, Node.empty]
  | cons s e => simp [StarAt, Node.empty]

/-- `StarAt` comes from a query type ending in `*` at exactly that place. -/
theorem addQueryType_starAt (q : EventType) : ∀ (n m : Node) (e : EventType),
    addQueryType q n = .ok m → StarAt e m →
    StarAt e n ∨ (Matches e q ∧ q.getLast? = some "*" ∧ q.length = e.length + 1) := by
  induction q with
  | nil =>
    rintro ⟨l, ch⟩ m e hm hs
    unfold addQueryType at hm
    by_cases hst : Dict.has ch "*" = true
    · simp only [hst, if_true, Except.ok.injEq] at hm
      subst hm; exact .inl hs
    · simp [hst] at hm
      subst hm
      left
      cases e <;> exact hs
  | cons head rest ih =>
    rintro ⟨l, ch⟩ m e hm hs
    unfold addQueryType at hm
    by_cases hst : Dict.has ch "*" = true
    · simp only [hst, if_true, Except.ok.injEq] at hm
      subst hm; exact .inl hs
    · simp only [hst, Bool.false_eq_true, if_false] at hm
      have hst' : "*" ∉ Dict.keys ch := fun h => hst (Dict.has_iff.2 h)
      by_cases hh : head = "*"
      · subst hh
        by_cases hr : rest = []
        · subst hr
          simp at hm
          subst hm
          cases e with
          | nil => exact .inr ⟨.star _, by simp, by simp⟩
          | cons s e =>
            obtain ⟨k, c, _, hk, hg, _⟩ := hs
            have hk' : ¬ "*" = k := fun h => hk h.symm
            simp [Dict.get_cons, hk'] at hg
        · simp [hr] at hm
      · simp only [hh, if_false] at hm
        cases ha : addQueryType rest ((Dict.get ch head).getD Node.empty) with
        | error err => simp [ha] at hm
        | ok c' =>
          simp [ha] at hm
          subst hm
          cases e with
          | nil =>
            rcases Dict.mem_keys_set.1 hs with h | h
            · exact absurd h.symm hh
            · exact absurd h hst'
          | cons s e =>
            obtain ⟨k, c, hk, hks, hg, hc⟩ := hs
            rw [children_mk, Dict.get_set] at hg
            by_cases hkk : head = k
            · subst hkk
              simp at hg
              subst hg
              rcases ih _ _ e ha hc with h | ⟨h1, h2, h3⟩
              · cases hgc : Dict.get ch head with
                | none => rw [hgc] at h; exact absurd h (starAt_empty e)
                | some c0 =>
                  rw [hgc] at h
                  exact .inl ⟨head, c0, hk, hks, hgc, h⟩
              · refine .inr ⟨?_, ?_, by simp [h3]⟩
                · rw [Matches.cons_cons]; exact .inr ⟨by tauto, h1⟩
                · cases rest with
                  | nil => simp at h2
                  | cons a r => simpa [List.getLast?_cons] using h2
            · simp [hkk] at hg
              exact .inl ⟨k, c, hk, hks, hg, hc⟩

theorem nodeFromQueryTypes_starAt (qs : List EventType) : ∀ (n m : Node) (e : EventType),
    qs.foldlM (fun node q => addQueryType q node) n = .ok m → StarAt e m →
    StarAt e n ∨ ∃ q ∈ qs, Matches e q ∧ q.getLast? = some "*" ∧ q.length = e.length + 1 := by
  induction qs with
  | nil =>
    intro n m e hm hs
    simp [pure, Except.pure] at hm
    subst hm; exact .inl hs
  | cons q qs ih =>
    intro n m e hm hs
    rw [List.foldlM_cons] at hm
    cases ha : addQueryType q n with
    | error err => simp [ha, bind, Except.bind] at hm
    | ok n' =>
      simp only [ha, bind, Except.bind] at hm
      rcases ih n' m e hm hs with h | ⟨q', hq', h⟩
      · rcases addQueryType_starAt q n n' e ha h with h | h
        · exact .inl h
        · exact .inr ⟨q, by simp, h⟩
      · exact .inr ⟨q', by simp [hq'], h⟩

theorem strict_matches {l : Bool} {n : Node} {s : Segment} {e : EventType} (hw : WF n)
    (h : StrictNode (s :: e) n) : nodeMatches (s :: e) (.mk l n.children) = true := by
  have aux : ∀ (e : EventType) (n : Node), WF n → StrictNode e n → nodeMatches e n = true := by
    intro e
    induction e with
    | nil => intro n _ h; rw [nodeMatches_nil]; exact .inr h
    | cons s e ih =>
      intro n hw h
      rw [nodeMatches_cons]
      rcases h with h | ⟨k, c, hk, hg, hc⟩
      · exact .inl h
      · exact .inr ⟨k, c, hk, hg, ih c (hw.get hg) hc⟩
  rw [nodeMatches_cons, children_mk]
  rcases h with h | ⟨k, c, hk, hg, hc⟩
  · exact .inl h
  · exact .inr ⟨k, c, hk, hg, aux e c (hw.get hg) hc⟩

theorem intersectionF_complete : ∀ (d : Nat) (a b : Node), WF a → WF b →
    a.depth ≤ d → b.depth ≤ d → ∀ e, StrictNode e a → StrictNode e b →
    nodeMatches e (intersectionF d a b) = true := by
  intro d
  induction d with
  | zero => intro a b _ _ hd; exact absurd hd (by have := depth_pos a; omega)
  | succ d ih =>
    intro a b ha hb hda hdb e h1 h2
    rw [intersectionF]
    cases e with
    | nil =>
      have h1' : a.isLeaf = true := h1
      have h2' : b.isLeaf = true := h2
      by_cases hsa : Dict.has a.children "*" = true
      · simp only [hsa, if_true, h1', h2', Bool.and_self]
        rw [nodeMatches_nil]; simp
      · by_cases hsb : Dict.has b.children "*" = true
        · simp only [hsa, hsb, if_true, h1', h2', Bool.and_self]
          rw [nodeMatches_nil]; simp
        · simp only [hsa, hsb, h1', h2', Bool.and_self]
          rw [nodeMatches_nil]; simp
    | cons s e =>
      by_cases hsa : "*" ∈ Dict.keys a.children
      · simp only [Dict.has_iff.2 hsa, if_true]
        exact strict_matches hb h2
      · by_cases hsb : "*" ∈ Dict.keys b.children
        · simp only [Dict.has_eq_false_iff.2 hsa, Dict.has_iff.2 hsb, if_true,
            Bool.false_eq_true, if_false]
          exact strict_matches ha h1
        · simp only [Dict.has_eq_false_iff.2 hsa, Dict.has_eq_false_iff.2 hsb,
            Bool.false_eq_true, if_false]
          obtain ⟨_, r2, r3⟩ := intersection_children (inter := intersectionF d) ha hb hsa hsb
            (fun x y hx hy => by
              obtain ⟨k1, h1⟩ := hx
              obtain ⟨k2, h2⟩ := hy
              exact ⟨(intersectionF_sound d x y (ha.get h1) (hb.get h2)).1,
                (intersectionF_sound d y x (hb.get h2) (ha.get h1)).1⟩)
          rw [nodeMatches_cons', children_mk]
          rcases h1 with h1 | ⟨k1, c1, hk1, hg1, hc1⟩
          · exact absurd h1 hsa
          rcases h2 with h2 | ⟨k2, c2, hk2, hg2, hc2⟩
          · exact absurd h2 hsb
          have hm := ih c1 c2 (ha.get hg1) (hb.get hg2)
            (by have := depth_child (Dict.mem_of_get hg1); simp at this; omega)
            (by have := depth_child (Dict.mem_of_get hg2); simp at this; omega) e hc1 hc2
          right
          rcases hk1 with rfl | rfl
          · left
            rw [r3]
            exact ⟨k1, k2, c1, c2, hg1, hg2, by tauto, .inl hm⟩
          · rcases hk2 with rfl | rfl
            · left
              rw [r3]
              exact ⟨"?", k2, c1, c2, hg1, hg2, by tauto, .inl hm⟩
            · right
              rw [r3]
              exact ⟨"?", "?", c1, c2, hg1, hg2, by tauto, .inl hm⟩

/-! ## Trees without empty branches -/

/-- Every branch of the tree ends in an accepting node. -/
inductive Live : Node → Prop
  | mk {l : Bool} {ch : List (Segment × Node)} :
    (∀ p ∈ ch, Live p.2) → (∀ p ∈ ch, p.2.isLeaf = true ∨ p.2.children ≠ []) →
    Live (.mk l ch)

theorem Live.child {n : Node} (h : Live n) {p : Segment × Node} (hp : p ∈ n.children) :
    Live p.2 ∧ (p.2.isLeaf = true ∨ p.2.children ≠ []) := by
  cases h with | mk h h' => exact ⟨h p hp, h' p hp⟩

theorem Live.nonempty : ∀ (d : Nat) (n : Node), n.depth ≤ d → WF n → Live n →
    (n.isLeaf = true ∨ n.children ≠ []) → ∃ e, nodeMatches e n = true := by
  intro d
  induction d with
  | zero => intro n hd; exact absurd hd (by have := depth_pos n; omega)
  | succ d ih =>
    intro n hd hw hl h
    rcases h with h | h
    · exact ⟨[], (nodeMatches_nil n).2 (.inr h)⟩
    · obtain ⟨p, hp⟩ := List.exists_mem_of_ne_nil _ h
      obtain ⟨e, he⟩ := ih p.2 (by have := depth_child hp; omega) (hw.child hp)
        (hl.child hp).1 (hl.child hp).2
      refine ⟨p.1 :: e, (nodeMatches_cons _ _ _).2 (.inr ⟨p.1, p.2, .inl rfl, ?_, he⟩)⟩
      exact Dict.get_of_mem hw.nodup hp

theorem addQueryType_live (q : EventType) : ∀ (n m : Node), Live n →
    addQueryType q n = .ok m → Live m ∧ (m.isLeaf = true ∨ m.children ≠ []) := by
  induction q with
  | nil =>
    rintro ⟨l, ch⟩ m hl hm
    unfold addQueryType at hm
    by_cases hst : Dict.has ch "*" = true
    · simp only [hst, if_true, Except.ok.injEq] at hm
      subst hm
      refine ⟨hl, .inr ?_⟩
      rintro h
      simp only [children_mk] at h
      simp [h, Dict.has] at hst
    · simp [hst] at hm
      subst hm
      cases hl with | mk h h' => exact ⟨.mk h h', .inl rfl⟩
  | cons head rest ih =>
    rintro ⟨l, ch⟩ m hl hm
    unfold addQueryType at hm
    by_cases hst : Dict.has ch "*" = true
    · simp only [hst, if_true, Except.ok.injEq] at hm
      subst hm
      refine ⟨hl, .inr ?_⟩
      rintro h
      simp only [children_mk] at h
      simp [h, Dict.has] at hst
    · simp only [hst, Bool.false_eq_true, if_false] at hm
      by_cases hh : head = "*"
      · by_cases hr : rest = []
        · simp [hh, hr] at hm
          subst hm
          exact ⟨.mk (by simpa using Live.mk (by simp) (by simp)) (by simp), .inr (by simp)⟩
        · simp [hh, hr] at hm
      · simp only [hh, if_false] at hm
        have hlc : Live ((Dict.get ch head).getD Node.empty) := by
          cases hg : Dict.get ch head with
          | none => exact .mk (by simp) (by simp)
          | some c => exact (hl.child (n := .mk l ch) (Dict.mem_of_get hg)).1
        cases ha : addQueryType rest ((Dict.get ch head).getD Node.empty) with
        | error err => simp [ha] at hm
        | ok c' =>
          simp [ha] at hm
          subst hm
          have hall : ∀ p ∈ Dict.set ch head c',
              Live p.2 ∧ (p.2.isLeaf = true ∨ p.2.children ≠ []) := by
            intro p hp
            rcases Dict.mem_set hp with rfl | hp
            · exact ih _ _ hlc ha
            · exact hl.child (n := .mk l ch) hp
          exact ⟨.mk (fun p hp => (hall p hp).1) (fun p hp => (hall p hp).2),
            .inr Dict.set_ne_nil⟩

theorem nodeFromQueryTypes_live {qs : List EventType} {m : Node}
    (h : nodeFromQueryTypes qs = .ok m) : Live m := by
  unfold nodeFromQueryTypes at h
  have h0 : Live Node.empty := .mk (by simp) (by simp)
  generalize Node.empty = n at h h0
  induction qs generalizing n with
  | nil => simp [pure, Except.pure] at h; exact h ▸ h0
  | cons q qs ih =>
    rw [List.foldlM_cons] at h
    cases ha : addQueryType q n with
    | error e' => simp [ha, bind, Except.bind] at h
    | ok n' =>
      simp only [ha, bind, Except.bind] at h
      exact ih n' h (addQueryType_live q n n' h0 ha).1

/-! ## Disjointness -/

theorem children_ne_nil_of_star {n : Node} (h : "*" ∈ Dict.keys n.children) :
    n.children ≠ [] := by
  intro h0; rw [h0] at h; simp at h

theorem nodeIsdisjointF_sound : ∀ (d : Nat) (a b : Node), WF a → WF b →
    a.depth ≤ d → b.depth ≤ d → nodeIsdisjointF d a b = true →
    ∀ e, nodeMatches e a = true → nodeMatches e b = true → False := by
  intro d
  induction d with
  | zero => intro a b _ _ hd; exact absurd hd (by have := depth_pos a; omega)
  | succ d ih =>
    intro a b ha hb hda hdb hd e h1 h2
    rw [nodeIsdisjointF] at hd
    have hne : ∀ (n : Node) (e : EventType), nodeMatches e n = true →
        n.isLeaf = true ∨ n.children ≠ [] := by
      intro n e h
      cases e with
      | nil =>
        rcases (nodeMatches_nil n).1 h with h | h
        · exact .inr (children_ne_nil_of_star h)
        · exact .inl h
      | cons s e =>
        rcases (nodeMatches_cons s e n).1 h with h | ⟨k, c, _, hg, _⟩
        · exact .inr (children_ne_nil_of_star h)
        · right; intro h0; rw [h0] at hg; simp at hg
    split_ifs at hd with c1 c2 c3 c4 c5
    simp only [Bool.or_eq_true, Bool.and_eq_true, Bool.not_eq_true', List.isEmpty_eq_false_iff,
      not_or, not_and, Dict.has_iff, ne_eq] at c1 c2
    have hsa : "*" ∉ Dict.keys a.children := by
      intro hs
      rcases hne b e h2 with h | h
      · exact (c2.1 hs).2 h
      · exact (c2.1 hs).1 h
    have hsb : "*" ∉ Dict.keys b.children := by
      intro hs
      rcases hne a e h1 with h | h
      · exact (c2.2 hs).2 h
      · exact (c2.2 hs).1 h
    cases e with
    | nil =>
      rw [nodeMatches_nil] at h1 h2
      exact c1 (by tauto) (by tauto)
    | cons s e =>
      rw [nodeMatches_cons] at h1 h2
      rcases h1 with h1 | ⟨k1, x, hk1, hg1, hm1⟩
      · exact hsa h1
      rcases h2 with h2 | ⟨k2, y, hk2, hg2, hm2⟩
      · exact hsb h2
      have hmem1 := Dict.mem_of_get hg1
      have hmem2 := Dict.mem_of_get hg2
      have d1 : x.depth ≤ d := by have := depth_child hmem1; simp at this; omega
      have d2 : y.depth ≤ d := by have := depth_child hmem2; simp at this; omega
      by_cases hq1 : k1 = "?"
      · subst hq1
        simp only [hg1, List.any_eq_true, not_exists, not_and] at c3
        have := c3 _ hmem2
        simp at this
        exact ih x y (ha.get hg1) (hb.get hg2) d1 d2 this e hm1 hm2
      · by_cases hq2 : k2 = "?"
        · subst hq2
          simp only [hg2, List.any_eq_true, not_exists, not_and] at c4
          have := c4 _ hmem1
          simp [hq1] at this
          exact ih y x (hb.get hg2) (ha.get hg1) d2 d1 this e hm2 hm1
        · have hkk : k1 = k2 := by
            rcases hk1 with h | h
            · rcases hk2 with h' | h'
              · rw [h, h']
              · exact absurd h' hq2
            · exact absurd h hq1
          subst hkk
          simp only [List.any_eq_true, not_exists, not_and] at c5
          have := c5 _ hmem1
          simp [hg2, hq1] at this
          exact ih x y (ha.get hg1) (hb.get hg2) d1 d2 this e hm1 hm2

theorem nodeIsdisjointF_complete : ∀ (d : Nat) (a b : Node), WF a → WF b → Live a → Live b →
    a.depth ≤ d → b.depth ≤ d → nodeIsdisjointF d a b = false →
    ∃ e, nodeMatches e a = true ∧ nodeMatches e b = true := by
  intro d
  induction d with
  | zero => intro a b _ _ _ _ hd; exact absurd hd (by have := depth_pos a; omega)
  | succ d ih =>
    intro a b ha hb hla hlb hda hdb hd
    rw [nodeIsdisjointF] at hd
    have lift : ∀ (n : Node) (k s : Segment) (c : Node) (e : EventType),
        Dict.get n.children k = some c → (k = s ∨ k = "?") → nodeMatches e c = true →
        nodeMatches (s :: e) n = true := by
      intro n k s c e hg hk hm
      exact (nodeMatches_cons _ _ _).2 (.inr ⟨k, c, hk, hg, hm⟩)
    split_ifs at hd with c1 c2 c3 c4 c5
    · simp only [Bool.and_eq_true] at c1
      exact ⟨[], (nodeMatches_nil a).2 (.inr c1.1), (nodeMatches_nil b).2 (.inr c1.2)⟩
    · simp only [Bool.or_eq_true, Bool.and_eq_true, Bool.not_eq_true',
        List.isEmpty_eq_false_iff, Dict.has_iff, ne_eq] at c2
      rcases c2 with ⟨hs, h⟩ | ⟨hs, h⟩
      · obtain ⟨e, he⟩ := hlb.nonempty _ b le_rfl hb h.symm
        exact ⟨e, nodeMatches_star hs e, he⟩
      · obtain ⟨e, he⟩ := hla.nonempty _ a le_rfl ha h.symm
        exact ⟨e, he, nodeMatches_star hs e⟩
    · cases hg : Dict.get a.children "?" with
      | none => simp [hg] at c3
      | some x =>
        simp only [hg, List.any_eq_true, Bool.not_eq_true'] at c3
        obtain ⟨⟨k, y⟩, hp, hdd⟩ := c3
        have hmem1 := Dict.mem_of_get hg
        obtain ⟨e, he1, he2⟩ := ih x y (ha.get hg) (hb.child hp) (hla.child hmem1).1
          (hlb.child hp).1 (by have := depth_child hmem1; simp at this; omega)
          (by have := depth_child hp; simp at this; omega) hdd
        exact ⟨k :: e, lift a "?" k x e hg (.inr rfl) he1,
          lift b k k y e (Dict.get_of_mem hb.nodup hp) (.inl rfl) he2⟩
    · cases hg : Dict.get b.children "?" with
      | none => simp [hg] at c4
      | some x =>
        simp only [hg, List.any_eq_true, Bool.not_eq_true', Bool.and_eq_true] at c4
        obtain ⟨⟨k, y⟩, hp, _, hdd⟩ := c4
        have hmem1 := Dict.mem_of_get hg
        obtain ⟨e, he1, he2⟩ := ih x y (hb.get hg) (ha.child hp) (hlb.child hmem1).1
          (hla.child hp).1 (by have := depth_child hmem1; simp at this; omega)
          (by have := depth_child hp; simp at this; omega) hdd
        exact ⟨k :: e, lift a k k y e (Dict.get_of_mem ha.nodup hp) (.inl rfl) he2,
          lift b "?" k x e hg (.inr rfl) he1⟩
    · simp only [List.any_eq_true] at c5
      obtain ⟨⟨k, x⟩, hp, hdd⟩ := c5
      simp only at hdd
      cases hg : Dict.get b.children k with
      | none => simp [hg] at hdd
      | some y =>
        simp only [hg, Bool.and_eq_true, Bool.not_eq_true'] at hdd
        have hmem2 := Dict.mem_of_get hg
        obtain ⟨e, he1, he2⟩ := ih x y (ha.child hp) (hb.get hg) (hla.child hp).1
          (hlb.child hmem2).1 (by have := depth_child hp; simp at this; omega)
          (by have := depth_child hmem2; simp at this; omega) hdd.2
        exact ⟨k :: e, lift a k k x e (Dict.get_of_mem ha.nodup hp) (.inl rfl) he1,
          lift b k k y e hg (.inl rfl) he2⟩

end HatEvent
