import Verif.Proof.CSubscription

/-! Lemmas about the `Subscription` interface (both implementations). -/

namespace HatEvent
open Spec

/-! ## Names in a tree -/

/-- Every name in the tree satisfies `P`. -/
inductive Names (P : Segment → Prop) : Node → Prop
  | mk {l : Bool} {ch : List (Segment × Node)} :
    (∀ p ∈ ch, P p.1) → (∀ p ∈ ch, Names P p.2) → Names P (.mk l ch)

namespace Names
variable {P : Segment → Prop}

theorem name {n : Node} (h : Names P n) {p : Segment × Node} (hp : p ∈ n.children) : P p.1 := by
  cases h with | mk h _ => exact h p hp

theorem child {n : Node} (h : Names P n) {p : Segment × Node} (hp : p ∈ n.children) :
    Names P p.2 := by
  cases h with | mk _ h => exact h p hp

theorem relabel {n : Node} (h : Names P n) (l : Bool) : Names P (.mk l n.children) := by
  cases h with | mk h h' => exact .mk h h'

theorem empty : Names P Node.empty := .mk (by simp) (by simp)

theorem star (h : P "*") (l : Bool) : Names P (.mk l [("*", .mk true [])]) :=
  .mk (by simpa using h) (by
    intro p hp
    simp at hp
    subst hp
    exact .mk (by simp) (by simp))

theorem foldl_mergeChild {merge : Node → Node → Node}
    (hm : ∀ a b, Names P a → Names P b → Names P (merge a b)) :
    ∀ (l : List (Segment × Node)) (acc : Dict Segment Node),
      (∀ p ∈ acc, P p.1 ∧ Names P p.2) → (∀ p ∈ l, P p.1 ∧ Names P p.2) →
      ∀ p ∈ l.foldl (mergeChild merge) acc, P p.1 ∧ Names P p.2 := by
  intro l
  induction l with
  | nil => intro acc ha _; exact ha
  | cons q l ih =>
    intro acc ha hl
    apply ih
    · intro p hp
      unfold mergeChild at hp
      rcases Dict.mem_set hp with rfl | hp
      · refine ⟨(hl q (by simp)).1, ?_⟩
        cases hg : Dict.get acc q.1 with
        | none => simpa using (hl q (by simp)).2
        | some c =>
          exact hm _ _ (ha _ (Dict.mem_of_get hg)).2 (hl q (by simp)).2
      · exact ha p hp
    · exact fun p hp => hl p (by simp [hp])

theorem unionF (hs : P "*") : ∀ (d : Nat) (a b : Node), Names P a → Names P b →
    Names P (unionF d a b) := by
  intro d
  induction d with
  | zero => intro a b ha _; exact ha
  | succ d ih =>
    intro a b ha hb
    rw [HatEvent.unionF]
    split_ifs
    · exact star hs _
    · have := foldl_mergeChild (merge := HatEvent.unionF d) ih (a.children ++ b.children) []
        (by simp) (by
          intro p hp
          rcases List.mem_append.1 hp with hp | hp
          · exact ⟨ha.name hp, ha.child hp⟩
          · exact ⟨hb.name hp, hb.child hp⟩)
      exact .mk (fun p hp => (this p hp).1) (fun p hp => (this p hp).2)

theorem intersectionResults {inter : Node → Node → Node} {a b : Dict Segment Node}
    (ha : (Dict.keys a).Nodup) (hb : (Dict.keys b).Nodup)
    (hna : ∀ p ∈ a, P p.1 ∧ Names P p.2) (hnb : ∀ p ∈ b, P p.1 ∧ Names P p.2)
    (hi : ∀ x ∈ a, ∀ y ∈ b, Names P (inter x.2 y.2)) :
    ∀ p ∈ intersectionResults inter a b, P p.1 ∧ Names P p.2 := by
  rintro ⟨k, r⟩ hp
  obtain ⟨k1, k2, c1, c2, hg1, hg2, rfl, h⟩ := (mem_intersectionResults ha hb).1 hp
  have h1 := Dict.mem_of_get hg1
  have h2 := Dict.mem_of_get hg2
  refine ⟨?_, hi _ h1 _ h2⟩
  rcases h with ⟨_, rfl, _⟩ | ⟨_, rfl⟩
  · exact (hna _ h1).1
  · exact (hnb _ h2).1

theorem intersectionF (hs : P "*") : ∀ (d : Nat) (a b : Node), WF a → WF b →
    Names P a → Names P b → Names P (intersectionF d a b) := by
  intro d
  induction d with
  | zero => intro a b _ _ _ _; exact empty
  | succ d ih =>
    intro a b hwa hwb ha hb
    rw [HatEvent.intersectionF]
    split_ifs
    · exact hb.relabel _
    · exact ha.relabel _
    · have := foldl_mergeChild (merge := unionNode)
        (fun x y hx hy => unionF hs _ x y hx hy)
        (HatEvent.intersectionResults (HatEvent.intersectionF d) a.children b.children ++
          HatEvent.intersectionResults (HatEvent.intersectionF d) b.children a.children) []
        (by simp) (by
          intro p hp
          rcases List.mem_append.1 hp with hp | hp
          · exact intersectionResults hwa.nodup hwb.nodup
              (fun p hp => ⟨ha.name hp, ha.child hp⟩) (fun p hp => ⟨hb.name hp, hb.child hp⟩)
              (fun x hx y hy => ih _ _ (hwa.child hx) (hwb.child hy) (ha.child hx) (hb.child hy))
              p hp
          · exact intersectionResults hwb.nodup hwa.nodup
              (fun p hp => ⟨hb.name hp, hb.child hp⟩) (fun p hp => ⟨ha.name hp, ha.child hp⟩)
              (fun x hx y hy => ih _ _ (hwb.child hx) (hwa.child hy) (hb.child hx) (ha.child hy))
              p hp)
      exact .mk (fun p hp => (this p hp).1) (fun p hp => (this p hp).2)

theorem addQueryType (q : EventType) (hq : ∀ s ∈ q, P s) : ∀ (n m : Node), Names P n →
    addQueryType q n = .ok m → Names P m := by
  induction q with
  | nil =>
    rintro ⟨l, ch⟩ m hn hm
    unfold HatEvent.addQueryType at hm
    split_ifs at hm
    · cases hm; exact hn
    · cases hm; exact hn.relabel _
  | cons s q ih =>
    rintro ⟨l, ch⟩ m hn hm
    unfold HatEvent.addQueryType at hm
    by_cases c1 : Dict.has ch "*" = true
    · rw [if_pos c1] at hm
      cases hm; exact hn
    · rw [if_neg c1] at hm
      simp only at hm
      by_cases c2 : s = "*"
      · rw [if_pos c2] at hm
        split_ifs at hm
        cases hm
        exact star (c2 ▸ hq s (by simp)) _
      · rw [if_neg c2] at hm
        have hc : Names P ((Dict.get ch s).getD Node.empty) := by
          cases hg : Dict.get ch s with
          | none => exact empty
          | some c => exact hn.child (n := .mk l ch) (Dict.mem_of_get hg)
        cases ha : HatEvent.addQueryType q ((Dict.get ch s).getD Node.empty) with
        | error e => simp [ha] at hm
        | ok c =>
          simp [ha] at hm
          subst hm
          have hc' := ih (fun s hs => hq s (by simp [hs])) _ _ hc ha
          refine .mk ?_ ?_
          · intro p hp
            rcases Dict.mem_set hp with rfl | hp
            · exact hq _ (by simp)
            · exact hn.name (n := .mk l ch) hp
          · intro p hp
            rcases Dict.mem_set hp with rfl | hp
            · exact hc'
            · exact hn.child (n := .mk l ch) hp

theorem nodeFromQueryTypes {qs : List EventType} {m : Node} (hq : ∀ q ∈ qs, ∀ s ∈ q, P s)
    (h : nodeFromQueryTypes qs = .ok m) : Names P m := by
  unfold HatEvent.nodeFromQueryTypes at h
  have h0 : Names P Node.empty := empty
  generalize Node.empty = n at h h0
  induction qs generalizing n with
  | nil => simp [pure, Except.pure] at h; exact h ▸ h0
  | cons q qs ih =>
    rw [List.foldlM_cons] at h
    cases ha : HatEvent.addQueryType q n with
    | error err => simp [ha, bind, Except.bind] at h
    | ok n' =>
      simp only [ha, bind, Except.bind] at h
      exact ih (fun q hq' => hq q (by simp [hq'])) n' h
        (addQueryType q (hq q (by simp)) n n' h0 ha)

theorem nodeToQueryTypes : ∀ (d : Nat) (n : Node), n.depth ≤ d → Names P n →
    ∀ q ∈ nodeToQueryTypes n, ∀ s ∈ q, P s := by
  intro d
  induction d with
  | zero => intro n hd; exact absurd hd (by have := depth_pos n; omega)
  | succ d ih =>
    intro n hd hn q hq s hs
    rcases mem_nodeToQueryTypes.1 hq with ⟨rfl, _⟩ | ⟨p, hp, r, hr, rfl⟩
    · simp at hs
    · rcases List.mem_cons.1 hs with rfl | hs
      · exact hn.name hp
      · exact ih p.2 (by have := depth_child hp; omega) (hn.child hp) r hr s hs

end Names

/-! ## Interface -/

/-- A segment that the C code reads the same way as the Python code. -/
def PlainName (s : Segment) : Prop := cIsStar s = true → s = "*"

theorem PlainName.of_noNul {s : Segment} (h : ∀ c ∈ s.toList, c.toNat ≠ 0) : PlainName s :=
  (cIsStar_iff_of_noNul h).1

theorem PlainName.star : PlainName "*" := fun _ => rfl

namespace Sub

/-- Invariant of subscription objects. -/
def Valid : Sub → Prop
  | py root => WF root ∧ Names PlainName root
  | c root => CWF root

theorem matches_iff_queryTypes {s : Sub} (h : s.Valid) (e : EventType) :
    s.matches e = true ↔ MatchesAny s.getQueryTypes e := by
  cases s with
  | py root => exact nodeToQueryTypes_spec e root h.1
  | c root => exact cGetQueryTypes_spec e root h

theorem queryTypes_wellFormed {s : Sub} (h : s.Valid) :
    ∀ q ∈ s.getQueryTypes, WellFormed q ∧ ∀ x ∈ q, PlainName x := by
  cases s with
  | py root =>
    intro q hq
    exact ⟨nodeToQueryTypes_wellFormed _ root le_rfl h.1 q hq,
      Names.nodeToQueryTypes _ root le_rfl h.2 q hq⟩
  | c root => exact cGetQueryTypes_segments _ root le_rfl h

theorem map_norm {qs : List EventType} (h : ∀ q ∈ qs, ∀ x ∈ q, PlainName x) :
    qs.map (List.map cNorm) = qs := by
  conv_rhs => rw [← List.map_id qs]
  apply List.map_congr_left
  intro q hq
  exact cNorm_map_of_fakeless (h q hq)

/-- A list of well formed query types gives a Python node with their language. -/
theorem node_of_list {qs : List EventType}
    (hw : ∀ q ∈ qs, WellFormed q ∧ ∀ x ∈ q, PlainName x) :
    ∃ n, nodeFromQueryTypes qs = .ok n ∧ WF n ∧ Names PlainName n ∧
      ∀ e, nodeMatches e n = true ↔ MatchesAny qs e := by
  obtain ⟨n, hn⟩ := nodeFromQueryTypes_ok (fun q hq => (hw q hq).1)
  obtain ⟨h1, h2⟩ := nodeFromQueryTypes_spec hn
  exact ⟨n, hn, h1, Names.nodeFromQueryTypes (fun q hq => (hw q hq).2) hn, h2⟩

theorem c_of_list {qs : List EventType}
    (hw : ∀ q ∈ qs, WellFormed q ∧ ∀ x ∈ q, PlainName x) :
    ∃ n, cFromQueryTypes qs = .ok n ∧ CWF n ∧
      ∀ e, cMatches e n = true ↔ MatchesAny qs e := by
  have hmap := map_norm (fun q hq => (hw q hq).2)
  obtain ⟨n, hn⟩ := cFromQueryTypes_ok (qs := qs) (by
    intro q hq
    rw [cNorm_map_of_fakeless (hw q hq).2]
    exact (hw q hq).1)
  obtain ⟨h1, h2⟩ := cFromQueryTypes_spec hn
  rw [hmap] at h2
  exact ⟨n, hn, h1, h2⟩

theorem node_of_valid {s : Sub} (h : s.Valid) :
    ∃ n, nodeFromQueryTypes s.getQueryTypes = .ok n ∧ WF n ∧ Names PlainName n ∧
      ∀ e, nodeMatches e n = true ↔ s.matches e = true := by
  obtain ⟨n, h1, h2, h3, h4⟩ := node_of_list (queryTypes_wellFormed h)
  exact ⟨n, h1, h2, h3, fun e => by rw [h4, matches_iff_queryTypes h]⟩

theorem otherNode_of_valid {s : Sub} (h : s.Valid) :
    ∃ n, otherNode s = .ok n ∧ WF n ∧ Names PlainName n ∧
      ∀ e, nodeMatches e n = true ↔ s.matches e = true := by
  cases s with
  | py root => exact ⟨root, rfl, h.1, h.2, fun e => Iff.rfl⟩
  | c root => exact node_of_valid (s := .c root) h

/-- What the two folding loops do for a binary operation on valid nodes. -/
theorem fold_spec {op : Node → Node → Node} {get : Sub → Except PyErr Node}
    {R : Node → List Sub → Node → Prop}
    (hget : ∀ s : Sub, s.Valid → ∃ n, get s = .ok n ∧ WF n ∧ Names PlainName n ∧
      ∀ e, nodeMatches e n = true ↔ s.matches e = true)
    (hop : ∀ a b, WF a → WF b → Names PlainName a → Names PlainName b →
      WF (op a b) ∧ Names PlainName (op a b))
    (hnil : ∀ n, R n [] n)
    (hcons : ∀ (n m r : Node) (s : Sub) (l : List Sub), WF n → WF m →
      (∀ e, nodeMatches e m = true ↔ s.matches e = true) → R (op n m) l r → R n (s :: l) r) :
    ∀ (others : List Sub) (node : Node), WF node → Names PlainName node →
      (∀ s ∈ others, s.Valid) →
      ∃ r, others.foldlM (fun node other =>
          match get other with
          | .error err => .error err
          | .ok otherNode => .ok (op node otherNode)) node = (.ok r : Except PyErr Node) ∧
        WF r ∧ Names PlainName r ∧ R node others r := by
  intro others
  induction others with
  | nil => intro node h1 h2 _; exact ⟨node, rfl, h1, h2, hnil node⟩
  | cons s others ih =>
    intro node h1 h2 hv
    obtain ⟨m, hm, hwm, hnm, hlm⟩ := hget s (hv s (by simp))
    obtain ⟨hwo, hno⟩ := hop node m h1 hwm h2 hnm
    obtain ⟨r, hr, hwr, hnr, hR⟩ := ih (op node m) hwo hno (fun s hs => hv s (by simp [hs]))
    refine ⟨r, ?_, hwr, hnr, hcons node m r s others h1 hwm hlm hR⟩
    rw [List.foldlM_cons, hm]
    exact hr

/-- What `union`/`intersection` return, given a relation `R` kept by the loop. -/
theorem combine_spec {op : Node → Node → Node}
    {R : (EventType → Prop) → List Sub → (EventType → Prop) → Prop}
    (hop : ∀ a b, WF a → WF b → Names PlainName a → Names PlainName b →
      WF (op a b) ∧ Names PlainName (op a b))
    (hnil : ∀ L, R L [] L)
    (hcons : ∀ (n m : Node) (r : EventType → Prop) (s : Sub) (l : List Sub), WF n → WF m →
      (∀ e, nodeMatches e m = true ↔ s.matches e = true) →
      R (fun e => nodeMatches e (op n m) = true) l r →
      R (fun e => nodeMatches e n = true) (s :: l) r)
    {self : Sub} {others : List Sub} (hv : self.Valid) (hvs : ∀ s ∈ others, s.Valid) :
    ∃ r, combine op self others = .ok r ∧ r.Valid ∧
      R (fun e => self.matches e = true) others (fun e => r.matches e = true) := by
  have key := fun (get : Sub → Except PyErr Node) hget => fold_spec (get := get)
    (R := fun n l r => R (fun e => nodeMatches e n = true) l (fun e => nodeMatches e r = true))
    (op := op) hget hop (fun n => hnil _)
    (fun n m r s l h1 h2 h3 h4 => hcons n m _ s l h1 h2 h3 h4)
  cases self with
  | py root =>
    obtain ⟨r, hr, hwr, hnr, hR⟩ := key otherNode (fun s h => otherNode_of_valid h)
      others root hv.1 hv.2 hvs
    refine ⟨.py r, ?_, ⟨hwr, hnr⟩, hR⟩
    have : pyFold op root others = .ok r := hr
    simp [combine, this, Except.map]
  | c root =>
    obtain ⟨n, hn, hwn, hnn, hln⟩ := node_of_valid (s := .c root) hv
    obtain ⟨r, hr, hwr, hnr, hR⟩ := key (fun s => nodeFromQueryTypes s.getQueryTypes)
      (fun s h => node_of_valid h) others n hwn hnn hvs
    obtain ⟨m, hm, hwm, hlm⟩ := c_of_list (qs := nodeToQueryTypes r)
      (fun q hq => ⟨nodeToQueryTypes_wellFormed _ r le_rfl hwr q hq,
        Names.nodeToQueryTypes _ r le_rfl hnr q hq⟩)
    refine ⟨.c m, ?_, hwm, ?_⟩
    · have h1 : cFold op n others = .ok r := hr
      have h2 : nodeFromQueryTypes (cGetQueryTypes root) = .ok n := hn
      simp [combine, h1, h2, createC, hm, Except.map]
    · have e1 : (fun e => (Sub.c root).matches e = true) = fun e => nodeMatches e n = true := by
        funext e; exact propext (hln e).symm
      have e2 : (fun e => (Sub.c m).matches e = true) = fun e => nodeMatches e r = true := by
        funext e
        exact propext ((hlm e).trans (nodeToQueryTypes_spec e r hwr).symm)
      rw [e1, e2]
      exact hR

theorem union_spec {self : Sub} {others : List Sub} (hv : self.Valid)
    (hvs : ∀ s ∈ others, s.Valid) :
    ∃ r, self.union others = .ok r ∧ r.Valid ∧
      ∀ e, r.matches e = true ↔
        (self.matches e = true ∨ ∃ s ∈ others, s.matches e = true) := by
  apply combine_spec (op := unionNode)
    (R := fun a l r => ∀ e, r e ↔ (a e ∨ ∃ s ∈ l, s.matches e = true))
  · exact fun a b ha hb hna hnb =>
      ⟨(unionNode_spec ha hb).1, Names.unionF PlainName.star _ a b hna hnb⟩
  · intro L e; simp
  · intro n m r s l hn hm hs hR e
    have h1 := hR e
    have h2 := (unionNode_spec hn hm).2 e
    have h3 := hs e
    simp only at h1 ⊢
    rw [h1, h2, h3]
    simp only [List.mem_cons, exists_eq_or_imp]
    tauto
  · exact hv
  · exact hvs

theorem intersection_sound {self : Sub} {others : List Sub} (hv : self.Valid)
    (hvs : ∀ s ∈ others, s.Valid) :
    ∃ r, self.intersection others = .ok r ∧ r.Valid ∧
      ∀ e, r.matches e = true → (self.matches e = true ∧ ∀ s ∈ others, s.matches e = true) := by
  apply combine_spec (op := intersectionNode)
    (R := fun a l r => ∀ e, r e → (a e ∧ ∀ s ∈ l, s.matches e = true))
  · exact fun a b ha hb hna hnb =>
      ⟨(intersectionF_sound _ a b ha hb).1,
        Names.intersectionF PlainName.star _ a b ha hb hna hnb⟩
  · intro L e h; exact ⟨h, by simp⟩
  · intro n m r s l hn hm hs hR e he
    obtain ⟨h1, h2⟩ := hR e he
    obtain ⟨h3, h4⟩ := (intersectionF_sound _ n m hn hm).2 e h1
    refine ⟨h3, ?_⟩
    intro t ht
    rcases List.mem_cons.1 ht with rfl | ht
    · exact (hs e).1 h4
    · exact h2 t ht
  · exact hv
  · exact hvs

/-! ## What is listed comes from what was given -/

theorem cAddQueryType_listed (q : EventType) : ∀ (n m : CNode), cAddQueryType q n = .ok m →
    ∀ r ∈ cGetQueryTypes m, r ∈ cGetQueryTypes n ∨ r = q.map cNorm := by
  induction q with
  | nil =>
    rintro ⟨l, st, ch⟩ m hm r hr
    unfold cAddQueryType at hm
    cases st with
    | true => simp at hm; subst hm; exact .inl hr
    | false =>
      simp at hm
      subst hm
      rcases mem_cGetQueryTypes.1 hr with ⟨h, _⟩ | ⟨_, ⟨rfl, _⟩ | h⟩
      · simp at h
      · exact .inr rfl
      · exact .inl (mem_cGetQueryTypes.2 (.inr ⟨rfl, .inr h⟩))
  | cons s q ih =>
    rintro ⟨l, st, ch⟩ m hm r hr
    unfold cAddQueryType at hm
    cases st with
    | true => simp at hm; subst hm; exact .inl hr
    | false =>
      simp only [Bool.false_eq_true, if_false] at hm
      by_cases hs : cIsStar s = true
      · rw [if_pos hs] at hm
        by_cases hq : q = []
        · subst hq
          simp at hm
          subst hm
          rcases mem_cGetQueryTypes.1 hr with ⟨_, rfl⟩ | ⟨h, _⟩
          · right; simp [cNorm, hs]
          · simp at h
        · simp [hq] at hm
      · rw [if_neg hs] at hm
        cases ha : cAddQueryType q ((Dict.get ch s).getD CNode.empty) with
        | error e => simp [ha] at hm
        | ok c =>
          simp [ha] at hm
          subst hm
          rcases mem_cGetQueryTypes.1 hr with ⟨h, _⟩ | ⟨_, ⟨rfl, hl⟩ | ⟨p, hp, r', hr', rfl⟩⟩
          · simp at h
          · exact .inl (mem_cGetQueryTypes.2 (.inr ⟨rfl, .inl ⟨rfl, hl⟩⟩))
          · rcases Dict.mem_set hp with rfl | hp
            · rcases ih _ _ ha r' hr' with h | h
              · left
                cases hg : Dict.get ch s with
                | none =>
                  rw [hg] at h
                  simp [CNode.empty, cGetQueryTypes, cChildrenQueryTypes] at h
                | some c0 =>
                  rw [hg] at h
                  exact mem_cGetQueryTypes.2 (.inr ⟨rfl, .inr
                    ⟨(s, c0), Dict.mem_of_get hg, r', h, rfl⟩⟩)
              · right; simp [h, cNorm, hs]
            · exact .inl (mem_cGetQueryTypes.2 (.inr ⟨rfl, .inr ⟨p, hp, r', hr', rfl⟩⟩))

theorem cFromQueryTypes_listed {qs : List EventType} {m : CNode}
    (h : cFromQueryTypes qs = .ok m) :
    ∀ r ∈ cGetQueryTypes m, r ∈ qs.map (List.map cNorm) := by
  have aux : ∀ (qs : List EventType) (n m : CNode),
      qs.foldlM (fun node q => cAddQueryType q node) n = .ok m →
      ∀ r ∈ cGetQueryTypes m, r ∈ cGetQueryTypes n ∨ r ∈ qs.map (List.map cNorm) := by
    intro qs
    induction qs with
    | nil =>
      intro n m hm r hr
      simp [pure, Except.pure] at hm
      subst hm; exact .inl hr
    | cons q qs ih =>
      intro n m hm r hr
      rw [List.foldlM_cons] at hm
      cases ha : cAddQueryType q n with
      | error err => simp [ha, bind, Except.bind] at hm
      | ok n' =>
        simp only [ha, bind, Except.bind] at hm
        rcases ih n' m hm r hr with h | h
        · rcases cAddQueryType_listed q n n' ha r h with h | h
          · exact .inl h
          · exact .inr (by simp [h])
        · exact .inr (by simp only [List.map_cons, List.mem_cons]; exact .inr h)
  intro r hr
  rcases aux qs _ m h r hr with h | h
  · simp [CNode.empty, cGetQueryTypes, cChildrenQueryTypes] at h
  · exact h

theorem listed_nonempty : ∀ (d : Nat) (n : CNode), n.depth ≤ d → CWF n →
    (n.isLeaf = true ∨ n.children ≠ []) → ∃ r, r ∈ cGetQueryTypes n := by
  intro d n hd hw h
  obtain ⟨e, he⟩ := hw.nonempty d n hd h
  obtain ⟨r, hr, _⟩ := (cGetQueryTypes_spec e n hw).1 he
  exact ⟨r, hr⟩

/-- `Overlap` in terms of listed query types. -/
theorem overlap_listed (e : EventType) : ∀ (a b : CNode), CWF a → CWF b → Overlap e a b →
    ∃ q ∈ cGetQueryTypes a, ∃ r ∈ cGetQueryTypes b,
      (Matches e q ∧ e.length < r.length ∧ Matches e (r.take e.length)) ∨
      (Matches e r ∧ e.length < q.length ∧ Matches e (q.take e.length)) := by
  induction e with
  | nil =>
    intro a b ha hb h
    obtain ⟨hsa, hsb, h⟩ := h
    have cont : ∀ n : CNode, CWF n → n.hasStar = false → n.children ≠ [] →
        ∃ r ∈ cGetQueryTypes n, 0 < r.length := by
      intro n hn hs h
      obtain ⟨p, hp⟩ := List.exists_mem_of_ne_nil _ h
      obtain ⟨r, hr⟩ := listed_nonempty _ p.2 le_rfl (hn.child hp) (hn.live hp)
      exact ⟨p.1 :: r, mem_cGetQueryTypes.2 (.inr ⟨hs, .inr ⟨p, hp, r, hr, rfl⟩⟩), by simp⟩
    have term : ∀ n : CNode, n.hasStar = false → n.isLeaf = true →
        [] ∈ cGetQueryTypes n :=
      fun n hs h => mem_cGetQueryTypes.2 (.inr ⟨hs, .inl ⟨rfl, h⟩⟩)
    rcases h with ⟨h1, _, _, h2⟩ | ⟨h1, _, _, h2⟩
    · obtain ⟨r, hr, hl⟩ := cont b hb hsb h2
      exact ⟨[], term a hsa h1, r, hr, .inl ⟨.nil, hl, by simpa using Matches.nil⟩⟩
    · obtain ⟨r, hr, hl⟩ := cont a ha hsa h2
      exact ⟨r, hr, [], term b hsb h1, .inr ⟨.nil, hl, by simpa using Matches.nil⟩⟩
  | cons s e ih =>
    intro a b ha hb h
    obtain ⟨k1, k2, c1, c2, hk1, hk2, hg1, hg2, ho⟩ := h
    have hsa : a.hasStar = false := by
      by_contra hc
      have := (ha.star (by simpa using hc)).2
      rw [this] at hg1; simp at hg1
    have hsb : b.hasStar = false := by
      by_contra hc
      have := (hb.star (by simpa using hc)).2
      rw [this] at hg2; simp at hg2
    have lift : ∀ {k : Segment} {q : EventType}, (k = s ∨ k = "?") → Matches e q →
        Matches (s :: e) (k :: q) := by
      rintro k q (rfl | rfl) h
      · exact .same _ h
      · exact .any _ h
    obtain ⟨q, hq, r, hr, h⟩ := ih c1 c2 (ha.get hg1) (hb.get hg2) ho
    refine ⟨k1 :: q, mem_cGetQueryTypes.2 (.inr ⟨hsa, .inr
      ⟨(k1, c1), Dict.mem_of_get hg1, q, hq, rfl⟩⟩), k2 :: r,
      mem_cGetQueryTypes.2 (.inr ⟨hsb, .inr ⟨(k2, c2), Dict.mem_of_get hg2, r, hr, rfl⟩⟩), ?_⟩
    rcases h with ⟨h1, h2, h3⟩ | ⟨h1, h2, h3⟩
    · exact .inl ⟨lift hk1 h1, by simpa using h2, by simpa using lift hk2 h3⟩
    · exact .inr ⟨lift hk2 h1, by simpa using h2, by simpa using lift hk1 h3⟩

end Sub
end HatEvent
