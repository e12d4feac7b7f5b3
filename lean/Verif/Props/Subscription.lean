import Verif.Spec.Subscription
import Verif.Proof.SubscriptionCreate

/-!
# Properties C01 – C08: query types and subscriptions
-/

namespace HatEvent
open Spec

/-! ## Internal glue -/

theorem Spec.Obtainable.valid {s : Sub} (h : Obtainable s) : s.Valid := by
  induction h with
  | @create i qs s hq hs =>
    cases i with
    | py =>
      simp only [Impl.create, Sub.createPy] at hs
      cases hn : nodeFromQueryTypes qs with
      | error e => simp [hn, Except.map] at hs
      | ok n =>
        simp [hn, Except.map] at hs
        subst hs
        exact ⟨(nodeFromQueryTypes_spec hn).1, Names.nodeFromQueryTypes
          (fun q h s hs => PlainName.of_noNul (hq q h s hs)) hn⟩
    | c =>
      simp only [Impl.create, Sub.createC] at hs
      cases hn : cFromQueryTypes qs with
      | error e => simp [hn, Except.map] at hs
      | ok n =>
        simp [hn, Except.map] at hs
        subst hs
        exact (cFromQueryTypes_spec hn).1
  | union _ _ hs ih1 ih2 =>
    obtain ⟨r, hr, hv, _⟩ := Sub.union_spec ih1 ih2
    rw [hs] at hr
    cases hr
    exact hv
  | intersection _ _ hs ih1 ih2 =>
    obtain ⟨r, hr, hv, _⟩ := Sub.intersection_sound ih1 ih2
    rw [hs] at hr
    cases hr
    exact hv

theorem plain_of_nulFree {qs : List EventType} (h : ∀ q ∈ qs, NulFree q) :
    ∀ q ∈ qs, ∀ x ∈ q, PlainName x :=
  fun q hq x hx => PlainName.of_noNul (h q hq x hx)

/-! ## C01 -/

/-- C01: the matcher implements the documented wildcard rules. -/
theorem C01_matcher (e q : EventType) : matchesQueryType e q = true ↔ Matches e q :=
  matchesQueryType_iff e q

example : matchesQueryType ["a", "x", "b", "c"] ["a", "?", "*"] = true := by decide
example : matchesQueryType ["a", "x"] ["a"] = false := by decide
example : Matches ["a", "x", "b", "c"] ["a", "?", "*"] :=
  .same _ (.any _ (.star _))

/-! ## C02 -/

/-- C02: a Python subscription matches exactly the union of its query types;
creation fails only because of a `*` before the last position, and never for
well formed query types. -/
theorem C02_py_subscription (qs : List EventType) :
    (∀ s, Sub.createPy qs = .ok s → ∀ e, s.matches e = true ↔ MatchesAny qs e) ∧
    (∀ err, Sub.createPy qs = .error err →
      (∃ msg, err = .valueError msg) ∧ ∃ q ∈ qs, ¬ WellFormed q) ∧
    ((∀ q ∈ qs, WellFormed q) → ∃ s, Sub.createPy qs = .ok s) := by
  unfold Sub.createPy
  refine ⟨?_, ?_, ?_⟩
  · intro s hs e
    cases hn : nodeFromQueryTypes qs with
    | error err => simp [hn, Except.map] at hs
    | ok n =>
      simp [hn, Except.map] at hs
      subst hs
      exact (nodeFromQueryTypes_spec hn).2 e
  · intro err hs
    cases hn : nodeFromQueryTypes qs with
    | error err' =>
      simp [hn, Except.map] at hs
      subst hs
      obtain ⟨h1, h2⟩ := nodeFromQueryTypes_error hn
      exact ⟨⟨_, h1⟩, h2⟩
    | ok n => simp [hn, Except.map] at hs
  · intro h
    obtain ⟨n, hn⟩ := nodeFromQueryTypes_ok h
    exact ⟨.py n, by simp [hn, Except.map]⟩

example : ∃ s, Sub.createPy [["a", "?"], ["a", "b", "*"], ["a", "b", "c"]] = .ok s ∧
    s.matches ["a", "b", "z", "z"] = true ∧ s.matches ["a"] = false :=
  ⟨_, rfl, by decide, by decide⟩
example : Sub.createPy [["*", "a"]] = .error (.valueError "invalid query event type") := rfl

/-! ## C03 -/

/-- C03: the C subscription does the same for query types without NUL
characters. -/
theorem C03_c_subscription (qs : List EventType) (hq : ∀ q ∈ qs, NulFree q) :
    (∀ s, Sub.createC qs = .ok s → ∀ e, s.matches e = true ↔ MatchesAny qs e) ∧
    (∀ err, Sub.createC qs = .error err →
      (∃ msg, err = .valueError msg) ∧ ∃ q ∈ qs, ¬ WellFormed q) ∧
    ((∀ q ∈ qs, WellFormed q) → ∃ s, Sub.createC qs = .ok s) := by
  have hp := plain_of_nulFree hq
  have hmap := Sub.map_norm hp
  unfold Sub.createC
  refine ⟨?_, ?_, ?_⟩
  · intro s hs e
    cases hn : cFromQueryTypes qs with
    | error err => simp [hn, Except.map] at hs
    | ok n =>
      simp [hn, Except.map] at hs
      subst hs
      have := (cFromQueryTypes_spec hn).2 e
      rwa [hmap] at this
  · intro err hs
    cases hn : cFromQueryTypes qs with
    | error err' =>
      simp [hn, Except.map] at hs
      subst hs
      obtain ⟨h1, q, hqm, h2⟩ := cFromQueryTypes_error hn
      rw [cNorm_map_of_fakeless (hp q hqm)] at h2
      exact ⟨⟨_, h1⟩, q, hqm, h2⟩
    | ok n => simp [hn, Except.map] at hs
  · intro h
    obtain ⟨n, hn⟩ := cFromQueryTypes_ok (qs := qs) (fun q hqm => by
      rw [cNorm_map_of_fakeless (hp q hqm)]; exact h q hqm)
    exact ⟨.c n, by simp [hn, Except.map]⟩

/-- C03, agreement with the Python implementation: same lists accepted, same
answers. -/
theorem C03_c_agrees_with_py (qs : List EventType) (hq : ∀ q ∈ qs, NulFree q) :
    ∀ s t, Sub.createPy qs = .ok s → Sub.createC qs = .ok t →
      ∀ e, s.matches e = t.matches e := by
  intro s t hs ht e
  rw [Bool.eq_iff_iff, (C02_py_subscription qs).1 s hs e, (C03_c_subscription qs hq).1 t ht e]

/-- C03, acceptance: the two implementations accept the same lists of query types. -/
theorem C03_same_acceptance (qs : List EventType) (hq : ∀ q ∈ qs, NulFree q) :
    (∃ s, Sub.createPy qs = .ok s) ↔ (∃ t, Sub.createC qs = .ok t) := by
  have h := sameAcceptance qs Node.empty CNode.empty
    (plain_of_nulFree hq) (Similar.empty)
  unfold Sub.createPy Sub.createC nodeFromQueryTypes cFromQueryTypes
  constructor
  · rintro ⟨s, hs⟩
    cases hn : qs.foldlM (fun node q => addQueryType q node) Node.empty with
    | error e => simp [hn, Except.map] at hs
    | ok n =>
      obtain ⟨m, hm, _⟩ := h.1 n hn
      exact ⟨.c m, by simp [hm, Except.map]⟩
  · rintro ⟨s, hs⟩
    cases hn : qs.foldlM (fun node q => cAddQueryType q node) CNode.empty with
    | error e => simp [hn, Except.map] at hs
    | ok n =>
      obtain ⟨m, hm, _⟩ := h.2 n hn
      exact ⟨.py m, by simp [hm, Except.map]⟩

/-- C03, with a NUL character the implementations differ: the C code reads the
segment `"*\0x"` as `"*"`. -/
theorem C03_nul_differs : ∃ (q e : EventType) (s t : Sub),
    Sub.createPy [q] = .ok s ∧ Sub.createC [q] = .ok t ∧
    s.matches e = false ∧ t.matches e = true :=
  ⟨[String.ofList ['*', Char.ofNat 0, 'x']], ["a"], _, _, rfl, rfl, by decide, by decide⟩

example : ∃ t, Sub.createC [["a", "?"], ["a", "b", "*"], ["a", "b", "c"]] = .ok t ∧
    t.matches ["a", "b", "z", "z"] = true ∧ t.matches ["a"] = false :=
  ⟨_, rfl, by decide, by decide⟩
example : ∀ q ∈ [["a", "?"], ["b", "*"]], NulFree q := by
  unfold NulFree; decide

/-! ## C04 -/

/-- C04: the listed query types are well formed and create (in either
implementation) a subscription with the same meaning. -/
theorem C04_listing_preserves_meaning {s : Sub} (h : Obtainable s) (i : Impl) :
    (∀ q ∈ s.getQueryTypes, WellFormed q) ∧
    ∃ t, i.create s.getQueryTypes = .ok t ∧ ∀ e, t.matches e = s.matches e := by
  have hv := h.valid
  have hw := Sub.queryTypes_wellFormed hv
  refine ⟨fun q hq => (hw q hq).1, ?_⟩
  cases i with
  | py =>
    obtain ⟨n, h1, _, _, h2⟩ := Sub.node_of_valid hv
    exact ⟨.py n, by simp [Impl.create, Sub.createPy, h1, Except.map],
      fun e => Bool.eq_iff_iff.2 (h2 e)⟩
  | c =>
    obtain ⟨n, h1, _, h2⟩ := Sub.c_of_list hw
    exact ⟨.c n, by simp [Impl.create, Sub.createC, h1, Except.map],
      fun e => Bool.eq_iff_iff.2 ((h2 e).trans (Sub.matches_iff_queryTypes hv e).symm)⟩

/-- C04, Python implementation, with no restriction on the characters of the
query types it was created from. -/
theorem C04_listing_py {qs : List EventType} {s : Sub} (h : Sub.createPy qs = .ok s) :
    ∃ t, Sub.createPy s.getQueryTypes = .ok t ∧ ∀ e, t.matches e = s.matches e := by
  unfold Sub.createPy at h ⊢
  cases hn : nodeFromQueryTypes qs with
  | error err => simp [hn, Except.map] at h
  | ok n =>
    simp [hn, Except.map] at h
    subst h
    obtain ⟨hw, _⟩ := nodeFromQueryTypes_spec hn
    obtain ⟨m, hm⟩ := nodeFromQueryTypes_ok (nodeToQueryTypes_wellFormed _ n le_rfl hw)
    have hm' : nodeFromQueryTypes (Sub.py n).getQueryTypes = .ok m := hm
    refine ⟨.py m, by simp [hm', Except.map], fun e => Bool.eq_iff_iff.2 ?_⟩
    exact ((nodeFromQueryTypes_spec hm).2 e).trans (nodeToQueryTypes_spec e n hw).symm

example : ∃ s, Obtainable s ∧
    s.getQueryTypes = [["a", "*"], ["b", "?"]] :=
  ⟨_, .create (i := .py) (qs := [["a", "b"], ["a", "*"], ["b", "?"]])
    (by unfold NulFree; decide) rfl, by decide⟩

/-! ## C05 -/

/-- C05: union succeeds and matches exactly what some operand matches. -/
theorem C05_union {self : Sub} {others : List Sub} (hs : Obtainable self)
    (ho : ∀ o ∈ others, Obtainable o) :
    ∃ r, self.union others = .ok r ∧
      ∀ e, r.matches e = true ↔
        (self.matches e = true ∨ ∃ o ∈ others, o.matches e = true) := by
  obtain ⟨r, h1, _, h2⟩ := Sub.union_spec hs.valid (fun o h => (ho o h).valid)
  exact ⟨r, h1, h2⟩

example : ∃ a b r, Sub.createPy [["a", "?"]] = .ok a ∧ Sub.createC [["a", "b", "*"]] = .ok b ∧
    a.union [b] = .ok r ∧ r.matches ["a", "b", "c"] = true ∧ r.matches ["a", "x"] = true ∧
    r.matches ["a"] = false :=
  ⟨_, _, _, rfl, rfl, rfl, by decide, by decide, by decide⟩

/-! ## C06 -/

/-- C06 is false: `("a",)` is matched by both operands and not by their
intersection. -/
theorem C06_intersection_refuted (i j : Impl) :
    ∃ a b r, i.create [["a", "*"]] = .ok a ∧ j.create [["a"]] = .ok b ∧
      a.intersection [b] = .ok r ∧
      a.matches ["a"] = true ∧ b.matches ["a"] = true ∧ r.matches ["a"] = false := by
  cases i <;> cases j <;>
    exact ⟨_, _, _, rfl, rfl, rfl, by decide, by decide, by decide⟩

/-- C06, one direction for all operands: whatever the intersection matches is
matched by every operand. -/
theorem C06_intersection_sound_partial {self : Sub} {others : List Sub} (hs : Obtainable self)
    (ho : ∀ o ∈ others, Obtainable o) :
    ∃ r, self.intersection others = .ok r ∧
      ∀ e, r.matches e = true →
        (self.matches e = true ∧ ∀ o ∈ others, o.matches e = true) := by
  obtain ⟨r, h1, _, h2⟩ := Sub.intersection_sound hs.valid (fun o h => (ho o h).valid)
  exact ⟨r, h1, h2⟩

/-- C06, both directions for every event type at which no `*` of the operands
stands for an empty tail (missing: the event types where one does, which are
lost if the other operand ends there, see `C06_intersection_refuted`). -/
theorem C06_intersection_partial (i j : Impl) {qa qb : List EventType} {a b : Sub}
    (hqa : ∀ q ∈ qa, NulFree q) (hqb : ∀ q ∈ qb, NulFree q)
    (ha : i.create qa = .ok a) (hb : j.create qb = .ok b) :
    ∃ r, a.intersection [b] = .ok r ∧
      ∀ e, (∀ q ∈ qa ++ qb, ¬ EmptyTail e q) →
        (r.matches e = true ↔ (a.matches e = true ∧ b.matches e = true)) := by
  obtain ⟨r, hr, h1, h2⟩ := Sub.intersection_complete
    (Sub.starFrom_of_create i hqa ha) (Sub.starFrom_of_create j hqb hb)
    (Obtainable.create hqa ha).valid (Obtainable.create hqb hb).valid
  refine ⟨r, hr, fun e he => ⟨h1 e, fun ⟨h3, h4⟩ => h2 e ?_ ?_ h3 h4⟩⟩
  · intro q hq; exact he q (by simp [hq])
  · intro q hq; exact he q (by simp [hq])

example : ∃ a b r, Sub.createPy [["a", "?", "*"], ["x"]] = .ok a ∧
    Sub.createC [["?", "b", "c"], ["x"]] = .ok b ∧
    a.intersection [b] = .ok r ∧ r.matches ["a", "b", "c"] = true ∧ r.matches ["x"] = true ∧
    (∀ q ∈ [["a", "?", "*"], ["x"], ["?", "b", "c"], ["x"]], ¬ EmptyTail ["a", "b", "c"] q) := by
  refine ⟨_, _, _, rfl, rfl, rfl, by decide, by decide, ?_⟩
  unfold EmptyTail
  simp

/-! ## C07 -/

/-- C07: the Python `isdisjoint` of subscriptions created from query types
(the other one in either implementation) is exact. -/
theorem C07_py_isdisjoint (j : Impl) {qa qb : List EventType} {a b : Sub}
    (hqb : ∀ q ∈ qb, NulFree q)
    (ha : Sub.createPy qa = .ok a) (hb : j.create qb = .ok b) :
    ∃ r, a.isdisjoint b = .ok r ∧
      (r = true ↔ ¬ ∃ e, a.matches e = true ∧ b.matches e = true) := by
  unfold Sub.createPy at ha
  cases hn : nodeFromQueryTypes qa with
  | error err => simp [hn, Except.map] at ha
  | ok n =>
    simp [hn, Except.map] at ha
    subst ha
    obtain ⟨hw, _⟩ := nodeFromQueryTypes_spec hn
    have hl := nodeFromQueryTypes_live hn
    have hbv : b.Valid := (Obtainable.create hqb hb).valid
    obtain ⟨m, hm, hwm, _, hlm⟩ := Sub.otherNode_of_valid hbv
    have hlive : Live m := by
      cases j with
      | py =>
        simp only [Impl.create, Sub.createPy] at hb
        cases hnb : nodeFromQueryTypes qb with
        | error err => simp [hnb, Except.map] at hb
        | ok k =>
          simp [hnb, Except.map] at hb
          subst hb
          simp [Sub.otherNode] at hm
          subst hm
          exact nodeFromQueryTypes_live hnb
      | c =>
        simp only [Impl.create, Sub.createC] at hb
        cases hnb : cFromQueryTypes qb with
        | error err => simp [hnb, Except.map] at hb
        | ok k =>
          simp [hnb, Except.map] at hb
          subst hb
          exact nodeFromQueryTypes_live hm
    refine ⟨nodeIsdisjoint n m, by simp [Sub.isdisjoint, hm, Except.map], ?_⟩
    constructor
    · rintro h ⟨e, h1, h2⟩
      exact nodeIsdisjointF_sound _ n m hw hwm (by omega) (by omega) h e h1 ((hlm e).2 h2)
    · intro h
      by_contra hc
      obtain ⟨e, h1, h2⟩ := nodeIsdisjointF_complete (n.depth + m.depth) n m hw hwm hl hlive
        (by omega) (by omega) (Bool.eq_false_iff.2 hc)
      exact h ⟨e, h1, (hlm e).1 h2⟩

/-- C07 for subscriptions produced by intersection, one direction: a positive
answer is right for all subscriptions. -/
theorem C07_py_isdisjoint_sound_partial {root : Node} {b : Sub}
    (ha : Obtainable (.py root)) (hb : Obtainable b) :
    ∃ r, (Sub.py root).isdisjoint b = .ok r ∧
      (r = true → ¬ ∃ e, (Sub.py root).matches e = true ∧ b.matches e = true) := by
  obtain ⟨m, hm, hwm, _, hlm⟩ := Sub.otherNode_of_valid hb.valid
  refine ⟨nodeIsdisjoint root m, by simp [Sub.isdisjoint, hm, Except.map], ?_⟩
  rintro h ⟨e, h1, h2⟩
  exact nodeIsdisjointF_sound _ root m ha.valid.1 hwm (by omega) (by omega) h e h1 ((hlm e).2 h2)

/-- C07 for subscriptions produced by intersection, the other direction is
false: an intersection that matches nothing is reported to overlap. -/
theorem C07_py_isdisjoint_intersection_refuted :
    ∃ a b r c, Sub.createPy [["a", "b"]] = .ok a ∧ Sub.createPy [["a", "c"]] = .ok b ∧
      a.intersection [b] = .ok r ∧ Sub.createPy [["*"]] = .ok c ∧
      (¬ ∃ e, r.matches e = true ∧ c.matches e = true) ∧ r.isdisjoint c = .ok false := by
  obtain ⟨r, hr, hs⟩ := C06_intersection_sound_partial
    (Obtainable.create (i := .py) (qs := [["a", "b"]]) (by unfold NulFree; decide) rfl)
    (others := [_]) (fun o ho => List.mem_singleton.1 ho ▸
      Obtainable.create (i := .py) (qs := [["a", "c"]]) (by unfold NulFree; decide) rfl)
  refine ⟨_, _, r, _, rfl, rfl, hr, rfl, ?_, ?_⟩
  · rintro ⟨e, he, _⟩
    obtain ⟨h1, h2⟩ := hs e he
    have h2 := h2 _ (List.mem_singleton.2 rfl)
    have h1 := ((C02_py_subscription [["a", "b"]]).1 _ rfl e).1 h1
    have h2 := ((C02_py_subscription [["a", "c"]]).1 _ rfl e).1 h2
    simp only [MatchesAny, List.mem_singleton, exists_eq_left, ← matchesQueryType_iff] at h1 h2
    match e, h1, h2 with
    | [], h1, _ => simp [matchesQueryType, matchesZip] at h1
    | [_], h1, _ => simp [matchesQueryType, matchesZip] at h1
    | [x, y], h1, h2 =>
      simp [matchesQueryType, matchesZip] at h1 h2
      rw [h1.2] at h2; simp at h2
    | _ :: _ :: _ :: _, h1, _ => simp [matchesQueryType, matchesZip] at h1
  · have : (Sub.intersection _ _) = _ := hr
    cases hr
    rfl

example : ∃ a b, Sub.createPy [["a", "?"]] = .ok a ∧ Sub.createC [["a", "b", "*"]] = .ok b ∧
    a.isdisjoint b = .ok false :=
  ⟨_, _, rfl, rfl, rfl⟩
example : ∃ a b, Sub.createPy [["a"]] = .ok a ∧ Sub.createC [["a", "b", "*"]] = .ok b ∧
    a.isdisjoint b = .ok true :=
  ⟨_, _, rfl, rfl, rfl⟩

/-! ## C08 -/

/-- C08 is false: the C `isdisjoint` says that `("a",)` and `("a", "b")`
overlap. -/
theorem C08_c_isdisjoint_refuted :
    ∃ a b, Sub.createC [["a"]] = .ok a ∧ Sub.createC [["a", "b"]] = .ok b ∧
      a.isdisjoint b = .ok false ∧ ¬ ∃ e, a.matches e = true ∧ b.matches e = true := by
  refine ⟨_, _, rfl, rfl, rfl, ?_⟩
  rintro ⟨e, h1, h2⟩
  have h1 := ((C03_c_subscription [["a"]] (by unfold NulFree; decide)).1 _ rfl e).1 h1
  have h2 := ((C03_c_subscription [["a", "b"]] (by unfold NulFree; decide)).1 _ rfl e).1 h2
  simp only [MatchesAny, List.mem_singleton, exists_eq_left, ← matchesQueryType_iff] at h1 h2
  match e, h1, h2 with
  | [], h1, _ => simp [matchesQueryType, matchesZip] at h1
  | [_], _, h2 => simp [matchesQueryType, matchesZip] at h2
  | _ :: _ :: _, h1, _ => simp [matchesQueryType, matchesZip] at h1

/-- C08, one direction for all subscriptions: a positive answer of the C
`isdisjoint` is right. -/
theorem C08_c_isdisjoint_sound_partial {root : CNode} {b : Sub}
    (ha : Obtainable (.c root)) (hb : Obtainable b) :
    ∃ r, (Sub.c root).isdisjoint b = .ok r ∧
      (r = true → ¬ ∃ e, (Sub.c root).matches e = true ∧ b.matches e = true) := by
  obtain ⟨m, hm, hwm, hlm, _⟩ := Sub.cOther_of_valid hb.valid
  refine ⟨cIsdisjoint root m, hm root, ?_⟩
  rintro h ⟨e, h1, h2⟩
  exact cIsdisjointF_sound _ root m ha.valid hwm (by omega) (by omega) h e h1 ((hlm e).2 h2)

/-- C08, both directions when no query type of one side ends where a query
type of the other side goes on (missing: the other pairs, for which a negative
answer can be wrong, see `C08_c_isdisjoint_refuted`). -/
theorem C08_c_isdisjoint_partial {qa qb : List EventType} {a b : Sub}
    (hqa : ∀ q ∈ qa, NulFree q) (hqb : ∀ q ∈ qb, NulFree q)
    (ha : Sub.createC qa = .ok a) (hb : Sub.createC qb = .ok b)
    (hp : ∀ q ∈ qa, ∀ r ∈ qb, ¬ ProperPrefix q r ∧ ¬ ProperPrefix r q) :
    ∃ r, a.isdisjoint b = .ok r ∧
      (r = true ↔ ¬ ∃ e, a.matches e = true ∧ b.matches e = true) := by
  unfold Sub.createC at ha hb
  cases hna : cFromQueryTypes qa with
  | error err => simp [hna, Except.map] at ha
  | ok n =>
    cases hnb : cFromQueryTypes qb with
    | error err => simp [hnb, Except.map] at hb
    | ok m =>
      simp [hna, Except.map] at ha
      simp [hnb, Except.map] at hb
      subst ha hb
      have hwn := (cFromQueryTypes_spec hna).1
      have hwm := (cFromQueryTypes_spec hnb).1
      refine ⟨cIsdisjoint n m, rfl, ?_⟩
      constructor
      · rintro h ⟨e, h1, h2⟩
        exact cIsdisjointF_sound _ n m hwn hwm (by omega) (by omega) h e h1 h2
      · intro h
        by_contra hc
        rcases cIsdisjointF_complete (n.depth + m.depth) n m hwn hwm (by omega) (by omega)
          (Bool.eq_false_iff.2 hc) with he | ⟨e, he⟩
        · exact h he
        · obtain ⟨q, hq, r, hr, hx⟩ := Sub.overlap_listed e n m hwn hwm he
          have hq' := Sub.cFromQueryTypes_listed hna q hq
          have hr' := Sub.cFromQueryTypes_listed hnb r hr
          rw [Sub.map_norm (plain_of_nulFree hqa)] at hq'
          rw [Sub.map_norm (plain_of_nulFree hqb)] at hr'
          rcases hx with hx | hx
          · exact (hp q hq' r hr').1 ⟨e, hx⟩
          · exact (hp q hq' r hr').2 ⟨e, hx⟩

example : ∃ a b, Sub.createC [["a", "b", "?"]] = .ok a ∧ Sub.createC [["a", "c", "x"]] = .ok b ∧
    a.isdisjoint b = .ok true :=
  ⟨_, _, rfl, rfl, rfl⟩
example : ∀ q ∈ [["a", "b", "?"]], ∀ r ∈ [["a", "c", "x"]],
    ¬ ProperPrefix q r ∧ ¬ ProperPrefix r q := by
  simp only [List.mem_singleton, forall_eq]
  constructor
  · rintro ⟨e, h1, h2, _⟩
    match e, h1, h2 with
    | [], h1, _ => simp [← matchesQueryType_iff, matchesQueryType, matchesZip] at h1
    | [_], h1, _ => simp [← matchesQueryType_iff, matchesQueryType, matchesZip] at h1
    | [_, _], h1, _ => simp [← matchesQueryType_iff, matchesQueryType, matchesZip] at h1
  · rintro ⟨e, h1, h2, _⟩
    match e, h1, h2 with
    | [], h1, _ => simp [← matchesQueryType_iff, matchesQueryType, matchesZip] at h1
    | [_], h1, _ => simp [← matchesQueryType_iff, matchesQueryType, matchesZip] at h1
    | [_, _], h1, _ => simp [← matchesQueryType_iff, matchesQueryType, matchesZip] at h1

end HatEvent
