import Verif.Model.Subscription
import Verif.Spec.Matches
import Verif.Proof.Dict

/-! Lemmas about subscription trees. -/

namespace HatEvent
open Spec

@[simp] theorem children_mk (l : Bool) (ch : List (Segment × Node)) :
    (Node.mk l ch).children = ch := rfl
@[simp] theorem isLeaf_mk (l : Bool) (ch : List (Segment × Node)) :
    (Node.mk l ch).isLeaf = l := rfl

/-! ## The matcher -/

theorem Matches.nil_right {e : EventType} : Matches e [] ↔ e = [] := by
  constructor
  · intro h; cases h; rfl
  · rintro rfl; exact .nil

theorem Matches.nil_left {q : EventType} : Matches [] q ↔ q = [] ∨ q = ["*"] := by
  constructor
  · intro h; cases h <;> simp
  · rintro (rfl | rfl)
    · exact .nil
    · exact .star _

theorem Matches.cons_cons {s j : Segment} {e q : EventType} :
    Matches (s :: e) (j :: q) ↔
      (j = "*" ∧ q = []) ∨ ((j = "?" ∨ j = s) ∧ Matches e q) := by
  constructor
  · intro h
    cases h with
    | star => simp
    | any _ h => exact .inr ⟨.inl rfl, h⟩
    | same _ h => exact .inr ⟨.inr rfl, h⟩
  · rintro (⟨rfl, rfl⟩ | ⟨rfl | rfl, h⟩)
    · exact .star _
    · exact .any _ h
    · exact .same _ h

theorem matchesQueryType_cons_cons {i j : Segment} {e q : EventType}
    (hq : q ≠ [] ∨ j ≠ "*") :
    matchesQueryType (i :: e) (j :: q) =
      (if j ≠ "?" ∧ i ≠ j then false else matchesQueryType e q) := by
  have hl : (j :: q).getLast? = some "*" ↔ q.getLast? = some "*" := by
    cases q with
    | nil => simpa using hq
    | cons a q => simp [List.getLast?_cons]
  by_cases hv : q.getLast? = some "*"
  · have hq0 : q ≠ [] := by rintro rfl; simp at hv
    have hv' := hl.2 hv
    unfold matchesQueryType
    simp only [hv, hv']
    rw [List.dropLast_cons_of_ne_nil hq0]
    by_cases h : e.length < q.dropLast.length
    · simp only [List.length_dropLast] at h
      simp [h]
    · simp only [List.length_dropLast] at h
      simp [h, matchesZip]
  · have hv' : ¬ (j :: q).getLast? = some "*" := fun h => hv (hl.1 h)
    unfold matchesQueryType
    have b1 : ((j :: q).getLast? == some "*") = false := by simpa using hv'
    have b2 : (q.getLast? == some "*") = false := by simpa using hv
    simp only [b1, b2]
    by_cases h : e.length < q.length
    · simp [h]
    · by_cases h' : q.length < e.length
      · simp [h, h']
      · simp [h, h', matchesZip]

theorem matchesQueryType_iff (e q : EventType) :
    matchesQueryType e q = true ↔ Matches e q := by
  induction q generalizing e with
  | nil =>
    rw [Matches.nil_right]
    cases e with
    | nil => simp [matchesQueryType, matchesZip]
    | cons s e => simp [matchesQueryType]
  | cons j q ih =>
    cases e with
    | nil =>
      rw [Matches.nil_left]
      by_cases hs : q = [] ∧ j = "*"
      · obtain ⟨rfl, rfl⟩ := hs
        simp [matchesQueryType, matchesZip]
      · have : ¬ (j :: q = [] ∨ j :: q = ["*"]) := by
          simp only [List.cons.injEq, reduceCtorEq, false_or]
          tauto
        simp only [this, iff_false]
        unfold matchesQueryType
        by_cases hl : (j :: q).getLast? = some "*"
        · simp only [hl]
          have hq0 : q ≠ [] := by
            rintro rfl
            simp at hl
            exact hs ⟨rfl, hl⟩
          simp [List.dropLast_cons_of_ne_nil hq0]
        · have b1 : ((j :: q).getLast? == some "*") = false := by simpa using hl
          simp [b1]
    | cons i e =>
      rw [Matches.cons_cons]
      by_cases hs : j = "*" ∧ q = []
      · obtain ⟨rfl, rfl⟩ := hs
        simp [matchesQueryType, matchesZip]
      · rw [matchesQueryType_cons_cons (by tauto)]
        simp only [hs, false_or, ← ih]
        by_cases h1 : j = "?"
        · simp [h1]
        · by_cases h2 : i = j
          · simp [h2]
          · have h2' : ¬ j = i := fun h => h2 h.symm
            simp [h1, h2, h2']

/-! ## Well formed trees -/

/-- Invariant of all trees built by the code: child names are unique and a
`*` child is alone. -/
inductive WF : Node → Prop
  | mk {l : Bool} {ch : List (Segment × Node)} :
    (Dict.keys ch).Nodup →
    ("*" ∈ Dict.keys ch → ch = [("*", .mk true [])]) →
    (∀ p ∈ ch, WF p.2) → WF (.mk l ch)

theorem WF.nodup {n : Node} (h : WF n) : (Dict.keys n.children).Nodup := by
  cases h; assumption

theorem WF.star {n : Node} (h : WF n) (hs : "*" ∈ Dict.keys n.children) :
    n.children = [("*", .mk true [])] := by
  cases h with | mk _ h _ => exact h hs

theorem WF.child {n : Node} (h : WF n) {p : Segment × Node} (hp : p ∈ n.children) :
    WF p.2 := by
  cases h with | mk _ _ h => exact h p hp

theorem WF.get {n : Node} (h : WF n) {k : Segment} {c : Node}
    (hg : Dict.get n.children k = some c) : WF c :=
  h.child (Dict.mem_of_get hg)

theorem WF.empty : WF Node.empty := .mk (by simp) (by simp) (by simp)

theorem WF.leaf {l : Bool} : WF (.mk l []) := .mk (by simp) (by simp) (by simp)

theorem WF.starNode {l : Bool} : WF (.mk l [("*", .mk true [])]) :=
  .mk (by simp) (by simp) (by simpa using WF.leaf)

/-- Setting a child keeps the invariant. -/
theorem WF.set {l l' : Bool} {ch : List (Segment × Node)} (h : WF (.mk l ch))
    (hs : "*" ∉ Dict.keys ch) {k : Segment} (hk : k ≠ "*") {c : Node} (hc : WF c) :
    WF (.mk l' (Dict.set ch k c)) := by
  refine .mk (Dict.nodup_keys_set h.nodup) ?_ ?_
  · intro hm
    rcases Dict.mem_keys_set.1 hm with hm | hm
    · exact absurd hm.symm hk
    · exact absurd hm hs
  · intro p hp
    rcases Dict.mem_set hp with rfl | hp
    · exact hc
    · exact h.child hp

/-! ## Language of a tree -/

theorem nodeMatches_nil (n : Node) :
    nodeMatches [] n = true ↔ "*" ∈ Dict.keys n.children ∨ n.isLeaf = true := by
  cases n with | mk l ch =>
  unfold nodeMatches
  by_cases h : "*" ∈ Dict.keys ch
  · simp [Dict.has_iff.2 h, children_mk, h]
  · simp [Dict.has_eq_false_iff.2 h, children_mk, h, isLeaf_mk]

theorem nodeMatches_cons (s : Segment) (e : EventType) (n : Node) :
    nodeMatches (s :: e) n = true ↔
      "*" ∈ Dict.keys n.children ∨
      ∃ k c, (k = s ∨ k = "?") ∧ Dict.get n.children k = some c ∧
        nodeMatches e c = true := by
  cases n with | mk l ch =>
  rw [nodeMatches]
  simp only [children_mk]
  by_cases h : "*" ∈ Dict.keys ch
  · simp [Dict.has_iff.2 h, h]
  · simp only [Dict.has_eq_false_iff.2 h, h, false_or]
    constructor
    · intro hm
      cases h1 : Dict.get ch s with
      | some c =>
        by_cases hc : nodeMatches e c = true
        · exact ⟨s, c, .inl rfl, h1, hc⟩
        · cases h2 : Dict.get ch "?" with
          | some c' =>
            simp [h1, h2, hc] at hm
            exact ⟨"?", c', .inr rfl, h2, hm⟩
          | none => simp [h1, h2, hc] at hm
      | none =>
        cases h2 : Dict.get ch "?" with
        | some c' =>
          simp [h1, h2] at hm
          exact ⟨"?", c', .inr rfl, h2, hm⟩
        | none => simp [h1, h2] at hm
    · rintro ⟨k, c, rfl | rfl, hg, hm⟩
      · simp [hg, hm]
      · simp [hg, hm]

theorem nodeMatches_star {n : Node} (h : "*" ∈ Dict.keys n.children) (e : EventType) :
    nodeMatches e n = true := by
  cases e with
  | nil => exact (nodeMatches_nil n).2 (.inl h)
  | cons s e => exact (nodeMatches_cons s e n).2 (.inl h)

theorem nodeMatches_empty (e : EventType) : nodeMatches e Node.empty = false := by
  rw [Bool.eq_false_iff]
  cases e with
  | nil => rw [ne_eq, nodeMatches_nil]; simp [Node.empty, children_mk, isLeaf_mk]
  | cons s e => rw [ne_eq, nodeMatches_cons]; simp [Node.empty, children_mk]

/-! ## Adding a query type -/

theorem addQueryType_spec (q : EventType) :
    ∀ (n : Node), WF n → ∀ m, addQueryType q n = .ok m →
      WF m ∧ ∀ e, nodeMatches e m = true ↔ (nodeMatches e n = true ∨ Matches e q) := by
  induction q with
  | nil =>
    rintro ⟨l, ch⟩ hw m hm
    unfold addQueryType at hm
    by_cases hs : "*" ∈ Dict.keys ch
    · simp only [Dict.has_iff.2 hs, if_true, Except.ok.injEq] at hm
      subst hm
      refine ⟨hw, fun e => ?_⟩
      simp [nodeMatches_star (n := .mk l ch) hs]
    · simp [Dict.has_eq_false_iff.2 hs] at hm
      subst hm
      refine ⟨?_, fun e => ?_⟩
      · cases hw with | mk h1 h2 h3 => exact .mk h1 h2 h3
      · rw [Matches.nil_right]
        cases e with
        | nil => simp [nodeMatches_nil, isLeaf_mk]
        | cons s e => simp [nodeMatches_cons, children_mk]
  | cons head rest ih =>
    rintro ⟨l, ch⟩ hw m hm
    unfold addQueryType at hm
    by_cases hs : "*" ∈ Dict.keys ch
    · simp only [Dict.has_iff.2 hs, if_true, Except.ok.injEq] at hm
      subst hm
      refine ⟨hw, fun e => ?_⟩
      simp [nodeMatches_star (n := .mk l ch) hs]
    · simp only [Dict.has_eq_false_iff.2 hs, Bool.false_eq_true, if_false] at hm
      by_cases hh : head = "*"
      · subst hh
        by_cases hr : rest = []
        · subst hr
          simp at hm
          subst hm
          refine ⟨WF.starNode, fun e => ?_⟩
          have h1 := nodeMatches_star (n := .mk l [("*", .mk true [])])
            (by simp [children_mk]) e
          simp [h1, Matches.star e]
        · simp [hr] at hm
      · simp only [hh, if_false] at hm
        set child := (Dict.get ch head).getD Node.empty with hchild
        have hwc : WF child := by
          rw [hchild]
          cases hg : Dict.get ch head with
          | none => exact WF.empty
          | some c => exact hw.get hg
        cases ha : addQueryType rest child with
        | error err => simp [ha] at hm
        | ok c' =>
          simp [ha] at hm
          subst hm
          obtain ⟨hwc', hlang⟩ := ih child hwc c' ha
          refine ⟨hw.set hs hh hwc', fun e => ?_⟩
          have hs' : "*" ∉ Dict.keys (Dict.set ch head c') := by
            intro hc
            rcases Dict.mem_keys_set.1 hc with hc | hc
            · exact hh hc.symm
            · exact hs hc
          cases e with
          | nil =>
            rw [nodeMatches_nil, nodeMatches_nil, Matches.nil_left]
            simp [children_mk, isLeaf_mk, hs, hs', hh]
          | cons s e =>
            rw [nodeMatches_cons, nodeMatches_cons, Matches.cons_cons]
            simp only [children_mk, hs, hs', false_or, hh, false_and]
            have hchildm : ∀ c, Dict.get ch head = some c → child = c := by
              intro c hc; rw [hchild, hc]; rfl
            have hchildn : Dict.get ch head = none → child = Node.empty := by
              intro hc; rw [hchild, hc]; rfl
            constructor
            · rintro ⟨k, c, hk, hg, hm⟩
              rw [Dict.get_set] at hg
              by_cases hkk : head = k
              · subst hkk
                simp at hg
                subst hg
                rcases (hlang e).1 hm with h | h
                · left
                  cases hgc : Dict.get ch head with
                  | none => rw [hchildn hgc, nodeMatches_empty] at h; simp at h
                  | some c0 =>
                    rw [hchildm _ hgc] at h
                    exact ⟨head, c0, hk, hgc, h⟩
                · right; exact ⟨by tauto, h⟩
              · simp [hkk] at hg
                exact .inl ⟨k, c, hk, hg, hm⟩
            · rintro (⟨k, c, hk, hg, hm⟩ | ⟨hk, hm⟩)
              · by_cases hkk : head = k
                · subst hkk
                  refine ⟨head, c', hk, by simp, (hlang e).2 (.inl ?_)⟩
                  rw [hchildm _ hg]; exact hm
                · exact ⟨k, c, hk, by simp [Dict.get_set, hkk, hg], hm⟩
              · exact ⟨head, c', by tauto, by simp, (hlang e).2 (.inr hm)⟩

theorem nodeFromQueryTypes_aux (qs : List EventType) :
    ∀ (n : Node), WF n → ∀ m,
      qs.foldlM (fun node q => addQueryType q node) n = .ok m →
      WF m ∧ ∀ e, nodeMatches e m = true ↔ (nodeMatches e n = true ∨ MatchesAny qs e) := by
  induction qs with
  | nil =>
    intro n hw m hm
    simp [pure, Except.pure] at hm
    subst hm
    exact ⟨hw, fun e => by simp [MatchesAny]⟩
  | cons q qs ih =>
    intro n hw m hm
    rw [List.foldlM_cons] at hm
    cases ha : addQueryType q n with
    | error err => simp [ha, bind, Except.bind] at hm
    | ok n' =>
      simp only [ha, bind, Except.bind] at hm
      obtain ⟨hw', h1⟩ := addQueryType_spec q n hw n' ha
      obtain ⟨hw'', h2⟩ := ih n' hw' m hm
      refine ⟨hw'', fun e => ?_⟩
      rw [h2, h1]
      simp only [MatchesAny, List.mem_cons, exists_eq_or_imp]
      tauto

theorem nodeFromQueryTypes_spec {qs : List EventType} {m : Node}
    (h : nodeFromQueryTypes qs = .ok m) :
    WF m ∧ ∀ e, nodeMatches e m = true ↔ MatchesAny qs e := by
  obtain ⟨h1, h2⟩ := nodeFromQueryTypes_aux qs Node.empty WF.empty m h
  exact ⟨h1, fun e => by rw [h2]; simp [nodeMatches_empty]⟩

/-- Adding a well formed query type never fails. -/
theorem addQueryType_ok (q : EventType) (hq : WellFormed q) :
    ∀ n, ∃ m, addQueryType q n = .ok m := by
  induction q with
  | nil =>
    rintro ⟨l, ch⟩
    unfold addQueryType
    by_cases hs : Dict.has ch "*" = true
    · exact ⟨_, by simp only [hs, if_true]; rfl⟩
    · exact ⟨_, by simp only [hs]; rfl⟩
  | cons head rest ih =>
    rintro ⟨l, ch⟩
    unfold addQueryType
    by_cases hs : Dict.has ch "*" = true
    · exact ⟨_, by simp only [hs, if_true]; rfl⟩
    · simp only [hs, Bool.false_eq_true, if_false]
      by_cases hh : head = "*"
      · have hr : rest = [] := by
          by_contra hr
          apply hq
          rw [List.dropLast_cons_of_ne_nil hr, hh]
          simp
        simp [hh, hr]
      · have hq' : WellFormed rest := by
          by_cases hr : rest = []
          · simp [hr, WellFormed]
          · intro hm
            apply hq
            rw [List.dropLast_cons_of_ne_nil hr]
            exact List.mem_cons_of_mem _ hm
        obtain ⟨m, hm⟩ := ih hq' ((Dict.get ch head).getD Node.empty)
        simp [hh, hm]

theorem addQueryType_error (q : EventType) :
    ∀ n err, addQueryType q n = .error err →
      err = .valueError "invalid query event type" ∧ ¬ WellFormed q := by
  intro n err h
  refine ⟨?_, fun hw => ?_⟩
  · induction q generalizing n with
    | nil =>
      obtain ⟨l, ch⟩ := n
      unfold addQueryType at h
      by_cases hs : Dict.has ch "*" = true <;> simp [hs] at h
    | cons head rest ih =>
      obtain ⟨l, ch⟩ := n
      unfold addQueryType at h
      by_cases hs : Dict.has ch "*" = true
      · simp [hs] at h
      · simp only [hs, Bool.false_eq_true, if_false] at h
        by_cases hh : head = "*"
        · by_cases hr : rest = []
          · simp [hh, hr] at h
          · simp [hh, hr] at h; exact h.symm
        · simp only [hh, if_false] at h
          cases ha : addQueryType rest ((Dict.get ch head).getD Node.empty) with
          | ok c => simp [ha] at h
          | error e' =>
            simp [ha] at h
            subst h
            exact ih _ ha
  · obtain ⟨m, hm⟩ := addQueryType_ok q hw n
    rw [hm] at h; cases h

theorem nodeFromQueryTypes_ok {qs : List EventType} (h : ∀ q ∈ qs, WellFormed q) :
    ∃ m, nodeFromQueryTypes qs = .ok m := by
  unfold nodeFromQueryTypes
  generalize Node.empty = n
  induction qs generalizing n with
  | nil => exact ⟨n, rfl⟩
  | cons q qs ih =>
    obtain ⟨m, hm⟩ := addQueryType_ok q (h q (by simp)) n
    rw [List.foldlM_cons, hm]
    exact ih (fun q hq => h q (by simp [hq])) m

theorem nodeFromQueryTypes_error {qs : List EventType} {err : PyErr}
    (h : nodeFromQueryTypes qs = .error err) :
    err = .valueError "invalid query event type" ∧ ∃ q ∈ qs, ¬ WellFormed q := by
  constructor
  · unfold nodeFromQueryTypes at h
    generalize Node.empty = n at h
    induction qs generalizing n with
    | nil => simp [pure, Except.pure] at h
    | cons q qs ih =>
      rw [List.foldlM_cons] at h
      cases ha : addQueryType q n with
      | error e' =>
        simp [ha, bind, Except.bind] at h
        subst h
        exact (addQueryType_error q n e' ha).1
      | ok n' =>
        simp only [ha, bind, Except.bind] at h
        exact ih n' h
  · by_contra hc
    push Not at hc
    obtain ⟨m, hm⟩ := nodeFromQueryTypes_ok hc
    rw [hm] at h; cases h

end HatEvent
