import Verif.Model.CSubscription
import Verif.Proof.SubscriptionDisjoint

/-! Lemmas about the C implementation of subscriptions. -/

namespace HatEvent
open Spec

@[simp] theorem cchildren_mk (l s : Bool) (ch : List (Segment × CNode)) :
    (CNode.mk l s ch).children = ch := rfl
@[simp] theorem cisLeaf_mk (l s : Bool) (ch : List (Segment × CNode)) :
    (CNode.mk l s ch).isLeaf = l := rfl
@[simp] theorem chasStar_mk (l s : Bool) (ch : List (Segment × CNode)) :
    (CNode.mk l s ch).hasStar = s := rfl

/-! ## Segments as the C code sees them -/

/-- The segment as the C code treats it in query types. -/
def cNorm (s : Segment) : Segment := if cIsStar s then "*" else s

theorem cIsStar_star : cIsStar "*" = true := by decide
theorem cIsStar_question : cIsStar "?" = false := by decide

theorem cIsStar_iff_of_noNul {s : Segment} (h : ∀ c ∈ s.toList, c.toNat ≠ 0) :
    cIsStar s = true ↔ s = "*" := by
  unfold cIsStar
  have : s.toList.takeWhile (fun c => c.toNat != 0) = s.toList := by
    generalize s.toList = l at h
    induction l with
    | nil => rfl
    | cons c l ih =>
      rw [List.takeWhile_cons_of_pos (by simpa using h c (by simp)),
        ih fun c hc => h c (by simp [hc])]
  rw [this, beq_iff_eq]
  constructor
  · intro h
    have := congrArg String.ofList h
    simpa using this
  · rintro rfl; rfl

theorem cNorm_of_noNul {s : Segment} (h : ∀ c ∈ s.toList, c.toNat ≠ 0) : cNorm s = s := by
  unfold cNorm
  split_ifs with hs
  · exact ((cIsStar_iff_of_noNul h).1 hs).symm
  · rfl

theorem cNorm_map_of_noNul {q : EventType} (h : ∀ s ∈ q, ∀ c ∈ s.toList, c.toNat ≠ 0) :
    q.map cNorm = q := by
  rw [← List.map_id q, List.map_map]
  apply List.map_congr_left
  intro s hs
  show cNorm s = s
  exact cNorm_of_noNul (h s hs)

theorem cNorm_map_of_fakeless {q : EventType} (h : ∀ s ∈ q, cIsStar s = true → s = "*") :
    q.map cNorm = q := by
  rw [← List.map_id q, List.map_map]
  apply List.map_congr_left
  intro s hs
  show cNorm s = s
  unfold cNorm
  split_ifs with hc
  · exact (h s hs hc).symm
  · rfl

/-! ## Invariant -/

/-- Invariant of the trees built by the C code. -/
inductive CWF : CNode → Prop
  | mk {l s : Bool} {ch : List (Segment × CNode)} :
    (Dict.keys ch).Nodup →
    (∀ k ∈ Dict.keys ch, cIsStar k = false) →
    (s = true → l = true ∧ ch = []) →
    (∀ p ∈ ch, CWF p.2) →
    (∀ p ∈ ch, p.2.isLeaf = true ∨ p.2.children ≠ []) → CWF (.mk l s ch)

namespace CWF

theorem nodup {n : CNode} (h : CWF n) : (Dict.keys n.children).Nodup := by
  cases h; assumption

theorem names {n : CNode} (h : CWF n) : ∀ k ∈ Dict.keys n.children, cIsStar k = false := by
  cases h; assumption

theorem star {n : CNode} (h : CWF n) (hs : n.hasStar = true) :
    n.isLeaf = true ∧ n.children = [] := by
  cases h with | mk _ _ h _ _ => exact h hs

theorem child {n : CNode} (h : CWF n) {p : Segment × CNode} (hp : p ∈ n.children) :
    CWF p.2 := by
  cases h with | mk _ _ _ h _ => exact h p hp

theorem live {n : CNode} (h : CWF n) {p : Segment × CNode} (hp : p ∈ n.children) :
    p.2.isLeaf = true ∨ p.2.children ≠ [] := by
  cases h with | mk _ _ _ _ h => exact h p hp

theorem get {n : CNode} (h : CWF n) {k : Segment} {c : CNode}
    (hg : Dict.get n.children k = some c) : CWF c :=
  h.child (Dict.mem_of_get hg)

theorem empty : CWF CNode.empty :=
  .mk (by simp) (by simp) (by simp) (by simp) (by simp)

end CWF

/-! ## Language -/

theorem cMatches_nil (n : CNode) :
    cMatches [] n = true ↔ n.hasStar = true ∨ n.isLeaf = true := by
  cases n with | mk l s ch =>
  unfold cMatches
  cases s <;> simp

theorem cMatches_cons (s : Segment) (e : EventType) (n : CNode) :
    cMatches (s :: e) n = true ↔
      n.hasStar = true ∨
      ∃ k c, (k = s ∨ k = "?") ∧ Dict.get n.children k = some c ∧
        cMatches e c = true := by
  cases n with | mk l st ch =>
  rw [cMatches]
  simp only [cchildren_mk, chasStar_mk]
  cases st with
  | true => simp
  | false =>
    simp only [Bool.false_eq_true, if_false, false_or]
    by_cases h0 : ch = []
    · simp [h0]
    · have h0' : ch.isEmpty = false := by simpa using h0
      simp only [h0', Bool.false_eq_true, if_false]
      constructor
      · intro hm
        cases h1 : Dict.get ch s with
        | some c =>
          by_cases hc : cMatches e c = true
          · exact ⟨s, c, .inl rfl, h1, hc⟩
          · cases h2 : Dict.get ch "?" with
            | some c' =>
              simp [h1, h2, hc] at hm
              exact ⟨"?", c', .inr rfl, h2, hm⟩
            | none => simp [h1, h2, hc] at hm
        | none =>
          cases h2 : Dict.get ch "?" with
          | some c' =>
            simp [h1, h2] at hm
            exact ⟨"?", c', .inr rfl, h2, hm⟩
          | none => simp [h1, h2] at hm
      · rintro ⟨k, c, rfl | rfl, hg, hm⟩
        · simp [hg, hm]
        · simp [hg, hm]

theorem cMatches_star {n : CNode} (h : n.hasStar = true) (e : EventType) :
    cMatches e n = true := by
  cases e with
  | nil => exact (cMatches_nil n).2 (.inl h)
  | cons s e => exact (cMatches_cons s e n).2 (.inl h)

theorem cMatches_empty (e : EventType) : cMatches e CNode.empty = false := by
  rw [Bool.eq_false_iff]
  cases e with
  | nil => rw [ne_eq, cMatches_nil]; simp [CNode.empty]
  | cons s e => rw [ne_eq, cMatches_cons]; simp [CNode.empty]

/-! ## Adding -/

theorem cAddQueryType_spec (q : EventType) :
    ∀ (n : CNode), CWF n → ∀ m, cAddQueryType q n = .ok m →
      CWF m ∧ (m.isLeaf = true ∨ m.children ≠ []) ∧
      ∀ e, cMatches e m = true ↔ (cMatches e n = true ∨ Matches e (q.map cNorm)) := by
  induction q with
  | nil =>
    rintro ⟨l, st, ch⟩ hw m hm
    unfold cAddQueryType at hm
    cases st with
    | true =>
      simp only [if_true, Except.ok.injEq] at hm
      subst hm
      refine ⟨hw, .inl (hw.star rfl).1, fun e => ?_⟩
      simp [cMatches_star (n := .mk l true ch) rfl]
    | false =>
      simp at hm
      subst hm
      refine ⟨?_, .inl rfl, fun e => ?_⟩
      · cases hw with | mk h1 h2 h3 h4 h5 => exact .mk h1 h2 (by simp) h4 h5
      · rw [List.map_nil, Matches.nil_right]
        cases e with
        | nil => simp [cMatches_nil]
        | cons s e => simp [cMatches_cons]
  | cons head rest ih =>
    rintro ⟨l, st, ch⟩ hw m hm
    unfold cAddQueryType at hm
    cases st with
    | true =>
      simp only [if_true, Except.ok.injEq] at hm
      subst hm
      refine ⟨hw, .inl (hw.star rfl).1, fun e => ?_⟩
      simp [cMatches_star (n := .mk l true ch) rfl]
    | false =>
      simp only [Bool.false_eq_true, if_false] at hm
      by_cases hh : cIsStar head = true
      · simp only [hh, if_true] at hm
        by_cases hr : rest = []
        · subst hr
          simp at hm
          subst hm
          refine ⟨.mk (by simp) (by simp) (by simp) (by simp) (by simp), .inl rfl, fun e => ?_⟩
          have h1 := cMatches_star (n := .mk true true []) rfl e
          simp [h1, cNorm, hh, Matches.star e]
        · simp [hr] at hm
      · have hh' : cIsStar head = false := by simpa using hh
        simp only [hh', Bool.false_eq_true, if_false] at hm
        set child := (Dict.get ch head).getD CNode.empty with hchild
        have hwc : CWF child := by
          rw [hchild]
          cases hg : Dict.get ch head with
          | none => exact CWF.empty
          | some c => exact hw.get hg
        cases ha : cAddQueryType rest child with
        | error err => simp [ha] at hm
        | ok c' =>
          simp [ha] at hm
          subst hm
          obtain ⟨hwc', hlive, hlang⟩ := ih child hwc c' ha
          refine ⟨?_, .inr Dict.set_ne_nil, fun e => ?_⟩
          · refine .mk (Dict.nodup_keys_set hw.nodup) ?_ (by simp) ?_ ?_
            · intro k hk
              rcases Dict.mem_keys_set.1 hk with rfl | hk
              · exact hh'
              · exact hw.names k hk
            · intro p hp
              rcases Dict.mem_set hp with rfl | hp
              · exact hwc'
              · exact hw.child hp
            · intro p hp
              rcases Dict.mem_set hp with rfl | hp
              · exact hlive
              · exact hw.live hp
          · have hnorm : cNorm head = head := by simp [cNorm, hh']
            have hne : head ≠ "*" := by rintro rfl; simp [cIsStar_star] at hh'
            rw [List.map_cons, hnorm]
            cases e with
            | nil =>
              rw [cMatches_nil, cMatches_nil, Matches.nil_left]
              simp [hne]
            | cons s e =>
              rw [cMatches_cons, cMatches_cons, Matches.cons_cons]
              simp only [cchildren_mk, chasStar_mk, Bool.false_eq_true, false_or, hne, false_and]
              have hchildm : ∀ c, Dict.get ch head = some c → child = c := by
                intro c hc; rw [hchild, hc]; rfl
              have hchildn : Dict.get ch head = none → child = CNode.empty := by
                intro hc; rw [hchild, hc]; rfl
              constructor
              · rintro ⟨k, c, hk, hg, hm⟩
                rw [Dict.get_set] at hg
                by_cases hkk : head = k
                · subst hkk
                  simp at hg
                  subst hg
                  rcases (hlang e).1 hm with h | h
                  · left
                    cases hgc : Dict.get ch head with
                    | none => rw [hchildn hgc, cMatches_empty] at h; simp at h
                    | some c0 =>
                      rw [hchildm _ hgc] at h
                      exact ⟨head, c0, hk, hgc, h⟩
                  · right; exact ⟨by tauto, h⟩
                · simp [hkk] at hg
                  exact .inl ⟨k, c, hk, hg, hm⟩
              · rintro (⟨k, c, hk, hg, hm⟩ | ⟨hk, hm⟩)
                · by_cases hkk : head = k
                  · subst hkk
                    refine ⟨head, c', hk, by simp, (hlang e).2 (.inl ?_)⟩
                    rw [hchildm _ hg]; exact hm
                  · exact ⟨k, c, hk, by simp [Dict.get_set, hkk, hg], hm⟩
                · exact ⟨head, c', by tauto, by simp, (hlang e).2 (.inr hm)⟩

theorem cFromQueryTypes_spec {qs : List EventType} {m : CNode}
    (h : cFromQueryTypes qs = .ok m) :
    CWF m ∧ ∀ e, cMatches e m = true ↔ MatchesAny (qs.map (List.map cNorm)) e := by
  have aux : ∀ (qs : List EventType) (n : CNode), CWF n → ∀ m,
      qs.foldlM (fun node q => cAddQueryType q node) n = .ok m →
      CWF m ∧ ∀ e, cMatches e m = true ↔
        (cMatches e n = true ∨ MatchesAny (qs.map (List.map cNorm)) e) := by
    intro qs
    induction qs with
    | nil =>
      intro n hw m hm
      simp [pure, Except.pure] at hm
      subst hm
      exact ⟨hw, fun e => by simp [MatchesAny]⟩
    | cons q qs ih =>
      intro n hw m hm
      rw [List.foldlM_cons] at hm
      cases ha : cAddQueryType q n with
      | error err => simp [ha, bind, Except.bind] at hm
      | ok n' =>
        simp only [ha, bind, Except.bind] at hm
        obtain ⟨hw', _, h1⟩ := cAddQueryType_spec q n hw n' ha
        obtain ⟨hw'', h2⟩ := ih n' hw' m hm
        refine ⟨hw'', fun e => ?_⟩
        rw [h2, h1]
        simp only [MatchesAny, List.map_cons, List.mem_cons, exists_eq_or_imp]
        tauto
  obtain ⟨h1, h2⟩ := aux qs CNode.empty CWF.empty m h
  exact ⟨h1, fun e => by rw [h2]; simp [cMatches_empty]⟩

theorem cAddQueryType_ok (q : EventType) (hq : WellFormed (q.map cNorm)) :
    ∀ n, ∃ m, cAddQueryType q n = .ok m := by
  induction q with
  | nil =>
    rintro ⟨l, st, ch⟩
    unfold cAddQueryType
    cases st
    · exact ⟨_, by simp only [Bool.false_eq_true, if_false]; rfl⟩
    · exact ⟨_, by simp only [if_true]; rfl⟩
  | cons head rest ih =>
    rintro ⟨l, st, ch⟩
    unfold cAddQueryType
    cases st with
    | true => exact ⟨_, by simp only [if_true]; rfl⟩
    | false =>
      simp only [Bool.false_eq_true, if_false]
      by_cases hh : cIsStar head = true
      · have hr : rest = [] := by
          by_contra hr
          apply hq
          rw [List.map_cons, List.dropLast_cons_of_ne_nil (by simpa using hr)]
          simp [cNorm, hh]
        simp [hh, hr]
      · have hq' : WellFormed (rest.map cNorm) := by
          by_cases hr : rest = []
          · simp [hr, WellFormed]
          · intro hm
            apply hq
            rw [List.map_cons, List.dropLast_cons_of_ne_nil (by simpa using hr)]
            exact List.mem_cons_of_mem _ hm
        obtain ⟨m, hm⟩ := ih hq' ((Dict.get ch head).getD CNode.empty)
        simp [hh, hm]

theorem cFromQueryTypes_ok {qs : List EventType} (h : ∀ q ∈ qs, WellFormed (q.map cNorm)) :
    ∃ m, cFromQueryTypes qs = .ok m := by
  unfold cFromQueryTypes
  generalize CNode.empty = n
  induction qs generalizing n with
  | nil => exact ⟨n, rfl⟩
  | cons q qs ih =>
    obtain ⟨m, hm⟩ := cAddQueryType_ok q (h q (by simp)) n
    rw [List.foldlM_cons, hm]
    exact ih (fun q hq => h q (by simp [hq])) m

theorem cFromQueryTypes_error {qs : List EventType} {err : PyErr}
    (h : cFromQueryTypes qs = .error err) :
    err = .valueError "invalid query event type" ∧ ∃ q ∈ qs, ¬ WellFormed (q.map cNorm) := by
  have hadd : ∀ (q : EventType) (n : CNode) (err : PyErr), cAddQueryType q n = .error err →
      err = .valueError "invalid query event type" := by
    intro q
    induction q with
    | nil =>
      rintro ⟨l, st, ch⟩ err h
      unfold cAddQueryType at h
      cases st <;> simp at h
    | cons head rest ih =>
      rintro ⟨l, st, ch⟩ err h
      unfold cAddQueryType at h
      cases st with
      | true => simp at h
      | false =>
        simp only [Bool.false_eq_true, if_false] at h
        by_cases hh : cIsStar head = true
        · by_cases hr : rest = []
          · simp [hh, hr] at h
          · simp [hh, hr] at h; exact h.symm
        · simp only [hh] at h
          cases ha : cAddQueryType rest ((Dict.get ch head).getD CNode.empty) with
          | ok c => simp [ha] at h
          | error e' =>
            simp [ha] at h
            subst h
            exact ih _ _ ha
  constructor
  · unfold cFromQueryTypes at h
    generalize CNode.empty = n at h
    induction qs generalizing n with
    | nil => simp [pure, Except.pure] at h
    | cons q qs ih =>
      rw [List.foldlM_cons] at h
      cases ha : cAddQueryType q n with
      | error e' =>
        simp [ha, bind, Except.bind] at h
        subst h
        exact hadd q n e' ha
      | ok n' =>
        simp only [ha, bind, Except.bind] at h
        exact ih n' h
  · by_contra hc
    push Not at hc
    obtain ⟨m, hm⟩ := cFromQueryTypes_ok hc
    rw [hm] at h; cases h

/-! ## Listing -/

theorem cChildrenQueryTypes_eq (ch : List (Segment × CNode)) :
    cChildrenQueryTypes ch =
      ch.flatMap fun p => (cGetQueryTypes p.2).map (p.1 :: ·) := by
  induction ch with
  | nil => rw [cChildrenQueryTypes]; rfl
  | cons q ch ih =>
    obtain ⟨k, c⟩ := q
    rw [cChildrenQueryTypes, ih]
    rfl

theorem mem_cGetQueryTypes {n : CNode} {q : EventType} :
    q ∈ cGetQueryTypes n ↔
      (n.hasStar = true ∧ q = ["*"]) ∨
      (n.hasStar = false ∧ ((q = [] ∧ n.isLeaf = true) ∨
        ∃ p ∈ n.children, ∃ r ∈ cGetQueryTypes p.2, q = p.1 :: r)) := by
  cases n with | mk l st ch =>
  rw [cGetQueryTypes, cChildrenQueryTypes_eq]
  cases st with
  | true => simp
  | false =>
    simp only [Bool.false_eq_true, if_false, List.mem_append, chasStar_mk, false_and, false_or,
      true_and, cisLeaf_mk, cchildren_mk, List.mem_flatMap, List.mem_map]
    refine or_congr ?_ ?_
    · cases l <;> simp
    · constructor
      · rintro ⟨p, hp, r, hr, rfl⟩; exact ⟨p, hp, r, hr, rfl⟩
      · rintro ⟨p, hp, r, hr, rfl⟩; exact ⟨p, hp, r, hr, rfl⟩

theorem cGetQueryTypes_spec (e : EventType) :
    ∀ n, CWF n → (cMatches e n = true ↔ MatchesAny (cGetQueryTypes n) e) := by
  induction e with
  | nil =>
    intro n hw
    rw [cMatches_nil]
    constructor
    · intro h
      by_cases hs : n.hasStar = true
      · exact ⟨["*"], mem_cGetQueryTypes.2 (.inl ⟨hs, rfl⟩), .star _⟩
      · exact ⟨[], mem_cGetQueryTypes.2 (.inr ⟨by simpa using hs, .inl ⟨rfl, by tauto⟩⟩), .nil⟩
    · rintro ⟨q, hq, hm⟩
      rcases mem_cGetQueryTypes.1 hq with ⟨h, _⟩ | ⟨_, ⟨_, h⟩ | ⟨p, hp, r, hr, rfl⟩⟩
      · exact .inl h
      · exact .inr h
      · exfalso
        rcases Matches.nil_left.1 hm with h | h
        · simp at h
        · have h1 : p.1 = "*" := (List.cons.inj h).1
          have := hw.names p.1 (Dict.mem_keys_of_mem (v := p.2) hp)
          rw [h1, cIsStar_star] at this
          cases this
  | cons s e ih =>
    intro n hw
    rw [cMatches_cons]
    by_cases hs : n.hasStar = true
    · simp only [hs, true_or, true_iff]
      exact ⟨["*"], mem_cGetQueryTypes.2 (.inl ⟨hs, rfl⟩), .star _⟩
    · have hs' : n.hasStar = false := by simpa using hs
      simp only [hs', Bool.false_eq_true, false_or]
      constructor
      · rintro ⟨k, c, hk, hg, hm⟩
        obtain ⟨q, hq, hmq⟩ := (ih c (hw.get hg)).1 hm
        refine ⟨k :: q, mem_cGetQueryTypes.2 (.inr ⟨hs', .inr
          ⟨(k, c), Dict.mem_of_get hg, q, hq, rfl⟩⟩), ?_⟩
        rw [Matches.cons_cons]
        exact .inr ⟨by tauto, hmq⟩
      · rintro ⟨q, hq, hm⟩
        rcases mem_cGetQueryTypes.1 hq with ⟨h, _⟩ | ⟨_, ⟨rfl, h⟩ | ⟨p, hp, r, hr, rfl⟩⟩
        · exact absurd h hs
        · rw [Matches.nil_right] at hm; simp at hm
        · have hp1 : p.1 ≠ "*" := by
            intro h1
            have := hw.names p.1 (Dict.mem_keys_of_mem (v := p.2) hp)
            rw [h1, cIsStar_star] at this
            cases this
          rw [Matches.cons_cons] at hm
          simp only [hp1, false_and, false_or] at hm
          exact ⟨p.1, p.2, by tauto, Dict.get_of_mem hw.nodup hp,
            (ih p.2 (hw.child hp)).2 ⟨r, hr, hm.2⟩⟩

theorem cdepthL_le {ch : List (Segment × CNode)} {p : Segment × CNode} (h : p ∈ ch) :
    p.2.depth ≤ CNode.depthL ch := by
  induction ch with
  | nil => simp at h
  | cons q ch ih =>
    obtain ⟨k, c⟩ := q
    rw [CNode.depthL]
    rcases List.mem_cons.1 h with rfl | h
    · exact Nat.le_max_left _ _
    · exact le_trans (ih h) (Nat.le_max_right _ _)

theorem cdepth_child {n : CNode} {p : Segment × CNode} (h : p ∈ n.children) :
    p.2.depth < n.depth := by
  cases n with | mk l s ch =>
  rw [CNode.depth]
  exact Nat.lt_succ_of_le (cdepthL_le h)

theorem cdepth_pos (n : CNode) : 0 < n.depth := by
  cases n; rw [CNode.depth]; exact Nat.succ_pos _

theorem cGetQueryTypes_segments :
    ∀ (d : Nat) (n : CNode), n.depth ≤ d → CWF n →
      ∀ q ∈ cGetQueryTypes n, WellFormed q ∧ ∀ s ∈ q, cIsStar s = true → s = "*" := by
  intro d
  induction d with
  | zero => intro n hd; exact absurd hd (by have := cdepth_pos n; omega)
  | succ d ih =>
    intro n hd hw q hq
    rcases mem_cGetQueryTypes.1 hq with ⟨_, rfl⟩ | ⟨_, ⟨rfl, _⟩ | ⟨p, hp, r, hr, rfl⟩⟩
    · exact ⟨by simp [WellFormed], by simp⟩
    · exact ⟨by simp [WellFormed], by simp⟩
    · obtain ⟨h1, h2⟩ := ih p.2 (by have := cdepth_child hp; omega) (hw.child hp) r hr
      have hp1 := hw.names p.1 (Dict.mem_keys_of_mem (v := p.2) hp)
      have hp2 : p.1 ≠ "*" := by
        intro h; rw [h, cIsStar_star] at hp1; cases hp1
      constructor
      · unfold WellFormed at h1 ⊢
        by_cases h0 : r = []
        · simp [h0]
        · rw [List.dropLast_cons_of_ne_nil h0, List.mem_cons]
          rintro (h | h)
          · exact hp2 h.symm
          · exact h1 h
      · intro s hs hst
        rcases List.mem_cons.1 hs with rfl | hs
        · rw [hp1] at hst; cases hst
        · exact h2 s hs hst

/-! ## Disjointness -/

theorem ite_cases {α : Type} {c : Prop} [Decidable c] {a b x : α}
    (h : (if c then a else b) = x) : (c ∧ a = x) ∨ (¬ c ∧ b = x) := by
  by_cases hc : c
  · rw [if_pos hc] at h; exact .inl ⟨hc, h⟩
  · rw [if_neg hc] at h; exact .inr ⟨hc, h⟩

theorem CWF.nonempty : ∀ (d : Nat) (n : CNode), n.depth ≤ d → CWF n →
    (n.isLeaf = true ∨ n.children ≠ []) → ∃ e, cMatches e n = true := by
  intro d
  induction d with
  | zero => intro n hd; exact absurd hd (by have := cdepth_pos n; omega)
  | succ d ih =>
    intro n hd hw h
    rcases h with h | h
    · exact ⟨[], (cMatches_nil n).2 (.inr h)⟩
    · obtain ⟨p, hp⟩ := List.exists_mem_of_ne_nil _ h
      obtain ⟨e, he⟩ := ih p.2 (by have := cdepth_child hp; omega) (hw.child hp) (hw.live hp)
      exact ⟨p.1 :: e, (cMatches_cons _ _ _).2
        (.inr ⟨p.1, p.2, .inl rfl, Dict.get_of_mem hw.nodup hp, he⟩)⟩

theorem cIsdisjointF_sound : ∀ (d : Nat) (a b : CNode), CWF a → CWF b →
    a.depth ≤ d → b.depth ≤ d → cIsdisjointF d a b = true →
    ∀ e, cMatches e a = true → cMatches e b = true → False := by
  intro d
  induction d with
  | zero => intro a b _ _ hd; exact absurd hd (by have := cdepth_pos a; omega)
  | succ d ih =>
    intro a b ha hb hda hdb hd e h1 h2
    rw [cIsdisjointF] at hd
    have hne : ∀ (n : CNode), CWF n → ∀ (e : EventType), cMatches e n = true →
        n.isLeaf = true ∨ n.children ≠ [] := by
      intro n hn e h
      cases e with
      | nil =>
        rcases (cMatches_nil n).1 h with h | h
        · exact .inl (hn.star h).1
        · exact .inl h
      | cons s e =>
        rcases (cMatches_cons s e n).1 h with h | ⟨k, c, _, hg, _⟩
        · exact .inl (hn.star h).1
        · right; intro h0; rw [h0] at hg; simp at hg
    rcases ite_cases hd with ⟨c1, hd⟩ | ⟨c1, hd⟩
    · cases hd
    rcases ite_cases hd with ⟨c2, hd⟩ | ⟨c2, hd⟩
    · simp only [Bool.and_eq_true, Bool.not_eq_true', List.isEmpty_iff] at hd
      rcases hne b hb e h2 with h | h
      · rw [hd.1] at h; cases h
      · exact h hd.2
    rcases ite_cases hd with ⟨c3, hd⟩ | ⟨c3, hd⟩
    · simp only [Bool.and_eq_true, Bool.not_eq_true', List.isEmpty_iff] at hd
      rcases hne a ha e h1 with h | h
      · rw [hd.1] at h; cases h
      · exact h hd.2
    rcases ite_cases hd with ⟨c4, hd⟩ | ⟨c4, hd⟩
    · -- first has no children
      simp only [List.isEmpty_iff] at c4
      simp only [Bool.and_eq_true, not_and] at c1
      rcases hne a ha e h1 with h | h
      · cases e with
        | nil =>
          rcases (cMatches_nil b).1 h2 with h' | h'
          · exact c3 h'
          · exact c1 h h'
        | cons s e =>
          rcases (cMatches_cons s e a).1 h1 with h' | ⟨k, c, _, hg, _⟩
          · exact c2 h'
          · rw [c4] at hg; simp at hg
      · exact h c4
    rcases ite_cases hd with ⟨c5, hd⟩ | ⟨c5, hd⟩
    · simp only [List.isEmpty_iff] at c5
      simp only [Bool.and_eq_true, not_and] at c1
      rcases hne b hb e h2 with h | h
      · cases e with
        | nil =>
          rcases (cMatches_nil a).1 h1 with h' | h'
          · exact c2 h'
          · exact c1 h' h
        | cons s e =>
          rcases (cMatches_cons s e b).1 h2 with h' | ⟨k, c, _, hg, _⟩
          · exact c3 h'
          · rw [c5] at hg; simp at hg
      · exact h c5
    rcases ite_cases hd with ⟨c6, hd⟩ | ⟨c6, hd⟩
    · cases hd
    rcases ite_cases hd with ⟨c7, hd⟩ | ⟨c7, hd⟩
    · cases hd
    rcases ite_cases hd with ⟨c8, hd⟩ | ⟨c8, hd⟩
    · cases hd
    rcases ite_cases hd with ⟨c9, hd⟩ | ⟨c9, hd⟩
    · cases hd
    cases e with
    | nil =>
      simp only [Bool.and_eq_true, not_and] at c1
      rcases (cMatches_nil a).1 h1 with h | h
      · exact c2 h
      · rcases (cMatches_nil b).1 h2 with h' | h'
        · exact c3 h'
        · exact c1 h h'
    | cons s e =>
      rcases (cMatches_cons s e a).1 h1 with h1 | ⟨k1, x, hk1, hg1, hm1⟩
      · exact c2 h1
      rcases (cMatches_cons s e b).1 h2 with h2 | ⟨k2, y, hk2, hg2, hm2⟩
      · exact c3 h2
      have hmem1 := Dict.mem_of_get hg1
      have hmem2 := Dict.mem_of_get hg2
      have d1 : x.depth ≤ d := by have := cdepth_child hmem1; simp at this; omega
      have d2 : y.depth ≤ d := by have := cdepth_child hmem2; simp at this; omega
      by_cases hq1 : k1 = "?"
      · subst hq1
        simp only [hg1, List.any_eq_true, not_exists, not_and] at c6
        have := c6 _ hmem2
        simp at this
        exact ih x y (ha.get hg1) (hb.get hg2) d1 d2 this e hm1 hm2
      · by_cases hq2 : k2 = "?"
        · subst hq2
          simp only [hg2, List.any_eq_true, not_exists, not_and] at c7
          have := c7 _ hmem1
          simp at this
          exact ih x y (ha.get hg1) (hb.get hg2) d1 d2 this e hm1 hm2
        · have hkk : k1 = k2 := by
            rcases hk1 with h | h
            · rcases hk2 with h' | h'
              · rw [h, h']
              · exact absurd h' hq2
            · exact absurd h hq1
          subst hkk
          simp only [List.any_eq_true, not_exists, not_and] at c8
          have := c8 _ hmem1
          simp [hg2, hq1] at this
          exact ih x y (ha.get hg1) (hb.get hg2) d1 d2 this e hm1 hm2

/-- Spec of what makes the C `isdisjoint` answer "not disjoint": a common
event type, or a place where one side ends (in a node without continuation)
and the other side only continues. -/
def Overlap : EventType → CNode → CNode → Prop
  | [], a, b =>
    a.hasStar = false ∧ b.hasStar = false ∧
    ((a.isLeaf = true ∧ b.isLeaf = false ∧ a.children = [] ∧ b.children ≠ []) ∨
     (b.isLeaf = true ∧ a.isLeaf = false ∧ b.children = [] ∧ a.children ≠ []))
  | s :: e, a, b => ∃ k1 k2 c1 c2, (k1 = s ∨ k1 = "?") ∧ (k2 = s ∨ k2 = "?") ∧
      Dict.get a.children k1 = some c1 ∧ Dict.get b.children k2 = some c2 ∧ Overlap e c1 c2

theorem cIsdisjointF_complete : ∀ (d : Nat) (a b : CNode), CWF a → CWF b →
    a.depth ≤ d → b.depth ≤ d → cIsdisjointF d a b = false →
    (∃ e, cMatches e a = true ∧ cMatches e b = true) ∨ ∃ e, Overlap e a b := by
  intro d
  induction d with
  | zero => intro a b _ _ hd; exact absurd hd (by have := cdepth_pos a; omega)
  | succ d ih =>
    intro a b ha hb hda hdb hd
    rw [cIsdisjointF] at hd
    have lift : ∀ (n : CNode) (k s : Segment) (c : CNode) (e : EventType),
        Dict.get n.children k = some c → (k = s ∨ k = "?") → cMatches e c = true →
        cMatches (s :: e) n = true := by
      intro n k s c e hg hk hm
      exact (cMatches_cons _ _ _).2 (.inr ⟨k, c, hk, hg, hm⟩)
    have step : ∀ k1 k2 x y s, (k1 = s ∨ k1 = "?") → (k2 = s ∨ k2 = "?") →
        Dict.get a.children k1 = some x → Dict.get b.children k2 = some y →
        cIsdisjointF d x y = false →
        (∃ e, cMatches e a = true ∧ cMatches e b = true) ∨ ∃ e, Overlap e a b := by
      intro k1 k2 x y s hk1 hk2 hg1 hg2 hdd
      have hmem1 := Dict.mem_of_get hg1
      have hmem2 := Dict.mem_of_get hg2
      rcases ih x y (ha.get hg1) (hb.get hg2)
        (by have := cdepth_child hmem1; simp at this; omega)
        (by have := cdepth_child hmem2; simp at this; omega) hdd with ⟨e, he1, he2⟩ | ⟨e, he⟩
      · exact .inl ⟨s :: e, lift a k1 s x e hg1 hk1 he1, lift b k2 s y e hg2 hk2 he2⟩
      · exact .inr ⟨s :: e, k1, k2, x, y, hk1, hk2, hg1, hg2, he⟩
    rcases ite_cases hd with ⟨c1, hd⟩ | ⟨c1, hd⟩
    · simp only [Bool.and_eq_true] at c1
      exact .inl ⟨[], (cMatches_nil a).2 (.inr c1.1), (cMatches_nil b).2 (.inr c1.2)⟩
    rcases ite_cases hd with ⟨c2, hd⟩ | ⟨c2, hd⟩
    · have hb' : b.isLeaf = true ∨ b.children ≠ [] := by
        by_contra hc
        push Not at hc
        simp [hc.1, hc.2] at hd
      obtain ⟨e, he⟩ := hb.nonempty _ b le_rfl hb'
      exact .inl ⟨e, cMatches_star c2 e, he⟩
    rcases ite_cases hd with ⟨c3, hd⟩ | ⟨c3, hd⟩
    · have ha' : a.isLeaf = true ∨ a.children ≠ [] := by
        by_contra hc
        push Not at hc
        simp [hc.1, hc.2] at hd
      obtain ⟨e, he⟩ := ha.nonempty _ a le_rfl ha'
      exact .inl ⟨e, he, cMatches_star c3 e⟩
    rcases ite_cases hd with ⟨c4, hd⟩ | ⟨c4, hd⟩
    · right
      simp only [Bool.or_eq_false_iff, Bool.not_eq_false', List.isEmpty_eq_false_iff] at hd
      simp only [List.isEmpty_iff] at c4
      simp only [Bool.and_eq_true, not_and] at c1
      exact ⟨[], by simpa using c2, by simpa using c3,
        .inl ⟨hd.1, by simpa using c1 hd.1, c4, hd.2⟩⟩
    rcases ite_cases hd with ⟨c5, hd⟩ | ⟨c5, hd⟩
    · right
      simp only [Bool.or_eq_false_iff, Bool.not_eq_false', List.isEmpty_eq_false_iff] at hd
      simp only [List.isEmpty_iff] at c5
      simp only [Bool.and_eq_true, not_and] at c1
      refine ⟨[], by simpa using c2, by simpa using c3, .inr ⟨hd.1, ?_, c5, hd.2⟩⟩
      by_contra hc
      exact c1 (by simpa using hc) hd.1
    rcases ite_cases hd with ⟨c6, hd⟩ | ⟨c6, hd⟩
    · cases hg : Dict.get a.children "?" with
      | none => simp [hg] at c6
      | some x =>
        simp only [hg, List.any_eq_true, Bool.not_eq_true'] at c6
        obtain ⟨⟨k, y⟩, hp, hdd⟩ := c6
        exact step "?" k x y k (.inr rfl) (.inl rfl) hg (Dict.get_of_mem hb.nodup hp) hdd
    rcases ite_cases hd with ⟨c7, hd⟩ | ⟨c7, hd⟩
    · cases hg : Dict.get b.children "?" with
      | none => simp [hg] at c7
      | some x =>
        simp only [hg, List.any_eq_true, Bool.not_eq_true'] at c7
        obtain ⟨⟨k, y⟩, hp, hdd⟩ := c7
        exact step k "?" y x k (.inl rfl) (.inr rfl) (Dict.get_of_mem ha.nodup hp) hg hdd
    rcases ite_cases hd with ⟨c8, hd⟩ | ⟨c8, hd⟩
    · simp only [List.any_eq_true] at c8
      obtain ⟨⟨k, x⟩, hp, hdd⟩ := c8
      simp only at hdd
      split_ifs at hdd
      cases hg : Dict.get b.children k with
      | none => simp [hg] at hdd
      | some y =>
        simp only [hg, Bool.not_eq_true'] at hdd
        exact step k k x y k (.inl rfl) (.inl rfl) (Dict.get_of_mem ha.nodup hp) hg hdd
    rcases ite_cases hd with ⟨c9, hd⟩ | ⟨c9, hd⟩
    · simp only [List.any_eq_true] at c9
      obtain ⟨⟨k, y⟩, hp, hdd⟩ := c9
      simp only at hdd
      split_ifs at hdd
      cases hg : Dict.get a.children k with
      | none => simp [hg] at hdd
      | some x =>
        simp only [hg, Bool.not_eq_true'] at hdd
        exact step k k x y k (.inl rfl) (.inl rfl) hg (Dict.get_of_mem hb.nodup hp) hdd
    cases hd

end HatEvent
