import Verif.Proof.SubscriptionApi
import Verif.Spec.Subscription

/-! Lemmas relating subscriptions to the query types they were created from. -/

namespace HatEvent
open Spec

/-! ## Both implementations accept the same lists -/

/-- Same names and same places of `*`. -/
inductive Similar : Node → CNode → Prop
  | star {l l' : Bool} {ch : List (Segment × Node)} {ch' : List (Segment × CNode)} :
    Dict.has ch "*" = true → Similar (.mk l ch) (.mk l' true ch')
  | node {l l' : Bool} {ch : List (Segment × Node)} {ch' : List (Segment × CNode)} :
    Dict.has ch "*" = false →
    (∀ k, Dict.get ch k = none ↔ Dict.get ch' k = none) →
    (∀ k a b, Dict.get ch k = some a → Dict.get ch' k = some b → Similar a b) →
    Similar (.mk l ch) (.mk l' false ch')

theorem Similar.empty : Similar Node.empty CNode.empty :=
  .node rfl (by simp) (by simp)

theorem Similar.child {l l' st : Bool} {ch : List (Segment × Node)}
    {ch' : List (Segment × CNode)} (h : Similar (.mk l ch) (.mk l' st ch'))
    (hst : st = false) (k : Segment) :
    Similar ((Dict.get ch k).getD Node.empty) ((Dict.get ch' k).getD CNode.empty) := by
  cases h with
  | star => cases hst
  | node h1 h2 h3 =>
    cases hg : Dict.get ch k with
    | none => rw [(h2 k).1 hg]; exact .empty
    | some a =>
      cases hg' : Dict.get ch' k with
      | none => rw [(h2 k).2 hg'] at hg; cases hg
      | some b => exact h3 k a b hg hg'

theorem similar_add (q : EventType) (hq : ∀ x ∈ q, PlainName x) :
    ∀ (n : Node) (c : CNode), Similar n c →
      (∀ m, addQueryType q n = .ok m → ∃ d, cAddQueryType q c = .ok d ∧ Similar m d) ∧
      (∀ d, cAddQueryType q c = .ok d → ∃ m, addQueryType q n = .ok m ∧ Similar m d) := by
  induction q with
  | nil =>
    rintro ⟨l, ch⟩ ⟨l', st, ch'⟩ h
    unfold addQueryType cAddQueryType
    cases h with
    | star hs => simp [hs, Similar.star]
    | node h1 h2 h3 =>
      simp [h1, Similar.node h1 h2 h3]
  | cons s q ih =>
    rintro ⟨l, ch⟩ ⟨l', st, ch'⟩ h
    unfold addQueryType cAddQueryType
    cases st with
    | true =>
      cases h with
      | star hs => simp [hs, Similar.star]
    | false =>
      have hch := h.child rfl s
      cases h with
      | node h1 h2 h3 =>
      simp only [h1, Bool.false_eq_true, if_false]
      by_cases hs : s = "*"
      · subst hs
        simp only [cIsStar_star, if_true]
        by_cases h0 : q = []
        · simp [h0]
          exact .star rfl
        · simp [h0]
      · have hs' : cIsStar s = false := by
          by_contra hc
          exact hs (hq s (by simp) (by simpa using hc))
        simp only [hs, hs', Bool.false_eq_true, if_false]
        obtain ⟨i1, i2⟩ := ih (fun x hx => hq x (by simp [hx])) _ _ hch
        have hsim : ∀ m d, Similar m d →
            Similar (.mk l (Dict.set ch s m)) (.mk l' false (Dict.set ch' s d)) := by
          intro m d hmd
          refine .node ?_ ?_ ?_
          · rw [Dict.has_eq_false_iff] at h1 ⊢
            intro hk
            rcases Dict.mem_keys_set.1 hk with hk | hk
            · exact hs hk.symm
            · exact h1 hk
          · intro k
            rw [Dict.get_set, Dict.get_set]
            split_ifs
            · simp
            · exact h2 k
          · intro k a b ha hb
            rw [Dict.get_set] at ha hb
            split_ifs at ha hb with hk
            · cases ha; cases hb; exact hmd
            · exact h3 k a b ha hb
        constructor
        · intro m hm
          cases ha : addQueryType q ((Dict.get ch s).getD Node.empty) with
          | error e => simp [ha] at hm
          | ok m' =>
            obtain ⟨d', hd', hmd⟩ := i1 m' ha
            simp [ha] at hm
            subst hm
            exact ⟨_, by simp [hd'], hsim _ _ hmd⟩
        · intro d hd
          cases ha : cAddQueryType q ((Dict.get ch' s).getD CNode.empty) with
          | error e => simp [ha] at hd
          | ok d' =>
            obtain ⟨m', hm', hmd⟩ := i2 d' ha
            simp [ha] at hd
            subst hd
            exact ⟨_, by simp [hm'], hsim _ _ hmd⟩

theorem sameAcceptance (qs : List EventType) : ∀ (n : Node) (c : CNode),
    (∀ q ∈ qs, ∀ x ∈ q, PlainName x) → Similar n c →
      (∀ m, qs.foldlM (fun node q => addQueryType q node) n = .ok m →
        ∃ d, qs.foldlM (fun node q => cAddQueryType q node) c = .ok d ∧ Similar m d) ∧
      (∀ d, qs.foldlM (fun node q => cAddQueryType q node) c = .ok d →
        ∃ m, qs.foldlM (fun node q => addQueryType q node) n = .ok m ∧ Similar m d) := by
  induction qs with
  | nil =>
    intro n c _ h
    simp [pure, Except.pure, h]
  | cons q qs ih =>
    intro n c hq h
    obtain ⟨i1, i2⟩ := similar_add q (hq q (by simp)) n c h
    have ih' := fun n c => ih n c (fun q hq' => hq q (by simp [hq']))
    rw [List.foldlM_cons, List.foldlM_cons]
    constructor
    · intro m hm
      cases ha : addQueryType q n with
      | error e => simp [ha, bind, Except.bind] at hm
      | ok n' =>
        obtain ⟨c', hc', hs⟩ := i1 n' ha
        simp only [ha, bind, Except.bind] at hm
        simp only [hc', bind, Except.bind]
        exact (ih' n' c' hs).1 m hm
    · intro d hd
      cases ha : cAddQueryType q c with
      | error e => simp [ha, bind, Except.bind] at hd
      | ok c' =>
        obtain ⟨n', hn', hs⟩ := i2 c' ha
        simp only [ha, bind, Except.bind] at hd
        simp only [hn', bind, Except.bind]
        exact (ih' n' c' hs).2 d hd

/-! ## Intersection, completeness -/

namespace Sub

theorem cOther_of_valid {s : Sub} (h : s.Valid) :
    ∃ m : CNode, (∀ root, (Sub.c root).isdisjoint s = .ok (cIsdisjoint root m)) ∧ CWF m ∧
      (∀ e, cMatches e m = true ↔ s.matches e = true) ∧ True := by
  cases s with
  | c root => exact ⟨root, fun _ => rfl, h, fun _ => Iff.rfl, trivial⟩
  | py root =>
    obtain ⟨m, hm, hw, hl⟩ := c_of_list (queryTypes_wellFormed h)
    have hm' : cFromQueryTypes (nodeToQueryTypes root) = .ok m := hm
    exact ⟨m, fun r => by simp [isdisjoint, hm', Except.map], hw,
      fun e => (hl e).trans (matches_iff_queryTypes h e).symm, trivial⟩

/-- In every Python tree made from the subscription, a `*` right after `e`
comes from one of the query types. -/
def StarFrom (s : Sub) (qs : List EventType) : Prop :=
  ∀ n, (otherNode s = .ok n ∨ nodeFromQueryTypes s.getQueryTypes = .ok n) →
    ∀ e, StarAt e n → ∃ q ∈ qs, EmptyTail e q

theorem listed_of_createPy {qs : List EventType} {n : Node}
    (h : nodeFromQueryTypes qs = .ok n) : ∀ r ∈ nodeToQueryTypes n, r ∈ qs := by
  have add : ∀ (q : EventType) (n m : Node), addQueryType q n = .ok m →
      ∀ r ∈ nodeToQueryTypes m, r ∈ nodeToQueryTypes n ∨ r = q := by
    intro q
    induction q with
    | nil =>
      rintro ⟨l, ch⟩ m hm r hr
      unfold addQueryType at hm
      by_cases hst : Dict.has ch "*" = true
      · rw [if_pos hst] at hm
        cases hm; exact .inl hr
      · rw [if_neg hst] at hm
        cases hm
        rcases mem_nodeToQueryTypes.1 hr with ⟨rfl, _⟩ | h
        · exact .inr rfl
        · exact .inl (mem_nodeToQueryTypes.2 (.inr h))
    | cons s q ih =>
      rintro ⟨l, ch⟩ m hm r hr
      unfold addQueryType at hm
      by_cases hst : Dict.has ch "*" = true
      · rw [if_pos hst] at hm
        cases hm; exact .inl hr
      · rw [if_neg hst] at hm
        simp only at hm
        by_cases hs : s = "*"
        · rw [if_pos hs] at hm
          by_cases h0 : q = []
          · subst h0 hs
            simp at hm
            subst hm
            right
            rcases mem_nodeToQueryTypes.1 hr with ⟨_, _, h⟩ | ⟨p, hp, r', hr', rfl⟩
            · simp [Dict.keys] at h
            · simp at hp
              subst hp
              rw [nodeToQueryTypes_leaf] at hr'
              simp at hr'
              simp [hr']
          · simp [h0] at hm
        · rw [if_neg hs] at hm
          cases ha : addQueryType q ((Dict.get ch s).getD Node.empty) with
          | error e => simp [ha] at hm
          | ok c =>
            simp [ha] at hm
            subst hm
            rcases mem_nodeToQueryTypes.1 hr with ⟨rfl, hl, hk⟩ | ⟨p, hp, r', hr', rfl⟩
            · left
              refine mem_nodeToQueryTypes.2 (.inl ⟨rfl, hl, ?_⟩)
              intro hk'
              exact hk (Dict.mem_keys_set.2 (.inr hk'))
            · rcases Dict.mem_set hp with rfl | hp
              · rcases ih _ _ ha r' hr' with h | h
                · left
                  cases hg : Dict.get ch s with
                  | none =>
                    rw [hg] at h
                    simp [Node.empty, nodeToQueryTypes, childrenToQueryTypes] at h
                  | some c0 =>
                    rw [hg] at h
                    exact mem_nodeToQueryTypes.2 (.inr ⟨(s, c0), Dict.mem_of_get hg, r', h, rfl⟩)
                · right; simp [h]
              · exact .inl (mem_nodeToQueryTypes.2 (.inr ⟨p, hp, r', hr', rfl⟩))
  have aux : ∀ (qs : List EventType) (n m : Node),
      qs.foldlM (fun node q => addQueryType q node) n = .ok m →
      ∀ r ∈ nodeToQueryTypes m, r ∈ nodeToQueryTypes n ∨ r ∈ qs := by
    intro qs
    induction qs with
    | nil =>
      intro n m hm r hr
      simp [pure, Except.pure] at hm
      subst hm; exact .inl hr
    | cons q qs ih =>
      intro n m hm r hr
      rw [List.foldlM_cons] at hm
      cases ha : addQueryType q n with
      | error err => simp [ha, bind, Except.bind] at hm
      | ok n' =>
        simp only [ha, bind, Except.bind] at hm
        rcases ih n' m hm r hr with h | h
        · rcases add q n n' ha r h with h | h
          · exact .inl h
          · exact .inr (by simp [h])
        · exact .inr (by simp [h])
  intro r hr
  rcases aux qs _ n h r hr with h | h
  · simp [Node.empty, nodeToQueryTypes, childrenToQueryTypes] at h
  · exact h

theorem starFrom_of_create (i : Impl) {qs : List EventType} {s : Sub}
    (hq : ∀ q ∈ qs, NulFree q) (hs : i.create qs = .ok s) : StarFrom s qs := by
  have starList : ∀ {l : List EventType} {n : Node} {e : EventType},
      nodeFromQueryTypes l = .ok n → StarAt e n → (∀ r ∈ l, r ∈ qs) →
      ∃ q ∈ qs, EmptyTail e q := by
    intro l n e hn he hl
    rcases nodeFromQueryTypes_starAt l Node.empty n e hn he with h | ⟨q, hq, h⟩
    · exact absurd h (starAt_empty e)
    · exact ⟨q, hl q hq, h⟩
  cases i with
  | py =>
    simp only [Impl.create, createPy] at hs
    cases hn : nodeFromQueryTypes qs with
    | error e => simp [hn, Except.map] at hs
    | ok n =>
      simp [hn, Except.map] at hs
      subst hs
      rintro m (hm | hm) e he
      · simp [otherNode] at hm
        subst hm
        exact starList hn he (fun r h => h)
      · exact starList hm he (listed_of_createPy hn)
  | c =>
    simp only [Impl.create, createC] at hs
    cases hn : cFromQueryTypes qs with
    | error e => simp [hn, Except.map] at hs
    | ok n =>
      simp [hn, Except.map] at hs
      subst hs
      have hl := cFromQueryTypes_listed hn
      rw [map_norm (fun q h x hx => PlainName.of_noNul (hq q h x hx))] at hl
      rintro m (hm | hm) e he
      · exact starList hm he hl
      · exact starList hm he hl

theorem intersection_complete {a b : Sub} {qa qb : List EventType}
    (ha : StarFrom a qa) (hb : StarFrom b qb) (hva : a.Valid) (hvb : b.Valid) :
    ∃ r, a.intersection [b] = .ok r ∧
      (∀ e, r.matches e = true → (a.matches e = true ∧ b.matches e = true)) ∧
      ∀ e, (∀ q ∈ qa, ¬ EmptyTail e q) → (∀ q ∈ qb, ¬ EmptyTail e q) →
        a.matches e = true → b.matches e = true → r.matches e = true := by
  have hsnd := intersection_sound hva (others := [b]) (by simpa using hvb)
  obtain ⟨r, hr, _, hs⟩ := hsnd
  refine ⟨r, hr, fun e he => by simpa using hs e he, ?_⟩
  intro e h1 h2 h3 h4
  have strict : ∀ (s : Sub) (qs : List EventType) (n : Node), StarFrom s qs → WF n →
      (otherNode s = .ok n ∨ nodeFromQueryTypes s.getQueryTypes = .ok n) →
      (∀ e, nodeMatches e n = true ↔ s.matches e = true) →
      (∀ q ∈ qs, ¬ EmptyTail e q) → s.matches e = true → StrictNode e n := by
    intro s qs n hst hw hn hl hq hm
    rcases strict_or_starAt e n hw ((hl e).2 hm) with h | h
    · exact h
    · obtain ⟨q, hqm, ht⟩ := hst n hn e h
      exact absurd ht (hq q hqm)
  cases a with
  | py root =>
    obtain ⟨m, hm, hwm, _, hlm⟩ := otherNode_of_valid hvb
    have hi : (Sub.py root).intersection [b] = .ok (.py (intersectionNode root m)) := by
      simp [intersection, combine, pyFold, hm, List.foldlM, bind, Except.bind, Except.map,
        pure, Except.pure]
    rw [hi] at hr
    cases hr
    exact intersectionF_complete _ root m hva.1 hwm (by omega) (by omega) e
      (strict (.py root) qa root ha hva.1 (.inl rfl) (fun _ => Iff.rfl) h1 h3)
      (strict b qb m hb hwm (.inl hm) hlm h2 h4)
  | c root =>
    obtain ⟨n, hn, hwn, hnn, hln⟩ := node_of_valid hva
    obtain ⟨m, hm, hwm, hnm, hlm⟩ := node_of_valid hvb
    have hwr := (intersectionF_sound (n.depth + m.depth) n m hwn hwm).1
    have hnr := Names.intersectionF PlainName.star (n.depth + m.depth) n m hwn hwm hnn hnm
    obtain ⟨k, hk, _, hlk⟩ := c_of_list (qs := nodeToQueryTypes (intersectionNode n m))
      (fun q hq => ⟨nodeToQueryTypes_wellFormed _ _ le_rfl hwr q hq,
        Names.nodeToQueryTypes _ _ le_rfl hnr q hq⟩)
    have hn' : nodeFromQueryTypes (cGetQueryTypes root) = .ok n := hn
    have hi : (Sub.c root).intersection [b] = .ok (.c k) := by
      simp [intersection, combine, cFold, hn', hm, List.foldlM, bind, Except.bind, Except.map,
        pure, Except.pure, createC, hk]
    rw [hi] at hr
    cases hr
    refine (hlk e).2 ((nodeToQueryTypes_spec e _ hwr).1 ?_)
    exact intersectionF_complete _ n m hwn hwm (by omega) (by omega) e
      (strict (.c root) qa n ha hwn (.inr hn) hln h1 h3)
      (strict b qb m hb hwm (.inr hm) hlm h2 h4)

end Sub
end HatEvent
