import Verif.Proof.LmdbReturned
import Verif.Props.Subscription

/-!
# Selection of a partition and paging of timeseries queries
-/

namespace HatEvent
open Spec

theorem querySubscription_ok {conf : Conf} {types : Option (List EventType)}
    (hw : ∀ l, types = some l → ∀ q ∈ l, WellFormed q)
    (hn : conf.useC = true → ∀ l, types = some l → ∀ q ∈ l, NulFree q) :
    ∃ sub, querySubscription conf types = .ok sub ∧ SubOk types sub := by
  cases types with
  | none => exact ⟨none, rfl, trivial⟩
  | some l =>
    unfold querySubscription createSubscription
    simp only
    cases hu : conf.useC with
    | false =>
      obtain ⟨s, hs⟩ := (C02_py_subscription l).2.2 (hw l rfl)
      simp only [Bool.false_eq_true, if_false, hs]
      exact ⟨some s, rfl, (C02_py_subscription l).1 s hs⟩
    | true =>
      obtain ⟨s, hs⟩ := (C03_c_subscription l (hn hu l rfl)).2.2 (hw l rfl)
      simp only [if_true, hs]
      exact ⟨some s, rfl, (C03_c_subscription l (hn hu l rfl)).1 s hs⟩

/-- `isdisjoint` in a query: never wrong when positive, exact for Python subscriptions. -/
theorem unrelated_ok {conf : Conf} {types : Option (List EventType)} {sub : Option Sub} {part : Partition}
    (hs : querySubscription conf types = .ok sub) (hso : SubOk types sub)
    (hn : conf.useC = true → ∀ l, types = some l → ∀ q ∈ l, NulFree q)
    {i : Impl} {qs : List EventType} (hq : ∀ q ∈ qs, NulFree q) (hp : i.create qs = .ok part.subscription) :
    ∃ r, unrelated sub part = .ok r ∧
      (r = true → ¬ ∀ l, types = some l → ∃ t, MatchesAny l t ∧ part.subscription.matches t = true) ∧
      (conf.useC = false → r = false →
        ∀ l, types = some l → ∃ t, MatchesAny l t ∧ part.subscription.matches t = true) := by
  cases types with
  | none =>
    cases sub with
    | none => exact ⟨false, rfl, by simp, by simp⟩
    | some s => exact absurd hso (by simp [SubOk])
  | some l =>
    cases sub with
    | none => exact absurd hso (by simp [SubOk])
    | some s =>
      have hso : ∀ e, s.matches e = true ↔ MatchesAny l e := hso
      unfold querySubscription createSubscription at hs
      simp only at hs
      have hob : Obtainable part.subscription := .create hq hp
      cases hu : conf.useC with
      | false =>
        rw [hu] at hs
        simp only [Bool.false_eq_true, if_false] at hs
        cases hc : Sub.createPy l with
        | error err => rw [hc] at hs; simp [Except.map] at hs
        | ok s' =>
          rw [hc] at hs
          cases hs
          obtain ⟨r, h1, h2⟩ := C07_py_isdisjoint i hq hc hp
          refine ⟨r, h1, ?_, ?_⟩
          · intro hr hall
            obtain ⟨t, h3, h4⟩ := hall l rfl
            exact h2.1 hr ⟨t, (hso t).2 h3, h4⟩
          · rintro _ rfl l' hl'
            cases hl'
            have : ¬ ¬ ∃ e, s.matches e = true ∧ part.subscription.matches e = true := fun hh => by
              have := h2.2 hh; simp at this
            obtain ⟨t, h3, h4⟩ := not_not.1 this
            exact ⟨t, (hso t).1 h3, h4⟩
      | true =>
        rw [hu] at hs
        simp only [if_true] at hs
        cases hc : Sub.createC l with
        | error err => rw [hc] at hs; simp [Except.map] at hs
        | ok s' =>
          rw [hc] at hs
          cases hs
          obtain ⟨root, rfl⟩ : ∃ root, s = .c root := by
            unfold Sub.createC at hc
            cases hx : cFromQueryTypes l with
            | error err => rw [hx] at hc; simp [Except.map] at hc
            | ok n => rw [hx] at hc; cases hc; exact ⟨n, rfl⟩
          obtain ⟨r, h1, h2⟩ := C08_c_isdisjoint_sound_partial
            (Obtainable.create (i := .c) (hn hu l rfl) hc) hob
          refine ⟨r, h1, ?_, by simp⟩
          intro hr hall
          obtain ⟨t, h3, h4⟩ := hall l rfl
          exact h2 hr ⟨t, (hso t).2 h3, h4⟩

/-- The partition a query uses. -/
theorem queryPartitions_select {conf : Conf} {params : QueryTimeseriesParams}
    {sub : Option Sub} (hs : querySubscription conf params.eventTypes = .ok sub)
    (hso : SubOk params.eventTypes sub)
    (hn : conf.useC = true → ∀ l, params.eventTypes = some l → ∀ q ∈ l, NulFree q)
    (parts : List (Int × Partition))
    (hp : ∀ x ∈ parts, ∃ (i : Impl) (qs : List EventType), (∀ q ∈ qs, NulFree q) ∧
      i.create qs = .ok x.2.subscription) :
    (∃ pre q part post, parts = pre ++ (q, part) :: post ∧ (∀ x ∈ pre, ¬ Related params x.2) ∧
      part.orderBy = params.orderBy ∧ (conf.useC = false → Related params part) ∧
      ∀ d db i mr n, queryPartitions conf d db { params with lastEventId := i, maxResults := mr } sub n parts =
        queryPartition conf d db q { params with lastEventId := i, maxResults := mr } sub n) ∨
    ((∀ x ∈ parts, ¬ Related params x.2) ∧
      ∀ d db i mr n, queryPartitions conf d db { params with lastEventId := i, maxResults := mr } sub n parts =
        .ok ⟨[], false⟩) := by
  induction parts with
  | nil => exact .inr ⟨by simp, fun _ _ _ _ _ => rfl⟩
  | cons x parts ih =>
    obtain ⟨q, part⟩ := x
    have ih := ih (fun x hx => hp x (List.mem_cons_of_mem _ hx))
    -- skipping this partition
    have skip : ¬ Related params part →
        (∀ d db i mr n, queryPartitions conf d db { params with lastEventId := i, maxResults := mr } sub n
            ((q, part) :: parts) =
          queryPartitions conf d db { params with lastEventId := i, maxResults := mr } sub n parts) →
        (∃ pre q' part' post, (q, part) :: parts = pre ++ (q', part') :: post ∧
          (∀ x ∈ pre, ¬ Related params x.2) ∧
          part'.orderBy = params.orderBy ∧ (conf.useC = false → Related params part') ∧
          ∀ d db i mr n, queryPartitions conf d db { params with lastEventId := i, maxResults := mr } sub n
            ((q, part) :: parts) =
            queryPartition conf d db q' { params with lastEventId := i, maxResults := mr } sub n) ∨
        ((∀ x ∈ (q, part) :: parts, ¬ Related params x.2) ∧
          ∀ d db i mr n, queryPartitions conf d db { params with lastEventId := i, maxResults := mr } sub n
            ((q, part) :: parts) = .ok ⟨[], false⟩) := by
      intro hnr heq
      rcases ih with ⟨pre, q', part', post, h1, h2, h3, h4, h5⟩ | ⟨h1, h2⟩
      · left
        refine ⟨(q, part) :: pre, q', part', post, by rw [h1]; rfl, ?_, h3, h4, ?_⟩
        · intro x hx
          rcases List.mem_cons.1 hx with rfl | hx
          · exact hnr
          · exact h2 x hx
        · intro d db i mr n; rw [heq]; exact h5 d db i mr n
      · right
        refine ⟨?_, fun d db i mr n => by rw [heq]; exact h2 d db i mr n⟩
        intro x hx
        rcases List.mem_cons.1 hx with rfl | hx
        · exact hnr
        · exact h1 x hx
    by_cases ho : part.orderBy = params.orderBy
    swap
    · refine skip (fun h => ho h.1) ?_
      intro d db i mr n
      conv => lhs; unfold queryPartitions
      rw [if_pos ho]
    · obtain ⟨im, qs, hq, hc⟩ := hp (q, part) (by simp)
      obtain ⟨r, h1, h2, h3⟩ := unrelated_ok hs hso hn hq hc
      cases r with
      | true =>
        refine skip (fun h => h2 rfl h.2) ?_
        intro d db i mr n
        conv => lhs; unfold queryPartitions
        rw [if_neg (not_not.2 ho), h1]
        rfl
      | false =>
        left
        refine ⟨[], q, part, parts, rfl, by simp, ho, fun hu => ⟨ho, h3 hu rfl⟩, ?_⟩
        intro d db i mr n
        conv => lhs; unfold queryPartitions
        rw [if_neg (not_not.2 ho), h1]
        rfl

/-- Paging when pages continue after the last received event. -/
theorem pages_split {query : Option EventId → Except PyErr QueryResult} {full : List Event} {n : Nat}
    (hn : 0 < n) (h0 : query none = .ok (page full n))
    (h1 : ∀ pre x post, full = pre ++ x :: post → query (some x.id) = .ok (page post n)) :
    Pages query none full ∧ ∀ r, Pages query none r → r = full := by
  have key : ∀ (rest : List Event) (i : Option EventId), query i = .ok (page rest n) →
      (∃ pre, full = pre ++ rest) →
      Pages query i rest ∧ ∀ r, Pages query i r → r = rest := by
    intro rest
    induction hlen : rest.length using Nat.strong_induction_on generalizing rest with
    | _ len ih =>
      intro i hq hpre
      unfold page at hq
      by_cases hlt : n < rest.length
      · simp only [hlt, decide_true] at hq
        have hne : rest.take n ≠ [] := by
          intro h
          have := congrArg List.length h
          rw [List.length_take, List.length_nil] at this
          omega
        obtain ⟨init, x, hx⟩ : ∃ init x, rest.take n = init ++ [x] :=
          ⟨_, _, (List.dropLast_append_getLast hne).symm⟩
        have hsplit : rest = init ++ x :: rest.drop n := by
          conv => lhs; rw [← List.take_append_drop n rest, hx]
          simp
        obtain ⟨pre, hpre⟩ := hpre
        have hfull : full = (pre ++ init) ++ x :: rest.drop n := by
          rw [hpre]; conv => lhs; rw [hsplit]
          simp
        have hnext := h1 _ _ _ hfull
        have hl : (rest.take n).getLast? = some x := by rw [hx]; simp
        obtain ⟨i1, i2⟩ := ih (rest.drop n).length (by rw [List.length_drop]; omega) (rest.drop n) rfl
          (some x.id) hnext ⟨pre ++ init ++ [x], by rw [hfull]; simp⟩
        refine ⟨?_, ?_⟩
        · have := Pages.more hq hl i1
          rwa [List.take_append_drop] at this
        · intro r hr
          cases hr with
          | last h => rw [hq] at h; simp at h
          | more h h' h'' =>
            rw [hq] at h; cases h
            rw [hl] at h'; cases h'
            rw [i2 _ h'', List.take_append_drop]
      · have hlt' : decide (n < rest.length) = false := by simp; omega
        rw [hlt', List.take_of_length_le (by omega)] at hq
        refine ⟨.last hq, ?_⟩
        intro r hr
        cases hr with
        | last h => rw [hq] at h; cases h; rfl
        | more h => rw [hq] at h; simp at h
  exact key full none h0 ⟨[], rfl⟩

end HatEvent
