import Verif.Model.Cli
import Verif.Proof.Tactics

/-!
# Command line manager (C64)
-/

namespace HatEvent

/-- `t` are the segments of `s` delimited by slashes. -/
def Spec.Segments (s : String) (t : EventType) : Prop :=
  t ≠ [] ∧ (∀ w ∈ t, '/' ∉ w.toList) ∧ "/".intercalate t = s

/-- What a user asks for with `query`. -/
def Spec.AskedTypes (a : Option (List String)) (b : Option (List EventType)) : Prop :=
  (a = none ∧ b = none) ∨ ∃ l r, a = some l ∧ b = some r ∧ List.Forall₂ Spec.Segments l r

open Spec

/-- Words of characters joined by a separator. -/
def joinChars (sep : Char) : List (List Char) → List Char
  | [] => []
  | [w] => w
  | w :: v :: ws => w ++ sep :: joinChars sep (v :: ws)

theorem splitChars_ne (sep : Char) (s : List Char) : splitChars sep s ≠ [] := by
  cases s with
  | nil => simp [splitChars]
  | cons c r =>
    unfold splitChars
    split
    · simp
    · split <;> simp

theorem splitChars_free (sep : Char) (s : List Char) : ∀ w ∈ splitChars sep s, sep ∉ w := by
  induction s with
  | nil => simp [splitChars]
  | cons c r ih =>
    unfold splitChars
    split
    · simpa using ih
    · next h =>
      split
      · simp [Ne.symm h]
      · next w ws e =>
        rw [e] at ih
        simp only [List.mem_cons, forall_eq_or_imp] at ih ⊢
        exact ⟨by simp [Ne.symm h, ih.1], ih.2⟩

theorem splitChars_join (sep : Char) (s : List Char) : joinChars sep (splitChars sep s) = s := by
  induction s with
  | nil => rfl
  | cons c r ih =>
    unfold splitChars
    split
    · next h =>
      cases e : splitChars sep r with
      | nil => exact absurd e (splitChars_ne sep r)
      | cons w ws => rw [e] at ih; simp [joinChars, ih, h]
    · split
      · next e => exact absurd e (splitChars_ne sep r)
      · next w ws e =>
        rw [e] at ih
        cases ws with
        | nil => simpa [joinChars] using ih
        | cons v ws => simpa [joinChars] using ih

theorem intercalate_chars (ws : List (List Char)) :
    ("/".intercalate (ws.map String.ofList)).toList = joinChars '/' ws := by
  rw [String.toList_intercalate]
  induction ws with
  | nil => rfl
  | cons w ws ih =>
    cases ws with
    | nil => simp [joinChars]
    | cons v ws =>
      simp only [List.map_cons, String.toList_ofList, joinChars] at ih ⊢
      rw [List.intercalate_cons_cons, ih]
      simp

theorem parseEventType_segments (s : String) : Segments s (parseEventType s) := by
  refine ⟨by simp [parseEventType, splitChars_ne], ?_, ?_⟩
  · intro w hw
    obtain ⟨c, hc, rfl⟩ := List.mem_map.1 hw
    rw [String.toList_ofList]
    exact splitChars_free _ _ c hc
  · rw [← String.toList_inj]
    unfold parseEventType
    rw [intercalate_chars, splitChars_join]

/-- An event type on the command line is the segments between slashes. -/
theorem C64_event_type (s : String) : Segments s (parseEventType s) := parseEventType_segments s

theorem askedTypes (a : Option (List String)) : AskedTypes a (a.map fun l => l.map parseEventType) := by
  cases a with
  | none => exact .inl ⟨rfl, rfl⟩
  | some l =>
    refine .inr ⟨l, l.map parseEventType, rfl, rfl, ?_⟩
    induction l with
    | nil => exact .nil
    | cons s l ih => exact .cons (parseEventType_segments s) ih

/-- `query latest` sends the query asked for. -/
theorem C64_latest (types : Option (List String)) :
    ∃ r, cliQuery (.latest types) = .ok (.latest r) ∧ AskedTypes types r := ⟨_, rfl, askedTypes types⟩

/-- `query timeseries` without order and last event id sends the query asked for. -/
theorem C64_timeseries_partial (o : CliTimeseries) (h1 : o.order = none) (h2 : o.orderBy = none) (h3 : o.lastEventId = none) :
    ∃ r, cliQuery (.timeseries o) = .ok (.timeseries ⟨r, o.tFrom, o.tTo, o.sourceTFrom, o.sourceTTo, .descending, .timestamp,
      o.maxResults, none⟩) ∧ AskedTypes o.eventTypes r := by
  refine ⟨_, ?_, askedTypes o.eventTypes⟩
  simp only [cliQuery, cliTimeseries, h1, h2, h3, optionArg]
  rfl

/-- Every other `query timeseries` sends nothing. -/
theorem C64_timeseries_refuted (o : CliTimeseries) (h : o.order ≠ none ∨ o.orderBy ≠ none ∨ o.lastEventId ≠ none) :
    cliQuery (.timeseries o) = .error argparseExit := by
  simp only [cliQuery, cliTimeseries]
  cases h1 : o.order with
  | some a => rfl
  | none =>
    cases h2 : o.orderBy with
    | some a => rfl
    | none =>
      cases h3 : o.lastEventId with
      | some a => rfl
      | none => simp [h1, h2, h3] at h

/-- `query server` never sends a query. -/
theorem C64_server_refuted (serverId : Int) (persisted : Bool) (maxResults : Option Int) (lastEventId : Option String)
    (params : QueryParams) : cliQuery (.server serverId persisted maxResults lastEventId) ≠ .ok params := by
  cases lastEventId <;> simp [cliQuery, cliServer, optionArg, parseEventId, bind, Except.bind, throw, throwThe,
    MonadExceptOf.throw]

/-- `subscribe` subscribes to the types given, or to all. -/
theorem C64_subscribe (l : List String) :
    (l = [] → cliSubscriptions l = [["*"]]) ∧ (l ≠ [] → AskedTypes (some l) (some (cliSubscriptions l))) := by
  refine ⟨fun h => by rw [h]; rfl, fun h => ?_⟩
  have : cliSubscriptions l = l.map parseEventType := by
    unfold cliSubscriptions
    rw [if_neg (by simpa using h)]
  rw [this]
  exact askedTypes (some l)

/-- Hypotheses of C64. -/
example : parseEventType "a//b/*" = ["a", "", "b", "*"] ∧ parseEventType "" = [""] ∧
    ({ eventTypes := some ["a/b"], maxResults := some 3 } : CliTimeseries).order = none ∧
    ({ lastEventId := some "1,2,3" } : CliTimeseries).lastEventId ≠ none := by decide

end HatEvent
