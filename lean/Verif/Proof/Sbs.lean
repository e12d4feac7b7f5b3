import Verif.Spec.Sbs
import Verif.Proof.Dict
import Verif.Proof.Tactics

/-! Lemmas about SBS conversions. -/

namespace HatEvent
open Spec

@[simp] theorem ok_bind {α β : Type} (a : α) (f : α → Except PyErr β) :
    (Except.ok a >>= f) = f a := rfl

@[simp] theorem pure_ok {α : Type} (a : α) : (pure a : Except PyErr α) = .ok a := rfl

@[simp] theorem throw_error {α : Type} (e : PyErr) : (throw e : Except PyErr α) = .error e := rfl

theorem mapE_map {α β γ : Type} {f : α → β} {g : β → Except PyErr γ} {h : α → γ} {l : List α}
    (H : ∀ a ∈ l, g (f a) = .ok (h a)) : mapE g (l.map f) = .ok (l.map h) := by
  induction l with
  | nil => rfl
  | cons a l ih =>
    rw [List.map_cons, mapE, H a (by simp), ih (fun b hb => H b (by simp [hb]))]
    rfl

theorem mapE_map_id {α β : Type} {f : α → β} {g : β → Except PyErr α} {l : List α}
    (H : ∀ a ∈ l, g (f a) = .ok a) : mapE g (l.map f) = .ok l := by
  have := mapE_map (h := id) H
  simpa using this

theorem optional_roundtrip {α : Type} {fn : α → Sbs} {fn' : Sbs → Except PyErr α} {o : Option α}
    (H : ∀ a, o = some a → fn' (fn a) = .ok a) : optionalFromSbs fn' (optionalToSbs fn o) = .ok o := by
  cases o with
  | none => rfl
  | some a =>
    simp only [optionalToSbs, optionalFromSbs, Sbs.asChoice, ok_bind, if_true, H a rfl, pure_ok]

theorem timestampSbs_roundtrip (t : Timestamp) : timestampFromSbs (timestampToSbs t) = .ok t := rfl

theorem eventIdSbs_roundtrip (i : EventId) : eventIdFromSbs (eventIdToSbs i) = .ok i := rfl

theorem eventTypeSbs_roundtrip (t : EventType) : eventTypeFromSbs (eventTypeToSbs t) = .ok t := by
  simp only [eventTypeFromSbs, eventTypeToSbs, Sbs.asList, ok_bind]
  exact mapE_map_id (fun _ _ => rfl)

theorem eventTypesSbs_roundtrip (l : List EventType) :
    eventTypesFromSbs (eventTypesToSbs l) = .ok l := by
  simp only [eventTypesFromSbs, eventTypesToSbs, Sbs.asList, ok_bind]
  exact mapE_map_id (fun a _ => eventTypeSbs_roundtrip a)

theorem payloadSbs_roundtrip {jc : JsonCodec} {p : Payload} (h : JsonReadable jc (some p)) :
    payloadFromSbs jc (payloadToSbs jc p) = .ok p := by
  cases p with
  | binary t d => rfl
  | json d =>
    have := h d rfl
    simp [payloadFromSbs, payloadToSbs, Sbs.asChoice, Sbs.asStr, this]

theorem orderOf_value (o : Order) : orderOf o.value = .ok o := by cases o <;> rfl

theorem orderByOf_value (o : OrderBy) : orderByOf o.value = .ok o := by cases o <;> rfl

theorem eventSbs_roundtrip {jc : JsonCodec} {e : Event} (h : JsonReadable jc e.payload) :
    eventFromSbs jc (eventToSbs jc e) = .ok e := by
  have h1 := optional_roundtrip (o := e.sourceTimestamp) (fun t _ => timestampSbs_roundtrip t)
  have h2 := optional_roundtrip (o := e.payload) (fn := payloadToSbs jc) (fn' := payloadFromSbs jc)
    (fun p hp => payloadSbs_roundtrip (hp ▸ h))
  unfold eventFromSbs eventToSbs
  simp only [Sbs.field, Dict.get_cons, String.reduceEq, if_false, if_true, ok_bind,
    eventIdSbs_roundtrip, eventTypeSbs_roundtrip, timestampSbs_roundtrip, h1, h2, pure_ok]

theorem registerEventSbs_roundtrip {jc : JsonCodec} {e : RegisterEvent}
    (h : JsonReadable jc e.payload) :
    registerEventFromSbs jc (registerEventToSbs jc e) = .ok e := by
  have h1 := optional_roundtrip (o := e.sourceTimestamp) (fun t _ => timestampSbs_roundtrip t)
  have h2 := optional_roundtrip (o := e.payload) (fn := payloadToSbs jc) (fn' := payloadFromSbs jc)
    (fun p hp => payloadSbs_roundtrip (hp ▸ h))
  unfold registerEventFromSbs registerEventToSbs
  simp only [Sbs.field, Dict.get_cons, String.reduceEq, if_false, if_true, ok_bind,
    eventTypeSbs_roundtrip, h1, h2, pure_ok]

theorem queryParamsSbs_roundtrip (p : QueryParams) :
    queryParamsFromSbs (queryParamsToSbs p) = .ok p := by
  have ht : ∀ o : Option Timestamp,
      optionalFromSbs timestampFromSbs (optionalToSbs timestampToSbs o) = .ok o :=
    fun o => optional_roundtrip (fun t _ => timestampSbs_roundtrip t)
  have he : ∀ o : Option (List EventType),
      optionalFromSbs eventTypesFromSbs (optionalToSbs eventTypesToSbs o) = .ok o :=
    fun o => optional_roundtrip (fun t _ => eventTypesSbs_roundtrip t)
  have hi : ∀ o : Option Int, optionalFromSbs Sbs.asInt (optionalToSbs .int o) = .ok o :=
    fun o => optional_roundtrip (fun t _ => rfl)
  have hid : ∀ o : Option EventId,
      optionalFromSbs eventIdFromSbs (optionalToSbs eventIdToSbs o) = .ok o :=
    fun o => optional_roundtrip (fun t _ => eventIdSbs_roundtrip t)
  cases p with
  | latest l =>
    simp only [queryParamsFromSbs, queryParamsToSbs, Sbs.asChoice, ok_bind, if_true, Sbs.field,
      Dict.get_cons, he, pure_ok]
  | timeseries p =>
    simp only [queryParamsFromSbs, queryParamsToSbs, Sbs.asChoice, ok_bind, if_true, Sbs.field,
      Dict.get_cons, he, pure_ok, String.reduceEq, if_false, ht, hi, hid, orderOf_value,
      orderByOf_value]
  | server p =>
    simp only [queryParamsFromSbs, queryParamsToSbs, Sbs.asChoice, ok_bind, if_true, Sbs.field,
      Dict.get_cons, pure_ok, String.reduceEq, if_false, hi, hid, Sbs.asInt, Sbs.asBool]

theorem queryResultSbs_roundtrip {jc : JsonCodec} {r : QueryResult}
    (h : ∀ e ∈ r.events, JsonReadable jc e.payload) :
    queryResultFromSbs jc (queryResultToSbs jc r) = .ok r := by
  have := mapE_map_id (f := eventToSbs jc) (g := eventFromSbs jc) (l := r.events)
    (fun e he => eventSbs_roundtrip (h e he))
  simp only [queryResultFromSbs, queryResultToSbs, Sbs.field, Dict.get_cons, if_true, ok_bind,
    Sbs.asList, this, String.reduceEq, if_false, Sbs.asBool, pure_ok]

/-! ## Conformance -/

theorem conforms_cons {n : String} {v : Sbs} {t : SbsType} {l : List (String × Sbs)}
    {fs : List (String × SbsType)} (h1 : Conforms v t) (h2 : Conforms (.record l) (.record fs)) :
    Conforms (.record ((n, v) :: l)) (.record ((n, t) :: fs)) := by
  cases h2 with
  | record hk hv =>
    refine .record (by simp [hk]) ?_
    intro i h h'
    cases i with
    | zero => exact h1
    | succ i => exact hv i (by simpa using h) (by simpa using h')

theorem conforms_empty : Conforms (.record []) (.record []) :=
  .record rfl (by intro i h; simp at h)

theorem conforms_optional {α : Type} {fn : α → Sbs} {t : SbsType} {o : Option α}
    (h : ∀ a, o = some a → Conforms (fn a) t) : Conforms (optionalToSbs fn o) t.optional := by
  cases o with
  | none => exact .choice (t := .none) (by simp) .none
  | some a => exact .choice (t := t) (by simp) (h a rfl)

theorem timestamp_conforms (t : Timestamp) : Conforms (timestampToSbs t) Schema.timestamp :=
  conforms_cons (.int _) (conforms_cons (.int _) conforms_empty)

theorem eventId_conforms (i : EventId) : Conforms (eventIdToSbs i) Schema.eventId :=
  conforms_cons (.int _) (conforms_cons (.int _) (conforms_cons (.int _) conforms_empty))

theorem eventType_conforms (t : EventType) : Conforms (eventTypeToSbs t) Schema.eventType := by
  refine .array ?_
  intro x hx
  obtain ⟨s, _, rfl⟩ := List.mem_map.1 hx
  exact .str s

theorem eventTypes_conforms (l : List EventType) :
    Conforms (eventTypesToSbs l) (.array Schema.eventType) := by
  refine .array ?_
  intro x hx
  obtain ⟨s, _, rfl⟩ := List.mem_map.1 hx
  exact eventType_conforms s

theorem payload_conforms (jc : JsonCodec) (p : Payload) :
    Conforms (payloadToSbs jc p) Schema.eventPayload := by
  cases p with
  | binary t d =>
    exact .choice (t := .record [("type", .string), ("data", .bytes)]) (by simp)
      (conforms_cons (.str _) (conforms_cons (.bytes _) conforms_empty))
  | json d => exact .choice (t := .string) (by simp) (.str _)

theorem event_conforms (jc : JsonCodec) (e : Event) : Conforms (eventToSbs jc e) Schema.event :=
  conforms_cons (eventId_conforms _) <| conforms_cons (eventType_conforms _) <|
  conforms_cons (timestamp_conforms _) <|
  conforms_cons (conforms_optional fun t _ => timestamp_conforms t) <|
  conforms_cons (conforms_optional fun p _ => payload_conforms jc p) conforms_empty

theorem registerEvent_conforms (jc : JsonCodec) (e : RegisterEvent) :
    Conforms (registerEventToSbs jc e) Schema.registerEvent :=
  conforms_cons (eventType_conforms _) <|
  conforms_cons (conforms_optional fun t _ => timestamp_conforms t) <|
  conforms_cons (conforms_optional fun p _ => payload_conforms jc p) conforms_empty

theorem order_conforms (o : Order) : Conforms (.choice o.value .none) Schema.order := by
  cases o <;> exact .choice (t := .none) (by simp [Order.value]) .none

theorem orderBy_conforms (o : OrderBy) : Conforms (.choice o.value .none) Schema.orderBy := by
  cases o <;> exact .choice (t := .none) (by simp [OrderBy.value]) .none

theorem queryParams_conforms (p : QueryParams) :
    Conforms (queryParamsToSbs p) Schema.queryParams := by
  have ht : ∀ o : Option Timestamp, Conforms (optionalToSbs timestampToSbs o) Schema.timestamp.optional :=
    fun o => conforms_optional fun t _ => timestamp_conforms t
  have he : ∀ o : Option (List EventType),
      Conforms (optionalToSbs eventTypesToSbs o) (SbsType.array Schema.eventType).optional :=
    fun o => conforms_optional fun t _ => eventTypes_conforms t
  have hi : ∀ o : Option Int, Conforms (optionalToSbs .int o) SbsType.integer.optional :=
    fun o => conforms_optional fun t _ => .int t
  have hid : ∀ o : Option EventId, Conforms (optionalToSbs eventIdToSbs o) Schema.eventId.optional :=
    fun o => conforms_optional fun t _ => eventId_conforms t
  cases p with
  | latest l =>
    refine .choice (cs := _) (List.mem_cons_self ..) (conforms_cons (he _) conforms_empty)
  | timeseries p =>
    refine .choice (cs := _) (List.mem_cons_of_mem _ (List.mem_cons_self ..)) ?_
    exact conforms_cons (he _) <| conforms_cons (ht _) <| conforms_cons (ht _) <|
      conforms_cons (ht _) <| conforms_cons (ht _) <| conforms_cons (order_conforms _) <|
      conforms_cons (orderBy_conforms _) <| conforms_cons (hi _) <| conforms_cons (hid _)
      conforms_empty
  | server p =>
    refine .choice (cs := _)
      (List.mem_cons_of_mem _ (List.mem_cons_of_mem _ (List.mem_cons_self ..))) ?_
    exact conforms_cons (.int _) <| conforms_cons (.bool _) <| conforms_cons (hi _) <|
      conforms_cons (hid _) conforms_empty

theorem queryResult_conforms (jc : JsonCodec) (r : QueryResult) :
    Conforms (queryResultToSbs jc r) Schema.queryResult := by
  refine conforms_cons (.array ?_) (conforms_cons (.bool _) conforms_empty)
  intro x hx
  obtain ⟨e, _, rfl⟩ := List.mem_map.1 hx
  exact event_conforms jc e

theorem status_conforms (s : Status) : Conforms (statusToSbs s) Schema.status := by
  cases s <;> exact .choice (t := .none) (by simp [Status.value]) .none

end HatEvent
