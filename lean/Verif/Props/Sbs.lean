import Verif.Proof.Sbs

/-!
# C14, C15: wire format
-/

namespace HatEvent
open Spec

/-- C14: events come back unchanged (if hat-json reads its own text back), and
conform to the schema. -/
theorem C14_event (jc : JsonCodec) (e : Event) (h : JsonReadable jc e.payload) :
    eventFromSbs jc (eventToSbs jc e) = .ok e ∧ Conforms (eventToSbs jc e) Schema.event :=
  ⟨eventSbs_roundtrip h, event_conforms jc e⟩

/-- C14: register events. -/
theorem C14_register_event (jc : JsonCodec) (e : RegisterEvent) (h : JsonReadable jc e.payload) :
    registerEventFromSbs jc (registerEventToSbs jc e) = .ok e ∧
      Conforms (registerEventToSbs jc e) Schema.registerEvent :=
  ⟨registerEventSbs_roundtrip h, registerEvent_conforms jc e⟩

/-- C14: timestamps. -/
theorem C14_timestamp (t : Timestamp) :
    timestampFromSbs (timestampToSbs t) = .ok t ∧ Conforms (timestampToSbs t) Schema.timestamp :=
  ⟨timestampSbs_roundtrip t, timestamp_conforms t⟩

/-- C14: payloads. -/
theorem C14_payload (jc : JsonCodec) (p : Payload) (h : JsonReadable jc (some p)) :
    payloadFromSbs jc (payloadToSbs jc p) = .ok p ∧
      Conforms (payloadToSbs jc p) Schema.eventPayload :=
  ⟨payloadSbs_roundtrip h, payload_conforms jc p⟩

/-- C14: status. -/
theorem C14_status (s : Status) :
    statusFromSbs (statusToSbs s) = .ok s ∧ Conforms (statusToSbs s) Schema.status :=
  ⟨by cases s <;> rfl, status_conforms s⟩

/-- C14: a status that is not one of the four is rejected. -/
theorem C14_status_unknown (n : String) (v : Sbs)
    (h : ∀ s : Status, s.value ≠ n) : ∃ m, statusFromSbs (.choice n v) = .error (.valueError m) := by
  have h1 := h .standby; have h2 := h .starting; have h3 := h .operational; have h4 := h .stopping
  simp only [Status.value, ne_eq] at h1 h2 h3 h4
  refine ⟨"not a valid Status", ?_⟩
  simp only [statusFromSbs, Sbs.asChoice, ok_bind, if_neg (Ne.symm h1), if_neg (Ne.symm h2),
    if_neg (Ne.symm h3), if_neg (Ne.symm h4)]
  rfl

/-- A codec that reads the empty object back. -/
def exCodec : JsonCodec := ⟨fun _ => "{}", fun _ => .ok (.obj [])⟩

example : JsonReadable exCodec (some (.json (.obj []))) := by
  intro d h
  simp only [Option.some.injEq, Payload.json.injEq] at h
  subst h
  rfl
example : ∀ s : Status, s.value ≠ "x" := by intro s; cases s <;> decide

/-- C15: query parameters come back unchanged and conform to the schema. -/
theorem C15_params (p : QueryParams) :
    queryParamsFromSbs (queryParamsToSbs p) = .ok p ∧
      Conforms (queryParamsToSbs p) Schema.queryParams :=
  ⟨queryParamsSbs_roundtrip p, queryParams_conforms p⟩

/-- C15: query results. -/
theorem C15_result (jc : JsonCodec) (r : QueryResult)
    (h : ∀ e ∈ r.events, JsonReadable jc e.payload) :
    queryResultFromSbs jc (queryResultToSbs jc r) = .ok r ∧
      Conforms (queryResultToSbs jc r) Schema.queryResult :=
  ⟨queryResultSbs_roundtrip h, queryResult_conforms jc r⟩

example : ∀ e ∈ [(⟨⟨1, 1, 1⟩, ["a"], ⟨0, 0⟩, none, some (.json (.obj []))⟩ : Event)],
    JsonReadable exCodec e.payload := by
  intro e he d h
  simp only [List.mem_singleton] at he
  subst he
  simp only [Option.some.injEq, Payload.json.injEq] at h
  subst h
  rfl

end HatEvent
