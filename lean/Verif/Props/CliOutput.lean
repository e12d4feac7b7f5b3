import Verif.Model.CliOutput
import Verif.Proof.ReqClient
import Verif.Props.Cli

/-! # C78: what the manager prints determines what was received; C79: what `register` sends and reports -/

namespace HatEvent

theorem cliHexDigit_inj : ∀ a < 16, ∀ b < 16, cliHexDigit a = cliHexDigit b → a = b := by decide

theorem cliHexChars_inj : ∀ a b : List UInt8, cliHexChars a = cliHexChars b → a = b
  | [], [], _ => rfl
  | [], _ :: _, h => by simp [cliHexChars] at h
  | _ :: _, [], h => by simp [cliHexChars] at h
  | x :: a, y :: b, h => by
    simp only [cliHexChars, List.cons.injEq] at h
    obtain ⟨h1, h2, h3⟩ := h
    have hx : x.toNat < 256 := x.toNat_lt
    have hy : y.toNat < 256 := y.toNat_lt
    have e1 := cliHexDigit_inj _ (by omega) _ (by omega) h1
    have e2 := cliHexDigit_inj _ (by omega) _ (by omega) h2
    have : x.toNat = y.toNat := by omega
    rw [UInt8.toNat_inj.1 this, cliHexChars_inj a b h3]

theorem cliHexDigit_lower : ∀ n < 16, cliHexDigit n ∈ "0123456789abcdef".toList := by decide

theorem cliTimestampToJson_inj {a b : Timestamp} (h : cliTimestampToJson a = cliTimestampToJson b) : a = b := by
  cases a; cases b; simp_all [cliTimestampToJson]

theorem cliEventIdToJson_inj {a b : EventId} (h : cliEventIdToJson a = cliEventIdToJson b) : a = b := by
  cases a; cases b; simp_all [cliEventIdToJson]

theorem cliPayloadToJson_inj {a b : Payload} (h : cliPayloadToJson a = cliPayloadToJson b) : a = b := by
  cases a <;> cases b <;> simp [cliPayloadToJson] at h
  · rw [h.1, cliHexChars_inj _ _ (String.ofList_injective h.2)]
  · rw [h]

theorem optionToJson_inj {α : Type} {f : α → Json} (hf : ∀ a b, f a = f b → a = b) (hn : ∀ a, f a ≠ .null) {a b : Option α}
    (h : optionToJson f a = optionToJson f b) : a = b := by
  cases a <;> cases b <;> simp only [optionToJson] at h
  · rfl
  · exact absurd h.symm (hn _)
  · exact absurd h (hn _)
  · rw [hf _ _ h]

theorem map_inj {α β : Type} {f : α → β} (hf : ∀ a b, f a = f b → a = b) {a b : List α} (h : a.map f = b.map f) : a = b :=
  List.map_injective_iff.2 (fun _ _ h => hf _ _ h) h

theorem cliEventToJson_inj {a b : Event} (h : cliEventToJson a = cliEventToJson b) : a = b := by
  cases a; cases b
  simp only [cliEventToJson, Json.obj.injEq, List.cons.injEq, Prod.mk.injEq, Json.arr.injEq, true_and, and_true] at h
  obtain ⟨h1, h2, h3, h4, h5⟩ := h
  have e1 := cliEventIdToJson_inj h1
  have e2 := map_inj (fun a b h => by injection h) h2
  have e3 := cliTimestampToJson_inj h3
  have e4 := optionToJson_inj (fun _ _ => cliTimestampToJson_inj) (by simp [cliTimestampToJson]) h4
  have e5 := optionToJson_inj (fun _ _ => cliPayloadToJson_inj) (by intro a; cases a <;> simp [cliPayloadToJson]) h5
  simp_all

/-- Different events are printed differently. -/
theorem C78_event (a b : Event) (h : cliEventToJson a = cliEventToJson b) : a = b := cliEventToJson_inj h

/-- Two events that differ only in the kind of an empty payload. -/
example : cliEventToJson ⟨⟨1, 2, 3⟩, ["a"], ⟨4, 5⟩, none, some (.binary "json" [])⟩ ≠
    cliEventToJson ⟨⟨1, 2, 3⟩, ["a"], ⟨4, 5⟩, none, some (.json (.str ""))⟩ := fun h => by cases C78_event _ _ h

/-- Different query results are printed differently. -/
theorem C78_result (a b : QueryResult) (h : queryResultToJson a = queryResultToJson b) : a = b := by
  cases a; cases b
  simp only [queryResultToJson, Json.obj.injEq, List.cons.injEq, Prod.mk.injEq, Json.arr.injEq, Json.bool.injEq, true_and,
    and_true] at h
  rw [map_inj (fun _ _ => cliEventToJson_inj) h.1, h.2]

example : queryResultToJson ⟨[], true⟩ ≠ queryResultToJson ⟨[], false⟩ := fun h => by cases C78_result _ _ h

/-- Different notifications are printed differently. -/
theorem C78_notification (a b : List Event) (h : notificationToJson a = notificationToJson b) : a = b := by
  simp only [notificationToJson, Json.arr.injEq] at h
  exact map_inj (fun _ _ => cliEventToJson_inj) h

example : notificationToJson [⟨⟨1, 2, 3⟩, ["a"], ⟨4, 5⟩, none, none⟩] ≠ notificationToJson [] := fun h => by cases C78_notification _ _ h

/-- Binary data are printed as two lower case digits a byte. -/
theorem C78_hex (data : List UInt8) :
    (cliHexChars data).length = 2 * data.length ∧ ∀ c ∈ cliHexChars data, c ∈ "0123456789abcdef".toList := by
  induction data with
  | nil => exact ⟨rfl, fun c hc => nomatch hc⟩
  | cons b rest ih =>
    have hb : b.toNat < 256 := b.toNat_lt
    refine ⟨by simp only [cliHexChars, List.length_cons, ih.1]; omega, ?_⟩
    intro c hc
    simp only [cliHexChars, List.mem_cons] at hc
    rcases hc with rfl | rfl | hc
    · exact cliHexDigit_lower _ (by omega)
    · exact cliHexDigit_lower _ (by omega)
    · exact ih.2 c hc

example : cliHexChars [0, 171, 255] = "00abff".toList := by decide

/-! ### C79 -/

/-- The event has the type and source timestamp of the command line. -/
theorem C79_event (r : Reading) (o : CliRegister) (e : RegisterEvent) (h : cliRegister r o = .ok e) :
    Spec.Segments o.eventType e.type ∧ e.sourceTimestamp = o.sourceTimestamp := by
  unfold cliRegister at h
  split at h
  · cases h; exact ⟨parseEventType_segments _, rfl⟩
  · cases h

/-- A reader of JSON texts for examples: each text is the number of its bytes. -/
def exReading : Reading := ⟨fun _ b => .ok (.int b.length), fun p => if p = "x.yaml" then some .yaml else none⟩

example : (cliRegister exReading { source := .stdin [1, 2], eventType := "a/b" }).toOption.map (fun e => e.type) = some ["a", "b"] := by
  decide

/-- With payload type `none` there is no payload, with `binary` it is the input byte by byte with the given type, and otherwise
the decoded input; it does not matter whether the input is a file or standard input. -/
theorem C79_payload (r : Reading) (o : CliRegister) :
    (o.payloadType = some .none → (cliRegister r o).map (fun e => e.payload) = .ok none) ∧
    (o.payloadType = some .binary → (cliRegister r o).map (fun e => e.payload) = .ok (some (.binary o.binaryType o.source.bytes))) ∧
    ∀ f, (o.payloadType = some .json ∧ f = .json ∨ o.payloadType = some .yaml ∧ f = .yaml ∨ o.payloadType = some .toml ∧ f = .toml) →
      (cliRegister r o).map (fun e => e.payload) = (r.decode f o.source.bytes).map (fun j => some (.json j)) := by
  have key : (cliRegister r o).map (fun e => e.payload) = readPayload r o.payloadType o.binaryType o.source := by
    unfold cliRegister
    split
    · next h => rw [h]; rfl
    · next h => rw [h]; rfl
  rw [key]
  refine ⟨fun h => by rw [h]; rfl, fun h => by rw [h]; cases o.source <;> rfl, ?_⟩
  rintro f (⟨h, rfl⟩ | ⟨h, rfl⟩ | ⟨h, rfl⟩) <;> rw [h] <;> cases o.source <;>
    simp only [readPayload, payloadFrom, payloadIn, stdinFormat, fileFormat, PayloadSource.bytes] <;>
    cases r.decode _ _ <;> rfl

example : ((cliRegister exReading { payloadType := some .binary, binaryType := "t", source := .file "x" [1, 2], eventType := "a" }).map
    fun e => e.payload) = .ok (some (.binary "t" [1, 2])) := rfl

/-- Without payload type standard input is JSON; a file has the format of its suffix, and is binary if the suffix is not known. -/
theorem C79_default (r : Reading) (o : CliRegister) (h : o.payloadType = none) :
    (∀ b, o.source = .stdin b →
      (cliRegister r o).map (fun e => e.payload) = (r.decode .json b).map (fun j => some (.json j))) ∧
    (∀ p b f, o.source = .file p b → r.suffix p = some f →
      (cliRegister r o).map (fun e => e.payload) = (r.decode f b).map (fun j => some (.json j))) ∧
    (∀ p b, o.source = .file p b → r.suffix p = none →
      (cliRegister r o).map (fun e => e.payload) = .ok (some (.binary o.binaryType b))) := by
  have key : (cliRegister r o).map (fun e => e.payload) = readPayload r o.payloadType o.binaryType o.source := by
    unfold cliRegister
    split
    · next h => rw [h]; rfl
    · next h => rw [h]; rfl
  rw [key, h]
  refine ⟨fun b hb => ?_, fun p b f hb hf => ?_, fun p b hb hf => ?_⟩
  · rw [hb]; simp only [readPayload, payloadFrom, payloadIn, stdinFormat]; cases r.decode _ _ <;> rfl
  · rw [hb]; simp only [readPayload, payloadFrom, payloadIn, fileFormat, hf]; cases r.decode _ _ <;> rfl
  · rw [hb]; simp only [readPayload, payloadFrom, payloadIn, fileFormat, hf]; rfl

example : ((cliRegister exReading { source := .file "x.yaml" [1, 2], eventType := "a" }).map fun e => e.payload) =
    .ok (some (.json (.int 2))) := rfl

/-! The exit code. -/

/-- A call without response. -/
def Blind (p : CallPhase) : Prop := (∃ c, p = .sending c false) ∨ ∃ e, p = .finished e ∧ ∀ x, e ≠ .answered x

theorem blind_step {s : ReqClient} {k : Nat} (hk : k < s.nextCall) (h : Blind (s.calls k)) (a : ReqAct) :
    Blind ((s.step a).calls k) := by
  have hm := ReqClient.moves_step s a k
  generalize hp : (s.step a).calls k = p at hm
  cases hm with
  | stay => exact h
  | made _ hn => omega
  | wait c h' => rw [h'] at h; rcases h with ⟨_, h⟩ | ⟨_, h, _⟩ <;> cases h
  | fail c h' => exact .inr ⟨_, rfl, by simp⟩
  | sent c h' => exact .inr ⟨_, rfl, by simp⟩
  | resume c e h' => rw [h'] at h; rcases h with ⟨_, h⟩ | ⟨_, h, _⟩ <;> cases h
  | cancel h1 h2 => exact .inr ⟨_, rfl, by simp⟩
  | answer c x h' => rw [h'] at h; rcases h with ⟨_, h⟩ | ⟨_, h, _⟩ <;> cases h
  | close _ c h' => rw [h'] at h; rcases h with ⟨_, h⟩ | ⟨_, h, _⟩ <;> cases h

theorem blind_run {s : ReqClient} {k : Nat} (hk : k < s.nextCall) (h : Blind (s.calls k)) (acts : List ReqAct) :
    Blind ((s.run acts).calls k) := by
  have : k < (s.run acts).nextCall ∧ Blind ((s.run acts).calls k) := by
    induction acts using List.reverseRecOn with
    | nil => exact ⟨hk, h⟩
    | append_singleton acts a ih =>
      rw [ReqClient.run_snoc]
      exact ⟨Nat.lt_of_lt_of_le ih.1 (ReqClient.next_step _ a).1, blind_step ih.1 ih.2 a⟩
  exact this.2

/-- The call of `register` never gets events: its exit code is 1 or, if the command was interrupted, 0. -/
theorem C79_exit (status : Status) (before after : List ReqAct) (ev : RegisterEvent) (e : CallEnd)
    (h : ((ReqClient.init status).run (before ++ cliRegisterCall ev :: after)).calls ((ReqClient.init status).run before).nextCall =
      .finished e) : registerExit e = 1 ∨ e = .cancelled := by
  rw [ReqClient.run_append, ReqClient.run_cons] at h
  have hb : Blind ((((ReqClient.init status).run before).step (cliRegisterCall ev)).calls ((ReqClient.init status).run before).nextCall) ∧
      ((ReqClient.init status).run before).nextCall < (((ReqClient.init status).run before).step (cliRegisterCall ev)).nextCall := by
    generalize (ReqClient.init status).run before = s
    simp only [cliRegisterCall, ReqClient.step, ReqClient.request]
    split
    · exact ⟨.inl ⟨_, by simp [ReqClient.setCall]; rfl⟩, Nat.lt_succ_self _⟩
    · exact ⟨.inr ⟨_, by simp [ReqClient.setCall]; rfl, by simp⟩, Nat.lt_succ_self _⟩
  have hb' := blind_run hb.2 hb.1 after
  rw [h] at hb'
  rcases hb' with ⟨_, h'⟩ | ⟨e', h', hx⟩
  · cases h'
  · cases h'
    cases e with
    | nothing => exact .inl rfl
    | answered x => exact absurd rfl (hx x)
    | connectionError => exact .inl rfl
    | cancelled => exact .inr rfl

/-- The full claim: the exit code of a command that was not interrupted tells whether the event was handed over to the connection (at least). -/
def C79_exit_claim : Prop :=
  ∀ (status : Status) (before after : List ReqAct) (ev : RegisterEvent) (e : CallEnd),
    let s := (ReqClient.init status).run before
    ((ReqClient.init status).run (before ++ cliRegisterCall ev :: after)).calls s.nextCall = .finished e → e ≠ .cancelled →
    (∃ conv last, .register conv [ev] last ∈ ((ReqClient.init status).run (before ++ cliRegisterCall ev :: after)).sent) → registerExit e = 0

/-- It does not hold: `register` asks for no response and takes the missing result for a failure.  The command exits with 1 whenever it is not
interrupted (`C79_exit`), also if the event was sent and the server has registered it. -/
theorem C79_refuted : ¬ C79_exit_claim := by
  intro h
  have := h .operational [.start] [.sendDone 0] ⟨["a"], none, none⟩ .nothing (by rfl) (by simp) ⟨0, true, by exact List.mem_cons_self⟩
  simp [registerExit] at this

example : ((ReqClient.init .operational).run ([.start] ++ cliRegisterCall ⟨["a"], none, none⟩ :: [.sendDone 0])).calls 0 =
    .finished .nothing := rfl

end HatEvent
