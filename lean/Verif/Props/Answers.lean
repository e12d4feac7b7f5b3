import Verif.Proof.Answers
import Verif.Props.Link
import Verif.Props.ReqClient

/-!
# Requests and responses between client and server (C68)
-/

namespace HatEvent
open Spec EvServer

/-- **C68** The server answers the requests of each client in the order it received them, each of them at most once; while the loop of the client waits for the
next message all requests that want a response are answered, and while it handles a request all requests before that one are. -/
theorem C68_order (useC : Bool) (token : Option String) (acts : List EvAct) (id : Nat) :
    let c := ((EvServer.init useC token).run acts).conns id
    c.handled.Sublist (received id acts) ∧
      (answersOf c.sent).map Prod.fst <+: c.handled.filterMap asksFor ∧
      (∀ info, c.phase = .ready info → (answersOf c.sent).map Prod.fst = c.handled.filterMap asksFor) ∧
      (∀ info msg, c.phase = .busy info msg →
        ∃ before, c.handled = before ++ [msg] ∧ (answersOf c.sent).map Prod.fst = before.filterMap asksFor) := by
  intro c
  have h := ansOk_run useC token acts id
  refine ⟨handled_from useC token acts id, ansOk_prefix h, fun info hp => ?_, fun info msg hp => ?_⟩
  · change AnsOk c at h
    unfold AnsOk at h
    rw [hp] at h
    exact h
  · change AnsOk c at h
    unfold AnsOk at h
    rw [hp] at h
    exact h

/-- **C68** A response has what the callback gave while the request with the conversation of the response was handled. -/
theorem C68_result (useC : Bool) (token : Option String) (acts : List EvAct) (id : Nat) {conv : Nat} {x : Answer}
    (h : (conv, x) ∈ answersOf (((EvServer.init useC token).run acts).conns id).sent) :
    ∃ pre result post info msg, acts = pre ++ .reply id result :: post ∧
      (((EvServer.init useC token).run pre).conns id).phase = .busy info msg ∧
      asksFor msg = some conv ∧ answerOf result = some x ∧ Suits msg x :=
  answer_from useC token acts id h

/-- Requests of a client: a registration without response, a registration and a query. -/
def exRequests : List EvAct :=
  exConnect 0 (exReq false none) ++
    [.receive 0 (.register 0 [] true), .reply 0 (.registered (some [])), .receive 0 (.register 1 [] false), .reply 0 (.registered none),
      .receive 0 (.query 2 (.server ⟨1, false, none, none⟩))]

example :
    let c := ((EvServer.init false none).run exRequests).conns 0
    (answersOf c.sent).map Prod.fst = [1] ∧ c.handled.filterMap asksFor = [1, 2] ∧ (∃ info msg, c.phase = .busy info msg) ∧
      (1, Answer.events none) ∈ answersOf c.sent :=
  ⟨rfl, rfl, ⟨_, _, rfl⟩, List.mem_cons_self⟩

/-- **C68** From end to end: if a call of `register` or `query` of the client returns a response, it is what a callback of the server gave while it
handled the message this very call has sent, whatever other calls, cancellations, clients and delays there are. -/
theorem C68_roundtrip (useC : Bool) (token : Option String) (id : Nat) (before after : List LinkAct) {r : ReqAct} (hr : Asks r)
    (hf : Faithful id useC token (before ++ .client r :: after))
    {c : ReqClient} (hc : ((Link.init id useC token).run before).client = some c) (ho : c.isOpen = true)
    {c' : ReqClient} (hc' : ((Link.init id useC token).run (before ++ .client r :: after)).client = some c') {x : Answer}
    (hx : c'.calls c.nextCall = .finished (.answered x)) :
    ∃ msg, (c.step r).sent = c.sent ++ [msg] ∧ Suits msg x ∧
      ∃ pre result post info, serverActs (before ++ .client r :: after) = pre ++ .reply id result :: post ∧
        (((EvServer.init useC token).run pre).conns id).phase = .busy info msg ∧ answerOf result = some x := by
  obtain ⟨status, cacts, rfl⟩ := Link.reached id useC token before hc
  have hstep : (((Link.init id useC token).run before).step (.client r)).client = some (((ReqClient.init status).run cacts).step r) := by
    cases hr <;> simp [Link.step, Link.clientStep, hc]
  have hid : (((Link.init id useC token).run before).step (.client r)).id = id := by
    rw [Link.id_step, (Link.server_run id useC token before).1]
  obtain ⟨more, h1, h2, h3⟩ := Link.evolve after hstep
  have hrun : (((Link.init id useC token).run before).step (.client r)).run after =
      (Link.init id useC token).run (before ++ .client r :: after) := by
    rw [Link.run_append]; rfl
  rw [hrun, hid] at h3
  rw [hrun, hc'] at h1
  have h1 := Option.some.inj h1
  have hrun' : (((ReqClient.init status).run cacts).step r).run more = (ReqClient.init status).run (cacts ++ r :: more) := by
    rw [ReqClient.run_append]; rfl
  rw [hrun'] at h1
  obtain ⟨⟨m, hm1, hm2⟩, hown⟩ := C43_own status cacts more hr ho
  rw [h1] at hx
  have hrec := hown x hx
  obtain ⟨smsg, last, hp, hin⟩ := h3 _ hrec
  have hans : (((ReqClient.init status).run cacts).nextConv, x) ∈
      answersOf (((EvServer.init useC token).run (serverActs (before ++ .client r :: after))).conns id).sent := by
    rw [(Link.server_run id useC token (before ++ .client r :: after)).2] at hin
    refine List.mem_filterMap.2 ⟨smsg, hin, ?_⟩
    cases smsg with
    | registerRes conv evs => cases hp; rfl
    | queryRes conv r => cases hp; rfl
    | _ => cases hp
  obtain ⟨pre, result, post, info, msg, e1, e2, e3, e4, e5⟩ := answer_from useC token _ id hans
  have hrec : msg ∈ received id (serverActs (before ++ .client r :: after)) := by
    have := busy_handled e2
    have he : received id (serverActs (before ++ .client r :: after)) = received id pre ++ received id (.reply id result :: post) := by
      rw [e1]; simp [received]
    rw [he]
    exact List.mem_append_left _ this
  have hsent : msg ∈ c'.sent := by
    have := (hf _ List.prefix_rfl).subset hrec
    unfold Spec.Link.requests at this
    rw [hc'] at this
    exact this
  have hconv : requestConv msg = some ((ReqClient.init status).run cacts).nextConv := by
    cases msg with
    | register conv evs last =>
      simp only [asksFor] at e3
      split at e3
      · cases e3
      · exact e3
    | query conv p => exact e3
    | _ => cases e3
  have hmem : m ∈ c'.sent := by
    rw [h1, ← hrun']
    refine (ReqClient.sent_run _ more).subset ?_
    rw [hm1]
    simp
  have hnodup := (C43_conversation status (cacts ++ r :: more)).1
  rw [← h1] at hnodup
  have hmm : msg = m := by
    exact nodup_filterMap_inj hnodup hsent hmem hconv hm2
  subst hmm
  exact ⟨msg, hm1, e5, pre, result, post, info, e1, e2, e4⟩

/-- A client has connected. -/
def exDialog : List LinkAct := (exConnect 0 (exReq false none)).map .server ++ [.connect, .client .start]

/-- The server fails to register and tells the client so. -/
def exFailure : List LinkAct :=
  [.server (.receive 0 (.register 0 [] false)), .client (.sendDone 0), .server (.reply 0 (.registered none)), .deliver true, .client (.resume 0)]

example : Asks (.register [] true) ∧ Faithful 0 false none (exDialog ++ .client (.register [] true) :: exFailure) ∧
    ((Link.init 0 false none).run exDialog).client.map (fun c => (c.isOpen, c.nextCall)) = some (true, 0) ∧
    ((Link.init 0 false none).run (exDialog ++ .client (.register [] true) :: exFailure)).client.map (fun c => c.calls 0) =
      some (.finished (.answered (.events none))) := by
  refine ⟨.register [], ?_, rfl, rfl⟩
  intro before hb
  rw [List.prefix_iff_eq_take.1 hb]
  match before.length with
  | 0 => exact ⟨_, rfl⟩
  | 1 => exact ⟨_, rfl⟩
  | 2 => exact ⟨_, rfl⟩
  | 3 => exact ⟨_, rfl⟩
  | 4 => exact ⟨_, rfl⟩
  | 5 => exact ⟨_, rfl⟩
  | 6 => exact ⟨_, rfl⟩
  | 7 => exact ⟨[], rfl⟩
  | 8 => exact ⟨[], rfl⟩
  | 9 => exact ⟨[], rfl⟩
  | 10 => exact ⟨[], rfl⟩
  | n + 11 =>
    rw [List.take_of_length_le (by simp [exDialog, exFailure, exConnect])]
    exact ⟨[], rfl⟩

end HatEvent
