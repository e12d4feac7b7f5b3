import Verif.Proof.LinkRun

/-!
# A client connected to a server (C67)
-/

namespace HatEvent
open Spec EvServer

/-- **C67** Whatever happens on the server, on the client and on the connection between them: the events the client is told are, in order and without repetition, the
first of those it asked for while it was known to the server.  This holds for all events, or for events with some property `P`, if the server does
not call `notify_events` with such events for the client while an earlier call with such events for it is running.  The backends call it so for the events of each
server, unless a caller is cancelled (C81).  Missing: overlapping calls, for which it is false. -/
theorem C67_notified_partial (P : Event → Bool) (useC : Bool) (token : Option String) (id : Nat) (acts : List LinkAct)
    (hseq : InTurn P id (EvServer.init useC token) (serverActs acts))
    (hn : ∀ before, before <+: serverActs acts → CleanClient id ((EvServer.init useC token).run before))
    {c : ReqClient} (hc : ((Link.init id useC token).run acts).client = some c) :
    c.notified.flatten.filter P <+: (due id (EvServer.init useC token) (serverActs acts)).filter P := by
  have ho := owed_run P useC token id (serverActs acts) hseq hn
  obtain ⟨h1, h2⟩ := Link.server_run id useC token acts
  have hs := Link.seen_run id useC token acts
  unfold Link.Seen at hs
  rw [hc] at hs
  obtain ⟨_, _, h3, _, _⟩ := hs
  refine List.IsPrefix.trans ?_ ho.pre
  rw [h3, h1, h2]
  unfold EvServer.got
  rw [List.filter_flatten, ← List.flatMap_def]
  generalize hl : (((EvServer.init useC token).run (serverActs acts)).conns id).sent = l
  conv => rhs; rw [← List.take_append_drop ((Link.init id useC token).run acts).read l]
  rw [allNotes_append, List.flatMap_append]
  exact List.prefix_append _ _

/-- **C67** Once everything sent is delivered, no call of `notify_events` is running and the connection is not lost, the client was told all of them.
Missing: as above. -/
theorem C67_complete_partial (P : Event → Bool) (useC : Bool) (token : Option String) (id : Nat) (acts : List LinkAct)
    (hseq : InTurn P id (EvServer.init useC token) (serverActs acts))
    (hn : ∀ before, before <+: serverActs acts → CleanClient id ((EvServer.init useC token).run before))
    {c : ReqClient} (hc : ((Link.init id useC token).run acts).client = some c)
    (hread : ((Link.init id useC token).run acts).read = (((EvServer.init useC token).run (serverActs acts)).conns id).sent.length)
    (hret : ∀ k, (((EvServer.init useC token).run (serverActs acts)).calls k).returned)
    (hl : (((EvServer.init useC token).run (serverActs acts)).conns id).lost = false) :
    c.notified.flatten.filter P = (due id (EvServer.init useC token) (serverActs acts)).filter P := by
  have ho := owed_run P useC token id (serverActs acts) hseq hn
  obtain ⟨h1, h2⟩ := Link.server_run id useC token acts
  have hs := Link.seen_run id useC token acts
  unfold Link.Seen at hs
  rw [hc] at hs
  obtain ⟨_, _, h3, _, _⟩ := hs
  obtain ⟨k, _, hall⟩ := ho.all
  have hall := hall hl
  rw [pending_of_returned (hret k), List.append_nil] at hall
  rw [← hall, h3, h1, h2, hread, List.take_length]
  unfold EvServer.got
  rw [List.filter_flatten, ← List.flatMap_def]

/-- **C67** Once everything sent is delivered and no call of `set_status` is running, a known client sees the status of the server, which was given by
the latest call of `set_status`. -/
theorem C67_status (useC : Bool) (token : Option String) (id : Nat) (acts : List LinkAct)
    {c : ReqClient} (hc : ((Link.init id useC token).run acts).client = some c)
    (hread : ((Link.init id useC token).run acts).read = (((EvServer.init useC token).run (serverActs acts)).conns id).sent.length)
    (ht : ∀ k, ((EvServer.init useC token).run (serverActs acts)).tasks k = []) {info : ConnInfo}
    (hm : (id, info) ∈ ((EvServer.init useC token).run (serverActs acts)).infos)
    (hl : (((EvServer.init useC token).run (serverActs acts)).conns id).lost = false) :
    c.status = ((serverActs acts).filterMap EvAct.status?).getLast?.getD .standby := by
  obtain ⟨h1, h2⟩ := Link.server_run id useC token acts
  have hs := Link.seen_run id useC token acts
  unfold Link.Seen at hs
  rw [hc] at hs
  obtain ⟨_, _, _, h3, _⟩ := hs
  rw [h1, h2, hread, List.take_length, C41_converged useC token (serverActs acts) ht hm hl, C41_current] at h3
  exact (Option.some.inj h3).symm

/-- A client connects, two calls of `notify_events` and a change of status. -/
def exLink : List LinkAct :=
  (exConnect 0 (exReq false none)).map .server ++
    [.connect, .client .start, .server (.notify [exNotified ["a"] 1, exNotified ["b"] 1] false false), .server (.send 0 0), .server (.setStatus .operational),
      .deliver true, .server (.statusStep 0), .client (.callbackDone true), .deliver true,
      .server (.notify [exNotified ["a", "x"] 2, exNotified ["a"] 2] false true), .server (.send 1 0), .client (.callbackDone true), .deliver false,
      .client (.callbackDone true), .server (.await_ 1 0), .server (.receive 0 (.ack 1))]

example : ((Link.init 0 false none).run exLink).client.map (fun c => (c.notified, c.status)) =
    some ([[exNotified ["a"] 1], [exNotified ["a", "x"] 2, exNotified ["a"] 2]], .operational) := rfl

theorem exLink_inTurn : InTurn (fun _ => true) 0 (EvServer.init false none) (serverActs exLink) := by
  intro before events persisted withAck after he _ j hj _
  have hs : serverActs exLink = exConnect 0 (exReq false none) ++
    [.notify [exNotified ["a"] 1, exNotified ["b"] 1] false false, .send 0 0, .setStatus .operational, .statusStep 0,
      .notify [exNotified ["a", "x"] 2, exNotified ["a"] 2] false true, .send 1 0, .await_ 1 0, .receive 0 (.ack 1)] := rfl
  rw [hs] at he
  match before with
  | [] => simp [exConnect] at he
  | [_] => simp [exConnect] at he
  | [_, _] => simp [exConnect] at he
  | [a, b, d] =>
    simp only [exConnect, List.cons_append, List.nil_append, List.cons.injEq] at he
    obtain ⟨rfl, rfl, rfl, _⟩ := he
    cases hj
  | [_, _, _, _] => simp [exConnect] at he
  | [_, _, _, _, _] => simp [exConnect] at he
  | [_, _, _, _, _, _] => simp [exConnect] at he
  | [a, b, d, e, f, g, h] =>
    simp only [exConnect, List.cons_append, List.nil_append, List.cons.injEq] at he
    obtain ⟨rfl, rfl, rfl, rfl, rfl, rfl, rfl, _⟩ := he
    have hj : j < 1 := hj
    obtain rfl : j = 0 := by omega
    intro t ht
    obtain rfl := List.mem_singleton.1 ht
    rfl
  | [_, _, _, _, _, _, _, _] => simp [exConnect] at he
  | [_, _, _, _, _, _, _, _, _] => simp [exConnect] at he
  | [_, _, _, _, _, _, _, _, _, _] => simp [exConnect] at he
  | _ :: _ :: _ :: _ :: _ :: _ :: _ :: _ :: _ :: _ :: _ :: rest => simp [exConnect] at he

example : InTurn (fun _ => true) 0 (EvServer.init false none) (serverActs exLink) ∧
    (∀ before, before <+: serverActs exLink → CleanClient 0 ((EvServer.init false none).run before)) ∧
    ((Link.init 0 false none).run exLink).read = (((EvServer.init false none).run (serverActs exLink)).conns 0).sent.length ∧
    (∀ k, (((EvServer.init false none).run (serverActs exLink)).calls k).returned) ∧
    (∀ k, ((EvServer.init false none).run (serverActs exLink)).tasks k = []) ∧
    (∃ info, (0, info) ∈ ((EvServer.init false none).run (serverActs exLink)).infos) ∧
    (((EvServer.init false none).run (serverActs exLink)).conns 0).lost = false := by
  refine ⟨exLink_inTurn, ?_, rfl, ?_, ?_, ⟨_, List.mem_cons_self⟩, rfl⟩
  · intro before _ hu
    rw [useC_run] at hu
    cases hu
  · intro k
    match k with
    | 0 => intro t ht; obtain rfl := List.mem_singleton.1 ht; rfl
    | 1 => intro t ht; obtain rfl := List.mem_singleton.1 ht; rfl
    | k + 2 => intro t ht; cases ht
  · intro k
    match k with
    | 0 => rfl
    | k + 1 => rfl

/-- Two clients; the first call is to notify both and has not got to the second one when another call notifies only the second one. -/
def exOvertake : List LinkAct :=
  (exConnect 0 ⟨"first", none, [["a"]], none, false⟩ ++ exConnect 1 ⟨"second", none, [["*"]], none, false⟩).map .server ++
    [.connect, .client .start, .server (.notify [exNotified ["a"] 1] false false), .server (.notify [exNotified ["b"] 2] false false), .server (.send 1 1),
      .server (.send 0 0), .server (.send 0 1), .deliver true, .client (.callbackDone true), .deliver true]

/-- **C67** is false for overlapping calls: `notify_events` goes through the clients in order and waits for each of them (`server.py:126-128`), so another call may
overtake it.  The client sees the events in the other order. -/
theorem C67_overlap_refuted :
    ¬ ∀ (useC : Bool) (token : Option String) (id : Nat) (acts : List LinkAct),
      (∀ before, before <+: serverActs acts → CleanClient id ((EvServer.init useC token).run before)) →
      ∀ c, ((Link.init id useC token).run acts).client = some c →
        c.notified.flatten <+: due id (EvServer.init useC token) (serverActs acts) := by
  intro h
  have h := h false none 1 exOvertake (fun before _ hu => by rw [useC_run] at hu; cases hu) _ rfl
  have hd : due 1 (EvServer.init false none) (serverActs exOvertake) = [exNotified ["a"] 1, exNotified ["b"] 2] := by
    have hw : ∀ e : Event, e.id.server = 1 → wanted ⟨"second", none, [["*"]], none, false⟩ [e] = [e] := by
      intro e _
      unfold wanted
      rw [List.filter_eq_self]
      intro a _
      simp only [decide_eq_true_eq]
      exact ⟨⟨_, List.mem_cons_self, .star _⟩, .inl trivial⟩
    have hu : due 1 (EvServer.init false none) (serverActs exOvertake) =
        (if false = false then wanted ⟨"second", none, [["*"]], none, false⟩ [exNotified ["a"] 1] else []) ++
        ((if false = false then wanted ⟨"second", none, [["*"]], none, false⟩ [exNotified ["b"] 2] else []) ++ []) := by
      simp only [exOvertake, exConnect, serverActs, due, dueOf, List.map, List.cons_append, List.nil_append, List.filterMap]
      rfl
    rw [hu, if_pos rfl, if_pos rfl, hw _ rfl, hw _ rfl]
    rfl
  rw [hd] at h
  have h2 := h.eq_of_length rfl
  cases h2

end HatEvent
