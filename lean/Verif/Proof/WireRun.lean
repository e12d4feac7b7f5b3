import Verif.Proof.Wire

/-! # Histories of a client and a server as histories of their connection -/

namespace HatEvent
open Spec EvServer

theorem prefix_snoc_cases {α : Type} {l b : List α} {a : α} (h : b <+: l ++ [a]) : b = l ++ [a] ∨ b <+: l := by
  obtain ⟨r, hr⟩ := h
  rcases List.eq_nil_or_concat r with rfl | ⟨r', x, rfl⟩
  · left; simpa using hr
  · right
    refine ⟨r', ?_⟩
    have : (b ++ r') ++ [x] = l ++ [a] := by simpa using hr
    exact (List.append_inj_left' this rfl)

namespace Wire

/-- What the history of the connection says about the messages of the client. -/
structure Told (id : Nat) (useC : Bool) (token : Option String) (l : List LinkAct) (t : Nat) : Prop where
  faithful : Faithful id useC token l
  recv : received id (serverActs l) = (Link.requests ((Link.init id useC token).run l)).take t
  le : t ≤ (Link.requests ((Link.init id useC token).run l)).length
  handled : (((Link.init id useC token).run l).server.conns id).handled =
    ((Link.requests ((Link.init id useC token).run l)).take t).filter ClientMsg.isReq
  past : ∀ c, ((Link.init id useC token).run l).client = some c → Past (((Link.init id useC token).run l).server.conns id)

section
variable {id : Nat} {useC : Bool} {token : Option String}

theorem faithful_snoc {l : List LinkAct} {a : LinkAct} (h : Faithful id useC token l)
    (hr : received id (serverActs (l ++ [a])) <+: Link.requests ((Link.init id useC token).run (l ++ [a]))) :
    Faithful id useC token (l ++ [a]) := by
  intro before hb
  rcases prefix_snoc_cases hb with rfl | hb
  · exact hr
  · exact h before hb

theorem serverActs_snoc (l : List LinkAct) (a : LinkAct) : serverActs (l ++ [a]) = serverActs l ++ serverActs [a] := by
  simp [serverActs]

theorem received_append (id : Nat) (l l' : List EvAct) : received id (l ++ l') = received id l ++ received id l' := by
  simp [received]

/-- The link goes on. -/
theorem past_link {l : List LinkAct} {a : LinkAct}
    (h : ∀ c, ((Link.init id useC token).run l).client = some c → Past (((Link.init id useC token).run l).server.conns id)) :
    ∀ c, ((Link.init id useC token).run (l ++ [a])).client = some c → Past (((Link.init id useC token).run (l ++ [a])).server.conns id) := by
  have hs := Link.server_run id useC token l
  have hf := fresh_run useC token (serverActs l) _ (Nat.le_refl _)
  have hg := greeted_run useC token (serverActs l) id
  rw [← hs.2] at hf hg
  rw [Link.run_snoc]
  generalize (Link.init id useC token).run l = s at *
  obtain ⟨hid, _⟩ := hs
  intro c hc
  rw [Link.server_step]
  cases a with
  | server act => exact past_step act (h c hc) hf
  | connect =>
    simp only [Link.step, Link.connect] at hc
    split at hc
    · next st rest h1 h2 =>
      rw [hid] at h2
      exact hg st (by rw [h2]; exact List.mem_cons_self)
    · exact h c hc
  | client act =>
    cases hc' : s.client with
    | some c' => exact h c' hc'
    | none => cases act <;> simp [Link.step, Link.clientStep, hc'] at hc
  | deliver last =>
    cases hc' : s.client with
    | some c' => exact h c' hc'
    | none => simp [Link.step, Link.deliver, hc'] at hc

/-- Nothing is received from the client. -/
theorem told_other {l : List LinkAct} {a : LinkAct} {t : Nat} (h : Told id useC token l t)
    (ha : ∀ msg, (∀ r, msg ≠ .init r) → a ≠ .server (.receive id msg)) : Told id useC token (l ++ [a]) t := by
  have hrecv : received id (serverActs (l ++ [a])) = received id (serverActs l) := by
    rw [serverActs_snoc, received_append]
    have : received id (serverActs [a]) = [] := by
      cases a with
      | server act =>
        cases act with
        | receive i msg =>
          cases msg with
          | init r => rfl
          | _ =>
            simp only [serverActs, received, List.filterMap_cons, List.filterMap_nil]
            rw [if_neg]
            rintro rfl
            exact ha _ (by simp) rfl
        | _ => rfl
      | _ => rfl
    rw [this, List.append_nil]
  have hpre : Link.requests ((Link.init id useC token).run l) <+: Link.requests ((Link.init id useC token).run (l ++ [a])) := by
    rw [Link.run_snoc]; exact Link.requests_step _ _
  have htake := Link.take_prefix hpre h.le
  refine ⟨faithful_snoc h.faithful ?_, ?_, Nat.le_trans h.le hpre.length_le, ?_, past_link h.past⟩
  · rw [hrecv]
    exact (h.faithful l List.prefix_rfl).trans hpre
  · rw [hrecv, h.recv, htake]
  · rw [htake, ← h.handled, Link.run_snoc, Link.server_step]
    cases a with
    | server act =>
      have hch := change_step ((Link.init id useC token).run l).server act id
      generalize hc : (((Link.init id useC token).run l).server.step act).conns id = c at hch
      cases hch with
      | same _ _ h1 h2 => exact h2
      | handle msg _ h0 h1 h2 => exact absurd rfl (ha msg h0)
      | answer result _ info msg conv x h1 h2 h3 h4 h5 h6 => exact h6
    | _ => rfl

/-- The next message of the client is received. -/
theorem told_arrive {l : List LinkAct} {t : Nat} (h : Told id useC token l t) {msg : ClientMsg} {info : ConnInfo}
    (hp : (((Link.init id useC token).run l).server.conns id).phase = .ready info)
    (hm : (Link.requests ((Link.init id useC token).run l))[t]? = some msg) (hlater : msg.Later) :
    Told id useC token (l ++ [.server (.receive id msg)]) (t + 1) := by
  have hrecv : received id (serverActs (l ++ [.server (.receive id msg)])) = received id (serverActs l) ++ [msg] := by
    rw [serverActs_snoc, received_append]
    cases hlater <;> simp [serverActs, received]
  have hreq : Link.requests ((Link.init id useC token).run (l ++ [.server (.receive id msg)])) = Link.requests ((Link.init id useC token).run l) := by
    rw [Link.run_snoc]; rfl
  have htake : (Link.requests ((Link.init id useC token).run l)).take (t + 1) = (Link.requests ((Link.init id useC token).run l)).take t ++ [msg] := by
    rw [List.take_succ, hm]; rfl
  refine ⟨faithful_snoc h.faithful ?_, ?_, ?_, ?_, past_link h.past⟩
  · rw [hrecv, hreq, h.recv, ← htake]
    exact List.take_prefix _ _
  · rw [hrecv, hreq, h.recv, ← htake]
  · rw [hreq]
    exact (List.getElem?_eq_some_iff.1 hm).1
  · rw [hreq, htake, List.filter_append, ← h.handled, Link.run_snoc, Link.server_step]
    show ((EvServer.receive _ id msg).conns id).handled = _
    unfold EvServer.receive
    rw [hp]
    cases hlater with
    | ack conv =>
      show ((EvServer.acknowledge _ id conv).conns id).handled = _
      rw [acknowledge_conns, if_pos rfl]
      simp [ClientMsg.isReq]
    | register conv evs last =>
      show ((EvServer.handle _ id info _).conns id).handled = _
      unfold handle
      rw [setConn_self]
      rfl
    | query conv params =>
      show ((EvServer.handle _ id info _).conns id).handled = _
      unfold handle
      rw [setConn_self]
      rfl

theorem requests_later {l : List LinkAct} : ∀ m ∈ Link.requests ((Link.init id useC token).run l), m.Later := by
  intro m hm
  unfold Spec.Link.requests at hm
  cases hc : ((Link.init id useC token).run l).client with
  | none => rw [hc] at hm; cases hm
  | some c =>
    rw [hc] at hm
    obtain ⟨status, cacts, rfl⟩ := Link.reached id useC token l hc
    exact ReqClient.sent_later status cacts m hm

/-- The history of the connection that belongs to a history. -/
structure Ok (id : Nat) (useC : Bool) (token : Option String) (s : Wire) (l : List LinkAct) : Prop where
  link : s.link = (Link.init id useC token).run l
  told : Told id useC token l s.taken

theorem Ok.id_eq {s : Wire} {l : List LinkAct} (h : Ok id useC token s l) : s.link.id = id := by
  rw [h.link]; exact (Link.server_run id useC token l).1

theorem request_some {s : Wire} {msg : ClientMsg} (h : s.request = some msg) :
    (∃ info, s.conn.phase = .ready info) ∧ (Link.requests s.link)[s.taken]? = some msg := by
  unfold request at h
  split at h
  · next info c hp hc =>
    refine ⟨⟨_, hp⟩, ?_⟩
    unfold Spec.Link.requests
    rw [hc]
    exact h
  · cases h

theorem ok_step {s : Wire} {l : List LinkAct} (h : Ok id useC token s l) (a : WireAct) :
    Ok id useC token (s.step a) (l ++ s.acts a) := by
  have hid := h.id_eq
  have hlink : s.link.run (s.acts a) = (Link.init id useC token).run (l ++ s.acts a) := by rw [Link.run_append, h.link]
  refine ⟨hlink, ?_⟩
  clear hlink
  have ht := h.told
  cases a with
  | server act =>
    simp only [acts, step]
    split
    · next hp =>
      refine told_other ht ?_
      intro msg hne he
      injection he with he
      subst he
      simp only [permits, hid, if_true] at hp
      split at hp
      · exact hne _ rfl
      · cases hp
    · simpa using ht
  | connect => exact told_other ht (by simp)
  | client act => exact told_other ht (by simp)
  | arrive =>
    simp only [acts, step]
    cases hm : s.request with
    | none => simpa using ht
    | some msg =>
      obtain ⟨⟨info, hp⟩, hm'⟩ := request_some hm
      have hp' := hp
      unfold conn at hp'
      rw [h.link] at hm'
      rw [hid, h.link] at hp'
      simp only [Option.isSome_some, if_true, hid]
      exact told_arrive ht hp' hm' (requests_later msg (List.mem_of_getElem? hm'))
  | deliver => exact told_other ht (by simp)
  | notice =>
    simp only [acts, step]
    split
    · have h1 := told_other (a := .server (.lose s.link.id)) ht (by simp)
      have h2 := told_other (a := .client .close) h1 (by simp)
      simpa using h2
    · simpa using ht

theorem run_snoc (s : Wire) (acts : List WireAct) (a : WireAct) : s.run (acts ++ [a]) = (s.run acts).step a := by simp [run]

theorem run_append (s : Wire) (a b : List WireAct) : s.run (a ++ b) = (s.run a).run b := by simp [run]

theorem ok_init : Ok id useC token (init id useC token) [] :=
  ⟨rfl, ⟨fun before hb => by rw [List.prefix_nil.1 hb]; exact List.prefix_rfl, rfl, Nat.zero_le _, rfl, nofun⟩⟩

theorem ok_more {s : Wire} {l : List LinkAct} (h : Ok id useC token s l) (acts : List WireAct) :
    ∃ more, Ok id useC token (s.run acts) (l ++ more) := by
  induction acts generalizing s l with
  | nil => exact ⟨[], by simpa [run] using h⟩
  | cons a acts ih =>
    obtain ⟨more, hm⟩ := ih (ok_step h a)
    exact ⟨s.acts a ++ more, by rw [← List.append_assoc]; exact hm⟩

theorem ok_run (id : Nat) (useC : Bool) (token : Option String) (acts : List WireAct) :
    ∃ l, Ok id useC token ((init id useC token).run acts) l := by
  obtain ⟨l, h⟩ := ok_more (ok_init (id := id) (useC := useC) (token := token)) acts
  exact ⟨l, h⟩

end

end Wire
end HatEvent
