import Verif.Proof.AdminServer

/-! # Adminer server (C71) -/

namespace HatEvent
open AdminServer

/-- A request for the configuration is answered at once with the current one. -/
theorem get_answer (s : AdminServer) {id conv : Nat} {ok : Bool} (hr : (s.conns id).running = true)
    (hl : (s.conns id).lost = false) :
    ((s.step (.receive id (.get conv) ok)).conns id).sent = (s.conns id).sent ++ [.got conv (some s.conf)] := by
  show ((s.receive id (.get conv) ok).conns id).sent = _
  unfold receive
  rw [if_pos hr]
  simp only
  have ht : (s.take id (.get conv)).conns id = { s.conns id with handled := (s.conns id).handled ++ [.get conv] } := if_pos rfl
  rw [respond_conns, if_pos rfl, ht, if_neg (by simp [hl])]

/-- **C71** Reading the configuration gives what was written last by any client, if no other was written successfully since. -/
theorem C71_read (conf0 conf : Json) (before after : List AdminServerAct) {i j conv conv' : Nat} {ok : Bool}
    (hi : (((AdminServer.init conf0).run before).conns i).running = true)
    (hq : ((AdminServer.init conf0).run (before ++ [.receive i (.set conv conf) true])).Quiet after)
    {s : AdminServer} (hs : s = (AdminServer.init conf0).run (before ++ .receive i (.set conv conf) true :: after))
    (hr : (s.conns j).running = true) (hl : (s.conns j).lost = false) :
    ((s.step (.receive j (.get conv') ok)).conns j).sent = (s.conns j).sent ++ [.got conv' (some conf)] := by
  have hc : s.conf = conf := by
    rw [hs, show before ++ .receive i (.set conv conf) true :: after =
      (before ++ [.receive i (.set conv conf) true]) ++ after by simp, AdminServer.run_append, conf_run hq, AdminServer.run_snoc]
    exact conf_set hi
  rw [get_answer s hr hl, hc]

/-- **C71** Before the first successful write it gives the configuration of the event server. -/
theorem C71_initial (conf0 : Json) (acts : List AdminServerAct) {j conv : Nat} {ok : Bool}
    (hq : (AdminServer.init conf0).Quiet acts)
    {s : AdminServer} (hs : s = (AdminServer.init conf0).run acts)
    (hr : (s.conns j).running = true) (hl : (s.conns j).lost = false) :
    ((s.step (.receive j (.get conv) ok)).conns j).sent = (s.conns j).sent ++ [.got conv (some conf0)] := by
  rw [get_answer s hr hl, hs, conf_run hq]; rfl

/-- **C71** A write is answered with its success; a failed one does not change what is read. -/
theorem C71_write (s : AdminServer) {id conv : Nat} {conf : Json} {ok : Bool} (hr : (s.conns id).running = true)
    (hl : (s.conns id).lost = false) :
    ((s.step (.receive id (.set conv conf) ok)).conns id).sent = (s.conns id).sent ++ [.done conv ok] ∧
    ((s.step (.receive id (.set conv conf) ok)).conns id).running = true ∧
    (ok = false → (s.step (.receive id (.set conv conf) ok)).conf = s.conf) := by
  have ht : (s.take id (.set conv conf)).conns id =
      { s.conns id with handled := (s.conns id).handled ++ [.set conv conf] } := if_pos rfl
  have he : (s.step (.receive id (.set conv conf) ok)).conns id =
      { s.conns id with handled := (s.conns id).handled ++ [.set conv conf], sent := (s.conns id).sent ++ [.done conv ok] } := by
    show (s.receive id (.set conv conf) ok).conns id = _
    unfold receive
    rw [if_pos hr]
    simp only
    rw [respond_conns, if_pos rfl, store_conns, ht, if_neg (by simp [hl])]
  refine ⟨by rw [he], by rw [he]; exact hr, ?_⟩
  rintro rfl
  exact conf_step (by rintro ⟨_, _, _, h, _⟩; simp at h)

/-- **C71** The requests of a connection are answered in order, each with one response of its own type and conversation; as
long as the connection loop is running none is missing. -/
theorem C71_order (conf0 : Json) (acts : List AdminServerAct) (id : Nat) :
    let c := ((AdminServer.init conf0).run acts).conns id
    c.handled.Sublist (requestsOf id acts) ∧ (c.running = true → List.Forall₂ Fits c.handled c.sent) ∧
      ∃ l, l <+: c.handled ∧ List.Forall₂ Fits l c.sent :=
  ⟨handled_run conf0 acts id, (paired_run conf0 acts id).run, (paired_run conf0 acts id).all⟩

/-- **C71** What happens on one connection, wrong messages included, has no effect on another one. -/
theorem C71_isolated (s : AdminServer) (a : AdminServerAct) (id : Nat) (h : a.about s.next ≠ id) :
    (s.step a).conns id = s.conns id := other_step h

/-- A client writes, another one fails to write and sends nonsense, a third one reads. -/
def exAdminSrv : List AdminServerAct :=
  [.accept, .accept, .accept, .receive 0 (.set 4 (.str "new")) true]

/-- The rest of it. -/
def exAdminSrvRest : List AdminServerAct := [.receive 1 (.set 5 (.str "bad")) false, .receive 1 .other true]

example : (((AdminServer.init .null).run [.accept, .accept, .accept]).conns 0).running = true ∧
    ((AdminServer.init .null).run exAdminSrv).Quiet exAdminSrvRest ∧
    (((AdminServer.init .null).run (exAdminSrv ++ exAdminSrvRest)).conns 2).running = true ∧
    (((AdminServer.init .null).run (exAdminSrv ++ exAdminSrvRest)).conns 2).lost = false ∧
    (((AdminServer.init .null).run (exAdminSrv ++ exAdminSrvRest)).conns 1).sent = [.done 5 false] ∧
    (((AdminServer.init .null).run (exAdminSrv ++ exAdminSrvRest ++ [.receive 2 (.get 6) true])).conns 2).sent =
      [.got 6 (some (.str "new"))] := by
  refine ⟨rfl, ?_, rfl, rfl, rfl, rfl⟩
  intro pre a post h
  unfold exAdminSrvRest at h
  rintro ⟨id, conv, conf, rfl, _⟩
  have hm : AdminServerAct.receive id (.set conv conf) true ∈
      [AdminServerAct.receive 1 (.set 5 (.str "bad")) false, .receive 1 .other true] := by
    rw [h]; simp
  simp at hm

example : (AdminServer.init .null).Quiet [.accept] ∧ (((AdminServer.init .null).run [.accept]).conns 0).running = true := by
  refine ⟨?_, rfl⟩
  intro pre a post h
  rintro ⟨id, conv, conf, rfl, _⟩
  have hm : AdminServerAct.receive id (.set conv conf) true ∈ [AdminServerAct.accept] := by rw [h]; simp
  simp at hm

end HatEvent
