import Verif.Proof.Link
import Verif.Spec.Link
import Verif.Props.EventerServer

/-! # A client connected to a server: histories -/

namespace HatEvent
open Spec EvServer

theorem due_snoc (id : Nat) (s : EvServer) (acts : List EvAct) (a : EvAct) :
    due id s (acts ++ [a]) = due id s acts ++ dueOf (s.run acts) id a := by
  induction acts generalizing s with
  | nil => simp [due, EvServer.run]
  | cons b acts ih =>
    show dueOf s id b ++ due id (s.step b) (acts ++ [a]) = _
    rw [ih, ← List.append_assoc]
    rfl

theorem find_infos {s : EvServer} {id : Nat} {p : Nat × ConnInfo} (h : s.infos.find? (fun p => p.1 = id) = some p) :
    (id, p.2) ∈ s.infos := by
  have h1 := List.mem_of_find?_eq_some h
  have h2 := List.find?_some h
  simp only [decide_eq_true_eq] at h2
  rw [← h2]
  exact h1

theorem target_mem {s : EvServer} {id : Nat} {info : ConnInfo} {events : List Event} {persisted : Bool} (hm : (id, info) ∈ s.infos)
    (hp : info.req.persisted = persisted) (hne : selectEvents info events ≠ []) :
    (id, selectEvents info events) ∈ s.infos.filterMap (target events persisted) := by
  refine List.mem_filterMap.2 ⟨(id, info), hm, ?_⟩
  unfold target
  rw [if_neg (not_not.2 hp), if_neg fun h => hne (List.isEmpty_iff.1 h)]

theorem target_known {s : EvServer} {id : Nat} {es : List Event} {events : List Event} {persisted : Bool}
    (h : (id, es) ∈ s.infos.filterMap (target events persisted)) : ∃ info, (id, info) ∈ s.infos := by
  obtain ⟨p, hp, he⟩ := List.mem_filterMap.1 h
  unfold target at he
  split at he
  · cases he
  · split at he
    · cases he
    · simp only [Option.some.injEq, Prod.mk.injEq] at he
      exact ⟨p.2, he.1 ▸ hp⟩

/-- The target of a call for a client. -/
theorem target_find {s : EvServer} (h : InfosOk s) (id : Nat) (events : List Event) (persisted withAck : Bool) (hc : CleanClient id s) :
    ((s.infos.filterMap (target events persisted)).find? fun t => t.1 = id) =
      if dueOf s id (.notify events persisted withAck) = [] then none
      else some (id, dueOf s id (.notify events persisted withAck)) := by
  cases hi : s.infos.find? fun p => p.1 = id with
  | none =>
    have hd : dueOf s id (.notify events persisted withAck) = [] := by simp only [dueOf, hi]
    rw [if_pos hd, List.find?_eq_none]
    intro t ht hh
    simp only [decide_eq_true_eq] at hh
    obtain ⟨info, hm⟩ := target_known (id := t.1) (es := t.2) ht
    have := (List.find?_eq_none.1 hi) _ hm
    simp [hh] at this
  | some p =>
    have hm := find_infos hi
    have hsel := selectEvents_eq (h.good _ hm) (fun hu => hc hu _ hm) events
    have hd : dueOf s id (.notify events persisted withAck) = if p.2.req.persisted = persisted then wanted p.2.req events else [] := by
      simp only [dueOf, hi]
    rw [hd, ← hsel]
    by_cases hp : p.2.req.persisted = persisted
    · rw [if_pos hp]
      by_cases hw : selectEvents p.2 events = []
      · rw [if_pos hw, List.find?_eq_none]
        intro t ht hh
        simp only [decide_eq_true_eq] at hh
        exact (target_unique h hm (es := t.2) (by rw [← hh]; exact ht)).2.1 hw
      · rw [if_neg hw]
        have htm := target_mem hm hp hw
        cases hf : (s.infos.filterMap (target events persisted)).find? fun t => t.1 = id with
        | none =>
          have := List.find?_eq_none.1 hf _ htm
          simp at this
        | some t =>
          have h1 := List.mem_of_find?_eq_some hf
          have h2 := List.find?_some hf
          simp only [decide_eq_true_eq] at h2
          have h3 := (target_unique h hm (es := t.2) (by rw [← h2]; exact h1)).2.2
          rw [← h3, ← h2]
    · rw [if_neg hp, if_pos rfl, List.find?_eq_none]
      intro t ht hh
      simp only [decide_eq_true_eq] at hh
      exact hp (target_unique h hm (es := t.2) (by rw [← hh]; exact ht)).1

theorem share_eq {s : EvServer} (h : InfosOk s) (P : Event → Bool) (id : Nat) (events : List Event) (persisted withAck : Bool)
    (hc : CleanClient id s) : s.share P id events persisted = (dueOf s id (.notify events persisted withAck)).filter P := by
  unfold share
  rw [target_find h id events persisted withAck hc]
  split
  · next hd => rw [hd]; rfl
  · rfl

theorem owed_run (P : Event → Bool) (useC : Bool) (token : Option String) (id : Nat) (acts : List EvAct)
    (hseq : InTurn P id (EvServer.init useC token) acts)
    (hc : ∀ before, before <+: acts → CleanClient id ((EvServer.init useC token).run before)) :
    Owed P ((EvServer.init useC token).run acts) id ((due id (EvServer.init useC token) acts).filter P) := by
  induction acts using List.reverseRecOn with
  | nil =>
    refine ⟨List.prefix_rfl, 0, fun j _ => ?_, fun _ => ?_⟩
    · exact pending_of_not_addresses fun ⟨es, h, _⟩ => by cases h
    · rfl
  | append_singleton acts a ih =>
    have ih := ih (by
      intro before events persisted withAck after he
      exact hseq before events persisted withAck (after ++ [a]) (by rw [he]; simp)) (fun before hb => hc before (hb.trans (List.prefix_append _ _)))
    have hinf := infosOk_run useC token acts
    have hcl := hc acts (List.prefix_append _ _)
    rw [EvServer.run_snoc, due_snoc, List.filter_append]
    cases a with
    | notify events persisted withAck =>
      rw [← share_eq hinf P id events persisted withAck hcl]
      refine owed_notify ?_ (notesOk_run useC token acts).later ih
      intro ⟨es, hm, e, he, hp⟩ j hj haj
      have htar : ((((EvServer.init useC token).run acts).step (.notify events persisted withAck)).calls
          ((EvServer.init useC token).run acts).nextCall).targets =
          ((EvServer.init useC token).run acts).infos.filterMap (target events persisted) := by
        simp [step, notify]
      rw [htar] at hm
      refine hseq acts events persisted withAck [] rfl ?_ j hj haj
      have hf := target_find hinf id events persisted withAck hcl
      have hne : dueOf ((EvServer.init useC token).run acts) id (.notify events persisted withAck) = es := by
        split at hf
        · have := List.find?_eq_none.1 hf _ hm
          simp at this
        · have h1 := List.mem_of_find?_eq_some hf
          obtain ⟨info, hi⟩ := target_known hm
          rw [(target_unique hinf hi hm).2.2]
          exact (target_unique hinf hi h1).2.2
      rw [hne]
      exact ⟨e, he, hp⟩
    | send call i =>
      simp only [dueOf, List.filter_nil, List.append_nil]
      exact owed_send call i ih
    | _ =>
      simp only [dueOf, List.filter_nil, List.append_nil]
      exact owed_still (still_step _ _ (fun _ _ _ => by simp) (fun _ _ => by simp)) ih

/-- A success is only sent first. -/
def FirstOnly (s : EvServer) : Prop := ∀ id, ∀ m ∈ (s.conns id).sent.tail, ∀ st, m ≠ .initOk st

theorem mem_tail_append {m : ServerMsg} {l x : List ServerMsg} (h : m ∈ (l ++ x).tail) : m ∈ l.tail ∨ m ∈ x := by
  cases l with
  | nil => exact .inr (List.mem_of_mem_tail h)
  | cons a l => simpa using h

theorem firstOnly_calm {s s' : EvServer} (hc : Calm s s') (hl : Later s s') (h : FirstOnly s) : FirstOnly s' := by
  intro id m hm st he
  subst he
  obtain ⟨x, hx⟩ := hl.sent id
  have ht := hc.told id
  rw [← hx, statuses_append] at ht
  have ht : statuses x = [] := by simpa using ht
  rw [← hx] at hm
  rcases mem_tail_append hm with hm | hm
  · exact h id _ hm st rfl
  · have := List.filterMap_eq_nil_iff.1 ht _ hm
    simp at this

theorem firstOnly_post {s s' : EvServer} {i : Nat} {m : ServerMsg} (hm : ∀ st, m ≠ .initOk st)
    (hs : ∀ id, (s'.conns id).sent = if id = i then (s.conns id).sent ++ [m] else (s.conns id).sent) (h : FirstOnly s) : FirstOnly s' := by
  intro id m' hm' st
  rw [hs] at hm'
  split at hm'
  · rcases mem_tail_append hm' with hm' | hm'
    · exact h id _ hm' st
    · rw [List.mem_singleton.1 hm']; exact hm st
  · exact h id _ hm' st

theorem firstOnly_step {s : EvServer} (a : EvAct) (h : FirstOnly s)
    (hc : ∀ id info, (s.conns id).phase = .connecting info → (s.conns id).sent = []) : FirstOnly (s.step a) := by
  have hl := later_step s a
  cases a with
  | accept => exact firstOnly_calm (calm_accept s) hl h
  | lose id => exact firstOnly_calm (calm_lose s id) hl h
  | receive id msg => exact firstOnly_calm (calm_receive s id msg) hl h
  | connected id ok =>
    simp only [step, connected] at hl ⊢
    split at hl
    · next info hp =>
      split at hl
      · split at hl
        · rw [if_pos ‹_›, if_pos ‹_›]; exact firstOnly_calm (calm_endLoop s id) hl h
        · rw [if_pos ‹_›, if_neg ‹_›]
          intro i m hm
          rw [establish_conns] at hm
          split at hm
          · next hi =>
            subst hi
            simp [hc i info hp] at hm
          · exact h i m hm
      · rw [if_neg ‹_›]; exact firstOnly_calm (calm_reject s id) hl h
    · exact h
  | reply id result => exact firstOnly_calm (calm_reply s id result) hl h
  | giveUp id => exact firstOnly_calm (calm_giveUp s id) hl h
  | setStatus status =>
    simp only [step, setStatus]
    split
    · exact h
    · exact h
  | statusStep task =>
    simp only [step, statusStep]
    split
    · exact h
    · next id rest ht =>
      split
      · exact h
      · exact firstOnly_post (s := s) (i := id) (by simp) (fun i => post_sent _ id i _) h
  | notify ev p w => exact h
  | send c i =>
    simp only [step, send]
    split
    · split
      · split
        · exact h
        · exact firstOnly_post (s := s) (i := i) (by simp) (fun id => post_sent s i id _) h
      · exact h
    · exact h
  | await_ c i =>
    simp only [step, awaitAck]
    split
    · exact h
    · exact h

theorem firstOnly_run (useC : Bool) (token : Option String) (acts : List EvAct) : FirstOnly ((EvServer.init useC token).run acts) := by
  induction acts using List.reverseRecOn with
  | nil => intro id m hm; cases hm
  | append_singleton acts a ih =>
    rw [EvServer.run_snoc]
    refine firstOnly_step a ih ?_
    intro id info hp
    have ho : Out ((EvServer.init useC token).run acts) id := out_run (by rw [hp]; rfl)
    exact ho.conn.sent_nil (by rw [hp]; simp) (by rw [hp]; simp)

namespace Link

theorem run_snoc (s : Link) (acts : List LinkAct) (a : LinkAct) : s.run (acts ++ [a]) = (s.run acts).step a := by
  simp [run]

theorem id_step (s : Link) (a : LinkAct) : (s.step a).id = s.id := by
  cases a with
  | server a => rfl
  | connect => simp only [step, connect]; split <;> rfl
  | client a => cases a <;> rfl
  | deliver last =>
    simp only [step, deliver]
    split
    · split <;> rfl
    · rfl

theorem server_step (s : Link) (a : LinkAct) : (s.step a).server = match a with
    | .server act => s.server.step act
    | _ => s.server := by
  cases a with
  | server a => rfl
  | connect => simp only [step, connect]; split <;> rfl
  | client a => cases a <;> rfl
  | deliver last =>
    simp only [step, deliver]
    split
    · split <;> rfl
    · rfl

theorem server_run (id : Nat) (useC : Bool) (token : Option String) (acts : List LinkAct) :
    ((init id useC token).run acts).id = id ∧
      ((init id useC token).run acts).server = (EvServer.init useC token).run (serverActs acts) := by
  induction acts using List.reverseRecOn with
  | nil => exact ⟨rfl, rfl⟩
  | append_singleton acts a ih =>
    rw [run_snoc, id_step, server_step]
    refine ⟨ih.1, ?_⟩
    cases a with
    | server act =>
      simp only [ih.2]
      rw [← EvServer.run_snoc]
      simp [serverActs]
    | _ => simp [serverActs] at ih ⊢; exact ih.2

/-- What the client has seen. -/
def Seen (s : Link) : Prop :=
  match s.client with
  | none => True
  | some c =>
    let seen := (s.server.conns s.id).sent.take s.read
    1 ≤ s.read ∧ s.read ≤ (s.server.conns s.id).sent.length ∧ c.notified = allNotes seen ∧
      (statuses seen).getLast? = some c.status ∧ c.told = (statuses seen).tail

theorem client_step (c : ReqClient) (a : ReqAct) (h : ∀ m, a ≠ .receive m) :
    (c.step a).notified = c.notified ∧ (c.step a).status = c.status ∧ (c.step a).told = c.told := by
  cases a with
  | receive m => exact absurd rfl (h m)
  | start => simp only [ReqClient.step, ReqClient.start]; split <;> exact ⟨rfl, rfl, rfl⟩
  | register events w =>
    simp only [ReqClient.step, ReqClient.request]; split <;> exact ⟨rfl, rfl, rfl⟩
  | query p => simp only [ReqClient.step, ReqClient.request]; split <;> exact ⟨rfl, rfl, rfl⟩
  | sendDone k =>
    simp only [ReqClient.step, ReqClient.sendDone]
    split
    · split
      · split <;> exact ⟨rfl, rfl, rfl⟩
      · exact ⟨rfl, rfl, rfl⟩
    · exact ⟨rfl, rfl, rfl⟩
  | resume k => simp only [ReqClient.step, ReqClient.resume]; split <;> exact ⟨rfl, rfl, rfl⟩
  | cancel k => simp only [ReqClient.step, ReqClient.cancel]; split <;> exact ⟨rfl, rfl, rfl⟩
  | callbackDone ok =>
    simp only [ReqClient.step, ReqClient.callbackDone]
    split
    · split
      · unfold ReqClient.afterCallback
        split
        · unfold ReqClient.acknowledge
          split <;> exact ⟨rfl, rfl, rfl⟩
        · exact ⟨rfl, rfl, rfl⟩
      · exact ⟨rfl, rfl, rfl⟩
    · exact ⟨rfl, rfl, rfl⟩
  | close => exact ⟨rfl, rfl, rfl⟩
  | stop =>
    simp only [ReqClient.step, ReqClient.stop]
    split
    · exact ⟨rfl, rfl, rfl⟩
    · split <;> exact ⟨rfl, rfl, rfl⟩

theorem take_prefix {α : Type} {l l' : List α} (h : l <+: l') {n : Nat} (hn : n ≤ l.length) : l'.take n = l.take n := by
  obtain ⟨x, rfl⟩ := h
  rw [List.take_append_of_le_length hn]

theorem seen_step {s : Link} (a : LinkAct) (hf : FirstOnly s.server) (h : Seen s) : Seen (s.step a) := by
  cases a with
  | server act =>
    simp only [step, Seen] at h ⊢
    split
    · trivial
    · next c hc =>
      rw [hc] at h
      obtain ⟨h1, h2, h3, h4, h5⟩ := h
      have hp := (later_step s.server act).sent s.id
      refine ⟨h1, h2.trans hp.length_le, ?_, ?_, ?_⟩
      · rw [take_prefix hp h2]; exact h3
      · rw [take_prefix hp h2]; exact h4
      · rw [take_prefix hp h2]; exact h5
  | connect =>
    simp only [step, connect]
    split
    · next st rest hc hs =>
      simp only [Seen]
      rw [hs]
      exact ⟨Nat.le_refl _, by simp, rfl, rfl, rfl⟩
    · exact h
  | client act =>
    simp only [step]
    by_cases hr : ∃ m, act = .receive m
    · obtain ⟨m, rfl⟩ := hr
      exact h
    · have he : s.clientStep act = { s with client := s.client.map (·.step act) } := by
        cases act <;> first | rfl | exact absurd ⟨_, rfl⟩ hr
      rw [he]
      simp only [Seen] at h ⊢
      cases hc : s.client with
      | none => trivial
      | some c =>
        rw [hc] at h
        obtain ⟨e1, e2, e3⟩ := client_step c act fun m hm => hr ⟨m, hm⟩
        simp only [Option.map_some]
        rw [e1, e2, e3]
        exact h
  | deliver last =>
    simp only [step, deliver]
    split
    · next c msg hc hm =>
      split
      · next hloop =>
        simp only [Seen] at h ⊢
        rw [hc] at h
        obtain ⟨h1, h2, h3, h4, h5⟩ := h
        obtain ⟨hlt, hmsg⟩ := List.getElem?_eq_some_iff.1 hm
        have htake : (s.server.conns s.id).sent.take (s.read + 1) = (s.server.conns s.id).sent.take s.read ++ [msg] := by
          rw [List.take_succ_eq_append_getElem hlt, hmsg]
        have htail : ∀ st, msg ≠ .initOk st := by
          refine hf s.id msg ?_
          rw [← List.drop_one, ← hmsg]
          exact List.mem_drop_iff_getElem.2 ⟨s.read - 1, by omega, by congr 1; omega⟩
        have hne : statuses ((s.server.conns s.id).sent.take s.read) ≠ [] := by
          intro hh; rw [hh] at h4; cases h4
        rw [htake, allNotes_append, statuses_append]
        refine ⟨by omega, by omega, ?_⟩
        simp only [ReqClient.receive, hloop]
        cases msg with
        | initOk st => exact absurd rfl (htail st)
        | initError =>
          simp only [ServerMsg.toPeer, ReqClient.process, ReqClient.endLoop]
          simp [allNotes, statuses] at h3 h4 h5 ⊢
          exact ⟨h3, h4, h5⟩
        | status st =>
          have e1 : allNotes [ServerMsg.status st] = [] := rfl
          have e2 : statuses [ServerMsg.status st] = [st] := rfl
          simp only [ServerMsg.toPeer, ReqClient.process]
          rw [e1, e2, List.append_nil, List.tail_append_of_ne_nil hne]
          exact ⟨h3, by simp, by rw [h5]⟩
        | events k conv es =>
          have e1 : allNotes [ServerMsg.events k conv es] = [es] := rfl
          have e2 : statuses [ServerMsg.events k conv es] = [] := rfl
          simp only [ServerMsg.toPeer, ReqClient.process]
          rw [e1, e2, List.append_nil]
          exact ⟨by rw [h3], h4, h5⟩
        | registerRes conv evs =>
          have e1 : allNotes [ServerMsg.registerRes conv evs] = [] := rfl
          have e2 : statuses [ServerMsg.registerRes conv evs] = [] := rfl
          simp only [ServerMsg.toPeer, ReqClient.process]
          rw [e1, e2, List.append_nil, List.append_nil]
          exact ⟨h3, h4, h5⟩
        | queryRes conv r =>
          have e1 : allNotes [ServerMsg.queryRes conv r] = [] := rfl
          have e2 : statuses [ServerMsg.queryRes conv r] = [] := rfl
          simp only [ServerMsg.toPeer, ReqClient.process]
          rw [e1, e2, List.append_nil, List.append_nil]
          exact ⟨h3, h4, h5⟩
      · exact h
    · exact h

theorem seen_run (id : Nat) (useC : Bool) (token : Option String) (acts : List LinkAct) : Seen ((init id useC token).run acts) := by
  induction acts using List.reverseRecOn with
  | nil => trivial
  | append_singleton acts a ih =>
    rw [run_snoc]
    refine seen_step a ?_ ih
    rw [(server_run id useC token acts).2]
    exact firstOnly_run useC token _

end Link
end HatEvent
