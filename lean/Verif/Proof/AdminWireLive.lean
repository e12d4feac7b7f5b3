import Verif.Proof.AdminWire
import Verif.Proof.WireNotify

/-! # Requests of an adminer client: invariants and what happens in the end -/

namespace HatEvent
open Spec

/-- The conversation of a response. -/
def resConv : AdminRes → Nat
  | .got v _ => v
  | .done v _ => v

theorem toMsg_conv (res : AdminRes) : res.toMsg.conv = resConv res := by cases res <;> rfl

theorem answers_conv {c c' : Json} {ok : Bool} {req : AdminReq} {res : AdminRes} (h : AdminServer.Answers c c' ok req res) : reqConv req = some (resConv res) := by
  cases h <;> rfl

theorem answers_kind {c c' : Json} {ok : Bool} {q : AdminQuery} {k : Nat} {res : AdminRes} (h : AdminServer.Answers c c' ok (q.toReq k) res) : q.kind = res.toMsg.kind := by
  cases q <;> cases h <;> rfl

namespace AdminClient

/-- Calls that were not made. -/
def NotMade (s : AdminClient) : Prop := ∀ k, s.next ≤ k → s.calls k = .absent

theorem notMade_step {s : AdminClient} (a : AdminAct) (h : NotMade s) : NotMade (s.step a) := by
  intro k hk
  have hk' : s.next ≤ k := Nat.le_trans (next_mono s a) hk
  have ha := h k hk'
  have hg := goes_step s a k
  generalize hp : (s.step a).calls k = p at hg
  cases hg with
  | stay => exact ha
  | made kind e hk2 ho => subst e; simp [step, request] at hk; omega
  | refused kind e hk2 ho => subst e; simp [step, request] at hk; omega
  | waits kind e h2 ho => rw [ha] at h2; cases h2
  | late kind e h2 ho => rw [ha] at h2; cases h2
  | resumed r h2 => rw [ha] at h2; cases h2
  | cancelled e h1 h2 => exact absurd ha h1
  | answered kind msg e e2 h2 h3 => rw [ha] at h2; cases h2
  | failed kind h2 ho => rw [ha] at h2; cases h2

/-- A call whose future is done. -/
def Done : AdminPhase → Prop
  | .resolved _ => True
  | .finished _ => True
  | _ => False

theorem done_step {s : AdminClient} (a : AdminAct) {k : Nat} (hn : NotMade s) (h : Done (s.calls k)) : Done ((s.step a).calls k) := by
  have hg := goes_step s a k
  generalize hp : (s.step a).calls k = p at hg
  have hno : s.calls k ≠ .absent := fun e => by rw [e] at h; exact h
  cases hg with
  | stay => exact h
  | made kind e hk2 ho => exact absurd (hn k (by omega)) hno
  | refused kind e hk2 ho => trivial
  | waits kind e h2 ho => rw [h2] at h; exact h.elim
  | late kind e h2 ho => trivial
  | resumed r h2 => trivial
  | cancelled e h1 h2 => trivial
  | answered kind msg e e2 h2 h3 => trivial
  | failed kind h2 ho => trivial

/-- After the receive loop no call waits. -/
def Over (s : AdminClient) : Prop := s.ended = true → s.isOpen = false ∧ ∀ k kind, s.calls k ≠ .waiting kind

theorem over_endLoop (s : AdminClient) : Over s.endLoop := by
  intro _
  refine ⟨rfl, fun k kind h => ?_⟩
  simp only [endLoop, failCall] at h
  split at h
  · cases h
  · next hh => exact hh _ h

theorem over_step {s : AdminClient} (a : AdminAct) (h : Over s) : Over (s.step a) := by
  have hkeep : ∀ t : AdminClient, (t.ended = true → s.ended = true) → (s.isOpen = false → t.isOpen = false) →
      (∀ k kind, s.isOpen = false → t.calls k = .waiting kind → ∃ k' , s.calls k' = .waiting kind) → Over t := by
    intro t h1 h2 h3 he
    obtain ⟨ho, hw⟩ := h (h1 he)
    exact ⟨h2 ho, fun k kind hk => by obtain ⟨k', hk'⟩ := h3 k kind ho hk; exact hw _ _ hk'⟩
  have hset : ∀ j p, (∀ kind, s.isOpen = false → p ≠ .waiting kind) → Over (s.setCall j p) := by
    intro j p hp
    refine hkeep _ id id fun k kind ho hk => ?_
    simp only [setCall] at hk
    split at hk
    · exact absurd hk (hp kind ho)
    · exact ⟨k, hk⟩
  cases a with
  | start =>
    simp only [step, start]
    split
    · exact hkeep _ id id fun k kind _ hk => ⟨k, hk⟩
    · exact h
  | request kind =>
    have := hset s.next (if s.isOpen then .sending kind else .finished .connectionError) fun kind' _ => by split <;> nofun
    exact this
  | sendDone j =>
    simp only [step, sendDone]
    split
    · exact hset _ _ fun kind' ho => by rw [ho]; nofun
    · exact h
  | resume j =>
    simp only [step, resume]
    split
    · exact hset _ _ fun kind' ho => nofun
    · exact h
  | cancel j =>
    simp only [step, cancel]
    split
    · exact h
    · exact h
    · exact hset _ _ fun kind' ho => nofun
  | receive msg =>
    simp only [step, receive]
    split
    · exact h
    · split
      · split
        · exact hset _ _ fun kind' ho => by nofun
        · exact over_endLoop s
      · exact over_endLoop s
  | close => exact hkeep _ id (fun _ => rfl) fun k kind _ hk => ⟨k, hk⟩
  | stop =>
    simp only [step, stop]
    split
    · exact h
    · split
      · exact h
      · exact over_endLoop s

theorem started_step {s : AdminClient} (a : AdminAct) (h : s.started = true) : (s.step a).started = true := by
  cases a <;> simp only [step, start, request, sendDone, resume, cancel, receive, stop, setCall, endLoop] <;> (repeat' split) <;> first | exact h | rfl

/-- A message that is received: it is the response of a call, or the client is closed. -/
theorem receive_done (s : AdminClient) (msg : AdminMsg) (h1 : s.started = true) (h2 : s.ended = false) :
    ((s.step (.receive msg)).isOpen = false ∨ Done ((s.step (.receive msg)).calls msg.conv)) := by
  simp only [step, receive, h1, h2]
  rw [if_neg (by decide)]
  cases hp : s.calls msg.conv with
  | waiting kind =>
    simp only
    split
    · right
      show Done (if msg.conv = msg.conv then _ else _)
      rw [if_pos rfl]; trivial
    · exact .inl rfl
  | _ => exact .inl rfl

end AdminClient

namespace AdminLive
section
variable {id : Nat} {conf : Json} {acts : Nat → AdminWireAct}

/-- The client by itself. -/
theorem client_at (P : AdminClient → Prop) (h0 : P AdminClient.connected) (hs : ∀ s a, P s → P (s.step a)) (n : Nat) : P (adminAt id conf acts n).client := by
  induction n with
  | zero => exact h0
  | succ n ih =>
    rw [adminAt_succ]
    rcases AdminWire.client_step (adminAt id conf acts n) (acts n) with ⟨e, _⟩ | ⟨act, e, _⟩
    · rw [e]; exact ih
    · rw [e]; exact hs _ _ ih

theorem notMade_at (n : Nat) : (adminAt id conf acts n).client.NotMade :=
  client_at _ (fun _ _ => rfl) (fun _ a h => AdminClient.notMade_step a h) n

theorem over_at (n : Nat) : (adminAt id conf acts n).client.Over :=
  client_at _ (fun h => by cases h) (fun _ a h => AdminClient.over_step a h) n

theorem next_at {m n : Nat} (h : m ≤ n) : (adminAt id conf acts m).client.next ≤ (adminAt id conf acts n).client.next := by
  induction n, h using Nat.le_induction with
  | base => exact Nat.le_refl _
  | succ n _ ih =>
    rw [adminAt_succ]
    rcases AdminWire.client_step (adminAt id conf acts n) (acts n) with ⟨e, _⟩ | ⟨act, e, _⟩
    · rw [e]; exact ih
    · rw [e]; exact Nat.le_trans ih (AdminClient.next_mono _ _)

theorem closed_at {m n : Nat} (h : m ≤ n) (hc : (adminAt id conf acts m).client.isOpen = false) : (adminAt id conf acts n).client.isOpen = false := by
  induction n, h using Nat.le_induction with
  | base => exact hc
  | succ n _ ih => rw [adminAt_succ]; exact AdminWire.closed_step _ ih

theorem lost_at {m n : Nat} (h : m ≤ n) (hc : (adminAt id conf acts m).conn.lost = true) : (adminAt id conf acts n).conn.lost = true := by
  induction n, h using Nat.le_induction with
  | base => exact hc
  | succ n _ ih => rw [adminAt_succ]; exact AdminWire.lost_step _ ih

theorem started_at {m n : Nat} (h : m ≤ n) (hc : (adminAt id conf acts m).client.started = true) : (adminAt id conf acts n).client.started = true := by
  induction n, h using Nat.le_induction with
  | base => exact hc
  | succ n _ ih =>
    rw [adminAt_succ]
    rcases AdminWire.client_step (adminAt id conf acts n) (acts n) with ⟨e, _⟩ | ⟨act, e, _⟩
    · rw [e]; exact ih
    · rw [e]; exact AdminClient.started_step _ ih

theorem sent_at {m n : Nat} (h : m ≤ n) : (adminAt id conf acts m).conn.sent <+: (adminAt id conf acts n).conn.sent := by
  induction n, h using Nat.le_induction with
  | base => exact List.prefix_rfl
  | succ n _ ih => rw [adminAt_succ]; exact ih.trans (AdminWire.sent_prefix _ _)

theorem taken_at {m n : Nat} (h : m ≤ n) : (adminAt id conf acts m).taken ≤ (adminAt id conf acts n).taken := by
  induction n, h using Nat.le_induction with
  | base => exact Nat.le_refl _
  | succ n _ ih =>
    rw [adminAt_succ]
    rcases AdminWire.taken_step (adminAt id conf acts n) (acts n) with e | ⟨_, _, _, _, e⟩ <;> omega

theorem read_at {m n : Nat} (h : m ≤ n) : (adminAt id conf acts m).read ≤ (adminAt id conf acts n).read := by
  induction n, h using Nat.le_induction with
  | base => exact Nat.le_refl _
  | succ n _ ih =>
    rw [adminAt_succ]
    rcases AdminWire.read_step (adminAt id conf acts n) (acts n) with e | ⟨_, _, _, e⟩ <;> omega

theorem served_at (n : Nat) : AdminServer.Served (adminAt id conf acts n).server id := by
  induction n with
  | zero => intro h; cases h
  | succ n ih =>
    rw [adminAt_succ]
    rcases AdminWire.server_step (adminAt id conf acts n) (acts n) with e | ⟨act, e, _⟩
    · rw [e]; exact ih
    · rw [e]; exact AdminServer.served_step _ ih

theorem accepted_at {m n : Nat} (h : m ≤ n) (hc : id < (adminAt id conf acts m).server.next) : id < (adminAt id conf acts n).server.next := by
  induction n, h using Nat.le_induction with
  | base => exact hc
  | succ n _ ih =>
    rw [adminAt_succ]
    rcases AdminWire.server_step (adminAt id conf acts n) (acts n) with e | ⟨act, e, _⟩
    · rw [e]; exact ih
    · rw [e]; exact Nat.lt_of_lt_of_le ih (AdminServer.next_mono _ _)

/-- Messages of the client are requests. -/
theorem asked_query (n : Nat) {req : AdminReq} (h : req ∈ (adminAt id conf acts n).asked) : ∃ q k, req = AdminQuery.toReq k q := by
  induction n with
  | zero => cases h
  | succ n ih =>
    rw [adminAt_succ] at h
    rcases AdminWire.asked_step (adminAt id conf acts n) (acts n) with e | ⟨q, _, _, e⟩
    · rw [e] at h; exact ih h
    · rw [e] at h
      rcases List.mem_append.1 h with h | h
      · exact ih h
      · exact ⟨q, _, List.mem_singleton.1 h⟩

theorem conn_at (n : Nat) : (adminAt id conf acts n).conn = (adminAt id conf acts n).server.conns id := by
  unfold AdminWire.conn
  rw [adminAt_id]

/-- While the connection is not lost, the server has answered the requests it has received, in their order. -/
theorem answered_at (n : Nat) (h : (adminAt id conf acts n).conn.lost = false) :
    (adminAt id conf acts n).conn.sent.map resConv = ((adminAt id conf acts n).asked.take (adminAt id conf acts n).taken).filterMap reqConv ∧
    (adminAt id conf acts n).taken ≤ (adminAt id conf acts n).asked.length := by
  induction n with
  | zero => exact ⟨rfl, Nat.le_refl _⟩
  | succ n ih =>
    have hl : (adminAt id conf acts n).conn.lost = false := by
      cases hl : (adminAt id conf acts n).conn.lost with
      | false => rfl
      | true => rw [lost_at (Nat.le_succ n) hl] at h; cases h
    obtain ⟨ih1, ih2⟩ := ih hl
    have hpre : (adminAt id conf acts n).asked <+: (adminAt id conf acts (n + 1)).asked := asked_mono (Nat.le_succ n)
    obtain ⟨more, hmore⟩ := hpre
    have htake : (adminAt id conf acts (n + 1)).asked.take (adminAt id conf acts n).taken = (adminAt id conf acts n).asked.take (adminAt id conf acts n).taken := by
      rw [← hmore, List.take_append_of_le_length ih2]
    have hlen : (adminAt id conf acts n).asked.length ≤ (adminAt id conf acts (n + 1)).asked.length := by rw [← hmore]; simp
    by_cases hreq : ∃ ok req, acts n = .arrive ok ∧ (adminAt id conf acts n).request = some req
    · obtain ⟨ok, req, ha, hr⟩ := hreq
      obtain ⟨hmem, hrun, hget⟩ := request_mem hr
      have he : adminAt id conf acts (n + 1) = { adminAt id conf acts n with
          server := (adminAt id conf acts n).server.step (.receive (adminAt id conf acts n).id req ok), taken := (adminAt id conf acts n).taken + 1 } := by
        rw [adminAt_succ, ha]
        simp only [AdminWire.step, AdminWire.arrive, hr]
      rcases AdminServer.receive_sent (req := req) (ok := ok) hrun with ⟨_, hh⟩ | ⟨_, res, e, hans⟩
      · rcases hh with hh | hh
        · rw [show ((adminAt id conf acts n).server.conns (adminAt id conf acts n).id).lost = (adminAt id conf acts n).conn.lost from rfl, hl] at hh
          cases hh
        · obtain ⟨q, k, e⟩ := asked_query n hmem
          rw [hh] at e
          cases q <;> cases e
      · rw [he]
        refine ⟨?_, ?_⟩
        · show (List.map resConv (((adminAt id conf acts n).server.step (.receive (adminAt id conf acts n).id req ok)).conns (adminAt id conf acts n).id).sent) = _
          rw [e]
          show List.map resConv ((adminAt id conf acts n).conn.sent ++ [res]) = List.filterMap reqConv ((adminAt id conf acts n).asked.take ((adminAt id conf acts n).taken + 1))
          rw [List.map_append, ih1, List.take_succ, hget, List.filterMap_append]
          simp only [Option.toList_some, List.filterMap_cons, answers_conv hans, List.filterMap_nil, List.map_cons, List.map_nil]
        · show (adminAt id conf acts n).taken + 1 ≤ (adminAt id conf acts n).asked.length
          have := (List.getElem?_eq_some_iff.1 hget).1
          omega
    · have htaken : (adminAt id conf acts (n + 1)).taken = (adminAt id conf acts n).taken := by
        rw [adminAt_succ]
        rcases AdminWire.taken_step (adminAt id conf acts n) (acts n) with e | ⟨ok, req, h1, h2, _⟩
        · exact e
        · exact absurd ⟨ok, req, h1, h2⟩ hreq
      have hsent : (adminAt id conf acts (n + 1)).conn.sent = (adminAt id conf acts n).conn.sent := by
        rw [conn_at, conn_at, adminAt_succ]
        rcases AdminWire.server_step (adminAt id conf acts n) (acts n) with e | ⟨act, e, hc⟩
        · rw [e]
        · rcases hc with ⟨ok, req, h1, h2, _⟩ | hno
          · exact absurd ⟨ok, req, h1, h2⟩ hreq
          · rw [e]
            rw [adminAt_id] at hno
            exact AdminServer.quiet_sent hno
      rw [htaken, hsent, htake]
      exact ⟨ih1, by omega⟩

theorem read_le (n : Nat) : (adminAt id conf acts n).read ≤ (adminAt id conf acts n).conn.sent.length := by
  induction n with
  | zero => exact Nat.le_refl _
  | succ n ih =>
    have hlen := (sent_at (id := id) (conf := conf) (acts := acts) (Nat.le_succ n)).length_le
    rw [adminAt_succ] at hlen ⊢
    rcases AdminWire.read_step (adminAt id conf acts n) (acts n) with e | ⟨res, _, h, e⟩
    · omega
    · have := (List.getElem?_eq_some_iff.1 h).1
      omega

/-- Calls whose response was received. -/
theorem read_done (n : Nat) (j : Nat) (hj : j < (adminAt id conf acts n).read) {res : AdminRes} (hres : (adminAt id conf acts n).conn.sent[j]? = some res) :
    (adminAt id conf acts n).client.isOpen = false ∨ AdminClient.Done ((adminAt id conf acts n).client.calls (resConv res)) := by
  induction n with
  | zero => cases hj
  | succ n ih =>
    have hback : j < (adminAt id conf acts n).conn.sent.length → (adminAt id conf acts n).conn.sent[j]? = some res := by
      intro h
      obtain ⟨more, hm⟩ := sent_at (id := id) (conf := conf) (acts := acts) (Nat.le_succ n)
      rw [← hm, List.getElem?_append_left h] at hres
      exact hres
    have hold : j < (adminAt id conf acts n).read →
        (adminAt id conf acts (n + 1)).client.isOpen = false ∨ AdminClient.Done ((adminAt id conf acts (n + 1)).client.calls (resConv res)) := by
      intro h
      rcases ih h (hback (Nat.lt_of_lt_of_le h (read_le n))) with h | h
      · exact .inl (closed_at (Nat.le_succ n) h)
      · right
        rw [adminAt_succ]
        rcases AdminWire.client_step (adminAt id conf acts n) (acts n) with ⟨e, _⟩ | ⟨act, e, _⟩
        · rw [e]; exact h
        · rw [e]; exact AdminClient.done_step _ (notMade_at n) h
    by_cases hjr : j < (adminAt id conf acts n).read
    · exact hold hjr
    · rcases AdminWire.read_step (adminAt id conf acts n) (acts n) with e | ⟨res', ha, hs, e⟩
      · rw [adminAt_succ, e] at hj; exact absurd hj hjr
      · rw [adminAt_succ, e] at hj
        have hjj : j = (adminAt id conf acts n).read := by omega
        subst hjj
        have := hback (List.getElem?_eq_some_iff.1 hs).1
        rw [hs] at this
        obtain rfl := Option.some.inj this
        rw [adminAt_succ, ha] at *
        have hd : (adminAt id conf acts n).client.started = true ∧ (adminAt id conf acts n).client.ended = false := by
          by_contra hno
          simp only [AdminWire.step, AdminWire.deliver, hs] at e
          rw [if_neg (by simpa using hno)] at e
          omega
        simp only [AdminWire.step, AdminWire.deliver, hs, hd.1, hd.2]
        rw [← toMsg_conv]
        exact AdminClient.receive_done _ _ hd.1 hd.2

/-! ### A call -/

/-- A call that was made at time `n` and has not been refused. -/
structure AdminCalled (id : Nat) (conf : Json) (acts : Nat → AdminWireAct) (q : AdminQuery) (n k : Nat) : Prop where
  ask : acts n = .ask q
  conv : k = (adminAt id conf acts n).client.next

variable {q : AdminQuery} {n0 k : Nat}

theorem meaning_mono {m m' : Nat} {e : AdminEnd} (h : m ≤ m') (hm : AdminMeaning (adminAt id conf acts) acts q k n0 m e) :
    AdminMeaning (adminAt id conf acts) acts q k n0 m' e := by
  cases hm with
  | got j ok hq hj ha hr => exact .got j ok hq ⟨hj.1, by omega⟩ ha hr
  | stored j c hq hj ha hr hc => exact .stored j c hq ⟨hj.1, by omega⟩ ha hr hc
  | refused j c hq hj ha hr hc => exact .refused j c hq ⟨hj.1, by omega⟩ ha hr hc
  | gone ho => exact .gone (closed_at h ho)
  | cancelled j hj ha => exact .cancelled j ⟨hj.1, by omega⟩ ha

/-- Where a call is. -/
def AdminOwn (id : Nat) (conf : Json) (acts : Nat → AdminWireAct) (q : AdminQuery) (n0 k m : Nat) : Prop :=
  match (adminAt id conf acts m).client.calls k with
  | .absent => False
  | .sending kind => kind = q.kind ∧ q.toReq k ∈ (adminAt id conf acts m).asked
  | .waiting kind => kind = q.kind ∧ q.toReq k ∈ (adminAt id conf acts m).asked
  | .resolved e => AdminMeaning (adminAt id conf acts) acts q k n0 m e
  | .finished e => AdminMeaning (adminAt id conf acts) acts q k n0 m e

/-- The request a response belongs to. -/
theorem response_of {m : Nat} {res : AdminRes} (hc : AdminCalled id conf acts q n0 k) (hq : q.toReq k ∈ (adminAt id conf acts m).asked)
    (hs : res ∈ (adminAt id conf acts m).conn.sent) (hk : resConv res = k) :
    ∃ j ok, n0 < j ∧ j < m ∧ acts j = .arrive ok ∧ (adminAt id conf acts j).request = some (q.toReq k) ∧
      AdminServer.Answers (adminAt id conf acts j).server.conf (adminAt id conf acts (j + 1)).server.conf ok (q.toReq k) res := by
  obtain ⟨j, ok, req, hj, ha, hr, hans⟩ := answers_from m hs
  have hconv := answers_conv hans
  rw [hk] at hconv
  have hmem := (request_mem hr).1
  have hreq : req = q.toReq k :=
    nodup_filterMap_inj (asked_fresh m).1 ((asked_mono (Nat.le_of_lt hj)).subset hmem) hq hconv (toReq_conv q k)
  subst hreq
  refine ⟨j, ok, ?_, hj, ha, hr, hans⟩
  by_contra hle
  have h1 := (asked_fresh (id := id) (conf := conf) (acts := acts) j).2 k (List.mem_filterMap.2 ⟨_, hmem, toReq_conv q k⟩)
  have h2 := next_at (id := id) (conf := conf) (acts := acts) (show j ≤ n0 by omega)
  have h3 := hc.conv
  omega

theorem own_at (hc : AdminCalled id conf acts q n0 k) {m : Nat} (hm : n0 < m) : AdminOwn id conf acts q n0 k m := by
  induction m, hm using Nat.le_induction with
  | base =>
    unfold AdminOwn
    have he : adminAt id conf acts n0.succ = (adminAt id conf acts n0).ask q := by rw [Nat.succ_eq_add_one, adminAt_succ, hc.ask]; rfl
    rw [he]
    have hcall : ((adminAt id conf acts n0).ask q).client.calls k = if (adminAt id conf acts n0).client.isOpen then .sending q.kind else .finished .connectionError := by
      simp only [AdminWire.ask, AdminClient.request, AdminClient.setCall, hc.conv, if_true]
    rw [hcall]
    cases ho : (adminAt id conf acts n0).client.isOpen with
    | true =>
      refine ⟨rfl, ?_⟩
      simp only [AdminWire.ask, ho, if_true, hc.conv]
      simp
    | false => exact .gone (closed_at (Nat.le_succ n0) ho)
  | succ m hm ih =>
    have hlt : n0 < m := hm
    have hask : q.toReq k ∈ (adminAt id conf acts m).asked → q.toReq k ∈ (adminAt id conf acts (m + 1)).asked := fun h => (asked_mono (Nat.le_succ m)).subset h
    have hstay : (adminAt id conf acts (m + 1)).client.calls k = (adminAt id conf acts m).client.calls k → AdminOwn id conf acts q n0 k (m + 1) := by
      intro e
      unfold AdminOwn at ih ⊢
      rw [e]
      cases h : (adminAt id conf acts m).client.calls k <;> rw [h] at ih
      · exact ih
      · exact ⟨ih.1, hask ih.2⟩
      · exact ⟨ih.1, hask ih.2⟩
      · exact meaning_mono (Nat.le_succ m) ih
      · exact meaning_mono (Nat.le_succ m) ih
    rcases AdminWire.client_step (adminAt id conf acts m) (acts m) with ⟨e, _⟩ | ⟨act, e, hact⟩
    · exact hstay (by rw [adminAt_succ, e])
    · have hg := AdminClient.goes_step (adminAt id conf acts m).client act k
      rw [← e, ← adminAt_succ] at hg
      have hnext : k < (adminAt id conf acts m).client.next := by
        have h1 := next_at (id := id) (conf := conf) (acts := acts) (show n0 + 1 ≤ m from hm)
        have h2 : (adminAt id conf acts (n0 + 1)).client.next = (adminAt id conf acts n0).client.next + 1 := by rw [adminAt_succ, hc.ask]; rfl
        have := hc.conv
        omega
      generalize hp : (adminAt id conf acts (m + 1)).client.calls k = p at hg
      cases hg with
      | stay => exact hstay hp
      | made kind _ hk _ => omega
      | refused kind _ hk _ => omega
      | waits kind ha h ho =>
        unfold AdminOwn at ih ⊢
        rw [h] at ih
        rw [hp]
        exact ⟨ih.1, hask ih.2⟩
      | late kind ha h ho =>
        unfold AdminOwn
        rw [hp]
        exact .gone (closed_at (Nat.le_succ m) ho)
      | resumed r h =>
        unfold AdminOwn at ih ⊢
        rw [h] at ih
        rw [hp]
        exact meaning_mono (Nat.le_succ m) ih
      | cancelled ha h1 h2 =>
        unfold AdminOwn
        rw [hp]
        refine .cancelled m ⟨hlt, Nat.lt_succ_self m⟩ ?_
        subst ha
        rcases hact with ⟨_, _, h⟩ | ⟨_, _, _, _, _, h⟩ | ⟨h, _⟩ | ⟨_, h⟩
        · cases h
        · cases h
        · exact h
        · cases h
      | failed kind h ho =>
        unfold AdminOwn
        rw [hp]
        refine .gone ?_
        rw [adminAt_succ, e]
        exact ho
      | answered kind msg ha hk h hkind =>
        unfold AdminOwn at ih ⊢
        rw [h] at ih
        rw [hp]
        subst ha
        rcases hact with ⟨_, _, h'⟩ | ⟨res, _, hs, _, _, h'⟩ | ⟨_, _, h'⟩ | ⟨_, h'⟩
        · cases h'
        · obtain rfl := AdminAct.receive.inj h'
          obtain ⟨j, ok, h1, h2, h3, h4, h5⟩ := response_of hc ih.2 (List.mem_of_getElem? hs) (by rw [← toMsg_conv]; exact hk.symm)
          cases hq : q with
          | get =>
            subst hq
            cases h5
            exact .got j ok rfl ⟨h1, by omega⟩ h3 h4
          | set c =>
            subst hq
            cases h5 with
            | done v c h6 h7 =>
              cases ok with
              | true => exact .stored j c rfl ⟨h1, by omega⟩ h3 h4 (h6 rfl)
              | false => exact .refused j c rfl ⟨h1, by omega⟩ h3 h4 (h7 rfl)
        · exact absurd rfl (h' msg)
        · cases h'

/-! ### The end -/

/-- Something is counted up to a bound. -/
theorem counts {f : Nat → Nat} (hf : ∀ n, f n ≤ f (n + 1)) {b m : Nat} (hup : ∀ n, m ≤ n → f n < b → ∃ p, n ≤ p ∧ f n < f p) : ∃ p, m ≤ p ∧ b ≤ f p := by
  have hmono : ∀ a c, f a ≤ f (a + c) := by
    intro a c
    induction c with
    | zero => exact Nat.le_refl _
    | succ c ih => exact Nat.le_trans ih (hf _)
  have key : ∀ t, t ≤ b → ∃ p, m ≤ p ∧ t ≤ f p := by
    intro t
    induction t with
    | zero => exact fun _ => ⟨m, Nat.le_refl _, Nat.zero_le _⟩
    | succ t ih =>
      intro ht
      obtain ⟨p, hp, hfp⟩ := ih (by omega)
      rcases Nat.lt_or_ge t (f p) with h | h
      · exact ⟨p, hp, h⟩
      · obtain ⟨p', hp', hlt⟩ := hup p hp (by omega)
        exact ⟨p', by omega, by omega⟩
  exact key b (Nat.le_refl _)

theorem stays_waiting (hc : AdminCalled id conf acts q n0 k) {m : Nat} (hm : n0 < m) (hw : ∃ kind, (adminAt id conf acts m).client.calls k = .waiting kind) :
    (∃ kind, (adminAt id conf acts (m + 1)).client.calls k = .waiting kind) ∨ AdminClient.Done ((adminAt id conf acts (m + 1)).client.calls k) := by
  obtain ⟨kind, hw⟩ := hw
  rw [adminAt_succ]
  rcases AdminWire.client_step (adminAt id conf acts m) (acts m) with ⟨e, _⟩ | ⟨act, e, hact⟩
  · rw [e]; exact .inl ⟨kind, hw⟩
  · rw [e]
    have hg := AdminClient.goes_step (adminAt id conf acts m).client act k
    generalize hp : ((adminAt id conf acts m).client.step act).calls k = p at hg ⊢
    cases hg with
    | stay => exact .inl ⟨kind, hw⟩
    | made kind' _ hk _ => rw [notMade_at m k (by omega)] at hw; cases hw
    | waits kind' _ h _ => rw [hw] at h; cases h
    | _ => exact .inr trivial

/-- A request that waits for ever: the server is there, and the client goes on. -/
theorem waits_ends (hg : AdminGoesOn (adminAt id conf acts) acts) (hl : AdminLoopStarts (adminAt id conf acts)) (hc : AdminCalled id conf acts q n0 k)
    {m : Nat} (hm : n0 < m) (hw : ∀ p, m ≤ p → ∃ kind, (adminAt id conf acts p).client.calls k = .waiting kind) : False := by
  have hne : ∀ p, m ≤ p → (adminAt id conf acts p).client.ended = false := by
    intro p hp
    cases he : (adminAt id conf acts p).client.ended with
    | false => rfl
    | true => obtain ⟨kind, h⟩ := hw p hp; exact absurd h ((over_at p he).2 k kind)
  have hopen : ∀ p, m ≤ p → (adminAt id conf acts p).client.isOpen = true := by
    intro p hp
    cases ho : (adminAt id conf acts p).client.isOpen with
    | true => rfl
    | false =>
      obtain ⟨r, hr, ha⟩ := hg.stop p
      have ho' := closed_at hr ho
      have hst := hl r ho'
      have he : (adminAt id conf acts (r + 1)).client = (adminAt id conf acts r).client.endLoop := by
        rw [adminAt_succ, ha]
        show (adminAt id conf acts r).client.stop = _
        unfold AdminClient.stop
        rw [ho', hst, hne r (by omega)]
        rfl
      have := hne (r + 1) (by omega)
      rw [he] at this
      cases this
  have hlost : ∀ p, m ≤ p → (adminAt id conf acts p).conn.lost = false := by
    intro p hp
    cases ho : (adminAt id conf acts p).conn.lost with
    | false => rfl
    | true =>
      obtain ⟨r, hr, ha⟩ := hg.notice p
      have ho' := lost_at hr ho
      have h := hopen (r + 1) (by omega)
      rw [adminAt_succ, ha] at h
      simp only [AdminWire.step, AdminWire.closed, ho', Bool.true_or, if_true] at h
      cases h
  obtain ⟨na, hna⟩ := hg.accepted
  rw [adminAt_id] at hna
  obtain ⟨ns, hns, hstart⟩ := hg.start m
  have hst : ∀ p, ns + 1 ≤ p → (adminAt id conf acts p).client.started = true := by
    intro p hp
    refine started_at hp ?_
    rw [adminAt_succ, hstart]
    show ((adminAt id conf acts ns).client.start).started = true
    unfold AdminClient.start
    rw [if_pos (hopen ns hns)]
  have hrun : ∀ p, m ≤ p → na ≤ p → (adminAt id conf acts p).conn.running = true := by
    intro p hp hp'
    rcases served_at p (accepted_at hp' hna) with h | h
    · rw [conn_at]; exact h
    · have := hlost p hp
      rw [conn_at, h] at this
      cases this
  have hown : q.toReq k ∈ (adminAt id conf acts m).asked := by
    have := own_at hc hm
    obtain ⟨kind, h⟩ := hw m (Nat.le_refl _)
    unfold AdminOwn at this
    rw [h] at this
    exact this.2
  obtain ⟨i, hi⟩ := List.getElem?_of_mem hown
  have hi' : ∀ p, m ≤ p → (adminAt id conf acts p).asked[i]? = some (q.toReq k) := fun p hp => wire_get (asked_mono hp) hi
  -- the server receives the request
  obtain ⟨p1, hp1, ht⟩ := counts (f := fun p => (adminAt id conf acts p).taken) (b := i + 1) (m := max m na) (fun n => taken_at (Nat.le_succ n)) (by
    intro n hn hlt
    obtain ⟨r, hr, ok, ha⟩ := hg.arrive n
    refine ⟨r + 1, by omega, ?_⟩
    rcases Nat.lt_or_ge (adminAt id conf acts n).taken (adminAt id conf acts r).taken with h | h
    · exact Nat.lt_of_lt_of_le h (taken_at (Nat.le_succ r))
    · have hlen := (List.getElem?_eq_some_iff.1 (hi' r (by omega))).1
      have hlt : (adminAt id conf acts n).taken < i + 1 := hlt
      have hreq : (adminAt id conf acts r).request = some ((adminAt id conf acts r).asked[(adminAt id conf acts r).taken]'(by omega)) := by
        unfold AdminWire.request
        rw [if_pos (hrun r (by omega) (by omega)), List.getElem?_eq_getElem (by omega)]
      have := taken_at (id := id) (conf := conf) (acts := acts) hr
      show (adminAt id conf acts n).taken < (adminAt id conf acts (r + 1)).taken
      rw [adminAt_succ, ha]
      simp only [AdminWire.step, AdminWire.arrive, hreq]
      omega)
  -- it has answered
  obtain ⟨res, hres, hconv⟩ : ∃ res ∈ (adminAt id conf acts p1).conn.sent, resConv res = k := by
    have h := (answered_at p1 (hlost p1 (by omega))).1
    have hk : k ∈ ((adminAt id conf acts p1).asked.take (adminAt id conf acts p1).taken).filterMap reqConv := by
      refine List.mem_filterMap.2 ⟨q.toReq k, ?_, toReq_conv q k⟩
      refine List.mem_of_getElem? (i := i) ?_
      rw [List.getElem?_take_of_lt ht]
      exact hi' p1 (by omega)
    rw [← h] at hk
    obtain ⟨res, h1, h2⟩ := List.mem_map.1 hk
    exact ⟨res, h1, h2⟩
  obtain ⟨j, hj⟩ := List.getElem?_of_mem hres
  have hj' : ∀ p, p1 ≤ p → (adminAt id conf acts p).conn.sent[j]? = some res := fun p hp => wire_get (sent_at hp) hj
  -- the client receives the response
  obtain ⟨p2, hp2, hr⟩ := counts (f := fun p => (adminAt id conf acts p).read) (b := j + 1) (m := max p1 (ns + 1)) (fun n => read_at (Nat.le_succ n)) (by
    intro n hn hlt
    obtain ⟨r, hr, ha⟩ := hg.deliver n
    refine ⟨r + 1, by omega, ?_⟩
    rcases Nat.lt_or_ge (adminAt id conf acts n).read (adminAt id conf acts r).read with h | h
    · exact Nat.lt_of_lt_of_le h (read_at (Nat.le_succ r))
    · have hlen := (List.getElem?_eq_some_iff.1 (hj' r (by omega))).1
      have hlt : (adminAt id conf acts n).read < j + 1 := hlt
      have hget := List.getElem?_eq_getElem (l := (adminAt id conf acts r).conn.sent) (i := (adminAt id conf acts r).read) (by omega)
      have := read_at (id := id) (conf := conf) (acts := acts) hr
      show (adminAt id conf acts n).read < (adminAt id conf acts (r + 1)).read
      rw [adminAt_succ, ha]
      simp only [AdminWire.step, AdminWire.deliver, hget, hst r (by omega), hne r (by omega)]
      show _ < (adminAt id conf acts r).read + 1
      omega)
  rcases read_done p2 j hr (hj' p2 (by omega)) with h | h
  · have := hopen p2 (by omega)
    rw [h] at this; cases this
  · obtain ⟨kind, h'⟩ := hw p2 (by omega)
    rw [hconv, h'] at h
    exact h

theorem call_ends (hg : AdminGoesOn (adminAt id conf acts) acts) (hk : AdminCallGoesOn acts k) (hl : AdminLoopStarts (adminAt id conf acts))
    (hc : AdminCalled id conf acts q n0 k) : ∃ m e, n0 < m ∧ (adminAt id conf acts m).client.calls k = .finished e := by
  have hnotAbsent : ∀ m, n0 < m → (adminAt id conf acts m).client.calls k ≠ .absent := by
    intro m hm h
    have := own_at hc hm
    unfold AdminOwn at this
    rw [h] at this
    exact this
  -- not in `send_msg` any more
  obtain ⟨m1, hm1, h1⟩ : ∃ m, n0 + 1 ≤ m ∧ ((∃ kind, (adminAt id conf acts m).client.calls k = .waiting kind) ∨ AdminClient.Done ((adminAt id conf acts m).client.calls k)) := by
    by_cases hs : ∃ kind, (adminAt id conf acts (n0 + 1)).client.calls k = .sending kind
    · refine until_done (acts := acts) (A := fun a => a = .client (.sendDone k)) (P := fun m => ∃ kind, (adminAt id conf acts m).client.calls k = .sending kind) hs ?_ (hk.sendDone _) ?_
      · rintro p hp ⟨kind, h⟩
        rw [adminAt_succ]
        rcases AdminWire.client_step (adminAt id conf acts p) (acts p) with ⟨e, _⟩ | ⟨act, e, hact⟩
        · rw [e]; exact .inl ⟨kind, h⟩
        · rw [e]
          have hgo := AdminClient.goes_step (adminAt id conf acts p).client act k
          generalize hp' : ((adminAt id conf acts p).client.step act).calls k = ph at hgo ⊢
          cases hgo with
          | stay => exact .inl ⟨kind, h⟩
          | made kind' _ _ _ => exact .inl ⟨kind', rfl⟩
          | waits kind' _ _ _ => exact .inr (.inl ⟨kind', rfl⟩)
          | _ => exact .inr (.inr trivial)
      · rintro p hp ⟨kind, h⟩ ha
        rw [adminAt_succ, ha]
        have : ((adminAt id conf acts p).step (.client (.sendDone k))).client.calls k =
            if (adminAt id conf acts p).client.isOpen then .waiting kind else .finished .connectionError := by
          show ((adminAt id conf acts p).client.sendDone k).calls k = _
          unfold AdminClient.sendDone
          rw [h]
          show (if k = k then _ else _) = _
          rw [if_pos rfl]
        rw [this]
        split
        · exact .inl ⟨kind, rfl⟩
        · exact .inr trivial
    · refine ⟨n0 + 1, Nat.le_refl _, ?_⟩
      have ha := hnotAbsent (n0 + 1) (Nat.lt_succ_self _)
      cases hp : (adminAt id conf acts (n0 + 1)).client.calls k with
      | absent => exact absurd hp ha
      | sending kind => exact absurd ⟨kind, hp⟩ hs
      | waiting kind => exact .inl ⟨kind, rfl⟩
      | resolved e => exact .inr trivial
      | finished e => exact .inr trivial
  -- the future is done
  obtain ⟨m2, hm2, h2⟩ : ∃ m, n0 + 1 ≤ m ∧ AdminClient.Done ((adminAt id conf acts m).client.calls k) := by
    by_contra hno
    have hnd : ∀ m, m1 ≤ m → ∃ kind, (adminAt id conf acts m).client.calls k = .waiting kind := by
      intro m hm
      induction m, hm using Nat.le_induction with
      | base => exact h1.resolve_right fun h => hno ⟨m1, hm1, h⟩
      | succ m hm ih => exact (stays_waiting hc (by omega) ih).resolve_right fun h => hno ⟨m + 1, by omega, h⟩
    exact waits_ends hg hl hc (by omega) hnd
  -- the call goes on
  obtain ⟨m3, hm3, e, h3⟩ : ∃ m, m2 ≤ m ∧ ∃ e, (adminAt id conf acts m).client.calls k = .finished e := by
    by_cases hs : ∃ e, (adminAt id conf acts m2).client.calls k = .resolved e
    · refine until_done (acts := acts) (A := fun a => a = .client (.resume k)) (P := fun m => ∃ e, (adminAt id conf acts m).client.calls k = .resolved e) hs ?_ (hk.resume _) ?_
      · rintro p hp ⟨e', h⟩
        rw [adminAt_succ]
        rcases AdminWire.client_step (adminAt id conf acts p) (acts p) with ⟨e, _⟩ | ⟨act, e, hact⟩
        · rw [e]; exact .inl ⟨e', h⟩
        · rw [e]
          have hd := AdminClient.done_step act (notMade_at p) (k := k) (by rw [h]; trivial)
          cases hp' : ((adminAt id conf acts p).client.step act).calls k with
          | resolved r => exact .inl ⟨r, rfl⟩
          | finished r => exact .inr ⟨r, rfl⟩
          | _ => rw [hp'] at hd; exact hd.elim
      · rintro p hp ⟨e', h⟩ ha
        rw [adminAt_succ, ha]
        refine ⟨e', ?_⟩
        show ((adminAt id conf acts p).client.resume k).calls k = _
        unfold AdminClient.resume
        rw [h]
        show (if k = k then _ else _) = _
        rw [if_pos rfl]
    · refine ⟨m2, Nat.le_refl _, ?_⟩
      cases hp : (adminAt id conf acts m2).client.calls k with
      | resolved r => exact absurd ⟨r, hp⟩ hs
      | finished r => exact ⟨r, rfl⟩
      | _ => rw [hp] at h2; exact h2.elim
  exact ⟨m3, e, by omega, h3⟩

/-! ### Nobody closes the connection -/

theorem asked_called (n : Nat) {req : AdminReq} (h : req ∈ (adminAt id conf acts n).asked) :
    ∃ q n0 k, n0 < n ∧ AdminCalled id conf acts q n0 k ∧ req = q.toReq k := by
  induction n with
  | zero => cases h
  | succ n ih =>
    rw [adminAt_succ] at h
    rcases AdminWire.asked_step (adminAt id conf acts n) (acts n) with e | ⟨q, ha, _, e⟩
    · rw [e] at h
      obtain ⟨q, n0, k, h1, h2⟩ := ih h
      exact ⟨q, n0, k, by omega, h2⟩
    · rw [e] at h
      rcases List.mem_append.1 h with h | h
      · obtain ⟨q, n0, k, h1, h2⟩ := ih h
        exact ⟨q, n0, k, by omega, h2⟩
      · exact ⟨q, n, _, Nat.lt_succ_self n, ⟨ha, rfl⟩, List.mem_singleton.1 h⟩

theorem sent_nodup (n : Nat) (h : (adminAt id conf acts n).conn.lost = false) : ((adminAt id conf acts n).conn.sent.map resConv).Nodup := by
  rw [(answered_at n h).1]
  exact (asked_fresh n).1.sublist ((List.take_sublist _ _).filterMap _)

/-- A call that is not done. -/
def AdminGoing : AdminPhase → Prop
  | .sending _ => True
  | .waiting _ => True
  | _ => False

/-- The client is open, and calls whose response was not received go on. -/
structure AdminFit (s : AdminWire) : Prop where
  isOpen : s.client.isOpen = true
  ended : s.client.ended = false
  lost : s.conn.lost = false
  going : ∀ v, v < s.client.next → v ∉ (s.conn.sent.take s.read).map resConv → AdminGoing (s.client.calls v)


theorem notLost_step {s : AdminServer} {a : AdminServerAct} {i : Nat} (h : (s.conns i).lost = false) (h1 : a ≠ .lose i)
    (h2 : ∀ ok, a ≠ .receive i .other ok) : ((s.step a).conns i).lost = false := by
  have hset : ∀ j (f : AdminConn → AdminConn), (∀ c, (f c).lost = c.lost) → ((s.setConn j f).conns i).lost = false := by
    intro j f hf
    rw [AdminServer.setConn_conns]
    split
    · rw [hf]; exact h
    · exact h
  by_cases ho : a.about s.next = i
  · cases a with
    | accept => exact hset s.next (fun c => { c with running := true }) fun _ => rfl
    | lose j => exact absurd (by rw [← ho]; rfl) h1
    | giveUp j =>
      obtain rfl : j = i := ho
      simp only [AdminServer.step, AdminServer.giveUp, h]
      exact h
    | receive j req ok =>
      obtain rfl : j = i := ho
      have hresp : ∀ (t : AdminServer) res, (t.conns j).lost = false → ((t.respond j res).conns j).lost = false := by
        intro t res ht
        rw [AdminServer.respond_conns, if_pos rfl, ht]
        exact ht
      have htake : ∀ r, ((s.take j r).conns j).lost = false := fun r =>
        hset j (fun c => { c with handled := c.handled ++ [r] }) fun _ => rfl
      simp only [AdminServer.step, AdminServer.receive]
      split
      · cases req with
        | get conv => exact hresp _ _ (htake _)
        | set conv c => exact hresp _ _ (by rw [AdminServer.store_conns]; exact htake _)
        | other => exact absurd rfl (h2 ok)
      · exact h
  · rw [AdminServer.other_step ho]; exact h

/-- Actions of the client that do not close it. -/
theorem open_step {s : AdminClient} {a : AdminAct} (ho : s.isOpen = true) (he : s.ended = false) (h1 : a ≠ .close) (h2 : ∀ msg, a ≠ .receive msg) :
    (s.step a).isOpen = true ∧ (s.step a).ended = false := by
  cases a with
  | close => exact absurd rfl h1
  | receive msg => exact absurd rfl (h2 msg)
  | stop =>
    have e : s.step .stop = s := if_pos ho
    rw [e]
    exact ⟨ho, he⟩
  | _ => simp only [AdminClient.step, AdminClient.start, AdminClient.request, AdminClient.sendDone, AdminClient.resume, AdminClient.cancel, AdminClient.setCall] <;> (repeat' split) <;> exact ⟨ho, he⟩

theorem going_client {s : AdminClient} {a : AdminAct} (ho : s.isOpen = true) (he : s.ended = false) (h1 : a ≠ .close) (h2 : ∀ msg, a ≠ .receive msg)
    (h3 : ∀ k, a ≠ .cancel k) {v : Nat} (h : AdminGoing (s.calls v)) : AdminGoing ((s.step a).calls v) := by
  have hg := AdminClient.goes_step s a v
  generalize hp : (s.step a).calls v = p at hg
  cases hg with
  | stay => exact h
  | made kind _ _ _ => trivial
  | refused kind _ _ hc => rw [ho] at hc; cases hc
  | waits kind _ _ _ => trivial
  | late kind _ _ hc => rw [ho] at hc; cases hc
  | resumed r hr => rw [hr] at h; exact h
  | cancelled ha _ _ => exact absurd ha (h3 v)
  | answered kind msg ha _ _ _ => exact absurd ha (h2 msg)
  | failed kind _ hc => rw [(open_step ho he h1 h2).1] at hc; cases hc

/-- Nobody closes the connection or cancels a call, and no response is too early. -/
theorem fit_at (hcalm : AdminCalm id acts) (hno : AdminNotOvertaken (adminAt id conf acts) acts) (n : Nat) : AdminFit (adminAt id conf acts n) := by
  induction n with
  | zero => exact ⟨rfl, rfl, rfl, fun v hv => absurd hv (Nat.not_lt_zero v)⟩
  | succ n ih =>
    -- only the server moves
    have hserver : ∀ act, act ≠ .lose id → (∀ ok, act ≠ .receive id .other ok) → adminAt id conf acts (n + 1) = { adminAt id conf acts n with
        server := (adminAt id conf acts n).server.step act, taken := (adminAt id conf acts (n + 1)).taken } → AdminFit (adminAt id conf acts (n + 1)) := by
      intro act h1 h2 e
      have hc : (adminAt id conf acts (n + 1)).client = (adminAt id conf acts n).client := by rw [e]
      have hr : (adminAt id conf acts (n + 1)).read = (adminAt id conf acts n).read := by rw [e]
      refine ⟨by rw [hc]; exact ih.isOpen, by rw [hc]; exact ih.ended, ?_, ?_⟩
      · have hl := ih.lost
        rw [conn_at] at hl ⊢
        have : (adminAt id conf acts (n + 1)).server = (adminAt id conf acts n).server.step act := by rw [e]
        rw [this]
        exact notLost_step hl h1 h2
      · rw [hc, hr]
        obtain ⟨more, hm⟩ := sent_at (id := id) (conf := conf) (acts := acts) (Nat.le_succ n)
        rw [← hm, List.take_append_of_le_length (read_le n)]
        exact ih.going
    -- only the client moves
    have hclient : ∀ act : AdminAct, act ≠ .close → (∀ msg, act ≠ .receive msg) → (∀ k, act ≠ .cancel k) → (∀ kind, act ≠ .request kind) →
        adminAt id conf acts (n + 1) = { adminAt id conf acts n with client := (adminAt id conf acts n).client.step act } → AdminFit (adminAt id conf acts (n + 1)) := by
      intro act h1 h2 h3 h4 e
      rw [e]
      refine ⟨(open_step ih.isOpen ih.ended h1 h2).1, (open_step ih.isOpen ih.ended h1 h2).2, ih.lost, fun v hv hv' => ?_⟩
      refine going_client ih.isOpen ih.ended h1 h2 h3 (ih.going v ?_ hv')
      have : ((adminAt id conf acts n).client.step act).next = (adminAt id conf acts n).client.next := by
        cases act with
        | request kind => exact absurd rfl (h4 kind)
        | receive msg => exact absurd rfl (h2 msg)
        | _ => simp only [AdminClient.step, AdminClient.start, AdminClient.stop, AdminClient.sendDone, AdminClient.resume, AdminClient.cancel, AdminClient.setCall, AdminClient.endLoop] <;> (repeat' split) <;> rfl
      rw [← this]
      exact hv
    have hstay : adminAt id conf acts (n + 1) = adminAt id conf acts n → AdminFit (adminAt id conf acts (n + 1)) := fun e => by rw [e]; exact ih
    have he := adminAt_succ (id := id) (conf := conf) (acts := acts) n
    cases ha : acts n with
    | ask q =>
      rw [ha] at he
      rw [he]
      refine ⟨ih.isOpen, ih.ended, ih.lost, fun v hv hv' => ?_⟩
      show AdminGoing (if v = (adminAt id conf acts n).client.next then _ else _)
      have hv : v < (adminAt id conf acts n).client.next + 1 := hv
      split
      · rw [ih.isOpen]; trivial
      · exact ih.going v (by omega) hv'
    | client act =>
      rw [ha] at he
      cases act with
      | request kind => exact hstay he
      | receive msg => exact hstay he
      | close => exact absurd ha (hcalm.close n)
      | cancel k => exact absurd ha (hcalm.cancel n k)
      | start => exact hclient .start nofun nofun nofun nofun he
      | stop => exact hclient .stop nofun nofun nofun nofun he
      | sendDone k => exact hclient (.sendDone k) nofun nofun nofun nofun he
      | resume k => exact hclient (.resume k) nofun nofun nofun nofun he
    | arrive ok =>
      rw [ha] at he
      simp only [AdminWire.step, AdminWire.arrive] at he
      cases hr : (adminAt id conf acts n).request with
      | none => rw [hr] at he; exact hstay he
      | some req =>
        rw [hr] at he
        refine hserver (.receive id req ok) nofun (fun ok' hh => ?_) ?_
        · obtain ⟨q, k, e⟩ := asked_query n (request_mem hr).1
          have := (AdminServerAct.receive.inj hh).2.1
          rw [this] at e
          cases q <;> cases e
        · rw [he]
          simp only [adminAt_id]
    | notice =>
      rw [ha] at he
      simp only [AdminWire.step, AdminWire.closed, ih.isOpen, ih.lost] at he
      exact hstay he
    | server act =>
      rw [ha] at he
      cases act with
      | accept => exact hserver .accept nofun nofun (by rw [he]; rfl)
      | lose j =>
        refine hserver (.lose j) (fun hh => ?_) nofun (by rw [he]; rfl)
        exact hcalm.lose n (by rw [ha, hh])
      | giveUp j => exact hserver (.giveUp j) nofun nofun (by rw [he]; rfl)
      | receive j req ok =>
        simp only [AdminWire.step, adminAt_id] at he
        by_cases hj : j = id
        · rw [if_pos hj] at he; exact hstay he
        · rw [if_neg hj] at he
          exact hserver (.receive j req ok) nofun (fun ok' hh => hj (AdminServerAct.receive.inj hh).1) (by rw [he]; simp only [adminAt_id])
    | deliver =>
      rw [ha] at he
      simp only [AdminWire.step, AdminWire.deliver] at he
      cases hr : (adminAt id conf acts n).conn.sent[(adminAt id conf acts n).read]? with
      | none => rw [hr] at he; exact hstay he
      | some res =>
        rw [hr] at he
        simp only at he
        by_cases hst : (adminAt id conf acts n).client.started = true
        · rw [if_pos (by rw [hst, ih.ended]; rfl)] at he
          have hlen := (List.getElem?_eq_some_iff.1 hr).1
          have hmem := List.mem_of_getElem? hr
          -- the call it belongs to
          obtain ⟨j, ok, req, hj, _, hreq, hans⟩ := answers_from n hmem
          have hasked := (asked_mono (Nat.le_of_lt hj)).subset (request_mem hreq).1
          obtain ⟨q, n0, k, hn0, hcall, rfl⟩ := asked_called n hasked
          have hk : resConv res = k := by
            have := answers_conv hans
            rw [toReq_conv] at this
            exact (Option.some.inj this).symm
          have hkn : k < (adminAt id conf acts n).client.next := (asked_fresh n).2 k (List.mem_filterMap.2 ⟨_, hasked, toReq_conv q k⟩)
          have hnd := sent_nodup n ih.lost
          have htake : (adminAt id conf acts n).conn.sent.take ((adminAt id conf acts n).read + 1) = (adminAt id conf acts n).conn.sent.take (adminAt id conf acts n).read ++ [res] := by
            rw [List.take_succ, hr]; rfl
          have hnot : k ∉ ((adminAt id conf acts n).conn.sent.take (adminAt id conf acts n).read).map resConv := by
            have h1 : (((adminAt id conf acts n).conn.sent.take ((adminAt id conf acts n).read + 1)).map resConv).Nodup :=
              hnd.sublist ((List.take_sublist _ _).map _)
            rw [htake, List.map_append] at h1
            intro hh
            exact (List.nodup_append.1 h1).2.2 k hh k (by simp [hk]) rfl
          have hwait : (adminAt id conf acts n).client.calls k = .waiting res.toMsg.kind := by
            have hgo := ih.going k hkn hnot
            have hov := hno n res ha hr
            rw [toMsg_conv, hk] at hov
            have hown := own_at hcall hn0
            unfold AdminOwn at hown
            cases hp : (adminAt id conf acts n).client.calls k with
            | waiting kind =>
              rw [hp] at hown
              rw [hown.1, answers_kind hans]
            | sending kind => exact absurd hp (hov kind)
            | _ => rw [hp] at hgo; exact hgo.elim
          have hstep : (adminAt id conf acts n).client.step (.receive res.toMsg) = (adminAt id conf acts n).client.setCall k (.resolved (AdminClient.result res.toMsg.data)) := by
            simp only [AdminClient.step, AdminClient.receive, hst, ih.ended, toMsg_conv, hk, hwait]
            simp
          rw [he, hstep]
          refine ⟨ih.isOpen, ih.ended, ih.lost, fun v hv hv' => ?_⟩
          have hv' : v ∉ List.map resConv ((adminAt id conf acts n).conn.sent.take ((adminAt id conf acts n).read + 1)) := hv'
          rw [htake, List.map_append, List.mem_append, not_or] at hv'
          show AdminGoing (if v = k then _ else _)
          rw [if_neg (fun e => hv'.2 (by simp [hk, e]))]
          exact ih.going v hv hv'.1
        · rw [if_neg (by simp [hst])] at he
          exact hstay he

theorem finished_at {m m' : Nat} {e : AdminEnd} (h : m ≤ m') (hf : (adminAt id conf acts m).client.calls k = .finished e) :
    (adminAt id conf acts m').client.calls k = .finished e := by
  induction m', h using Nat.le_induction with
  | base => exact hf
  | succ m' _ ih =>
    rw [adminAt_succ]
    rcases AdminWire.client_step (adminAt id conf acts m') (acts m') with ⟨e', _⟩ | ⟨act, e', _⟩
    · rw [e']; exact ih
    · rw [e']
      have hg := AdminClient.goes_step (adminAt id conf acts m').client act k
      generalize hp : ((adminAt id conf acts m').client.step act).calls k = p at hg
      cases hg with
      | stay => exact ih
      | made kind _ hk _ => rw [notMade_at m' k (by omega)] at ih; cases ih
      | refused kind _ hk _ => rw [notMade_at m' k (by omega)] at ih; cases ih
      | waits kind _ h _ => rw [ih] at h; cases h
      | late kind _ h _ => rw [ih] at h; cases h
      | resumed r h => rw [ih] at h; cases h
      | cancelled _ _ h => exact absurd ih (h e)
      | answered kind msg _ _ h _ => rw [ih] at h; cases h
      | failed kind h _ => rw [ih] at h; cases h

end
end AdminLive

end HatEvent
