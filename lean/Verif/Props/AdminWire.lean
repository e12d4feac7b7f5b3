import Verif.Proof.AdminWireLive
import Verif.Proof.Forever
import Mathlib.Tactic.IntervalCases

/-!
# Requests of an adminer client end (C98)

The schedules do not end.  A client is connected to connection `id` of a server that was created with a configuration.
-/

namespace HatEvent
open Spec AdminLive

/-- **C98** What the end of a call says: `get_log_conf` returns the configuration the server had when it processed this request, between the call and its end;
`set_log_conf` returns after the server has taken over the configuration; `AdminerError` says that the server could not, and has kept its configuration; `ConnectionError` says
that the client is closed. -/
theorem C98_meaning (id : Nat) (conf : Json) (acts : Nat → AdminWireAct) {n m : Nat} {query : AdminQuery} {e : AdminEnd} (ha : acts n = .ask query) (hm : n < m)
    (he : (adminAt id conf acts m).client.calls (adminAt id conf acts n).client.next = .finished e) :
    AdminMeaning (adminAt id conf acts) acts query (adminAt id conf acts n).client.next n m e := by
  have h := own_at (id := id) (conf := conf) ⟨ha, rfl⟩ hm
  unfold AdminOwn at h
  rw [he] at h
  exact h

/-- **C98**, partial: the receive loop of the client has to be started before the client is closed.  Every call ends. -/
theorem C98_ends_partial (id : Nat) (conf : Json) (acts : Nat → AdminWireAct) {n : Nat} {query : AdminQuery} (ha : acts n = .ask query)
    (hg : AdminGoesOn (adminAt id conf acts) acts) (hk : AdminCallGoesOn acts (adminAt id conf acts n).client.next) (hl : AdminLoopStarts (adminAt id conf acts)) :
    ∃ m e, n < m ∧ (adminAt id conf acts m).client.calls (adminAt id conf acts n).client.next = .finished e ∧
      AdminMeaning (adminAt id conf acts) acts query (adminAt id conf acts n).client.next n m e := by
  obtain ⟨m, e, hm, he⟩ := call_ends hg hk hl ⟨ha, rfl⟩
  exact ⟨m, e, hm, he, C98_meaning id conf acts ha hm he⟩

/-- **C98**, partial: no response may be received before `send_msg` of its request has returned.  While nobody closes the connection and no call is cancelled, every call
gets the response of the server. -/
theorem C98_answered_partial (id : Nat) (conf : Json) (acts : Nat → AdminWireAct) {n : Nat} {query : AdminQuery} (ha : acts n = .ask query)
    (hg : AdminGoesOn (adminAt id conf acts) acts) (hk : AdminCallGoesOn acts (adminAt id conf acts n).client.next) (hc : AdminCalm id acts)
    (hno : AdminNotOvertaken (adminAt id conf acts) acts) :
    (∀ m, (adminAt id conf acts m).client.isOpen = true) ∧
    ∃ m e, n < m ∧ (adminAt id conf acts m).client.calls (adminAt id conf acts n).client.next = .finished e ∧
      AdminMeaning (adminAt id conf acts) acts query (adminAt id conf acts n).client.next n m e ∧ (e = .adminerError ∨ ∃ data, e = .success data) := by
  have hopen : ∀ m, (adminAt id conf acts m).client.isOpen = true := fun m => (fit_at hc hno m).isOpen
  refine ⟨hopen, ?_⟩
  obtain ⟨m, e, hm, he, hmean⟩ := C98_ends_partial id conf acts ha hg hk fun m h => by rw [hopen m] at h; cases h
  refine ⟨m, e, hm, he, hmean, ?_⟩
  cases hmean with
  | got j ok _ _ _ _ => exact .inr ⟨_, rfl⟩
  | stored j c _ _ _ _ _ => exact .inr ⟨_, rfl⟩
  | refused j c _ _ _ _ _ => exact .inl rfl
  | gone h => rw [hopen m] at h; cases h
  | cancelled j _ h => exact absurd h (hc.cancel j _)

/-! ### Examples -/

/-- What goes on for ever. -/
def exAdminCycle : List AdminWireAct :=
  [.arrive true, .deliver, .notice, .client .start, .client .stop, .client (.sendDone 0), .client (.resume 0), .client (.sendDone 1), .client (.resume 1)]

theorem exAdminCycle_ne : exAdminCycle ≠ [] := by simp [exAdminCycle]

theorem exAdmin_goesOn (pre : List AdminWireAct) (conf : Json) (ha : ((AdminWire.init 0 conf).run pre).server.next = 1) {k : Nat} (hk : k = 0 ∨ k = 1) :
    AdminGoesOn (adminAt 0 conf (exForever pre exAdminCycle exAdminCycle_ne)) (exForever pre exAdminCycle exAdminCycle_ne) ∧
      AdminCallGoesOn (exForever pre exAdminCycle exAdminCycle_ne) k := by
  have often : ∀ a ∈ exAdminCycle, Often (exForever pre exAdminCycle exAdminCycle_ne) a := fun a h => exForever_often h
  refine ⟨⟨⟨pre.length, ?_⟩, fun n => ?_, often _ (by simp [exAdminCycle]), often _ (by simp [exAdminCycle]), often _ (by simp [exAdminCycle]), often _ (by simp [exAdminCycle])⟩, ?_⟩
  · unfold adminAt
    rw [exForever_upTo (Nat.le_refl _), List.take_length, ha, show ((AdminWire.init 0 conf).run pre).id = 0 from ?_]
    · exact Nat.zero_lt_one
    · have := adminAt_id (id := 0) (conf := conf) (acts := exForever pre exAdminCycle exAdminCycle_ne) pre.length
      unfold adminAt at this
      rw [exForever_upTo (Nat.le_refl _), List.take_length] at this
      exact this
  · obtain ⟨m, hm, h⟩ := often (.arrive true) (by simp [exAdminCycle]) n
    exact ⟨m, hm, true, h⟩
  · rcases hk with rfl | rfl <;> exact ⟨often _ (by simp [exAdminCycle]), often _ (by simp [exAdminCycle])⟩

/-- A client that reads and writes the configuration. -/
def exAdminGood : List AdminWireAct :=
  [.server .accept, .client .start, .ask .get, .client (.sendDone 0), .arrive true, .deliver, .client (.resume 0),
   .ask (.set (.str "new")), .client (.sendDone 1), .arrive true, .deliver, .client (.resume 1)]

/-- Nothing to do. -/
theorem exAdmin_idle {s : AdminWire} {e0 e1 : AdminEnd} (h1 : s.client.isOpen = true) (h2 : s.client.started = true) (h3 : s.conn.lost = false) (h4 : s.request = none)
    (h5 : s.conn.sent[s.read]? = none) (h6 : s.client.calls 0 = .finished e0) (h7 : s.client.calls 1 = .finished e1) : ∀ a ∈ exAdminCycle, s.step a = s := by
  have hclient : ∀ c : AdminClient, c = s.client → ({ s with client := c } : AdminWire) = s := by rintro c rfl; rfl
  intro a ha
  simp only [exAdminCycle, List.mem_cons, List.not_mem_nil, or_false] at ha
  rcases ha with rfl | rfl | rfl | rfl | rfl | rfl | rfl | rfl | rfl
  · simp only [AdminWire.step, AdminWire.arrive, h4]
  · simp only [AdminWire.step, AdminWire.deliver, h5]
  · simp only [AdminWire.step, AdminWire.closed, h3, h1]; rfl
  · refine hclient s.client.start ?_
    unfold AdminClient.start
    rw [if_pos h1]
    generalize s.client = c at h2
    cases c
    cases h2
    rfl
  · exact hclient s.client.stop (if_pos h1)
  · exact hclient (s.client.sendDone 0) (by unfold AdminClient.sendDone; rw [h6])
  · exact hclient (s.client.resume 0) (by unfold AdminClient.resume; rw [h6])
  · exact hclient (s.client.sendDone 1) (by unfold AdminClient.sendDone; rw [h7])
  · exact hclient (s.client.resume 1) (by unfold AdminClient.resume; rw [h7])

theorem exAdminGood_idle : ∀ a ∈ exAdminCycle, AdminWire.step (exAdminGood.foldl AdminWire.step (AdminWire.init 0 (.str "old"))) a =
    exAdminGood.foldl AdminWire.step (AdminWire.init 0 (.str "old")) :=
  exAdmin_idle (e0 := .success (.str "old")) (e1 := .success .null) rfl rfl rfl rfl rfl rfl rfl

theorem exAdminGood_at (n : Nat) : adminAt 0 (.str "old") (exForever exAdminGood exAdminCycle exAdminCycle_ne) n = (AdminWire.init 0 (.str "old")).run (exAdminGood.take n) := by
  obtain ⟨h, h1, h2, h3⟩ := exForever_states (pre := exAdminGood) (cycle := exAdminCycle) (hc := exAdminCycle_ne) (step := AdminWire.step) (s := AdminWire.init 0 (.str "old")) exAdminGood_idle n
  unfold adminAt
  rw [show (AdminWire.init 0 (.str "old")).run (upTo (exForever exAdminGood exAdminCycle exAdminCycle_ne) n) = (AdminWire.init 0 (.str "old")).run h from h2,
    List.prefix_iff_eq_take.1 h1, h3]
  congr 1
  rcases Nat.le_total n exAdminGood.length with hn | hn
  · rw [Nat.min_eq_left hn]
  · rw [Nat.min_eq_right hn, List.take_length, List.take_of_length_le hn]

/-- The hypotheses hold for both calls, and both get their responses. -/
example :
    let acts := exForever exAdminGood exAdminCycle exAdminCycle_ne
    let s := adminAt 0 (.str "old") acts
    acts 2 = .ask .get ∧ acts 7 = .ask (.set (.str "new")) ∧ (s 2).client.next = 0 ∧ (s 7).client.next = 1 ∧
    AdminGoesOn s acts ∧ AdminCallGoesOn acts 0 ∧ AdminCallGoesOn acts 1 ∧ AdminLoopStarts s ∧ AdminCalm 0 acts ∧ AdminNotOvertaken s acts ∧
    (s 12).client.calls 0 = .finished (.success (.str "old")) ∧ (s 12).client.calls 1 = .finished (.success .null) ∧ (s 12).server.conf = .str "new" := by
  refine ⟨rfl, rfl, rfl, rfl, (exAdmin_goesOn exAdminGood (.str "old") rfl (.inl rfl)).1, (exAdmin_goesOn exAdminGood (.str "old") rfl (.inl rfl)).2,
    (exAdmin_goesOn exAdminGood (.str "old") rfl (.inr rfl)).2, ?_, ?_, ?_, rfl, rfl, rfl⟩
  · intro n h
    rw [exAdminGood_at] at h
    rcases Nat.lt_or_ge n 12 with hn | hn
    · exfalso
      interval_cases n <;> cases h
    · rw [List.take_of_length_le hn] at h
      cases h
  · have hall : ∀ n, exForever exAdminGood exAdminCycle exAdminCycle_ne n ∈ exAdminGood ++ exAdminCycle := by
      intro n
      have h := exForever_mem (pre := exAdminGood) (cycle := exAdminCycle) (hc := exAdminCycle_ne) (n := n + 1) (a := exForever exAdminGood exAdminCycle exAdminCycle_ne n)
        (by rw [upTo_succ]; simp)
      exact List.mem_append.2 h
    refine ⟨fun n h => ?_, fun n h => ?_, fun n k h => ?_⟩ <;> (have := hall n; rw [h] at this; simp [exAdminGood, exAdminCycle] at this)
  · intro n res ha hres kind
    rw [exAdminGood_at] at hres ⊢
    rcases Nat.lt_or_ge n 12 with hn | hn
    · have h : n = 5 ∨ n = 10 := by
        interval_cases n <;> first | exact .inl rfl | exact .inr rfl | cases ha
      rcases h with rfl | rfl
      · have h0 : ((AdminWire.init 0 (.str "old")).run (exAdminGood.take 5)).client.calls 0 = .waiting .getLogConf := rfl
        have hr : ((AdminWire.init 0 (.str "old")).run (exAdminGood.take 5)).conn.sent[((AdminWire.init 0 (.str "old")).run (exAdminGood.take 5)).read]? = some (.got 0 (some (.str "old"))) := rfl
        rw [hr] at hres
        obtain rfl := Option.some.inj hres
        show ((AdminWire.init 0 (.str "old")).run (exAdminGood.take 5)).client.calls 0 ≠ _
        rw [h0]
        exact nofun
      · have h0 : ((AdminWire.init 0 (.str "old")).run (exAdminGood.take 10)).client.calls 1 = .waiting .setLogConf := rfl
        have hr : ((AdminWire.init 0 (.str "old")).run (exAdminGood.take 10)).conn.sent[((AdminWire.init 0 (.str "old")).run (exAdminGood.take 10)).read]? = some (.done 1 true) := rfl
        rw [hr] at hres
        obtain rfl := Option.some.inj hres
        show ((AdminWire.init 0 (.str "old")).run (exAdminGood.take 10)).client.calls 1 ≠ _
        rw [h0]
        exact nofun
    · rw [List.take_of_length_le hn] at hres
      cases hres

/-! ### Where it does not hold -/

/-- A client that is closed before its receive loop has started. -/
def exAdminUnstarted : List AdminWireAct := [.server .accept, .ask .get, .client (.sendDone 0), .client .close]

/-- **C98**, refuted without that condition: a call of a client that is closed before its receive loop has started waits for ever. -/
theorem C98_unstarted_refuted : ¬ ∀ (id : Nat) (conf : Json) (acts : Nat → AdminWireAct) (n : Nat) (query : AdminQuery), acts n = .ask query →
    AdminGoesOn (adminAt id conf acts) acts → AdminCallGoesOn acts (adminAt id conf acts n).client.next →
    ∃ m e, n < m ∧ (adminAt id conf acts m).client.calls (adminAt id conf acts n).client.next = .finished e := by
  intro h
  obtain ⟨m, e, hm, he⟩ := h 0 (.str "old") (exForever exAdminUnstarted exAdminCycle exAdminCycle_ne) 1 .get rfl
    (exAdmin_goesOn exAdminUnstarted (.str "old") rfl (.inl rfl)).1 (exAdmin_goesOn exAdminUnstarted (.str "old") rfl (.inl rfl)).2
  change (adminAt 0 (.str "old") (exForever exAdminUnstarted exAdminCycle exAdminCycle_ne) m).client.calls 0 = .finished e at he
  have hafter : ∀ k, (adminAt 0 (.str "old") (exForever exAdminUnstarted exAdminCycle exAdminCycle_ne) (4 + k)).client.isOpen = false ∧
      (adminAt 0 (.str "old") (exForever exAdminUnstarted exAdminCycle exAdminCycle_ne) (4 + k)).client.started = false ∧
      (adminAt 0 (.str "old") (exForever exAdminUnstarted exAdminCycle exAdminCycle_ne) (4 + k)).client.calls 0 = .waiting .getLogConf ∧
      (adminAt 0 (.str "old") (exForever exAdminUnstarted exAdminCycle exAdminCycle_ne) (4 + k)).client.calls 1 = .absent := by
    intro k
    induction k with
    | zero => exact ⟨rfl, rfl, rfl, rfl⟩
    | succ k ih =>
      have ha : exForever exAdminUnstarted exAdminCycle exAdminCycle_ne (4 + k) ∈ exAdminCycle := exForever_after (pre := exAdminUnstarted) k
      rw [show 4 + (k + 1) = 4 + k + 1 by omega, adminAt_succ]
      generalize exForever exAdminUnstarted exAdminCycle exAdminCycle_ne (4 + k) = a at ha
      generalize adminAt 0 (.str "old") (exForever exAdminUnstarted exAdminCycle exAdminCycle_ne) (4 + k) = s at ih
      obtain ⟨h1, h2, h3, h4⟩ := ih
      have hsame : ∀ t : AdminWire, t.client = s.client →
          t.client.isOpen = false ∧ t.client.started = false ∧ t.client.calls 0 = .waiting .getLogConf ∧ t.client.calls 1 = .absent := by
        intro t e
        rw [e]
        exact ⟨h1, h2, h3, h4⟩
      simp only [exAdminCycle, List.mem_cons, List.not_mem_nil, or_false] at ha
      rcases ha with rfl | rfl | rfl | rfl | rfl | rfl | rfl | rfl | rfl
      · refine hsame _ ?_
        simp only [AdminWire.step, AdminWire.arrive]
        split <;> rfl
      · refine hsame _ ?_
        simp only [AdminWire.step, AdminWire.deliver, h2]
        split <;> rfl
      · simp only [AdminWire.step]
        split
        · exact ⟨rfl, h2, h3, h4⟩
        · exact ⟨h1, h2, h3, h4⟩
      · refine hsame _ ?_
        show s.client.start = _
        unfold AdminClient.start
        rw [h1]; rfl
      · refine hsame _ ?_
        show s.client.stop = _
        unfold AdminClient.stop
        rw [h1, h2]
        simp
      · exact hsame _ (show s.client.sendDone 0 = _ by unfold AdminClient.sendDone; rw [h3])
      · exact hsame _ (show s.client.resume 0 = _ by unfold AdminClient.resume; rw [h3])
      · exact hsame _ (show s.client.sendDone 1 = _ by unfold AdminClient.sendDone; rw [h4])
      · exact hsame _ (show s.client.resume 1 = _ by unfold AdminClient.resume; rw [h4])
  rcases Nat.lt_or_ge m 4 with hlt | hge
  · interval_cases m <;> cases he
  · obtain ⟨k, rfl⟩ := Nat.exists_eq_add_of_le hge
    rw [(hafter k).2.2.1] at he
    cases he

/-- A response that is received before `send_msg` of its request has returned. -/
def exAdminEarly : List AdminWireAct := [.server .accept, .client .start, .ask .get, .arrive true, .deliver, .client (.sendDone 0)]

/-- **C98**, refuted without that condition: a response that is received before `send_msg` has returned closes the client, and the call raises `ConnectionError`. -/
theorem C98_overtaken_refuted : ¬ ∀ (id : Nat) (conf : Json) (acts : Nat → AdminWireAct) (n : Nat) (query : AdminQuery), acts n = .ask query →
    AdminGoesOn (adminAt id conf acts) acts → AdminCallGoesOn acts (adminAt id conf acts n).client.next → AdminCalm id acts →
    ∃ m e, n < m ∧ (adminAt id conf acts m).client.calls (adminAt id conf acts n).client.next = .finished e ∧ (e = .adminerError ∨ ∃ data, e = .success data) := by
  intro h
  have hall : ∀ n, exForever exAdminEarly exAdminCycle exAdminCycle_ne n ∈ exAdminEarly ++ exAdminCycle := by
    intro n
    have h := exForever_mem (pre := exAdminEarly) (cycle := exAdminCycle) (hc := exAdminCycle_ne) (n := n + 1) (a := exForever exAdminEarly exAdminCycle exAdminCycle_ne n)
      (by rw [upTo_succ]; simp)
    exact List.mem_append.2 h
  obtain ⟨m, e, hm, he, h⟩ := h 0 (.str "old") (exForever exAdminEarly exAdminCycle exAdminCycle_ne) 2 .get rfl
    (exAdmin_goesOn exAdminEarly (.str "old") rfl (.inl rfl)).1 (exAdmin_goesOn exAdminEarly (.str "old") rfl (.inl rfl)).2 (by
      refine ⟨fun n h => ?_, fun n h => ?_, fun n k h => ?_⟩ <;> (have := hall n; rw [h] at this; simp [exAdminEarly, exAdminCycle] at this))
  have h6 : (adminAt 0 (.str "old") (exForever exAdminEarly exAdminCycle exAdminCycle_ne) 6).client.calls 0 = .finished .connectionError := rfl
  change (adminAt 0 (.str "old") (exForever exAdminEarly exAdminCycle exAdminCycle_ne) m).client.calls 0 = .finished e at he
  have hend : e = .connectionError := by
    rcases Nat.le_total m 6 with hle | hge
    · have := finished_at hle he
      rw [h6] at this
      exact (AdminPhase.finished.inj this).symm
    · rw [finished_at hge h6] at he
      exact (AdminPhase.finished.inj he).symm
  subst hend
  rcases h with h | ⟨_, h⟩ <;> cases h

end HatEvent
