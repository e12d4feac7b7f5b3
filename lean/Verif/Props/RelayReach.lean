import Verif.Props.RelayLive
import Verif.Proof.WireNotify

/-!
# C105: what a client registers reaches the other clients
-/

namespace HatEvent
open Spec

section
variable {cf : StationConf} {past : List BackendOp} {acts : Nat → RelayAct}

theorem relayAt_split {n m : Nat} (h : n < m) :
    ∃ l, relayAt cf past acts m = ((relayAt cf past acts n).step cf (acts n)).run cf l := by
  obtain ⟨l, hl⟩ := upTo_prefix acts (show n + 1 ≤ m from h)
  refine ⟨l, ?_⟩
  rw [← relayAt_succ]
  unfold relayAt
  rw [← hl, Relay.run_append]

/-- What a client was notified about. -/
theorem relay_notified {b m : Nat} {c : ReqClient} (hc : (relayAt cf past acts m).station.clients b = some c) :
    c.notified = EvServer.allNotes (((relayAt cf past acts m).station.conn b).sent.take ((relayAt cf past acts m).station.read b)) := by
  obtain ⟨xs, hx⟩ := Relay.station_run cf (Relay.init cf past) (upTo acts m)
  have hg : Station.Gets b none (relayAt cf past acts m).station := by
    unfold relayAt
    rw [hx]
    exact Station.gets_run (Station.gets_init cf past) xs
  exact hg.notes c hc

/-- A client that stays connected. -/
structure StaysConnected (cf : StationConf) (past : List BackendOp) (acts : Nat → RelayAct) (b n : Nat) : Prop where
  connected : (relayAt cf past acts n).station.clients b ≠ none
  isOpen : ∀ m c, (relayAt cf past acts m).station.clients b = some c → c.isOpen = true
  notLost : ∀ m, ((relayAt cf past acts m).station.conn b).lost = false

theorem relay_alive {b n : Nat} {L : Nat → List WireAct} {wacts : Nat → WireAct} {f : Nat → Nat} (hw : WireFlat cf past acts b L wacts f)
    (hp : ProcessGoesOn cf past acts) (hg : ClientGoesOn cf past acts b) (hs : StaysConnected cf past acts b n) :
    WireAlive b cf.useC cf.token wacts (f n) := by
  obtain ⟨c0, hc0⟩ := Option.ne_none_iff_exists'.1 hs.connected
  have hcl : (wireAt b cf.useC cf.token wacts (f n)).link.client = some c0 := by rw [hw.at_]; exact hc0
  have hopen : ∀ i c, (wireAt b cf.useC cf.token wacts i).link.client = some c → c.isOpen = true := by
    intro i c hc
    by_contra hno
    obtain ⟨k, j, hj, rfl⟩ := hw.place i
    obtain ⟨c', h1, h2, _⟩ := NoteStuck.closed_stays hc (by simpa using hno) (show f k + j ≤ f (k + 1) by rw [hw.start]; omega)
    rw [hw.at_] at h1
    rw [hs.isOpen (k + 1) c' h1] at h2
    cases h2
  refine ⟨hw.goesOn hp hg, fun i hi => NoteStuck.client_stays hcl hi, fun i _ c hc hl => ?_, fun i _ c hc hl => ?_, fun i _ => ?_⟩
  · obtain ⟨l, hok⟩ := wireAt_ok (id := b) (useC := cf.useC) (token := cf.token) (acts := wacts) i
    have ho := hopen i c hc
    obtain ⟨status, cacts, rfl⟩ := Link.reached b cf.useC cf.token l (by rw [← hok.link]; exact hc)
    rw [ReqClient.never_closed status cacts hl] at ho
    cases ho
  · obtain ⟨l, hok⟩ := wireAt_ok (id := b) (useC := cf.useC) (token := cf.token) (acts := wacts) i
    have ho := hopen i c hc
    obtain ⟨status, cacts, rfl⟩ := Link.reached b cf.useC cf.token l (by rw [← hok.link]; exact hc)
    rw [(ReqClient.quiet_run status cacts hl).1] at ho
    cases ho
  · by_contra hno
    obtain ⟨k, j, hj, rfl⟩ := hw.place i
    have hm : ∀ i', f k + j ≤ i' → (wireAt b cf.useC cf.token wacts i').conn.lost = true := by
      intro i' hi'
      induction i', hi' using Nat.le_induction with
      | base => simpa using hno
      | succ i' _ ih => rw [wireAt_succ]; exact Wire.lost_step _ ih
    have h1 := hm (f (k + 1)) (by rw [hw.start]; omega)
    rw [hw.conn_at, hs.notLost] at h1
    cases h1

/-- A client that stays connected reads everything that was sent to it. -/
theorem relay_reads {b n : Nat} (hid : cf.foreign b = false) (hp : ProcessGoesOn cf past acts) (hg : ClientGoesOn cf past acts b)
    (hs : StaysConnected cf past acts b n) {m : Nat} (hm : n ≤ m) :
    ∃ m' c, m ≤ m' ∧ (relayAt cf past acts m').station.clients b = some c ∧
      ∀ l ∈ EvServer.allNotes ((relayAt cf past acts m).station.conn b).sent, l ∈ c.notified := by
  obtain ⟨L, wacts, f, hw⟩ := exists_wireFlat hid past acts
  have ha := relay_alive hw hp hg hs
  obtain ⟨i, hi, hr⟩ := ha.reads_all (hw.mono hm) ((relayAt cf past acts m).station.conn b).sent.length (by rw [hw.conn_at])
  obtain ⟨k, j, hj, rfl⟩ := hw.place i
  have hk : f k + j ≤ f (k + 1) := by rw [hw.start]; omega
  have hmk : m ≤ k + 1 := by
    by_contra hlt
    have h1 := hw.strict (show k + 1 < m by omega)
    omega
  have hfn := hw.mono hm
  obtain ⟨c, hc⟩ := ha.client (f (k + 1)) (by omega)
  have hread := Nat.le_trans hr (ha.read_mono (by omega) hk)
  have hsent := WireAlive.sent_mono (id := b) (useC := cf.useC) (token := cf.token) (acts := wacts) (hw.mono hmk)
  rw [hw.at_] at hc hread
  rw [hw.conn_at, hw.conn_at] at hsent
  have hc : (relayAt cf past acts (k + 1)).station.clients b = some c := hc
  have hread : ((relayAt cf past acts m).station.conn b).sent.length ≤ (relayAt cf past acts (k + 1)).station.read b := hread
  refine ⟨k + 1, c, hmk, hc, fun l hl => ?_⟩
  rw [relay_notified hc]
  obtain ⟨more, hmore⟩ := hsent
  rw [← hmore, List.take_append, List.take_of_length_le hread, EvServer.allNotes_append]
  exact List.mem_append_left _ hl

end

/-- **C105**: every event of an answer to a registration is passed to the callback of each client that asked for such events, if the client was known
to the server when the events were registered and stays connected. -/
theorem C105_reaches_partial (cf : StationConf) (past : List BackendOp) (acts : Nat → RelayAct) (a b n m : Nat) (ha : cf.foreign a = false)
    (hb : cf.foreign b = false) (evs : List RegisterEvent) (hact : acts n = .station (.client a (.register evs true))) {c c' : ReqClient}
    (hc : (relayAt cf past acts n).station.clients a = some c) {info : ConnInfo} (hk : (b, info) ∈ (relayAt cf past acts n).station.host.server.infos)
    (hper : info.req.persisted = false) (hnul : cf.useC = true → ∀ q ∈ info.req.subscriptions, NulFree q)
    (hp : ProcessGoesOn cf past acts) (hgb : ClientGoesOn cf past acts b) (hs : StaysConnected cf past acts b n) {es : List Event}
    (hm : n < m) (hcm : (relayAt cf past acts m).station.clients a = some c') (hx : c'.calls c.nextCall = .finished (.answered (.events (some es)))) :
    ∃ m' d, m ≤ m' ∧ (relayAt cf past acts m').station.clients b = some d ∧
      ∀ x ∈ es, MatchesAny info.req.subscriptions x.type → (info.req.serverId = none ∨ info.req.serverId = some x.id.server) →
        ∃ l ∈ d.notified, x ∈ l := by
  obtain ⟨m', d, hm', hd, hall⟩ := relay_reads hb hp hgb hs (Nat.le_of_lt hm)
  refine ⟨m', d, hm', hd, fun x hxe hmt hsv => ?_⟩
  obtain ⟨l, hl⟩ := relayAt_split (cf := cf) (past := past) (acts := acts) hm
  rw [hact] at hl
  rw [hl] at hcm
  have h := C100_others_partial cf past a b ha (upTo acts n) evs l c c' info es hc hk hper hnul hcm hx x hxe hmt hsv
  have hl' := hs.notLost m
  rw [hl] at hl' hall
  rcases h with h | ⟨y, hy, hxy⟩
  · exact absurd (h.symm.trans hl') (by decide)
  · exact ⟨y, hall y hy, hxy⟩

/-- **C105**: a registration of a client that stays open is answered, and the events of the answer reach the other clients. -/
theorem C105_answered_partial (cf : StationConf) (past : List BackendOp) (acts : Nat → RelayAct) (a b n : Nat) (ha : cf.foreign a = false)
    (hb : cf.foreign b = false) (evs : List RegisterEvent) (hact : acts n = .station (.client a (.register evs true))) {c : ReqClient}
    (hc : (relayAt cf past acts n).station.clients a = some c) {info : ConnInfo} (hk : (b, info) ∈ (relayAt cf past acts n).station.host.server.infos)
    (hper : info.req.persisted = false) (hnul : cf.useC = true → ∀ q ∈ info.req.subscriptions, NulFree q)
    (hp : ProcessGoesOn cf past acts) (hga : ClientGoesOn cf past acts a) (hgb : ClientGoesOn cf past acts b) (ht : TaskGoesOn acts a c.nextCall)
    (hr : ReceiveStarts cf past acts a) (hf : SentFirst cf past acts a c.nextCall)
    (hopen : ∀ m c', (relayAt cf past acts m).station.clients a = some c' → c'.isOpen = true)
    (hcancel : ∀ m, acts m ≠ .station (.client a (.cancel c.nextCall))) (hs : StaysConnected cf past acts b n) :
    ∃ m c' r, n < m ∧ (relayAt cf past acts m).station.clients a = some c' ∧ c'.calls c.nextCall = .finished (.answered (.events r)) ∧
      ∀ es, r = some es → ∃ m' d, m ≤ m' ∧ (relayAt cf past acts m').station.clients b = some d ∧
        ∀ x ∈ es, MatchesAny info.req.subscriptions x.type → (info.req.serverId = none ∨ info.req.serverId = some x.id.server) →
          ∃ l ∈ d.notified, x ∈ l := by
  obtain ⟨m, c', x, msg, hm, hcm, hx, hmsg, hsuit⟩ := C101_answered_partial cf past acts a n ha (.register evs) hact hc hp hga ht hr hf hopen hcancel
  obtain ⟨r, rfl⟩ : ∃ r, x = .events r := by
    cases hsuit with
    | register r => exact ⟨r, rfl⟩
    | query r =>
      exfalso
      simp only [ReqClient.step, ReqClient.request] at hmsg
      split at hmsg <;> simp [ReqClient.setCall] at hmsg
  refine ⟨m, c', r, hm, hcm, hx, fun es he => ?_⟩
  subst he
  exact C105_reaches_partial cf past acts a b n m ha hb evs hact hc hk hper hnul hp hgb hs hm hcm hx

/-- The clients stay open and the connection of the second one is not lost. -/
def exReachable (s : Relay) : Bool :=
  (match s.station.clients 0 with | some c => c.isOpen | none => true) && (match s.station.clients 1 with | some c => c.isOpen | none => true) &&
    !(s.station.conn 1).lost

theorem exReach_at {pre : List RelayAct} (h : ExBegins pre) (hf : exTrace exStation exReachable exRelayInit pre = true) (n : Nat) :
    exReachable (relayAt exStation [.reopen exKeep] (exRelayActs pre) n) = true := by
  rw [exRelay_at h]
  exact exTrace_all hf n

theorem exReach_stays {pre : List RelayAct} (h : ExBegins pre) (hf : exTrace exStation exReachable exRelayInit pre = true) {n : Nat}
    (hn : (relayAt exStation [.reopen exKeep] (exRelayActs pre) n).station.clients 1 ≠ none) :
    StaysConnected exStation [.reopen exKeep] (exRelayActs pre) 1 n where
  connected := hn
  isOpen m c hc := by
    have := exReach_at h hf m
    simp [exReachable, hc] at this
    exact this.1.2
  notLost m := by
    have := exReach_at h hf m
    simp only [exReachable, Bool.and_eq_true, Bool.not_eq_true'] at this
    exact this.2

theorem exReach_open {pre : List RelayAct} (h : ExBegins pre) (hf : exTrace exStation exReachable exRelayInit pre = true) (m : Nat) (c : ReqClient)
    (hc : (relayAt exStation [.reopen exKeep] (exRelayActs pre) m).station.clients 0 = some c) : c.isOpen = true := by
  have := exReach_at h hf m
  simp [exReachable, hc] at this
  exact this.1.1

/-- Calls of the first client are cancelled. -/
def exCancels (x : RelayAct) : Bool := match x with | .station (.client 0 (.cancel _)) => true | _ => false

theorem exReach_cancel {pre : List RelayAct} (hpre : pre.all (fun x => !exCancels x) = true) (k m : Nat) :
    exRelayActs pre m ≠ .station (.client 0 (.cancel k)) := by
  intro h
  have hall : ∀ x ∈ pre ++ exRelayCycle, exCancels x = false := by
    intro x hx
    rcases List.mem_append.1 hx with hx | hx
    · simpa using List.all_eq_true.1 hpre x hx
    · have : exRelayCycle.all (fun x => !exCancels x) = true := rfl
      simpa using List.all_eq_true.1 this x hx
  have hin : exRelayActs pre m ∈ pre ++ exRelayCycle := by
    unfold exRelayActs exForever
    split
    · exact List.mem_append_left _ (List.getElem_mem _)
    · exact List.mem_append_right _ (List.getElem_mem _)
  have := hall _ hin
  rw [h] at this
  cases this

/-- The hypotheses: the first client registers two events, the second one asked for one of them. -/
example : ∃ c info, exRelayActs exRelayCall 17 = .station (.client 0 (.register exStationEvents true)) ∧
    (relayAt exStation [.reopen exKeep] (exRelayActs exRelayCall) 17).station.clients 0 = some c ∧ c.nextCall = 0 ∧
    (1, info) ∈ (relayAt exStation [.reopen exKeep] (exRelayActs exRelayCall) 17).station.host.server.infos ∧ info.req = ⟨"b", none, [["b"]], some 7, false⟩ ∧
    exStation.foreign 0 = false ∧ exStation.foreign 1 = false ∧ exStation.useC = false ∧
    ProcessGoesOn exStation [.reopen exKeep] (exRelayActs exRelayCall) ∧ ClientGoesOn exStation [.reopen exKeep] (exRelayActs exRelayCall) 0 ∧
    ClientGoesOn exStation [.reopen exKeep] (exRelayActs exRelayCall) 1 ∧ TaskGoesOn (exRelayActs exRelayCall) 0 0 ∧
    ReceiveStarts exStation [.reopen exKeep] (exRelayActs exRelayCall) 0 ∧ SentFirst exStation [.reopen exKeep] (exRelayActs exRelayCall) 0 0 ∧
    (∀ m c', (relayAt exStation [.reopen exKeep] (exRelayActs exRelayCall) m).station.clients 0 = some c' → c'.isOpen = true) ∧
    (∀ m, exRelayActs exRelayCall m ≠ .station (.client 0 (.cancel 0))) ∧ StaysConnected exStation [.reopen exKeep] (exRelayActs exRelayCall) 1 17 :=
  ⟨_, _, rfl, rfl, rfl, List.mem_of_getElem? (i := 1) rfl, rfl, rfl, rfl, rfl, exRelay_process exRelayCall_begins,
    exRelay_client exRelayCall_begins (.inl rfl), exRelay_client exRelayCall_begins (.inr rfl), exRelay_task, exRelay_starts exRelayCall_begins,
    exRelayCall_first, exReach_open exRelayCall_begins rfl, exReach_cancel rfl 0, exReach_stays exRelayCall_begins rfl (by rw [exRelay_at exRelayCall_begins]; exact nofun)⟩

/-- What the second client got. -/
example : ∃ c d, (exRelayInit.run exStation exRelayCall).station.clients 0 = some c ∧
    c.calls 0 = .finished (.answered (.events (some exStationGot))) ∧ (exRelayInit.run exStation exRelayCall).station.clients 1 = some d ∧
    d.notified = [[⟨⟨7, 2, 2⟩, ["b"], exAt 2, some (exAt 0), none⟩]] := ⟨_, _, rfl, rfl, rfl, rfl⟩

/-- **C105 does not hold** if the response overtakes `send_msg`: everything goes on and the clients stay connected, but the call is never answered. -/
theorem C105_answered_refuted : ∃ (cf : StationConf) (past : List BackendOp) (acts : Nat → RelayAct) (n : Nat) (evs : List RegisterEvent) (c : ReqClient),
    cf.foreign 0 = false ∧ acts n = .station (.client 0 (.register evs true)) ∧ (relayAt cf past acts n).station.clients 0 = some c ∧
    ProcessGoesOn cf past acts ∧ ClientGoesOn cf past acts 0 ∧ ClientGoesOn cf past acts 1 ∧ TaskGoesOn acts 0 c.nextCall ∧ ReceiveStarts cf past acts 0 ∧
    (∀ m c', (relayAt cf past acts m).station.clients 0 = some c' → c'.isOpen = true) ∧ (∀ m, acts m ≠ .station (.client 0 (.cancel c.nextCall))) ∧
    StaysConnected cf past acts 1 n ∧
    ∀ m c' e, (relayAt cf past acts m).station.clients 0 = some c' → c'.calls c.nextCall ≠ .finished e := by
  refine ⟨exStation, [.reopen exKeep], exRelayActs exRelayOvertaken, 17, exStationEvents, _, rfl, rfl, rfl, exRelay_process exRelayOvertaken_begins,
    exRelay_client exRelayOvertaken_begins (.inl rfl), exRelay_client exRelayOvertaken_begins (.inr rfl), exRelay_task, exRelay_starts exRelayOvertaken_begins,
    exReach_open exRelayOvertaken_begins rfl, exReach_cancel rfl _,
    exReach_stays exRelayOvertaken_begins rfl (by rw [exRelay_at exRelayOvertaken_begins]; exact nofun), fun m c' e hc he => ?_⟩
  have hf : exTrace exStation (fun s => match s.station.clients 0 with
      | some c => match c.calls 0 with | .finished _ => false | _ => true
      | none => true) exRelayInit exRelayOvertaken = true := rfl
  have := exTrace_all hf m
  rw [← exRelay_at exRelayOvertaken_begins] at this
  have he' : c'.calls 0 = .finished e := he
  simp [hc, he'] at this

end HatEvent
