import Verif.Proof.WireLive

/-! # A client and a server that stay connected -/

namespace HatEvent
open Spec EvServer

/-- A client and its server at a time. -/
def wireAt (id : Nat) (useC : Bool) (token : Option String) (acts : Nat → WireAct) (n : Nat) : Wire :=
  (Wire.init id useC token).run (upTo acts n)

section
variable {id : Nat} {useC : Bool} {token : Option String} {acts : Nat → WireAct}

theorem wireAt_succ (n : Nat) : wireAt id useC token acts (n + 1) = (wireAt id useC token acts n).step (acts n) := by
  unfold wireAt
  rw [upTo_succ, Wire.run_snoc]

theorem wireAt_ok (n : Nat) : ∃ l, Wire.Ok id useC token (wireAt id useC token acts n) l := Wire.ok_run id useC token _

end

/-- From some time on the client is connected, its loop runs and the connection is not lost. -/
structure WireAlive (id : Nat) (useC : Bool) (token : Option String) (acts : Nat → WireAct) (N : Nat) : Prop where
  goesOn : WireGoesOn (wireAt id useC token acts) acts
  client : ∀ n, N ≤ n → ∃ c, (wireAt id useC token acts n).link.client = some c
  starts : ∀ n, N ≤ n → ∀ c, (wireAt id useC token acts n).link.client = some c → c.loop ≠ .never
  notEnded : ∀ n, N ≤ n → ∀ c, (wireAt id useC token acts n).link.client = some c → c.loop ≠ .ended
  notLost : ∀ n, N ≤ n → (wireAt id useC token acts n).conn.lost = false

namespace WireAlive
variable {id : Nat} {useC : Bool} {token : Option String} {acts : Nat → WireAct} {N : Nat}

/-- The next state of the client. -/
theorem next (_ : WireAlive id useC token acts N) {n : Nat} {c : ReqClient} (hc : (wireAt id useC token acts n).link.client = some c) :
    (wireAt id useC token acts (n + 1)).link.client = some (c.run ((wireAt id useC token acts n).clientActs (acts n))) := by
  rw [wireAt_succ]
  exact Wire.client_step hc (acts n)

/-- A property of the client that is kept. -/
theorem kept (h : WireAlive id useC token acts N) {P Q : ReqClient → Prop} {A : WireAct → Prop} {n : Nat} (hn : N ≤ n)
    {c : ReqClient} (hc : (wireAt id useC token acts n).link.client = some c) (hP : P c)
    (hkeep : ∀ p, n ≤ p → ∀ c, (wireAt id useC token acts p).link.client = some c → P c →
      ∀ act, (wireAt id useC token acts p).clientActs (acts p) = [act] → P (c.step act) ∨ Q (c.step act))
    (hoft : ∃ p, n ≤ p ∧ A (acts p))
    (hdoes : ∀ p, n ≤ p → ∀ c, (wireAt id useC token acts p).link.client = some c → P c → A (acts p) →
      Q (c.run ((wireAt id useC token acts p).clientActs (acts p)))) :
    ∃ m, n ≤ m ∧ ∃ c, (wireAt id useC token acts m).link.client = some c ∧ Q c := by
  refine until_done (acts := acts) (A := A) (P := fun p => ∃ c, (wireAt id useC token acts p).link.client = some c ∧ P c) ⟨c, hc, hP⟩ ?_ hoft ?_
  · rintro p hp ⟨c, hc, hP⟩
    have hv' := h.next hc
    rcases Wire.clientActs_cases (wireAt id useC token acts p) (acts p) with e | ⟨act, e⟩
    · rw [e] at hv'
      exact .inl ⟨c, hv', hP⟩
    · rcases hkeep p hp c hc hP act e with h' | h'
      · rw [e] at hv'; exact .inl ⟨_, hv', h'⟩
      · rw [e] at hv'; exact .inr ⟨_, hv', h'⟩
  · rintro p hp ⟨c, hc, hP⟩ ha
    exact ⟨_, h.next hc, hdoes p hp c hc hP ha⟩

theorem phase (h : WireAlive id useC token acts N) {n : Nat} (hn : N ≤ n) :
    (∃ info, (wireAt id useC token acts n).conn.phase = .ready info) ∨ ∃ info msg, (wireAt id useC token acts n).conn.phase = .busy info msg := by
  obtain ⟨c, hv⟩ := h.client n hn
  obtain ⟨l, hok⟩ := wireAt_ok (id := id) (useC := useC) (token := token) (acts := acts) n
  have hp := hok.told.past c (by rw [← hok.link]; exact hv)
  have hl := h.notLost n hn
  unfold Wire.conn at hl ⊢
  rw [hok.id_eq, hok.link] at hl ⊢
  rcases hp with hp | hp | ⟨_, hp⟩
  · exact .inl hp
  · exact .inr hp
  · rw [hp] at hl; cases hl

/-- A server that is as new. -/
theorem fresh (n : Nat) : ((wireAt id useC token acts n).link.server.conns (wireAt id useC token acts n).link.server.nextConn).phase = .absent := by
  obtain ⟨l, hok⟩ := wireAt_ok (id := id) (useC := useC) (token := token) (acts := acts) n
  rw [hok.link, (Link.server_run id useC token l).2]
  exact fresh_run useC token _ _ (Nat.le_refl _)

theorem to_ready (h : WireAlive id useC token acts N) {n : Nat} (hn : N ≤ n) :
    ∃ m, n ≤ m ∧ ∃ info, (wireAt id useC token acts m).conn.phase = .ready info := by
  rcases h.phase hn with hr | ⟨info, msg, hb⟩
  · exact ⟨n, Nat.le_refl _, hr⟩
  refine until_done (acts := acts)
    (A := fun a => ∃ r, a = .server (.reply (wireAt id useC token acts n).link.id r) ∧ ReplyFits msg r)
    (P := fun p => (wireAt id useC token acts p).conn.phase = .busy info msg)
    (Q := fun p => ∃ info, (wireAt id useC token acts p).conn.phase = .ready info) (m := n) hb ?_ (h.goesOn.reply n info msg hb) ?_
  · intro p hp hP
    have hl := h.notLost (p + 1) (by omega)
    rw [wireAt_succ] at hl ⊢
    unfold Wire.conn at hP hl ⊢
    rw [Wire.id_step] at hl ⊢
    rcases Wire.server_step (wireAt id useC token acts p) (acts p) with e | ⟨act, e, _⟩
    · rw [e]; exact .inl hP
    · rw [e] at hl ⊢
      rcases busy_step (a := act) hP (fresh p) with h' | h' | h'
      · exact .inl h'
      · exact .inr ⟨_, h'⟩
      · rw [h'.2] at hl; cases hl
  · rintro p hp hP ⟨r, ha, hr⟩
    have hl := h.notLost (p + 1) (by omega)
    obtain ⟨l, hok⟩ := wireAt_ok (id := id) (useC := useC) (token := token) (acts := acts) n
    obtain ⟨l', hok'⟩ := wireAt_ok (id := id) (useC := useC) (token := token) (acts := acts) p
    rw [hok.id_eq] at ha
    rw [wireAt_succ] at hl ⊢
    unfold Wire.conn at hP hl ⊢
    rw [Wire.id_step] at hl ⊢
    rw [hok'.id_eq] at hP hl ⊢
    have e : ((wireAt id useC token acts p).step (acts p)).link.server = (wireAt id useC token acts p).link.server.step (.reply id r) := by
      rw [ha]; rfl
    rw [e] at hl ⊢
    rcases busy_reply hP hr with h' | h'
    · exact ⟨_, h'⟩
    · rw [h'.2] at hl; cases hl

theorem taken_mono {m n : Nat} (h : m ≤ n) : (wireAt id useC token acts m).taken ≤ (wireAt id useC token acts n).taken := by
  induction n, h using Nat.le_induction with
  | base => exact Nat.le_refl _
  | succ n _ ih => rw [wireAt_succ]; exact Nat.le_trans ih (Wire.taken_step _ _)

theorem requests_mono {m n : Nat} (h : m ≤ n) :
    Link.requests (wireAt id useC token acts m).link <+: Link.requests (wireAt id useC token acts n).link := by
  induction n, h using Nat.le_induction with
  | base => exact List.prefix_rfl
  | succ n _ ih => rw [wireAt_succ]; exact ih.trans (Wire.requests_step _ _)

theorem sent_mono {m n : Nat} (h : m ≤ n) : (wireAt id useC token acts m).conn.sent <+: (wireAt id useC token acts n).conn.sent := by
  induction n, h using Nat.le_induction with
  | base => exact List.prefix_rfl
  | succ n _ ih => rw [wireAt_succ]; exact ih.trans (Wire.sent_step _ _)

theorem takes (h : WireAlive id useC token acts N) {m : Nat} (hm : N ≤ m)
    (hlt : (wireAt id useC token acts m).taken < (Link.requests (wireAt id useC token acts m).link).length) :
    ∃ p, m ≤ p ∧ (wireAt id useC token acts m).taken < (wireAt id useC token acts p).taken := by
  obtain ⟨n, hn, info, hr⟩ := h.to_ready hm
  by_cases ht : (wireAt id useC token acts m).taken < (wireAt id useC token acts n).taken
  · exact ⟨n, hn, ht⟩
  have ht : (wireAt id useC token acts n).taken = (wireAt id useC token acts m).taken := by
    have := taken_mono (id := id) (useC := useC) (token := token) (acts := acts) hn
    omega
  have hdo : ∀ p, n ≤ p → (wireAt id useC token acts p).conn.phase = .ready info →
      (wireAt id useC token acts p).taken = (wireAt id useC token acts m).taken → acts p = .arrive →
      (wireAt id useC token acts m).taken < (wireAt id useC token acts (p + 1)).taken := by
    intro p hp hready hsame ha
    obtain ⟨c, hv⟩ := h.client p (by omega)
    have hle := (requests_mono (id := id) (useC := useC) (token := token) (acts := acts) (Nat.le_trans hn hp)).length_le
    have hreq : (wireAt id useC token acts p).request.isSome = true := by
      unfold Wire.request
      rw [hready, hv]
      have : Link.requests (wireAt id useC token acts p).link = c.sent := by
        unfold Spec.Link.requests; rw [hv]; rfl
      rw [this] at hle
      simp only
      rw [List.getElem?_eq_getElem (by omega), Option.isSome_some]
    rw [wireAt_succ, ha]
    simp only [Wire.step, hreq, if_true]
    omega
  obtain ⟨p, hp, hlt'⟩ := until_done (acts := acts) (A := fun a => a = .arrive)
    (P := fun p => (wireAt id useC token acts p).conn.phase = .ready info ∧
      (wireAt id useC token acts p).taken = (wireAt id useC token acts m).taken)
    (Q := fun p => (wireAt id useC token acts m).taken < (wireAt id useC token acts p).taken) (m := n) ⟨hr, ht⟩
    (by
      rintro p hp ⟨h1, h2⟩
      by_cases ha : acts p = .arrive
      · exact .inr (hdo p hp h1 h2 ha)
      · left
        have hl := h.notLost (p + 1) (by omega)
        have hw : (wireAt id useC token acts p).conn.phase ≠ .waiting := by rw [h1]; nofun
        rw [wireAt_succ] at hl ⊢
        refine ⟨?_, ?_⟩
        · unfold Wire.conn at h1 hl ⊢
          rw [Wire.id_step] at hl ⊢
          rcases Wire.server_step (wireAt id useC token acts p) (acts p) with e | ⟨act, e, hact, _⟩
          · rw [e]; exact h1
          · rw [e] at hl ⊢
            rcases ready_step (a := act) h1 (hact ha hw) (fresh p) with h' | h'
            · exact h'
            · rw [h'.2] at hl; cases hl
        · rw [← h2]
          simp only [Wire.step])
    (h.goesOn.arrive n) (fun p hp hP ha => hdo p hp hP.1 hP.2 ha)
  exact ⟨p, by omega, hlt'⟩

theorem takes_all (h : WireAlive id useC token acts N) {n : Nat} (hn : N ≤ n) (j : Nat)
    (hj : j ≤ (Link.requests (wireAt id useC token acts n).link).length) : ∃ m, n ≤ m ∧ j ≤ (wireAt id useC token acts m).taken := by
  induction j with
  | zero => exact ⟨n, Nat.le_refl _, Nat.zero_le _⟩
  | succ j ih =>
    obtain ⟨m, hm, ht⟩ := ih (by omega)
    by_cases hlt : j < (wireAt id useC token acts m).taken
    · exact ⟨m, hm, hlt⟩
    · have hle := (requests_mono (id := id) (useC := useC) (token := token) (acts := acts) hm).length_le
      obtain ⟨p, hp, hlt'⟩ := h.takes (m := m) (by omega) (by omega)
      exact ⟨p, by omega, by omega⟩

theorem to_receiving (h : WireAlive id useC token acts N) {n : Nat} (hn : N ≤ n) :
    ∃ m, n ≤ m ∧ ∃ c, (wireAt id useC token acts m).link.client = some c ∧ c.loop = .receiving := by
  obtain ⟨c, hv⟩ := h.client n hn
  cases hl : c.loop with
  | receiving => exact ⟨n, Nat.le_refl _, c, hv, hl⟩
  | ended => exact absurd hl (h.notEnded n hn _ hv)
  | never => exact absurd hl (h.starts n hn c hv)
  | spawned =>
    refine h.kept (P := fun c => c.loop = .spawned) (Q := fun c => c.loop = .receiving) (A := fun a => a = .client .start) hn hv hl ?_
      (h.goesOn.start n) ?_
    · intro p hp c hv hP act e
      rcases ReqClient.spawned_stays act hP with h' | h' | h'
      · exact .inl h'
      · exact .inr h'
      · have hv' := h.next (n := p) hv
        rw [e] at hv'
        exact absurd h' (h.starts (p + 1) (by omega) _ hv')
    · rintro p hp c hv hP ha
      rw [ha]
      show (ReqClient.start c).loop = _
      unfold ReqClient.start
      rw [hP]
  | calling msg =>
    have key : ∀ p, n ≤ p → ∀ c, (wireAt id useC token acts p).link.client = some c →
        (c.run ((wireAt id useC token acts p).clientActs (acts p))).loop ≠ .ended := by
      intro p hp c hv
      exact h.notEnded (p + 1) (by omega) _ (h.next (n := p) hv)
    refine h.kept (P := fun c => c.loop = .calling msg) (Q := fun c => c.loop = .receiving)
      (A := fun a => ∃ ok, a = .client (.callbackDone ok)) hn hv hl ?_ (h.goesOn.callback n) ?_
    · intro p hp c hv hP act e
      have hk := key p hp c hv
      rw [e] at hk
      rcases ReqClient.calling_step act hP with h' | h' | h'
      · exact .inl h'
      · exact .inr h'
      · exact absurd h' hk
    · rintro p hp c hv hP ⟨ok, ha⟩
      have hk := key p hp c hv
      rw [ha] at hk ⊢
      rcases ReqClient.calling_done hP ok with h' | h'
      · exact h'
      · exact absurd h' hk

theorem read_mono (h : WireAlive id useC token acts N) {m n : Nat} (hm : N ≤ m) (hn : m ≤ n) :
    (wireAt id useC token acts m).link.read ≤ (wireAt id useC token acts n).link.read := by
  induction n, hn using Nat.le_induction with
  | base => exact Nat.le_refl _
  | succ n hn ih =>
    obtain ⟨c, hv⟩ := h.client n (by omega)
    rw [wireAt_succ]
    rcases Wire.read_step hv (acts n) with ⟨_, _, e⟩ | ⟨_, e⟩ <;> omega

theorem reads (h : WireAlive id useC token acts N) {m : Nat} (hm : N ≤ m)
    (hlt : (wireAt id useC token acts m).link.read < (wireAt id useC token acts m).conn.sent.length) :
    ∃ p, m ≤ p ∧ (wireAt id useC token acts m).link.read < (wireAt id useC token acts p).link.read := by
  obtain ⟨n, hn, c, hc, hr⟩ := h.to_receiving hm
  by_cases ht : (wireAt id useC token acts m).link.read < (wireAt id useC token acts n).link.read
  · exact ⟨n, hn, ht⟩
  have ht : (wireAt id useC token acts n).link.read = (wireAt id useC token acts m).link.read := by
    have := h.read_mono hm hn
    omega
  obtain ⟨p, hp, hlt'⟩ := until_done (acts := acts) (A := fun a => a = .deliver)
    (P := fun p => (∃ c, (wireAt id useC token acts p).link.client = some c ∧ c.loop = .receiving) ∧
      (wireAt id useC token acts p).link.read = (wireAt id useC token acts m).link.read)
    (Q := fun p => (wireAt id useC token acts m).link.read < (wireAt id useC token acts p).link.read) (m := n) ⟨⟨c, hc, hr⟩, ht⟩
    (by
      rintro p hp ⟨⟨c, hc, h1⟩, h2⟩
      have hv' := h.next (n := p) hc
      have hne := h.notEnded (p + 1) (by omega) _ hv'
      have hcl := hv'
      rw [wireAt_succ] at hcl ⊢
      rcases Wire.read_step hc (acts p) with ⟨_, _, e⟩ | ⟨hno, e⟩
      · right; omega
      · refine .inl ⟨⟨_, hcl, ?_⟩, by omega⟩
        rcases Wire.clientActs_cases (wireAt id useC token acts p) (acts p) with e' | ⟨act, e'⟩
        · rw [e']; exact h1
        · rw [e'] at hne ⊢
          rcases ReqClient.receiving_step act h1 (fun m hm' => hno m (by rw [e', hm'])) with h' | h'
          · exact h'
          · exact absurd h' hne)
    (h.goesOn.deliver n)
    (by
      rintro p hp ⟨⟨c, hc, h1⟩, h2⟩ ha
      have hle := (sent_mono (id := id) (useC := useC) (token := token) (acts := acts) (Nat.le_trans hn hp)).length_le
      rw [wireAt_succ]
      rcases Wire.read_step hc (acts p) with ⟨_, _, e⟩ | ⟨hno, e⟩
      · omega
      · exfalso
        rw [ha] at hno
        simp only [Wire.clientActs, hc, h1] at hno
        rw [List.getElem?_eq_getElem (by omega)] at hno
        simp only [h1] at hno
        exact hno _ rfl)
  exact ⟨p, by omega, hlt'⟩

theorem reads_all (h : WireAlive id useC token acts N) {n : Nat} (hn : N ≤ n) (j : Nat)
    (hj : j ≤ (wireAt id useC token acts n).conn.sent.length) : ∃ m, n ≤ m ∧ j ≤ (wireAt id useC token acts m).link.read := by
  induction j with
  | zero => exact ⟨n, Nat.le_refl _, Nat.zero_le _⟩
  | succ j ih =>
    obtain ⟨m, hm, ht⟩ := ih (by omega)
    by_cases hlt : j < (wireAt id useC token acts m).link.read
    · exact ⟨m, hm, hlt⟩
    · have hle := (sent_mono (id := id) (useC := useC) (token := token) (acts := acts) hm).length_le
      obtain ⟨p, hp, hlt'⟩ := h.reads (m := m) (by omega) (by omega)
      exact ⟨p, by omega, by omega⟩

/-- What was read is not more than what was sent. -/
theorem read_le (h : WireAlive id useC token acts N) {n : Nat} (hn : N ≤ n) :
    (wireAt id useC token acts n).link.read ≤ (wireAt id useC token acts n).conn.sent.length := by
  obtain ⟨c, hv⟩ := h.client n hn
  obtain ⟨l, hok⟩ := wireAt_ok (id := id) (useC := useC) (token := token) (acts := acts) n
  have hs := Link.seen_run id useC token l
  rw [← hok.link] at hs
  unfold Link.Seen at hs
  rw [hv] at hs
  exact hs.2.1

end WireAlive

end HatEvent
