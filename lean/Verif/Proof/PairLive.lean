import Verif.Proof.DuoLive

/-!
# Two servers that are given no more events

Lemmas for C88.
-/

namespace HatEvent
open Spec

variable {T : Terms}

/-! ### Both directions -/

/-- The action with the servers exchanged. -/
def PairAct.mirror : PairAct → PairAct
  | .left op => .right op
  | .right op => .left op
  | .fore act => .back act
  | .back act => .fore act

theorem step_mirror (p : Pair) (a : PairAct) : (p.step a).mirror = p.mirror.step a.mirror := by
  cases a <;> rfl

/-- An action is as agreed, for the direction from left to right. -/
structure Admissible (conf : Conf) (T : Terms) (left : Int) (p : Pair) (a : PairAct) : Prop where
  confs : ∀ c, a = .left (.reopen c) ∨ a = .right (.reopen c) → Like conf T c
  events : ∀ es, a = .left (.register es) ∨ a = .right (.register es) → ∀ e ∈ es, T.events e
  other : ∀ es, a = .right (.register es) → ∀ e ∈ es, e.id.server ≠ left
  order : ∀ op, a = .left op → Orderly left (ofServer left (told (p.left.step op)))

theorem holds_pair {conf : Conf} {left right : Int} {p : Pair} {stored : List Event} (hd : left ≠ right)
    (hok : PairOk conf T left right p) (h : DuoHolds conf T left p.foreward stored) {a : PairAct}
    (ha : Admissible conf T left p a) :
    ∃ stored', DuoHolds conf T left (p.step a).foreward stored' ∧
      (p.fore.closed = false → (p.step a).fore.closed = false →
        ∃ b, Moves left p.foreward stored (p.step a).foreward stored' b ∧
          ∀ act : SideAct, a = .fore act → Chosen act b) := by
  cases a with
  | left op =>
    obtain ⟨stored', h1, h2⟩ := holds_primary h op (fun c hc => ha.confs c (.inl (by rw [hc])))
      (fun es he => ha.events es (.inl (by rw [he]))) (ha.order op rfl)
    refine ⟨stored', h1, fun _ hc => ?_⟩
    obtain ⟨r, hr⟩ := h2.moves h h1 hc
    exact ⟨_, hr, fun act hact => by cases hact⟩
  | right op =>
    have h1 := holds_standby h op (fun c hc => ha.confs c (.inr (by rw [hc])))
      (fun es he => ha.events es (.inr (by rw [he]))) (fun es he => ha.other es (by rw [he]))
    refine ⟨stored, h1, fun _ hc => ⟨_, moves_same (d' := p.foreward.stepStandby op) (standby_link hc) rfl, ?_⟩⟩
    intro act hact
    cases hact
  | fore act =>
    obtain ⟨h1, h2⟩ := holds_link h act
    have heq : (p.step (.fore act)).foreward = p.foreward.step act.toDuo := stepFore_foreward p act
    rw [heq]
    refine ⟨stored, h1, fun c1 c2 => ?_⟩
    have hfl : (p.step (.fore act)).fore = (p.foreward.step act.toDuo).link := rfl
    rw [hfl] at c2
    obtain ⟨b, b1, b2⟩ := h2 c1 c2
    exact ⟨b, b1, fun act' hact => by cases hact; exact b2⟩
  | back act =>
    obtain ⟨h1, h2, h3, h4⟩ := duo_link hok.back act
    have heq : (p.step (.back act)).foreward =
        p.foreward.registers ((p.backward.step act.toDuo).link.calls.drop p.back.calls.length) :=
      stepFore_backward (p := p.mirror) (act := act) h3
    obtain ⟨stored', k1, k2⟩ := holds_registers ((p.backward.step act.toDuo).link.calls.drop p.back.calls.length)
      (fun x hx => ⟨fun hh => hd (hh.symm.trans (h4 x hx).1), (h4 x hx).2⟩) h
    rw [heq]
    refine ⟨stored', k1, fun _ hc => ?_⟩
    have hfl : (p.step (.back act)).fore = (p.step (.back act)).foreward.link := rfl
    rw [hfl, heq] at hc
    obtain ⟨r, hr⟩ := k2.moves h k1 hc
    exact ⟨_, hr, fun act hact => by cases hact⟩

/-- Two servers that are given no more events, with connections that go on. -/
structure PairGoesOn (conf : Conf) (T : Terms) (left right : Int) (p : Nat → Pair) (acts : Nat → PairAct) : Prop where
  different : left ≠ right
  step : ∀ n, p (n + 1) = (p n).step (acts n)
  ok : ∀ n, PairOk conf T left right (p n)
  adm : ∀ n, Admissible conf T left (p n) (acts n)
  admB : ∀ n, Admissible conf T right (p n).mirror (acts n).mirror
  openF : ∀ n, (p n).fore.closed = false
  openB : ∀ n, (p n).back.closed = false
  fore : ∀ act : SideAct, act ≠ .connect → act ≠ .close → Often acts (.fore act)
  back : ∀ act : SideAct, act ≠ .connect → act ≠ .close → Often acts (.back act)
  flushL : Often acts (.left .flush)
  flushR : Often acts (.right .flush)
  noneL : ∀ n es, acts n ≠ .left (.register es)
  noneR : ∀ n es, acts n ≠ .right (.register es)

theorem often_mirror {acts : Nat → PairAct} {a b : PairAct} (h : Often acts a) (hb : a.mirror = b) :
    Often (fun n => (acts n).mirror) b := by
  intro n
  obtain ⟨m, h1, h2⟩ := h n
  exact ⟨m, h1, by show (acts m).mirror = b; rw [h2]; exact hb⟩

theorem mirror_mirror (a : PairAct) : a.mirror.mirror = a := by cases a <;> rfl

section
variable {conf : Conf} {left right : Int} {p : Nat → Pair} {acts : Nat → PairAct}

theorem PairGoesOn.mirror (h : PairGoesOn conf T left right p acts) :
    PairGoesOn conf T right left (fun n => (p n).mirror) (fun n => (acts n).mirror) where
  different := h.different.symm
  step n := by rw [h.step, step_mirror]
  ok n := (h.ok n).mirror
  adm := h.admB
  admB n := by rw [mirror_mirror]; exact h.adm n
  openF := h.openB
  openB := h.openF
  fore act h1 h2 := often_mirror (h.back act h1 h2) rfl
  back act h1 h2 := often_mirror (h.fore act h1 h2) rfl
  flushL := often_mirror h.flushR rfl
  flushR := often_mirror h.flushL rfl
  noneL n es he := h.noneR n es (by rw [← mirror_mirror (acts n), he]; rfl)
  noneR n es he := h.noneL n es (by rw [← mirror_mirror (acts n), he]; rfl)

theorem PairGoesOn.shift (h : PairGoesOn conf T left right p acts) (N : Nat) :
    PairGoesOn conf T left right (fun n => p (N + n)) (fun n => acts (N + n)) where
  different := h.different
  step n := h.step (N + n)
  ok n := h.ok _
  adm n := h.adm _
  admB n := h.admB _
  openF n := h.openF _
  openB n := h.openB _
  fore act h1 h2 := often_shift (h.fore act h1 h2) N
  back act h1 h2 := often_shift (h.back act h1 h2) N
  flushL := often_shift h.flushL N
  flushR := often_shift h.flushR N
  noneL n := h.noneL _
  noneR n := h.noneR _

theorem PairGoesOn.link (h : PairGoesOn conf T left right p acts) :
    ∃ stored bs, LinkGoesOn conf T left (fun n => (p n).foreward) stored bs := by
  obtain ⟨stored, hst⟩ := choose_seq
    (P := fun n x => DuoHolds conf T left (p n).foreward x)
    (R := fun n x y => ∃ b, Moves left (p n).foreward x (p (n + 1)).foreward y b ∧
      ∀ act : SideAct, acts n = .fore act → Chosen act b)
    (by
      obtain ⟨pops, sops, wp, ws, stored, h⟩ := (h.ok 0).fore
      exact ⟨stored, pops, sops, wp, ws, h⟩)
    (by
      intro n x hx
      obtain ⟨y, y1, y2⟩ := holds_pair h.different (h.ok n) hx (h.adm n)
      rw [← h.step] at y1 y2
      exact ⟨y, y1, y2 (h.openF _) (h.openF _)⟩)
  choose bs hbs using fun n => (hst n).2
  exact ⟨stored, bs, fun n => (hst n).1, fun n => (hbs n).1, h.openF,
    often_imp (acts' := bs) (h.fore .notify (by simp) (by simp)) (P := (· = .notify)) fun n h => (hbs n).2 .notify h,
    often_imp (acts' := bs) (h.fore .serve (by simp) (by simp)) (P := fun a => ∃ k, a = .serve k)
      fun n h => (hbs n).2 .serve h,
    often_imp (acts' := bs) (h.fore .deliver (by simp) (by simp)) (P := (· = .deliver)) fun n h => (hbs n).2 .deliver h,
    often_imp (acts' := bs) (h.fore .advance (by simp) (by simp)) (P := (· = .advance)) fun n h => (hbs n).2 .advance h⟩

end

/-! ### Backends that stay open -/

/-- The calls of `register` so far. -/
def toldCalls (b : Backend) : List (List Event) := b.flushedCb ++ (b.mem.map Mem.registered).getD []

theorem toldCalls_flatten (b : Backend) : (toldCalls b).flatten = told b := by
  unfold toldCalls told
  rw [List.flatten_append]

theorem cb_prefix (b : Backend) : b.flushedCb <+: toldCalls b := List.prefix_append _ _

theorem open_step {b : Backend} {op : BackendOp} (h : (b.step op).mem ≠ none) (he : op.ends = false) :
    b.mem ≠ none ∧ b.flushedCb <+: (b.step op).flushedCb ∧
      ((∃ es, op = .register es ∧ toldCalls (b.step op) = toldCalls b ++ [es]) ∨
        ((∀ es, op ≠ .register es) ∧ toldCalls (b.step op) = toldCalls b)) ∧
      (op = .flush → (b.step op).flushedCb = toldCalls b) := by
  have hst := stepTo b op
  generalize b.step op = b' at hst h ⊢
  cases hst with
  | closed h1 h2 => exact absurd h1 h
  | @register es m m' h1 h2 =>
    refine ⟨by rw [h1]; simp, List.prefix_rfl, .inl ⟨es, rfl, ?_⟩, by simp⟩
    simp [toldCalls, h1, register_registered h2]
  | registerFail h1 h2 => exact absurd rfl h
  | touch h1 => exact ⟨by rw [h1]; simp, List.prefix_rfl, .inr ⟨by simp, by simp [toldCalls, h1]⟩, by simp⟩
  | flush h1 h2 =>
    exact ⟨by rw [h1]; simp, List.prefix_append _ _, .inr ⟨by simp, by simp [toldCalls, h1]⟩,
      by simp [toldCalls, h1]⟩
  | flushFail h1 h2 => exact absurd rfl h
  | cleanup h1 h2 => exact ⟨h, List.prefix_rfl, .inr ⟨by simp, rfl⟩, by simp⟩
  | cleanupFail h1 h2 => exact absurd rfl h
  | reopen h1 => cases he
  | reopenFail h1 => cases he

theorem open_registers (calls : List (List Event)) {b : Backend}
    (h : (calls.foldl (fun b es => b.step (.register es)) b).mem ≠ none) :
    b.mem ≠ none ∧ b.flushedCb <+: (calls.foldl (fun b es => b.step (.register es)) b).flushedCb ∧
      toldCalls (calls.foldl (fun b es => b.step (.register es)) b) = toldCalls b ++ calls := by
  induction calls generalizing b with
  | nil => exact ⟨h, List.prefix_rfl, by simp⟩
  | cons es calls ih =>
    obtain ⟨h1, h2, h3⟩ := ih h
    obtain ⟨k1, k2, k3, _⟩ := open_step h1 rfl
    refine ⟨k1, k2.trans h2, ?_⟩
    rcases k3 with ⟨es', e1, e2⟩ | ⟨e1, _⟩
    · cases e1
      rw [List.foldl_cons, h3, e2, List.append_assoc]; rfl
    · exact absurd rfl (e1 es)

/-- What is idle makes no calls. -/
theorem idle_calls {s : Sync} {a : SyncAct} (h1 : s.task = .synced) (h2 : s.wire = []) : (s.step a).calls = s.calls := by
  cases a with
  | notify => exact (sendNotify_same s).2.2.2.1
  | serve k =>
    simp only [Sync.step, Sync.serve]
    split
    · rfl
    · split <;> rfl
  | deliver => simp only [Sync.step, h2]; split <;> rfl
  | advance => simp only [Sync.step, Sync.advance, h1]; split <;> rfl
  | _ => rfl

section
variable {conf : Conf} {left right : Int} {p : Nat → Pair} {acts : Nat → PairAct}

theorem primary_ends {d : Duo} {op : BackendOp} (h : (d.stepPrimary op).link.closed = false) : op.ends = false := by
  unfold Duo.stepPrimary at h
  simp only at h
  split at h
  · cases h
  · next hn => simp only [Bool.or_eq_true, not_or] at hn; simpa using hn.1

/-- What a step does to the left backend. -/
theorem PairGoesOn.leftStep (h : PairGoesOn conf T left right p acts) (n : Nat) :
    (p n).left.flushedCb <+: (p (n + 1)).left.flushedCb ∧
      (∃ more, toldCalls (p (n + 1)).left = toldCalls (p n).left ++ more ∧ ofServer left more.flatten = [] ∧
        ((p (n + 1)).back.calls = (p n).back.calls → more = [])) ∧
      (acts n = .left .flush → (p (n + 1)).left.flushedCb = toldCalls (p n).left) := by
  have hmem : (p (n + 1)).left.mem ≠ none := by
    obtain ⟨_, _, _, _, _, h1⟩ := (h.ok (n + 1)).fore
    exact (h1.live (h.openF (n + 1))).pmem
  have hopen := h.openF (n + 1)
  rw [h.step] at hmem hopen ⊢
  cases ha : acts n with
  | left op =>
    rw [ha] at hmem hopen
    obtain ⟨h1, h2, h3, h4⟩ := open_step (b := (p n).left) (op := op) hmem (primary_ends (d := (p n).foreward) hopen)
    refine ⟨h2, ⟨[], ?_, rfl, fun _ => rfl⟩, fun hh => h4 (by cases hh; rfl)⟩
    rcases h3 with ⟨es, e1, _⟩ | ⟨_, e2⟩
    · exact absurd (by rw [ha, e1]) (h.noneL n es)
    · rw [List.append_nil]; exact e2
  | right op => exact ⟨List.prefix_rfl, ⟨[], (List.append_nil _).symm, rfl, fun _ => rfl⟩, fun hh => by cases hh⟩
  | fore act => exact ⟨List.prefix_rfl, ⟨[], (List.append_nil _).symm, rfl, fun _ => rfl⟩, fun hh => by cases hh⟩
  | back act =>
    rw [ha] at hmem
    obtain ⟨h1, h2, h3, h4⟩ := duo_link (h.ok n).back act
    have heq : ((p n).step (.back act)).left = (((p n).backward.step act.toDuo).link.calls.drop
      (p n).back.calls.length).foldl (fun b es => b.step (.register es)) (p n).left := h3
    rw [heq] at hmem ⊢
    obtain ⟨k1, k2, k3⟩ := open_registers _ hmem
    refine ⟨k2, ⟨_, k3, ?_, fun hc => ?_⟩, fun hh => by cases hh⟩
    · rw [ofServer, List.filter_eq_nil_iff]
      intro x hx
      have := (h4 x hx).1
      simp only [decide_eq_true_eq]
      exact fun hh => h.different (hh.symm.trans this)
    · have : ((p n).backward.step act.toDuo).link.calls = (p n).back.calls := hc
      rw [this, List.drop_length]

/-- The own events of the left server stay the same. -/
theorem PairGoesOn.own (h : PairGoesOn conf T left right p acts) (n : Nat) :
    ofServer left (told (p n).left) = ofServer left (told (p 0).left) := by
  induction n with
  | zero => rfl
  | succ n ih =>
    obtain ⟨_, ⟨more, h1, h2, _⟩, _⟩ := h.leftStep n
    rw [← ih, ← toldCalls_flatten, ← toldCalls_flatten, h1, List.flatten_append, ofServer_append, h2, List.append_nil]

theorem PairGoesOn.cb (h : PairGoesOn conf T left right p acts) {m n : Nat} (hmn : m ≤ n) :
    (p m).left.flushedCb <+: (p n).left.flushedCb := by
  induction n, hmn using Nat.le_induction with
  | base => exact List.prefix_rfl
  | succ n _ ih => exact ih.trans (h.leftStep n).1

theorem ofServer_prefix {server : Int} {a b : List (List Event)} (h : a <+: b) :
    ofServer server a.flatten <+: ofServer server b.flatten := by
  obtain ⟨c, rfl⟩ := h
  rw [List.flatten_append, ofServer_append]
  exact List.prefix_append _ _

/-- At some time all of them are flushed. -/
theorem PairGoesOn.ownFlushed (h : PairGoesOn conf T left right p acts) :
    ∃ N, ∀ n, N ≤ n → ofServer left (p n).left.flushedCb.flatten = ofServer left (told (p 0).left) := by
  obtain ⟨N, _, hN⟩ := h.flushL 0
  refine ⟨N + 1, fun n hn => ?_⟩
  have h1 : ofServer left (p (N + 1)).left.flushedCb.flatten = ofServer left (told (p 0).left) := by
    rw [(h.leftStep N).2.2 hN, toldCalls_flatten, h.own]
  have h2 := ofServer_prefix (server := left) (h.cb hn)
  have h3 := ofServer_prefix (server := left) (cb_prefix (p n).left)
  rw [h1] at h2
  rw [toldCalls_flatten, h.own] at h3
  exact h3.eq_of_length_le h2.length_le

/-- The connection becomes idle. -/
theorem PairGoesOn.idle (h : PairGoesOn conf T left right p acts) :
    ∃ N, ∀ n, N ≤ n → (p n).fore.task = .synced ∧ (p n).fore.wire = [] := by
  obtain ⟨N, hN⟩ := h.ownFlushed
  obtain ⟨stored, bs, hl⟩ := (h.shift N).link
  obtain ⟨m, hm⟩ := hl.idle fun n => (hN _ (by omega)).trans (hN _ (by omega)).symm
  refine ⟨N + m, fun n hn => ?_⟩
  have := hm (n - N) (by omega)
  rw [show N + (n - N) = n by omega] at this
  exact this

/-- Then nothing is registered any more. -/
theorem PairGoesOn.calls (h : PairGoesOn conf T left right p acts) :
    ∃ N, ∀ n, N ≤ n → (p (n + 1)).fore.calls = (p n).fore.calls := by
  obtain ⟨N, hN⟩ := h.idle
  obtain ⟨stored, bs, hl⟩ := h.link
  refine ⟨N, fun n hn => ?_⟩
  obtain ⟨gone, hg⟩ := (hl.moves n).link
  have h1 : (p (n + 1)).fore.calls = (((p n).foreward.sync (stored n)).step (bs n)).calls := by
    have h2 := congrArg Sync.calls hg
    exact h2
  rw [h1]
  exact idle_calls (s := (p n).foreward.sync (stored n)) (hN n hn).1 (hN n hn).2

/-- Then everything is flushed and notified. -/
theorem PairGoesOn.still (h : PairGoesOn conf T left right p acts) :
    ∃ N, ∀ n, N ≤ n → (p n).fore.unnotified = [] ∧ told (p n).left = (p n).left.flushedCb.flatten := by
  obtain ⟨N1, hN1⟩ := h.mirror.calls
  have hconst : ∀ n, N1 ≤ n → toldCalls (p n).left = toldCalls (p N1).left := by
    intro n hn
    induction n, hn using Nat.le_induction with
    | base => rfl
    | succ n hn ih =>
      obtain ⟨_, ⟨more, h1, _, h3⟩, _⟩ := h.leftStep n
      rw [h1, h3 (hN1 n hn), List.append_nil, ih]
  obtain ⟨N2, h2, hN2⟩ := h.flushL N1
  have hall : ∀ n, N2 + 1 ≤ n → (p n).left.flushedCb = toldCalls (p N1).left := by
    intro n hn
    have h1 : (p (N2 + 1)).left.flushedCb = toldCalls (p N1).left := by
      rw [(h.leftStep N2).2.2 hN2]; exact hconst N2 h2
    have h3 := h.cb hn
    rw [h1] at h3
    have h4 := cb_prefix (p n).left
    rw [hconst n (by omega)] at h4
    exact h4.eq_of_length_le h3.length_le
  obtain ⟨stored, bs, hl⟩ := h.link
  obtain ⟨m, hm⟩ := hl.notifies (N := N2 + 1) (by
    intro n hn r hr
    have h1 := (hl.moves n).fresh r hr
    have h2 : (p (n + 1)).left.flushedCb = (p n).left.flushedCb ++ r := h1
    rw [hall n hn, hall (n + 1) (by omega)] at h2
    exact List.self_eq_append_right.1 h2)
  refine ⟨max m (N2 + 1), fun n hn => ⟨hm n (by omega), ?_⟩⟩
  rw [← toldCalls_flatten, hconst n (by omega), hall n (by omega)]

end

end HatEvent
