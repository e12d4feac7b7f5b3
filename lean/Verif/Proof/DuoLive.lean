import Verif.Proof.Pair
import Verif.Proof.SyncLive
import Verif.Proof.Schedule

/-!
# Connections that go on

Lemmas for C88: the connection of two servers behaves as `Model/Sync.lean`.
-/

namespace HatEvent
open Spec

variable {T : Terms}

/-- The invariant, with what is stored. -/
def DuoHolds (conf : Conf) (T : Terms) (server : Int) (d : Duo) (stored : List Event) : Prop :=
  ∃ pops sops wp ws, DuoOk conf T server d pops sops wp ws stored

/-- The connection as in `Model/Sync.lean`. -/
def Duo.sync (d : Duo) (stored : List Event) : Sync := { d.link with disk := stored }

/-- A step of the connection, and removal of events. -/
structure Moves (server : Int) (d : Duo) (stored : List Event) (d' : Duo) (stored' : List Event) (a : SyncAct) :
    Prop where
  link : ∃ gone : Event → Bool, d'.sync stored' = ((d.sync stored).step a).step (.remove gone)
  all : ofServer server d'.primary.flushedCb.flatten = ofServer server d.primary.flushedCb.flatten ++ flushed server [a]
  size : ∀ k, a = .serve k → 0 < k
  fresh : ∀ r, a = .flush r → d'.primary.flushedCb = d.primary.flushedCb ++ r

theorem filter_none (l : List Event) : l.filter (fun _ => !false) = l := by
  rw [List.filter_eq_self]; simp

/-- Nothing is removed. -/
theorem moves_keep {server : Int} {d d' : Duo} {stored : List Event} {a : SyncAct}
    (h : d'.sync stored = (d.sync stored).step a) (hp : d'.primary = d.primary) (hf : flushed server [a] = [])
    (hs : ∀ k, a = .serve k → 0 < k) (hn : ∀ r, a ≠ .flush r) : Moves server d stored d' stored a := by
  refine ⟨⟨fun _ => false, ?_⟩, by rw [hp, hf, List.append_nil], hs, fun r hr => absurd hr (hn r)⟩
  rw [← h]
  simp only [Sync.step, filter_none]

theorem moves_same {server : Int} {d d' : Duo} {stored : List Event} (h : d'.link = d.link) (hp : d'.primary = d.primary) :
    Moves server d stored d' stored (.remove fun _ => false) := by
  refine moves_keep ?_ hp rfl (fun k hk => by cases hk) (by simp)
  unfold Duo.sync
  simp only [Sync.step, filter_none, h]

/-- What actions of the primary do, unless they end the connection. -/
def Flushes (server : Int) (d : Duo) (stored : List Event) (d' : Duo) (stored' : List Event) : Prop :=
  d'.link.closed = false → ∃ fresh, d'.primary.flushedCb = d.primary.flushedCb ++ fresh ∧
    d'.link = { d.link with unnotified := d.link.unnotified ++ fresh } ∧
    ∀ e ∈ stored', e ∈ stored ∨ e ∈ ofServer server fresh.flatten

theorem Flushes.refl {server : Int} {d : Duo} {stored : List Event} : Flushes server d stored d stored :=
  fun _ => ⟨[], by simp, by simp, fun _ he => .inl he⟩

theorem Flushes.trans {server : Int} {d d' d'' : Duo} {stored stored' stored'' : List Event}
    (h : Flushes server d stored d' stored') (h' : Flushes server d' stored' d'' stored'') :
    Flushes server d stored d'' stored'' := by
  intro hc
  obtain ⟨f', a1, a2, a3⟩ := h' hc
  obtain ⟨f, b1, b2, b3⟩ := h (by rw [a2] at hc; exact hc)
  refine ⟨f ++ f', by rw [a1, b1, List.append_assoc], by rw [a2, b2, List.append_assoc], fun e he => ?_⟩
  rw [List.flatten_append, ofServer_append, List.mem_append]
  rcases a3 e he with h1 | h1
  · rcases b3 e h1 with h2 | h2
    · exact .inl h2
    · exact .inr (.inl h2)
  · exact .inr (.inr h1)

theorem flushed_flush (server : Int) (r : List (List Event)) : flushed server [.flush r] = ofServer server r.flatten := by
  simp [flushed, ofServer]

theorem Flushes.moves {conf : Conf} {server : Int} {d d' : Duo} {stored stored' : List Event}
    (h : DuoHolds conf T server d stored) (h' : DuoHolds conf T server d' stored')
    (hf : Flushes server d stored d' stored') (hc : d'.link.closed = false) :
    ∃ r, Moves server d stored d' stored' (.flush r) := by
  obtain ⟨fresh, f1, f2, f3⟩ := hf hc
  obtain ⟨_, _, _, _, h⟩ := h
  obtain ⟨_, _, _, _, h'⟩ := h'
  have hall : ofServer server d'.primary.flushedCb.flatten =
      ofServer server d.primary.flushedCb.flatten ++ ofServer server fresh.flatten := by
    rw [f1, List.flatten_append, ofServer_append]
  have hinc := h'.all.increasing
  rw [hall] at hinc
  have hsort : Increasing (stored ++ ofServer server fresh.flatten) :=
    List.pairwise_append.2 ⟨h.sorted, (List.pairwise_append.1 hinc).2.1,
      fun a ha b hb => (List.pairwise_append.1 hinc).2.2 a (h.stored_all a ha) b hb⟩
  classical
  refine ⟨fresh, ⟨⟨fun e => !decide (e ∈ stored'), ?_⟩, by rw [hall, flushed_flush], fun k hk => (by cases hk),
    fun r hr => (by cases hr; exact f1)⟩⟩
  have hst : stored' = (stored ++ ofServer server fresh.flatten).filter fun e => !!decide (e ∈ stored') := by
    refine increasing_ext (increasing_filter hsort _) h'.sorted fun e => ?_
    simp only [List.mem_filter, Bool.not_not, decide_eq_true_eq, List.mem_append]
    exact ⟨fun he => ⟨f3 e he, he⟩, fun he => he.2⟩
  have hrel : ((d.sync stored).relevant fresh.flatten).filter (d.sync stored).keep = ofServer server fresh.flatten := by
    unfold Sync.relevant ofServer Duo.sync
    simp only [h.keep, h.remote]
    exact List.filter_eq_self.2 (by simp)
  have hfl : (d.sync stored).flush fresh =
      { d.link with unnotified := d.link.unnotified ++ fresh, disk := stored ++ ofServer server fresh.flatten } := by
    unfold Sync.flush
    rw [hrel]
    rfl
  show d'.sync stored' = { (d.sync stored).flush fresh with
    disk := ((d.sync stored).flush fresh).disk.filter fun e => !!decide (e ∈ stored') }
  rw [hfl]
  unfold Duo.sync
  rw [f2]
  exact congrArg (fun x => ({ d.link with unnotified := d.link.unnotified ++ fresh, disk := x } : Sync)) hst

theorem holds_primary {conf : Conf} {server : Int} {d : Duo} {stored : List Event} (h : DuoHolds conf T server d stored)
    (op : BackendOp) (hc : ∀ c, op = .reopen c → Like conf T c)
    (hev : ∀ es, op = .register es → ∀ e ∈ es, T.events e)
    (ho : Orderly server (ofServer server (told (d.primary.step op)))) :
    ∃ stored', DuoHolds conf T server (d.stepPrimary op) stored' ∧
      Flushes server d stored (d.stepPrimary op) stored' := by
  obtain ⟨pops, sops, wp, ws, h⟩ := h
  obtain ⟨wp', stored', h', fresh, gone, f1, f2⟩ := duoOk_primary h op (by
    intro c hcc
    rcases List.mem_append.1 hcc with hcc | hcc
    · exact h.confP c hcc
    · exact hc c (List.mem_singleton.1 hcc).symm) hev ho
  refine ⟨stored', ⟨_, _, _, _, h'⟩, fun hcl => ⟨fresh, f1, ?_, fun e he => ?_⟩⟩
  · unfold Duo.stepPrimary at hcl ⊢
    simp only at hcl ⊢
    split at hcl
    · cases hcl
    · next hn => rw [if_neg hn, f1, List.drop_left]
  · rw [f2] at he
    exact List.mem_append.1 (List.mem_filter.1 he).1

theorem holds_registers {conf : Conf} {server : Int} (calls : List (List Event))
    (hx : ∀ x ∈ calls.flatten, x.id.server ≠ server ∧ T.events x) {d : Duo} {stored : List Event}
    (h : DuoHolds conf T server d stored) :
    ∃ stored', DuoHolds conf T server (d.registers calls) stored' ∧ Flushes server d stored (d.registers calls) stored' := by
  induction calls generalizing d stored with
  | nil => exact ⟨stored, h, .refl⟩
  | cons es calls ih =>
    obtain ⟨stored', h1, h2⟩ := holds_primary h (.register es) (fun c hc => by cases hc)
      (fun es' h' e he => (hx e (by cases h'; rw [List.flatten_cons]; exact List.mem_append_left _ he)).2) (by
        obtain ⟨_, _, _, _, h'⟩ := h
        exact orderly_others h'.order es fun e he => (hx e (by rw [List.flatten_cons]; exact List.mem_append_left _ he)).1)
    obtain ⟨stored'', h3, h4⟩ := ih (fun x hxx => hx x (by rw [List.flatten_cons]; exact List.mem_append_right _ hxx)) h1
    exact ⟨stored'', h3, h2.trans h4⟩

theorem holds_standby {conf : Conf} {server : Int} {d : Duo} {stored : List Event} (h : DuoHolds conf T server d stored)
    (op : BackendOp) (hc : ∀ c, op = .reopen c → Like conf T c)
    (hev : ∀ es, op = .register es → ∀ e ∈ es, T.events e)
    (hop : ∀ es, op = .register es → ∀ e ∈ es, e.id.server ≠ server) :
    DuoHolds conf T server (d.stepStandby op) stored := by
  obtain ⟨pops, sops, wp, ws, h⟩ := h
  obtain ⟨ws', h'⟩ := duoOk_standby h op (by
    intro c hcc
    rcases List.mem_append.1 hcc with hcc | hcc
    · exact h.confS c hcc
    · exact hc c (List.mem_singleton.1 hcc).symm) hop hev
  exact ⟨_, _, _, _, h'⟩

theorem standby_link {d : Duo} {op : BackendOp} (hc : (d.stepStandby op).link.closed = false) :
    (d.stepStandby op).link = d.link := by
  unfold Duo.stepStandby at hc ⊢
  simp only at hc ⊢
  split at hc
  · cases hc
  · next hn => rw [if_neg hn]

/-- The step of the connection is the one that was chosen. -/
def Chosen (act : SideAct) (a : SyncAct) : Prop :=
  match act with
  | .notify => a = .notify
  | .serve => ∃ k, a = .serve k
  | .deliver => a = .deliver
  | .advance => a = .advance
  | _ => True

theorem register_link {d : Duo} {link : Sync} (hc : (d.register link).link.closed = false) :
    (d.register link).link = link := by
  unfold Duo.register at hc ⊢
  simp only at hc ⊢
  split at hc
  · cases hc
  · next hn => rw [if_neg hn]

/-- An action of the connection. -/
theorem holds_link {conf : Conf} {server : Int} {d : Duo} {stored : List Event} (h : DuoHolds conf T server d stored)
    (act : SideAct) :
    DuoHolds conf T server (d.step act.toDuo) stored ∧
      (d.link.closed = false → (d.step act.toDuo).link.closed = false →
        ∃ a, Moves server d stored (d.step act.toDuo) stored a ∧ Chosen act a) := by
  obtain ⟨pops, sops, wp, ws, h⟩ := h
  cases act with
  | connect =>
    refine ⟨⟨_, _, _, _, duoOk_connect h⟩, fun hc _ => ⟨_, moves_same ?_ ?_, trivial⟩⟩ <;>
      simp [SideAct.toDuo, Duo.step, Duo.connect, hc]
  | notify =>
    refine ⟨⟨_, _, _, _, duoOk_notify h⟩, fun _ _ => ⟨.notify, moves_keep ?_ rfl rfl (fun k hk => by cases hk) (by simp), rfl⟩⟩
    exact sendNotify_disk d.link stored
  | serve =>
    refine ⟨⟨_, _, _, _, duoOk_serve h⟩, fun hc hc' => ?_⟩
    simp only [SideAct.toDuo, Duo.step] at hc' ⊢
    unfold Duo.serve at hc' ⊢
    rw [if_neg (by rw [hc]; simp)] at hc' ⊢
    cases hreq : d.link.request with
    | none =>
      refine ⟨.serve 1, moves_keep ?_ rfl rfl (fun k hk => by cases hk; omega) (by simp), _, rfl⟩
      simp [Duo.sync, Sync.step, Sync.serve, hreq, hc]
    | some last =>
      simp only [hreq] at hc'
      simp only
      cases hq : d.primary.query (.server (syncParams d.link.remoteId last)) with
      | error err => rw [hq] at hc'; cases hc'
      | ok r =>
        obtain ⟨size, h0, rfl⟩ := duo_answer h last hq
        refine ⟨.serve size, moves_keep ?_ rfl rfl (fun k hk => by cases hk; exact h0) (by simp), _, rfl⟩
        simp [Duo.sync, Sync.step, Sync.serve, hreq, hc]
  | deliver =>
    obtain ⟨sops', ws', h1, h2⟩ := duoOk_deliver h
    refine ⟨⟨_, _, _, _, h1⟩, fun hc hc' => ⟨.deliver, moves_keep ?_ rfl rfl (fun k hk => by cases hk) (by simp), rfl⟩⟩
    unfold Duo.sync
    simp only [SideAct.toDuo, Duo.step] at hc' ⊢
    rw [register_link hc']
    cases hw : d.link.wire with
    | nil => simp [Sync.step, hc, hw]
    | cons m w =>
      simp only [Sync.step, hc, hw, Bool.false_eq_true, if_false]
      exact receive_disk _ _ _
  | advance =>
    obtain ⟨sops', ws', h1, h2⟩ := duoOk_advance h
    refine ⟨⟨_, _, _, _, h1⟩, fun hc hc' => ⟨.advance, moves_keep ?_ rfl rfl (fun k hk => by cases hk) (by simp), rfl⟩⟩
    unfold Duo.sync
    simp only [SideAct.toDuo, Duo.step] at hc' ⊢
    rw [register_link hc']
    have h3 : d.link.step .advance = d.link.advance := by simp [Sync.step, hc, (h.live hc).connected]
    have h4 : ({ d.link with disk := stored } : Sync).step .advance = ({ d.link with disk := stored } : Sync).advance := by
      show (if d.link.closed || !d.link.connected then _ else _) = _
      rw [if_neg (by simp [hc, (h.live hc).connected])]
    rw [h3, h4]
    exact advance_disk _ _
  | close =>
    exact ⟨⟨_, _, _, _, duoOk_link h h.remote h.keep h.suffix fun hc => by cases hc⟩, fun _ hc' => by cases hc'⟩

/-! ### Endless schedules -/

/-- Choices that follow each other. -/
theorem choose_seq {α : Type} {P : Nat → α → Prop} {R : Nat → α → α → Prop} (h0 : ∃ x, P 0 x)
    (hs : ∀ n x, P n x → ∃ y, P (n + 1) y ∧ R n x y) : ∃ f : Nat → α, ∀ n, P n (f n) ∧ R n (f n) (f (n + 1)) := by
  classical
  let F : (n : Nat) → { x // P n x } := fun n =>
    Nat.rec ⟨h0.choose, h0.choose_spec⟩ (fun n x => ⟨(hs n x.1 x.2).choose, (hs n x.1 x.2).choose_spec.1⟩) n
  exact ⟨fun n => (F n).1, fun n => ⟨(F n).2, (hs n (F n).1 (F n).2).choose_spec.2⟩⟩

/-- A connection that goes on. -/
structure LinkGoesOn (conf : Conf) (T : Terms) (server : Int) (d : Nat → Duo) (stored : Nat → List Event)
    (acts : Nat → SyncAct) : Prop where
  holds : ∀ n, DuoHolds conf T server (d n) (stored n)
  moves : ∀ n, Moves server (d n) (stored n) (d (n + 1)) (stored (n + 1)) (acts n)
  isOpen : ∀ n, (d n).link.closed = false
  notify : ∀ n, ∃ m, n ≤ m ∧ acts m = .notify
  serve : ∀ n, ∃ m, n ≤ m ∧ ∃ k, acts m = .serve k
  deliver : ∀ n, ∃ m, n ≤ m ∧ acts m = .deliver
  advance : ∀ n, ∃ m, n ≤ m ∧ acts m = .advance

/-- Each step in two. -/
theorem LinkGoesOn.goesOn {conf : Conf} {server : Int} {d : Nat → Duo} {stored : Nat → List Event} {acts : Nat → SyncAct}
    (h : LinkGoesOn conf T server d stored acts) :
    ∃ s all acts', GoesOn s all acts' ∧ (∀ n, s (2 * n) = (d n).sync (stored n)) ∧
      (∀ n, all (2 * n) = ofServer server (d n).primary.flushedCb.flatten) ∧
      (∀ n, acts' (2 * n) = acts n) ∧ (∀ n, ∃ gone, acts' (2 * n + 1) = .remove gone) ∧
      (∀ n, all (2 * n + 1) = all (2 * (n + 1))) ∧ (s 0).remoteId = server := by
  choose gone hgone using fun n => (h.moves n).link
  let s : Nat → Sync := fun n =>
    if n % 2 = 0 then (d (n / 2)).sync (stored (n / 2)) else ((d (n / 2)).sync (stored (n / 2))).step (acts (n / 2))
  let all : Nat → List Event := fun n => ofServer server (d ((n + 1) / 2)).primary.flushedCb.flatten
  let acts' : Nat → SyncAct := fun n => if n % 2 = 0 then acts (n / 2) else .remove (gone (n / 2))
  have hs0 : ∀ k, s (2 * k) = (d k).sync (stored k) := fun k => by simp [s]
  have hs1 : ∀ k, s (2 * k + 1) = ((d k).sync (stored k)).step (acts k) := fun k => by
    have : (2 * k + 1) / 2 = k := by omega
    simp [s, this, Nat.add_mod]
  have hl0 : ∀ k, all (2 * k) = ofServer server (d k).primary.flushedCb.flatten := fun k => by
    have : (2 * k + 1) / 2 = k := by omega
    simp [all, this]
  have hl1 : ∀ k, all (2 * k + 1) = ofServer server (d (k + 1)).primary.flushedCb.flatten := fun k => by
    have : (2 * k + 1 + 1) / 2 = k + 1 := by omega
    simp only [all, this]
  have ha0 : ∀ k, acts' (2 * k) = acts k := fun k => by simp [acts']
  have ha1 : ∀ k, acts' (2 * k + 1) = .remove (gone k) := fun k => by
    have : (2 * k + 1) / 2 = k := by omega
    simp [acts', this, Nat.add_mod]
  clear_value s all acts'
  have hrem : ∀ n, (d n).link.remoteId = server := fun n => by
    obtain ⟨_, _, _, _, h1⟩ := h.holds n
    exact h1.remote
  have hr0 : (s 0).remoteId = server := by
    rw [show (0 : Nat) = 2 * 0 from rfl, hs0]; exact hrem 0
  have hlast : ∀ k, s (2 * k + 2) = (s (2 * k + 1)).step (.remove (gone k)) := fun k => by
    rw [show 2 * k + 2 = 2 * (k + 1) by omega, hs0, hs1]; exact hgone k
  have often : ∀ {P : SyncAct → Prop}, (∀ n, ∃ m, n ≤ m ∧ P (acts m)) → ∀ n, ∃ m, n ≤ m ∧ P (acts' m) := by
    intro P hP n
    obtain ⟨m, h1, h2⟩ := hP n
    exact ⟨2 * m, by omega, by rw [ha0]; exact h2⟩
  have hcl : ∀ n, (s n).closed = false := by
    intro n
    obtain ⟨k, rfl | rfl⟩ := Nat.even_or_odd' n
    · rw [hs0]; exact h.isOpen k
    · have h1 := hs0 (k + 1)
      rw [show 2 * (k + 1) = 2 * k + 2 by omega, hlast] at h1
      have h2 := congrArg Sync.closed h1
      exact h2.trans (h.isOpen (k + 1))
  have hcon : ∀ n, (s n).connected = true := by
    have key : ∀ k, (d k).link.connected = true := fun k => by
      obtain ⟨_, _, _, _, h1⟩ := h.holds k
      exact (h1.live (h.isOpen k)).connected
    intro n
    obtain ⟨k, rfl | rfl⟩ := Nat.even_or_odd' n
    · rw [hs0]; exact key k
    · have h1 := hs0 (k + 1)
      rw [show 2 * (k + 1) = 2 * k + 2 by omega, hlast] at h1
      exact (congrArg Sync.connected h1).trans (key (k + 1))
  refine ⟨s, all, acts', ⟨?_, ?_, ?_, ?_, hcl, hcon, ?_, often (P := (· = .notify)) h.notify, often (P := fun a => ∃ k, a = .serve k) h.serve,
    often (P := (· = .deliver)) h.deliver, often (P := (· = .advance)) h.advance⟩, hs0, hl0, ha0, fun n => ⟨_, ha1 n⟩, fun n => by rw [hl1, hl0], hr0⟩
  · intro n
    obtain ⟨k, rfl | rfl⟩ := Nat.even_or_odd' n
    · rw [hs1, hs0, ha0]
    · rw [hlast, ha1]
  · intro n
    have key : ∀ k, ∃ pre, SyncOk (s (2 * k)) (all (2 * k)) pre := fun k => by
      obtain ⟨_, _, _, _, h1⟩ := h.holds k
      rw [hs0, hl0]
      exact (h1.live (h.isOpen k)).sync
    obtain ⟨k, rfl | rfl⟩ := Nat.even_or_odd' n
    · exact key k
    · obtain ⟨pre, hp⟩ := key k
      rw [hs1, hl1, (h.moves k).all]
      rw [hs0, hl0] at hp
      refine syncOk_step (acts k) hp (hrem k) ?_
      obtain ⟨_, _, _, _, h1⟩ := h.holds (k + 1)
      rw [← (h.moves k).all]
      exact h1.all.increasing
  · intro n
    obtain ⟨k, rfl | rfl⟩ := Nat.even_or_odd' n
    · rw [hl1, hl0, ha0, hr0]; exact (h.moves k).all
    · rw [show 2 * k + 1 + 1 = 2 * (k + 1) by omega, hl1, hl0, ha1]
      simp [flushed]
  · intro n x hx
    rw [hr0]
    obtain ⟨k, rfl | rfl⟩ := Nat.even_or_odd' n
    · rw [hl0] at hx; exact (mem_ofServer.1 hx).2
    · rw [hl1] at hx; exact (mem_ofServer.1 hx).2
  · intro n j hj
    obtain ⟨k, rfl | rfl⟩ := Nat.even_or_odd' n
    · rw [ha0] at hj; exact (h.moves k).size j hj
    · rw [ha1] at hj; cases hj

theorem calls_grow (s : Sync) (a : SyncAct) : s.calls <+: (s.step a).calls := by
  have hadv : ∀ s : Sync, s.calls <+: s.advance.calls := fun s => by
    obtain ⟨new, hn⟩ := (advance_progress s).calls
    exact ⟨new, hn.symm⟩
  cases a with
  | notify =>
    rw [show (s.step .notify).calls = s.calls from (sendNotify_same s).2.2.2.1]
    exact List.prefix_rfl
  | serve k =>
    simp only [Sync.step, Sync.serve]
    split
    · exact List.prefix_rfl
    · split <;> exact List.prefix_rfl
  | deliver =>
    simp only [Sync.step]
    split
    · exact List.prefix_rfl
    · split
      · exact List.prefix_rfl
      · next m w _ =>
        obtain ⟨new, hn⟩ := (receive_progress ({ s with wire := w } : Sync) m).calls
        exact ⟨new, hn.symm⟩
  | advance =>
    simp only [Sync.step]
    split
    · exact List.prefix_rfl
    · exact hadv s
  | _ => exact List.prefix_rfl

theorem GoesOn.calls {s : Nat → Sync} {all : Nat → List Event} {acts : Nat → SyncAct} (h : GoesOn s all acts) {m n : Nat}
    (hmn : m ≤ n) : (s m).calls <+: (s n).calls := by
  induction n, hmn using Nat.le_induction with
  | base => exact List.prefix_rfl
  | succ n _ ih => rw [h.step]; exact ih.trans (calls_grow _ _)

section
variable {conf : Conf} {server : Int} {d : Nat → Duo} {stored : Nat → List Event} {acts : Nat → SyncAct}

/-- **An event that stays is received.** -/
theorem LinkGoesOn.got (h : LinkGoesOn conf T server d stored acts) {e : Event} (hs : ∀ n, e ∈ stored n)
    (hw : ∀ n, ∀ x ∈ ofServer server (d n).primary.flushedCb.flatten, x.id.session = e.id.session →
      x ∈ ofServer server (d 0).primary.flushedCb.flatten) :
    ∃ m, ∀ k, m ≤ k → IdLt (d k).link.last e.id → e ∈ accept (d k).link.last (d k).link.calls.flatten := by
  obtain ⟨s, all, acts', hg, hs0, hl0, ha0, ha1, hl1, hr0⟩ := h.goesOn
  have hlast : ∀ k, (d k).link.last = (s 0).last := fun k => by
    rw [← (hg.same (2 * k)).2, hs0]; rfl
  by_cases hl : IdLt (s 0).last e.id
  · have haw : Awaits s all acts' e := by
      refine ⟨hg, ?_, hl, ?_⟩
      · intro n
        obtain ⟨k, rfl | rfl⟩ := Nat.even_or_odd' n
        · rw [hs0]; exact hs k
        · have h1 := hs0 (k + 1)
          obtain ⟨gone, hgo⟩ := ha1 k
          rw [show 2 * (k + 1) = 2 * k + 1 + 1 by omega, hg.step, hgo] at h1
          have h2 : e ∈ ((s (2 * k + 1)).step (.remove gone)).disk := by rw [h1]; exact hs (k + 1)
          exact (List.mem_filter.1 h2).1
      · intro n x hx heq
        rw [hr0] at hx
        obtain ⟨k, rfl | rfl⟩ := Nat.even_or_odd' n
        · rw [ha0] at hx
          have h1 := (h.moves k).all
          have h2 := hw (k + 1) x (by rw [h1]; exact List.mem_append_right _ hx) heq
          have hpre : ∀ k, ofServer server (d 0).primary.flushedCb.flatten <+:
              ofServer server (d k).primary.flushedCb.flatten := by
            intro k
            induction k with
            | zero => exact List.prefix_rfl
            | succ k ih => rw [(h.moves k).all]; exact ih.trans (List.prefix_append _ _)
          obtain ⟨_, _, _, _, hd⟩ := h.holds (k + 1)
          have hinc := hd.all.increasing
          rw [h1] at hinc
          exact not_idLt.2 .refl ((List.pairwise_append.1 hinc).2.2 x ((hpre k).subset h2) x hx)
        · obtain ⟨gone, hgo⟩ := ha1 k
          rw [hgo] at hx
          simp [flushed] at hx
    obtain ⟨m, hm⟩ := haw.got
    refine ⟨m, fun k hk _ => ?_⟩
    rw [hlast]
    obtain ⟨new, hn⟩ := hg.calls (show m ≤ 2 * k by omega)
    have : (d k).link.calls = (s (2 * k)).calls := by rw [hs0]; rfl
    rw [this, ← hn, List.flatten_append, accept_append]
    exact List.mem_append_left _ hm
  · exact ⟨0, fun k _ hk => absurd (by rw [← hlast k]; exact hk) hl⟩

/-- **If no more events of the server are flushed, everything is received.** -/
theorem LinkGoesOn.idle (h : LinkGoesOn conf T server d stored acts)
    (hall : ∀ n, ofServer server (d n).primary.flushedCb.flatten = ofServer server (d 0).primary.flushedCb.flatten) :
    ∃ m, ∀ k, m ≤ k → (d k).link.task = .synced ∧ (d k).link.wire = [] := by
  obtain ⟨s, all, acts', hg, hs0, hl0, ha0, ha1, hl1, hr0⟩ := h.goesOn
  obtain ⟨m, hm⟩ := hg.idle (by
    have h0 : all 0 = all (2 * 0) := rfl
    intro n
    obtain ⟨k, rfl | rfl⟩ := Nat.even_or_odd' n
    · rw [h0, hl0, hl0]; exact hall k
    · rw [h0, hl1, hl0, hl0]; exact hall (k + 1))
  refine ⟨m, fun k hk => ?_⟩
  have := hm (2 * k) (by omega)
  rw [hs0] at this
  exact this

/-- If nothing at all is flushed, everything is notified. -/
theorem LinkGoesOn.notifies (h : LinkGoesOn conf T server d stored acts) {N : Nat}
    (hnone : ∀ n, N ≤ n → ∀ r, acts n = .flush r → r = []) :
    ∃ m, ∀ k, m ≤ k → (d k).link.unnotified = [] := by
  obtain ⟨s, all, acts', hg, hs0, hl0, ha0, ha1, hl1, hr0⟩ := h.goesOn
  obtain ⟨m, hm⟩ := hg.notifies (N := 2 * N) (by
    intro n hn r hr
    obtain ⟨k, rfl | rfl⟩ := Nat.even_or_odd' n
    · rw [ha0] at hr; exact hnone k (by omega) r hr
    · obtain ⟨gone, hgo⟩ := ha1 k
      rw [hgo] at hr; cases hr)
  refine ⟨m, fun k hk => ?_⟩
  have := hm (2 * k) (by omega)
  rw [hs0] at this
  exact this

end

/-! ### A server and its standby -/

theorem duo_run_succ (d : Duo) (acts : Nat → DuoAct) (n : Nat) :
    d.run (upTo acts (n + 1)) = (d.run (upTo acts n)).step (acts n) := by
  rw [upTo_succ, duo_run_snoc]

theorem holds_step {conf : Conf} {server : Int} {d : Duo} {stored : List Event} (h : DuoHolds conf .none server d stored)
    (a : DuoAct) {acts : List DuoAct} (ha : Alike conf server acts) (hm : a ∈ acts)
    (ho : Orderly server (ofServer server (told (d.step a).primary))) :
    ∃ stored', DuoHolds conf .none server (d.step a) stored' ∧
      (d.link.closed = false → (d.step a).link.closed = false →
        ∃ b, Moves server d stored (d.step a) stored' b ∧ ∀ act : SideAct, a = act.toDuo → Chosen act b) := by
  have side : ∀ act : SideAct, a = act.toDuo → ∃ stored', DuoHolds conf .none server (d.step a) stored' ∧
      (d.link.closed = false → (d.step a).link.closed = false →
        ∃ b, Moves server d stored (d.step a) stored' b ∧ ∀ act : SideAct, a = act.toDuo → Chosen act b) := by
    rintro act rfl
    obtain ⟨h1, h2⟩ := holds_link h act
    refine ⟨stored, h1, fun c1 c2 => ?_⟩
    obtain ⟨b, b1, b2⟩ := h2 c1 c2
    refine ⟨b, b1, fun act' hact => ?_⟩
    have : act' = act := by cases act <;> cases act' <;> first | rfl | cases hact
    rw [this]; exact b2
  cases a with
  | primary op =>
    obtain ⟨stored', h1, h2⟩ := holds_primary h op (by rintro c rfl; exact like_none (ha.primary c hm))
      (fun _ _ _ _ => trivial) ho
    refine ⟨stored', h1, fun _ hc => ?_⟩
    obtain ⟨r, hr⟩ := h2.moves h h1 hc
    exact ⟨_, hr, fun act hact => by cases act <;> cases hact⟩
  | standby op =>
    have h1 := holds_standby h op (by rintro c rfl; exact like_none (ha.standby c hm)) (fun _ _ _ _ => trivial)
      (by rintro es rfl; exact ha.receives es hm)
    refine ⟨stored, h1, fun _ hc => ⟨_, moves_same (standby_link hc) rfl, ?_⟩⟩
    intro act hact
    cases act <;> cases hact
  | connect => exact side .connect rfl
  | notify => exact side .notify rfl
  | serve => exact side .serve rfl
  | deliver => exact side .deliver rfl
  | advance => exact side .advance rfl
  | close => exact side .close rfl

/-- The connection of a server and its standby goes on. -/
theorem duo_goesOn (conf : Conf) (server : Int) (acts : Nat → DuoAct) (ha : ∀ n, Alike conf server (upTo acts n))
    (ho : ∀ n, InOrder conf server (upTo acts n)) {N : Nat}
    (hopen : ∀ n, N ≤ n → ((Duo.new conf server).run (upTo acts n)).link.closed = false)
    (hn : Often acts .notify) (hs : Often acts .serve) (hd : Often acts .deliver) (hv : Often acts .advance) :
    ∃ stored bs, LinkGoesOn conf .none server (fun n => (Duo.new conf server).run (upTo acts (N + n))) stored bs := by
  obtain ⟨stored, hst⟩ := choose_seq
    (P := fun n x => DuoHolds conf .none server ((Duo.new conf server).run (upTo acts (N + n))) x)
    (R := fun n x y => ∃ b, Moves server ((Duo.new conf server).run (upTo acts (N + n))) x
      ((Duo.new conf server).run (upTo acts (N + (n + 1)))) y b ∧
      ∀ act : SideAct, acts (N + n) = act.toDuo → Chosen act b)
    (by
      obtain ⟨pops, sops, wp, ws, stored, h⟩ := duoOk_run conf server (upTo acts N) (ha N) (ho N)
      exact ⟨stored, pops, sops, wp, ws, h⟩)
    (by
      intro n x hx
      have h1 := ho (N + (n + 1)) _ List.prefix_rfl
      rw [show N + (n + 1) = N + n + 1 by omega, duo_run_succ] at h1
      obtain ⟨y, y1, y2⟩ := holds_step hx (acts (N + n)) (ha (N + n + 1)) (mem_upTo _ _) h1
      rw [← duo_run_succ] at y1 y2
      exact ⟨y, y1, y2 (hopen _ (by omega)) (hopen _ (by omega))⟩)
  choose bs hbs using fun n => (hst n).2
  exact ⟨stored, bs, fun n => (hst n).1, fun n => (hbs n).1, fun n => hopen _ (by omega),
    often_imp (acts' := bs) (often_shift hn N) (P := (· = .notify)) fun n h => (hbs n).2 .notify h,
    often_imp (acts' := bs) (often_shift hs N) (P := fun a => ∃ k, a = .serve k) fun n h => (hbs n).2 .serve h,
    often_imp (acts' := bs) (often_shift hd N) (P := (· = .deliver)) fun n h => (hbs n).2 .deliver h,
    often_imp (acts' := bs) (often_shift hv N) (P := (· = .advance)) fun n h => (hbs n).2 .advance h⟩

end HatEvent
