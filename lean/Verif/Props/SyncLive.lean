import Verif.Proof.Forever
import Verif.Proof.PairLive
import Verif.Props.DuoSeries
import Mathlib.Tactic.IntervalCases

/-!
# C88: a standby receives what the primary keeps, and servers that are given no more events settle
-/

namespace HatEvent
open Spec

/-! ## One direction -/

theorem shown_visible {T : Terms} {conf : Conf} {server : Int} {d : Duo} {pops sops : List BackendOp} {wp ws : World}
    {stored : List Event} (h : DuoOk conf T server d pops sops wp ws stored) {events : List Event}
    (hq : d.primary.query (.latest none) = .ok ⟨events, false⟩) {p : Event} (hp : p ∈ events)
    (hsrv : p.id.server = server) (hfl : p ∈ d.primary.flushedCb.flatten)
    (ho : Orderly server (ofServer server (told d.primary))) : p ∈ stored ∧ Visible conf p := by
  have hrelP : WorldRel d.primary wp := by rw [h.primary]; exact h.reachedP.rel
  have hvP : ∀ e, Visible wp.conf e ↔ Visible conf e := by
    intro e
    rw [← hrelP.conf, h.primary]
    exact run_conf_like h.confP e
  cases hm : d.primary.mem with
  | none => simp [Backend.query, hm] at hq
  | some mp =>
    rw [query_latest hm] at hq
    cases hq
    obtain ⟨hslot, hv⟩ := (mem_latest hrelP hm p).1 hp
    refine ⟨(h.held p).2 ⟨?_, hsrv⟩, (hvP p).1 hv⟩
    rcases h.facts.slot _ p hslot with h1 | h1
    · exact .inl h1
    · have := ho.sorted
      rw [told_eq, ofServer_append] at this
      exact absurd ((List.pairwise_append.1 this).2.2 p (mem_ofServer.2 ⟨hfl, hsrv⟩) p
        (mem_ofServer.2 ⟨h1, hsrv⟩)).1 (not_idLt.2 .refl)

/-- **C88** The standby shows what the primary keeps showing.  At some time an event of the primary is flushed, with all
events of its session; from then on the connection stays and each of its parts goes on, while anything else may happen.
As long as the primary shows the event, from some time on the standby shows it or one that is not older. -/
theorem C88_shown (conf : Conf) (server : Int) (acts : Nat → DuoAct) (ha : ∀ n, Alike conf server (upTo acts n))
    (ho : ∀ n, InOrder conf server (upTo acts n)) (N : Nat)
    (hopen : ∀ n, N ≤ n → ((Duo.new conf server).run (upTo acts n)).link.closed = false)
    (hn : Often acts .notify) (hs : Often acts .serve) (hd : Often acts .deliver) (hv : Often acts .advance)
    (p : Event) (hsrv : p.id.server = server)
    (hfl : p ∈ ((Duo.new conf server).run (upTo acts N)).primary.flushedCb.flatten)
    (hw : ∀ n, N ≤ n → ∀ x ∈ ((Duo.new conf server).run (upTo acts n)).primary.flushedCb.flatten,
      x.id.server = server → x.id.session = p.id.session →
        x ∈ ((Duo.new conf server).run (upTo acts N)).primary.flushedCb.flatten)
    (hp : ∀ n, N ≤ n → ∃ events,
      ((Duo.new conf server).run (upTo acts n)).primary.query (.latest none) = .ok ⟨events, false⟩ ∧ p ∈ events) :
    ∃ m, ∀ n, m ≤ n → ∃ events,
      ((Duo.new conf server).run (upTo acts n)).standby.query (.latest none) = .ok ⟨events, false⟩ ∧
        ∃ s ∈ events, Upholds p s := by
  obtain ⟨stored, bs, hl⟩ := duo_goesOn conf server acts ha ho hopen hn hs hd hv
  have hall : ∀ n, p ∈ ofServer server ((Duo.new conf server).run (upTo acts (N + n))).primary.flushedCb.flatten := by
    intro n
    induction n with
    | zero => exact mem_ofServer.2 ⟨hfl, hsrv⟩
    | succ n ih => 
      have := (hl.moves n).all
      rw [this]
      exact List.mem_append_left _ ih
  have hst : ∀ n, p ∈ stored n ∧ Visible conf p := by
    intro n
    obtain ⟨_, _, _, _, h⟩ := hl.holds n
    obtain ⟨events, h1, h2⟩ := hp (N + n) (by omega)
    exact shown_visible h h1 h2 hsrv (mem_ofServer.1 (hall n)).1 (ho _ _ List.prefix_rfl)
  obtain ⟨m, hm⟩ := hl.got (fun n => (hst n).1) fun n x hx heq => by
    obtain ⟨h1, h2⟩ := mem_ofServer.1 hx
    exact mem_ofServer.2 ⟨hw (N + n) (by omega) x h1 h2 heq, h2⟩
  refine ⟨N + m, fun n hn => ?_⟩
  obtain ⟨k, rfl⟩ := Nat.exists_eq_add_of_le (Nat.le_trans (Nat.le_add_right N m) hn)
  obtain ⟨_, _, _, _, h⟩ := hl.holds k
  have hopen := hopen (N + k) (by omega)
  obtain ⟨ms, hms⟩ := Option.ne_none_iff_exists'.1 (h.live hopen).smem
  exact ⟨_, query_latest hms, duo_shows h hms hopen (hst k).1 (hst k).2 (hm k (by omega)) hsrv⟩

/-! ## Both directions -/

/-- From a time on the servers are given no events, both connections stay, and each part goes on. -/
structure Spec.GoOn (conf : Conf) (left right : Int) (acts : Nat → PairAct) (N : Nat) : Prop where
  openF : ∀ n, N ≤ n → ((Pair.new conf left right).run (upTo acts n)).fore.closed = false
  openB : ∀ n, N ≤ n → ((Pair.new conf left right).run (upTo acts n)).back.closed = false
  noneL : ∀ n, N ≤ n → ∀ es, acts n ≠ .left (.register es)
  noneR : ∀ n, N ≤ n → ∀ es, acts n ≠ .right (.register es)
  fore : ∀ act, act ∈ [SideAct.notify, .serve, .deliver, .advance] → Often acts (.fore act)
  back : ∀ act, act ∈ [SideAct.notify, .serve, .deliver, .advance] → Often acts (.back act)
  flushL : Often acts (.left .flush)
  flushR : Often acts (.right .flush)

theorem pair_goesOn {T : Terms} {conf : Conf} {left right : Int} {acts : Nat → PairAct} {N : Nat}
    (ha : ∀ n, Matched conf left right (upTo acts n)) (ho : ∀ n, BothInOrder conf left right (upTo acts n))
    (hc : ∀ n c, (acts n = .left (.reopen c) ∨ acts n = .right (.reopen c)) → (∀ e, T.taken e → Takes c e) ∧ T.confs c)
    (he : ∀ n es, (acts n = .left (.register es) ∨ acts n = .right (.register es)) → ∀ e ∈ es, T.events e)
    (h : GoOn conf left right acts N) :
    PairGoesOn conf T left right (fun n => (Pair.new conf left right).run (upTo acts (N + n)))
      (fun n => acts (N + n)) := by
  have hstep : ∀ n, (Pair.new conf left right).run (upTo acts (n + 1)) =
      ((Pair.new conf left right).run (upTo acts n)).step (acts n) := by
    intro n
    rw [upTo_succ, Pair.run, List.foldl_append]; rfl
  have hd := (ha 0).different
  have hin : ∀ n a, acts n = a → a ∈ upTo acts (n + 1) := fun n a h => h ▸ mem_upTo acts n
  have hside : ∀ act : SideAct, act ≠ .connect → act ≠ .close → act ∈ [SideAct.notify, .serve, .deliver, .advance] := by
    intro act h1 h2
    cases act <;> simp at h1 h2 ⊢
  refine ⟨hd, fun n => hstep (N + n), fun n => ?_, fun n => ?_, fun n => ?_, fun n => h.openF _ (by omega),
    fun n => h.openB _ (by omega), fun act h1 h2 => often_shift (h.fore act (hside act h1 h2)) N,
    fun act h1 h2 => often_shift (h.back act (hside act h1 h2)) N, often_shift h.flushL N, often_shift h.flushR N,
    fun n => h.noneL _ (by omega), fun n => h.noneR _ (by omega)⟩
  · refine pairOk_run conf left right _ (ha _) (fun c hm => ?_) (fun es hm => ?_) (ho _)
    · rcases hm with hm | hm <;> obtain ⟨k, _, hk⟩ := of_mem_upTo hm
      · exact hc k c (.inl hk)
      · exact hc k c (.inr hk)
    · rcases hm with hm | hm <;> obtain ⟨k, _, hk⟩ := of_mem_upTo hm
      · exact he k es (.inl hk)
      · exact he k es (.inr hk)
  · have hm := ha (N + n + 1)
    have hoo := (ho (N + n + 1) _ List.prefix_rfl).1
    rw [hstep] at hoo
    refine ⟨fun c hh => ?_, fun es hh => he _ es hh, fun es hh e hes => ?_, fun op hop => ?_⟩
    · obtain ⟨h1, h2⟩ := hc _ c hh
      rcases hh with hh | hh
      · obtain ⟨h3, h4⟩ := hm.confL c (hin _ _ hh)
        exact ⟨h3, h4, h1, h2⟩
      · obtain ⟨h3, h4⟩ := hm.confR c (hin _ _ hh)
        exact ⟨h3, h4, h1, h2⟩
    · rw [hm.ownR es (hin _ _ hh) e hes]; exact hd.symm
    · have hop : acts (N + n) = .left op := hop
      rw [hop] at hoo
      exact hoo
  · have hm := ha (N + n + 1)
    have hoo := (ho (N + n + 1) _ List.prefix_rfl).2
    rw [hstep] at hoo
    have hmir : ∀ a b, (acts (N + n)).mirror = a → a.mirror = b → acts (N + n) = b := by
      rintro a b rfl rfl
      exact (mirror_mirror _).symm
    refine ⟨fun c hh => ?_, fun es hh => he (N + n) es ?_, fun es hh e hes => ?_, fun op hop => ?_⟩
    · have hh : acts (N + n) = .left (.reopen c) ∨ acts (N + n) = .right (.reopen c) :=
        hh.symm.imp (fun h => hmir _ _ h rfl) (fun h => hmir _ _ h rfl)
      obtain ⟨h1, h2⟩ := hc _ c hh
      rcases hh with hh | hh
      · obtain ⟨h3, h4⟩ := hm.confL c (hin _ _ hh)
        exact ⟨h3, h4, h1, h2⟩
      · obtain ⟨h3, h4⟩ := hm.confR c (hin _ _ hh)
        exact ⟨h3, h4, h1, h2⟩
    · exact hh.symm.imp (fun h => hmir _ _ h rfl) (fun h => hmir _ _ h rfl)
    · rw [hm.ownL es (hin _ _ (hmir _ _ hh rfl)) e hes]; exact hd
    · rw [hmir _ _ hop rfl] at hoo
      exact hoo

/-- They settle. -/
theorem goesOn_settled {T : Terms} {conf : Conf} {left right : Int} {p : Nat → Pair} {acts : Nat → PairAct}
    (h : PairGoesOn conf T left right p acts) : ∃ m, ∀ n, m ≤ n → Settled (p n) := by
  obtain ⟨m1, h1⟩ := h.idle
  obtain ⟨m2, h2⟩ := h.mirror.idle
  obtain ⟨m3, h3⟩ := h.still
  obtain ⟨m4, h4⟩ := h.mirror.still
  refine ⟨max (max m1 m2) (max m3 m4), fun n hn => ?_⟩
  obtain ⟨a1, a2⟩ := h1 n (by omega)
  obtain ⟨b1, b2⟩ := h2 n (by omega)
  obtain ⟨c1, c2⟩ := h3 n (by omega)
  obtain ⟨d1, d2⟩ := h4 n (by omega)
  exact ⟨h.openF n, h.openB n, ⟨a1, a2, c1⟩, ⟨b1, b2, d1⟩, c2, d2⟩

theorem goOn_none {conf : Conf} {left right : Int} {acts : Nat → PairAct} {N : Nat}
    (ha : ∀ n, Matched conf left right (upTo acts n)) (ho : ∀ n, BothInOrder conf left right (upTo acts n))
    (h : GoOn conf left right acts N) :
    PairGoesOn conf .none left right (fun n => (Pair.new conf left right).run (upTo acts (N + n)))
      (fun n => acts (N + n)) :=
  pair_goesOn ha ho (fun _ _ _ => ⟨fun _ h => h.elim, trivial⟩) (fun _ _ _ _ _ => trivial) h

/-- **C88** Two servers that are given no more events, with connections that stay, will have flushed everything and
received everything of each other, for good. -/
theorem C88_settled (conf : Conf) (left right : Int) (acts : Nat → PairAct)
    (ha : ∀ n, Matched conf left right (upTo acts n)) (ho : ∀ n, BothInOrder conf left right (upTo acts n)) (N : Nat)
    (h : GoOn conf left right acts N) :
    ∃ m, N ≤ m ∧ ∀ n, m ≤ n → Settled ((Pair.new conf left right).run (upTo acts n)) := by
  obtain ⟨m, hm⟩ := goesOn_settled (goOn_none ha ho h)
  refine ⟨N + m, by omega, fun n hn => ?_⟩
  have := hm (n - N) (by omega)
  rwa [show N + (n - N) = n by omega] at this

/-- **C88** From some time on they answer latest queries alike, if none of their events tie. -/
theorem C88_latest (conf : Conf) (left right : Int) (acts : Nat → PairAct)
    (ha : ∀ n, Matched conf left right (upTo acts n)) (ho : ∀ n, BothInOrder conf left right (upTo acts n)) (N : Nat)
    (h : GoOn conf left right acts N) (hn : NoTies left right ((Pair.new conf left right).run (upTo acts N))) :
    ∃ m, ∀ n, m ≤ n → ∃ events events',
      ((Pair.new conf left right).run (upTo acts n)).left.query (.latest none) = .ok ⟨events, false⟩ ∧
      ((Pair.new conf left right).run (upTo acts n)).right.query (.latest none) = .ok ⟨events', false⟩ ∧
      events.Perm events' := by
  obtain ⟨m, h1, h2⟩ := C88_settled conf left right acts ha ho N h
  refine ⟨m, fun n hm => C84_latest_partial conf left right _ (ha n) (ho n) (h2 n hm) ?_⟩
  have hg := goOn_none ha ho h
  have e1 := hg.own (n - N)
  have e2 := hg.mirror.own (n - N)
  rw [show N + (n - N) = n by omega] at e1 e2
  intro x hx y hy
  rw [e1] at hx
  have hy' : y ∈ ofServer right (told ((Pair.new conf left right).run (upTo acts n)).mirror.left) := hy
  rw [e2] at hy'
  exact hn x hx y hy'

/-- **C88** From some time on they have the same of the events of a timeseries query that all partitions of the query
take and keep without a limit. -/
theorem C88_event (conf : Conf) (left right : Int) (acts : Nat → PairAct)
    (ha : ∀ n, Matched conf left right (upTo acts n)) (hp : ∀ n, OnePlan conf (upTo acts n))
    (ho : ∀ n, BothInOrder conf left right (upTo acts n)) (N : Nat) (h : GoOn conf left right acts N) :
    ∃ m, ∀ n, m ≤ n → ∀ q, TsParamsOk conf q → 0 < tsPage conf q.maxResults →
      let p := (Pair.new conf left right).run (upTo acts n)
      let query := fun (b : Backend) i => b.query (.timeseries { q with lastEventId := i })
      ∃ full full', (Pages (query p.left) none full ∧ ∀ r, Pages (query p.left) none r → r = full) ∧
        (Pages (query p.right) none full' ∧ ∀ r, Pages (query p.right) none r → r = full') ∧
        ∀ e, KeepsFor conf q e → (e ∈ full ↔ e ∈ full') := by
  obtain ⟨m, _, hm⟩ := C88_settled conf left right acts ha ho N h
  exact ⟨m, fun n hn q hq hpos => C87_event conf left right _ (ha n) (hp n) (ho n) (hm n hn) q hq hpos⟩

/-- **C88** From some time on they return the same timeseries, with python subscriptions and partitions without a
limit. -/
theorem C88_lists (conf : Conf) (left right : Int) (acts : Nat → PairAct)
    (ha : ∀ n, Matched conf left right (upTo acts n)) (hp : ∀ n, OnePlan conf (upTo acts n))
    (ho : ∀ n, BothInOrder conf left right (upTo acts n)) (N : Nat) (h : GoOn conf left right acts N)
    (hu : conf.useC = false) :
    ∃ m, ∀ n, m ≤ n → ∀ q, TsParamsOk conf q → (∀ part ∈ conf.partitions, Related q part → part.limit = none) →
      0 < tsPage conf q.maxResults →
      let p := (Pair.new conf left right).run (upTo acts n)
      let query := fun (b : Backend) i => b.query (.timeseries { q with lastEventId := i })
      ∃ full full', (Pages (query p.left) none full ∧ ∀ r, Pages (query p.left) none r → r = full) ∧
        (Pages (query p.right) none full' ∧ ∀ r, Pages (query p.right) none r → r = full') ∧ full.Perm full' := by
  obtain ⟨m, _, hm⟩ := C88_settled conf left right acts ha ho N h
  exact ⟨m, fun n hn q hq hl hpos => C87_lists conf left right _ (ha n) (hp n) (ho n) (hm n hn) hu q hq hl hpos⟩

/-! ## Examples -/

/-- Nothing is waiting to be flushed. -/
structure NoChanges (m : Mem) : Prop where
  registered : m.registered = []
  system : m.system.changes = ⟨[], []⟩
  latest : m.latest.changes = ⟨[], []⟩
  timeseries : m.timeseries.changes = []
  ref : m.ref.changes = []

theorem flush_noChanges {b : Backend} {m : Mem} (hm : b.mem = some m) (h : NoChanges m) : b.step .flush = b := by
  obtain ⟨disk, conf, mem, cb⟩ := b
  obtain ⟨⟨s1, s2⟩, ⟨l1, l2, l3, l4⟩, ⟨t1, t2⟩, ⟨r1, r2⟩, reg⟩ := m
  obtain ⟨rfl, h1, h2, h3, h4⟩ := h
  simp only at hm h1 h2 h3 h4
  subst hm h1 h2 h3 h4
  have hf : extFlush disk ⟨⟨[], []⟩, ⟨[], []⟩, [], []⟩ = .ok disk := rfl
  simp [Backend.step, Mem.createChanges, hf]

/-- A connection with nothing on its way. -/
structure Rests (s : Sync) : Prop where
  quiet : s.quiet
  request : s.request = none

theorem rests_step {d : Duo} (h : Rests d.link) (hs : d.standby.mem ≠ none) (act : DuoAct)
    (ha : act ∈ [DuoAct.notify, .serve, .deliver, .advance]) : d.step act = d := by
  obtain ⟨⟨h1, h2, h3⟩, h4⟩ := h
  have hreg : d.register d.link = d := by
    have : d.standby.mem.isNone = false := by
      cases h : d.standby.mem with
      | none => exact absurd h hs
      | some m => rfl
    simp [Duo.register, this]
  simp only [List.mem_cons, List.not_mem_nil, or_false] at ha
  rcases ha with rfl | rfl | rfl | rfl
  · simp [Duo.step, Sync.sendNotify, h3]
  · simp [Duo.step, Duo.serve, h4]
  · simp only [Duo.step, Sync.step, h2, ite_self]; exact hreg
  · simp only [Duo.step, Sync.step, Sync.advance, h1, ite_self]; exact hreg

/-- The parts of a connection go on. -/
def exRound : List DuoAct := [.notify, .serve, .deliver, .advance]

/-- As `exDuo`, and the connection goes on for ever. -/
def exDuoForever : Nat → DuoAct := exForever exDuo exRound (by simp [exRound])

set_option maxRecDepth 100000 in
theorem exDuo_states (n : Nat) : ∃ h, h <+: exDuo ∧
    (Duo.new exKeep 7).run (upTo exDuoForever n) = (Duo.new exKeep 7).run h ∧ h.length = min n 16 := by
  refine exForever_states (step := Duo.step) (s := Duo.new exKeep 7) (fun a ha => ?_) n
  exact rests_step (d := (Duo.new exKeep 7).run exDuo) ⟨⟨rfl, rfl, rfl⟩, rfl⟩ (fun h => nomatch h) a ha

theorem prefix_upTo {α : Type} {acts : Nat → α} {n : Nat} {h : List α} (hp : h <+: upTo acts n) :
    ∃ k, k ≤ n ∧ h = upTo acts k := by
  refine ⟨h.length, by simpa [upTo] using hp.length_le, ?_⟩
  have h1 := List.prefix_iff_eq_take.1 hp
  have h2 := List.prefix_iff_eq_take.1 (upTo_prefix acts (show h.length ≤ n by simpa [upTo] using hp.length_le))
  have h3 : (upTo acts h.length).length = h.length := by simp [upTo]
  rw [h3] at h2
  rw [h2]; exact h1

theorem exDuoForever_alike (n : Nat) : Alike exKeep 7 (upTo exDuoForever n) := by
  have hm : ∀ a : DuoAct, a ∈ upTo exDuoForever n → a ∈ exDuo ∨ a ∈ exRound := fun a h => exForever_mem h
  refine ⟨fun c hc => exDuo_alike.primary c ?_, fun c hc => exDuo_alike.standby c ?_,
    fun es hes => exDuo_alike.receives es ?_⟩
  · simpa [exRound] using hm _ hc
  · simpa [exRound] using hm _ hc
  · simpa [exRound] using hm _ hes

theorem exDuoForever_inOrder (n : Nat) : InOrder exKeep 7 (upTo exDuoForever n) := by
  intro pre hpre
  obtain ⟨k, _, rfl⟩ := prefix_upTo hpre
  obtain ⟨h, h1, h2, _⟩ := exDuo_states k
  rw [h2]
  exact exDuo_inOrder h h1

/-- From the connection on. -/
theorem exDuo_later {P : Duo → Prop} (h : ∀ i, 6 ≤ i → i ≤ 16 → P ((Duo.new exKeep 7).run (exDuo.take i))) (n : Nat)
    (hn : 6 ≤ n) : P ((Duo.new exKeep 7).run (upTo exDuoForever n)) := by
  obtain ⟨l, h1, h2, h3⟩ := exDuo_states n
  rw [h2, List.prefix_iff_eq_take.1 h1]
  exact h _ (by omega) (by omega)

set_option maxRecDepth 100000 in
/-- The assumptions of `C88_shown` hold for it. -/
example : ∃ m, ∀ n, m ≤ n → ∃ events,
    ((Duo.new exKeep 7).run (upTo exDuoForever n)).standby.query (.latest none) = .ok ⟨events, false⟩ ∧
      ∃ s ∈ events, Upholds (exOf 7 1 1 ["a"]) s := by
  have hfl : ((Duo.new exKeep 7).run (upTo exDuoForever 6)).primary.flushedCb.flatten =
    [exOf 7 1 1 ["a"], exOf 7 1 2 ["b"]] := rfl
  refine C88_shown exKeep 7 exDuoForever exDuoForever_alike exDuoForever_inOrder 6 ?_ (exForever_often (by simp [exRound]))
    (exForever_often (by simp [exRound])) (exForever_often (by simp [exRound])) (exForever_often (by simp [exRound]))
    (exOf 7 1 1 ["a"]) rfl ?_ ?_ ?_
  · refine exDuo_later (P := fun d => d.link.closed = false) fun i h1 h2 => ?_
    interval_cases i <;> rfl
  · rw [hfl]; simp
  · intro n hn x hx _ _
    rw [hfl]
    have := exDuo_later (P := fun d => d.primary.flushedCb.flatten = [exOf 7 1 1 ["a"], exOf 7 1 2 ["b"]])
      (fun i h1 h2 => by interval_cases i <;> rfl) n hn
    rwa [this] at hx
  · refine exDuo_later (P := fun d => ∃ events, d.primary.query (.latest none) = .ok ⟨events, false⟩ ∧
      exOf 7 1 1 ["a"] ∈ events) fun i h1 h2 => ?_
    interval_cases i <;> exact ⟨_, rfl, List.mem_cons_self⟩

/-- Everything goes on. -/
def exRounds : List PairAct :=
  [.left .flush, .right .flush, .fore .notify, .fore .serve, .fore .deliver, .fore .advance, .back .notify, .back .serve,
    .back .deliver, .back .advance]

/-- As `exTwin`, and everything goes on for ever. -/
def exTwinForever : Nat → PairAct := exForever exTwin exRounds (by simp [exRounds])

theorem pair_rests {p : Pair} {ml mr : Mem} (hl : p.left.mem = some ml) (hr : p.right.mem = some mr)
    (cl : NoChanges ml) (cr : NoChanges mr) (hf : Rests p.fore) (hb : Rests p.back) (a : PairAct) (ha : a ∈ exRounds) :
    p.step a = p := by
  have side : ∀ {p : Pair} {mr : Mem}, p.right.mem = some mr → Rests p.fore → ∀ act : SideAct,
      act.toDuo ∈ [DuoAct.notify, .serve, .deliver, .advance] → p.stepFore act = p := by
    intro p mr hr hf act hact
    have := rests_step (d := p.foreward) hf (by rw [show p.foreward.standby = p.right from rfl, hr]; simp) act.toDuo hact
    simp only [Pair.stepFore, this]
    simp [Pair.foreward, Pair.backward, Duo.registers]
  have flush : ∀ {p : Pair} {ml : Mem}, p.left.mem = some ml → NoChanges ml → p.stepLeft .flush = p := by
    intro p ml hl cl
    have hfl := flush_noChanges hl cl
    simp [Pair.stepLeft, Duo.stepPrimary, Duo.stepStandby, Pair.foreward, Pair.backward, hfl, hl, BackendOp.ends]
  have m1 : p.mirror.right.mem = some ml := hl
  have m2 : p.mirror.left.mem = some mr := hr
  have m3 : Rests p.mirror.fore := hb
  have hmm : p.mirror.mirror = p := rfl
  simp only [exRounds, List.mem_cons, List.not_mem_nil, or_false] at ha
  rcases ha with rfl | rfl | rfl | rfl | rfl | rfl | rfl | rfl | rfl | rfl
  · exact flush hl cl
  · show (p.mirror.stepLeft .flush).mirror = p
    rw [flush m2 cr, hmm]
  · exact side hr hf .notify (by simp [SideAct.toDuo])
  · exact side hr hf .serve (by simp [SideAct.toDuo])
  · exact side hr hf .deliver (by simp [SideAct.toDuo])
  · exact side hr hf .advance (by simp [SideAct.toDuo])
  · show (p.mirror.stepFore .notify).mirror = p
    rw [side m1 m3 .notify (by simp [SideAct.toDuo]), hmm]
  · show (p.mirror.stepFore .serve).mirror = p
    rw [side m1 m3 .serve (by simp [SideAct.toDuo]), hmm]
  · show (p.mirror.stepFore .deliver).mirror = p
    rw [side m1 m3 .deliver (by simp [SideAct.toDuo]), hmm]
  · show (p.mirror.stepFore .advance).mirror = p
    rw [side m1 m3 .advance (by simp [SideAct.toDuo]), hmm]

set_option maxRecDepth 100000 in
theorem exTwin_states (n : Nat) : ∃ h, h <+: exTwin ∧
    (Pair.new exSeries 7 8).run (upTo exTwinForever n) = (Pair.new exSeries 7 8).run h ∧ h.length = min n 56 := by
  refine exForever_states (step := Pair.step) (s := Pair.new exSeries 7 8) (fun a ha => ?_) n
  exact pair_rests (p := (Pair.new exSeries 7 8).run exTwin) rfl rfl ⟨rfl, rfl, rfl, rfl, rfl⟩ ⟨rfl, rfl, rfl, rfl, rfl⟩
    ⟨⟨rfl, rfl, rfl⟩, rfl⟩ ⟨⟨rfl, rfl, rfl⟩, rfl⟩ a ha

theorem exTwinForever_mem {n : Nat} {a : PairAct} (h : a ∈ upTo exTwinForever n) : a ∈ exTwin ∨ a ∈ exRounds :=
  exForever_mem h

theorem exTwinForever_matched (n : Nat) : Matched exSeries 7 8 (upTo exTwinForever n) := by
  refine ⟨by decide, fun c hc => exTwin_matched.confL c ?_, fun c hc => exTwin_matched.confR c ?_,
    fun es hes => exTwin_matched.ownL es ?_, fun es hes => exTwin_matched.ownR es ?_⟩
  · simpa [exRounds] using exTwinForever_mem hc
  · simpa [exRounds] using exTwinForever_mem hc
  · simpa [exRounds] using exTwinForever_mem hes
  · simpa [exRounds] using exTwinForever_mem hes

theorem exTwinForever_plan (n : Nat) : OnePlan exSeries (upTo exTwinForever n) := by
  refine ⟨fun c hc => exTwin_plan.confs c (hc.imp ?_ ?_), exTwin_plan.series,
    fun es hes => exTwin_plan.events es (hes.imp ?_ ?_)⟩ <;> intro h <;> simpa [exRounds] using exTwinForever_mem h

theorem exTwinForever_inOrder (n : Nat) : BothInOrder exSeries 7 8 (upTo exTwinForever n) := by
  intro pre hpre
  obtain ⟨k, _, rfl⟩ := prefix_upTo hpre
  obtain ⟨h, h1, h2, _⟩ := exTwin_states k
  rw [h2]
  exact exTwin_inOrder h h1

set_option maxRecDepth 100000 in
/-- The last event is registered just before. -/
theorem exTwinForever_goOn : GoOn exSeries 7 8 exTwinForever 50 := by
  have later : ∀ {P : Pair → Prop}, (∀ i, 50 ≤ i → i ≤ 56 → P ((Pair.new exSeries 7 8).run (exTwin.take i))) →
      ∀ n, 50 ≤ n → P ((Pair.new exSeries 7 8).run (upTo exTwinForever n)) := by
    intro P h n hn
    obtain ⟨l, h1, h2, h3⟩ := exTwin_states n
    rw [h2, List.prefix_iff_eq_take.1 h1]
    exact h _ (by omega) (by omega)
  have none : ∀ n, 50 ≤ n → ∀ es, exTwinForever n ≠ .left (.register es) ∧ exTwinForever n ≠ .right (.register es) := by
    intro n hn es
    rcases Nat.lt_or_ge n 56 with h | h
    · interval_cases n <;> simp [exTwinForever, exForever, exTwin, exCatchUp]
    · obtain ⟨k, rfl⟩ := Nat.exists_eq_add_of_le h
      have : exTwinForever (56 + k) ∈ exRounds := exForever_after (pre := exTwin) k
      constructor <;> (intro h; rw [h] at this; simp [exRounds] at this)
  refine ⟨later (P := fun p => p.fore.closed = false) fun i h1 h2 => ?_,
    later (P := fun p => p.back.closed = false) fun i h1 h2 => ?_, fun n hn es => (none n hn es).1,
    fun n hn es => (none n hn es).2, fun act ha => exForever_often ?_, fun act ha => exForever_often ?_,
    exForever_often (by simp [exRounds]), exForever_often (by simp [exRounds])⟩
  · interval_cases i <;> rfl
  · interval_cases i <;> rfl
  · simp only [List.mem_cons, List.not_mem_nil, or_false] at ha
    rcases ha with rfl | rfl | rfl | rfl <;> simp [exRounds]
  · simp only [List.mem_cons, List.not_mem_nil, or_false] at ha
    rcases ha with rfl | rfl | rfl | rfl <;> simp [exRounds]

/-- The assumptions of `C88_settled` hold for it; at the time the last event is registered it is not settled. -/
example : ∃ m, 50 ≤ m ∧ ∀ n, m ≤ n → Settled ((Pair.new exSeries 7 8).run (upTo exTwinForever n)) :=
  C88_settled _ _ _ _ exTwinForever_matched exTwinForever_inOrder 50 exTwinForever_goOn

set_option maxRecDepth 100000 in
example : ¬ Settled ((Pair.new exSeries 7 8).run (upTo exTwinForever 50)) := by
  have h1 : (told ((Pair.new exSeries 7 8).run (upTo exTwinForever 50)).left).length = 5 := rfl
  have h2 : ((Pair.new exSeries 7 8).run (upTo exTwinForever 50)).left.flushedCb.flatten.length = 4 := rfl
  intro h
  rw [h.flushedL] at h1
  omega

set_option maxRecDepth 100000 in
theorem exTwinForever_noTies : NoTies 7 8 ((Pair.new exSeries 7 8).run (upTo exTwinForever 50)) := by
  have hl : ofServer 7 (told ((Pair.new exSeries 7 8).run (upTo exTwinForever 50)).left) =
      [exOf 7 1 1 ["a"], exOf 7 1 2 ["b"], exOf 7 2 1 ["a"], exOf 7 4 1 ["c"]] := rfl
  have hr : ofServer 8 (told ((Pair.new exSeries 7 8).run (upTo exTwinForever 50)).right) = [exOf 8 3 1 ["b"]] := rfl
  unfold NoTies
  rw [hl, hr]
  simp [exOf]

/-- The assumptions of `C88_latest` hold for it. -/
example : ∃ m, ∀ n, m ≤ n → ∃ events events',
    ((Pair.new exSeries 7 8).run (upTo exTwinForever n)).left.query (.latest none) = .ok ⟨events, false⟩ ∧
    ((Pair.new exSeries 7 8).run (upTo exTwinForever n)).right.query (.latest none) = .ok ⟨events', false⟩ ∧
    events.Perm events' :=
  C88_latest _ _ _ _ exTwinForever_matched exTwinForever_inOrder 50 exTwinForever_goOn exTwinForever_noTies

/-- The assumptions of `C88_event` hold for it. -/
example : ∃ m, ∀ n, m ≤ n → ∃ full full', Pages (fun i => ((Pair.new exSeries 7 8).run (upTo exTwinForever n)).left.query
      (.timeseries { exSince with lastEventId := i })) none full ∧
    Pages (fun i => ((Pair.new exSeries 7 8).run (upTo exTwinForever n)).right.query
      (.timeseries { exSince with lastEventId := i })) none full' ∧ ∀ e, e ∈ full ↔ e ∈ full' := by
  obtain ⟨m, hm⟩ := C88_event exSeries 7 8 exTwinForever exTwinForever_matched exTwinForever_plan exTwinForever_inOrder 50
    exTwinForever_goOn
  refine ⟨m, fun n hn => ?_⟩
  obtain ⟨full, full', ⟨h1, _⟩, ⟨h2, _⟩, h3⟩ := hm n hn exSince exSince_ok (by decide)
  exact ⟨full, full', h1, h2, fun e => h3 e (exSeries_keeps exSince e ⟨_, rfl⟩)⟩

/-- The assumptions of `C88_lists` hold for it. -/
example : ∃ m, ∀ n, m ≤ n → ∃ full full', Pages (fun i => ((Pair.new exSeries 7 8).run (upTo exTwinForever n)).left.query
      (.timeseries { exSince with lastEventId := i })) none full ∧
    Pages (fun i => ((Pair.new exSeries 7 8).run (upTo exTwinForever n)).right.query
      (.timeseries { exSince with lastEventId := i })) none full' ∧ full.Perm full' := by
  obtain ⟨m, hm⟩ := C88_lists exSeries 7 8 exTwinForever exTwinForever_matched exTwinForever_plan exTwinForever_inOrder 50
    exTwinForever_goOn rfl
  refine ⟨m, fun n hn => ?_⟩
  obtain ⟨full, full', ⟨h1, _⟩, ⟨h2, _⟩, h3⟩ := hm n hn exSince exSince_ok
    (by
      intro part hp _
      simp only [exSeries, exConf, List.mem_cons, List.not_mem_nil, or_false] at hp
      rcases hp with rfl | rfl <;> rfl) (by decide)
  exact ⟨full, full', h1, h2, h3⟩

end HatEvent
