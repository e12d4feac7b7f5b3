import Verif.Proof.DuoStore
import Verif.Proof.KeptSeries

/-!
# Invariant of a server and its standby
-/

namespace HatEvent
open Spec

variable {T : Terms}

theorem duo_run_snoc (d : Duo) (acts : List DuoAct) (a : DuoAct) : d.run (acts ++ [a]) = (d.run acts).step a := by
  simp [Duo.run]

theorem reached_refs_step {conf : Conf} {ops : List BackendOp} {w : World} (h : Reached conf ops w)
    (hr : WorldRefs ((Backend.new conf).run ops) w) (op : BackendOp) (hl : LookupLaws ops)
    (hop : ∀ c, op = .reopen c → Shown c w.flushed) :
    ∃ w', Step w op w' ∧ Reached conf (ops ++ [op]) w' ∧ WorldRefs ((Backend.new conf).run (ops ++ [op])) w' := by
  have hlc : ((Backend.new conf).run ops).mem ≠ none → LookupLaw ((Backend.new conf).run ops).conf :=
    fun hm => hl _ (run_conf conf ops hm)
  obtain ⟨w', h4, h5, h6⟩ := step_refs h.rel hlc hr op hop
  refine ⟨w', h4, ⟨.snoc h.run h4 (by rw [run_snoc]; exact h5.isOpen), by rw [run_snoc]; exact h5, ?_⟩,
    by rw [run_snoc]; exact h6⟩
  rw [run_snoc]
  exact step_added h.rel hlc h4 h5 h.added

/-- The configuration takes the event into a partition. -/
def Takes (c : Conf) (e : Event) : Prop := ∀ parts, Configured c parts → TakenBy c parts e

/-- A configuration like others. -/
structure Like (conf : Conf) (T : Terms) (c : Conf) : Prop where
  law : LookupLaw c
  visible : ∀ e, Visible c e ↔ Visible conf e
  takes : ∀ e, T.taken e → Takes c e
  other : T.confs c

theorem like_none {conf c : Conf} (h : LookupLaw c ∧ ∀ e, Visible c e ↔ Visible conf e) : Like conf .none c :=
  ⟨h.1, h.2, fun _ he => he.elim, trivial⟩

/-- Configurations of a backend. -/
def ConfsLike (conf : Conf) (T : Terms) (ops : List BackendOp) : Prop := ∀ c, .reopen c ∈ ops → Like conf T c

/-- Events registered with a backend. -/
def EventsLike (T : Terms) (ops : List BackendOp) : Prop := ∀ es, .register es ∈ ops → ∀ e ∈ es, T.events e

theorem EventsLike.snoc {ops : List BackendOp} {op : BackendOp} (h : EventsLike T ops)
    (ho : ∀ es, op = .register es → ∀ e ∈ es, T.events e) : EventsLike T (ops ++ [op]) := by
  intro es hes
  rcases List.mem_append.1 hes with hes | hes
  · exact h es hes
  · exact ho es (List.mem_singleton.1 hes).symm

theorem run_conf_like {conf : Conf} {ops : List BackendOp} (h : ConfsLike conf T ops) (e : Event) :
    Visible ((Backend.new conf).run ops).conf e ↔ Visible conf e := by
  induction ops using List.reverseRecOn with
  | nil => exact Iff.rfl
  | append_singleton ops op ih =>
    have ih := ih fun c hc => h c (List.mem_append_left _ hc)
    rw [run_snoc]
    have hst := stepTo ((Backend.new conf).run ops) op
    generalize ((Backend.new conf).run ops) = b at *
    generalize b.step op = b' at *
    cases hst with
    | @reopen c d m h1 => exact (h c (by simp)).visible e
    | @reopenFail c err h1 => exact (h c (by simp)).visible e
    | _ => exact ih

theorem run_takes {conf : Conf} {ops : List BackendOp} {w : World} (h : ConfsLike conf T ops) (hr : Reached conf ops w)
    (hopen : w.isOpen = true) : ∀ e, T.taken e → TakenBy w.conf w.partitions e := by
  intro e he
  have hm : ((Backend.new conf).run ops).mem ≠ none := by
    rw [hr.rel.isOpen] at hopen
    exact Option.isSome_iff_ne_none.1 hopen
  have := (h _ (run_conf conf ops hm)).takes e he
  rw [hr.rel.conf] at this
  exact this _ (run_configured hr.run hopen)

/-- The link is used and the standby has received what it was told. -/
structure LinkLive (conf : Conf) (T : Terms) (server : Int) (d : Duo) (ws : World) (stored : List Event) : Prop where
  pmem : d.primary.mem ≠ none
  smem : d.standby.mem ≠ none
  connected : d.link.connected = true
  sync : ∃ pre, SyncOk { d.link with disk := stored } (ofServer server d.primary.flushedCb.flatten) pre
  pos : IdLe ⟨server, 0, 0⟩ d.link.last
  top : d.link.last = ⟨server, 0, 0⟩ ∨ ∃ x ∈ ofServer server d.primary.flushedCb.flatten, d.link.last = x.id
  base : ∀ e ∈ stored, IdLe e.id d.link.last → Has conf T ws.cur e
  received :
    Received conf T server (ofServer server d.primary.flushedCb.flatten) d.link.last d.link.calls.flatten ws.cur

/-- What an action does to the events told. -/
theorem told_backend (b : Backend) (op : BackendOp) :
    told (b.step op) = told b ∨ told (b.step op) = b.flushedCb.flatten ∨
      ∃ es, op = .register es ∧ told (b.step op) = told b ++ es := by
  have hst := stepTo b op
  generalize b.step op = b' at hst ⊢
  cases hst with
  | closed h1 h2 => exact .inl rfl
  | @register es m m' h1 h2 =>
    refine .inr (.inr ⟨es, rfl, ?_⟩)
    simp [told, h1, register_registered h2]
  | @registerFail es m err h1 h2 => exact .inr (.inl (by simp [told]))
  | @touch p m h1 => exact .inl (by simp [told, h1])
  | @flush m d h1 h2 => exact .inl (by simp [told, h1])
  | @flushFail m err h1 h2 => exact .inr (.inl (by simp [told]))
  | @cleanup fl se now m d r h1 h2 => exact .inl rfl
  | @cleanupFail fl se now m err h1 h2 => exact .inr (.inl (by simp [told]))
  | @reopen c d m h1 => exact .inr (.inl (by simp [told, createDbs_registered h1]))
  | @reopenFail c err h1 => exact .inr (.inl (by simp [told]))

theorem mem_told_step {b : Backend} {op : BackendOp} {e : Event} (he : e ∈ told (b.step op)) :
    e ∈ told b ∨ ∃ es, op = .register es ∧ e ∈ es := by
  rcases told_backend b op with h | h | ⟨es, h1, h2⟩
  · rw [h] at he; exact .inl he
  · rw [h] at he; exact .inl (by rw [told_eq]; exact List.mem_append_left _ he)
  · rw [h2] at he
    rcases List.mem_append.1 he with he | he
    · exact .inl he
    · exact .inr ⟨es, h1, he⟩

theorem told_run {conf : Conf} {ops : List BackendOp} {e : Event} (he : e ∈ told ((Backend.new conf).run ops)) :
    ∃ es, .register es ∈ ops ∧ e ∈ es := by
  induction ops using List.reverseRecOn with
  | nil => simp [told, Backend.run, Backend.new] at he
  | append_singleton ops op ih =>
    rw [run_snoc] at he
    rcases mem_told_step he with he | ⟨es, h1, h2⟩
    · obtain ⟨es, h1, h2⟩ := ih he
      exact ⟨es, List.mem_append_left _ h1, h2⟩
    · exact ⟨es, by simp [h1], h2⟩

/-- The invariant.  `stored` are the events of the server the primary has stored
permanently. -/
structure DuoOk (conf : Conf) (T : Terms) (server : Int) (d : Duo) (pops sops : List BackendOp) (wp ws : World)
    (stored : List Event) : Prop where
  remote : d.link.remoteId = server
  keep : d.link.keep = fun _ => true
  primary : d.primary = (Backend.new conf).run pops
  standby : d.standby = (Backend.new conf).run sops
  confP : ConfsLike conf T pops
  confS : ConfsLike conf T sops
  eventsP : EventsLike T pops
  eventsS : EventsLike T sops
  keptP : KeptIn pops wp
  keptS : KeptIn sops ws
  reachedP : Reached conf pops wp
  refs : WorldRefs d.primary wp
  reachedS : Reached conf sops ws
  facts : Primary conf T server d.primary wp
  order : Orderly server (ofServer server (told d.primary))
  sorted : Increasing stored
  held : ∀ e, e ∈ stored ↔ wp.flushed.Held e ∧ e.id.server = server
  suffix : ∃ pre, d.primary.flushedCb.flatten = pre ++ d.link.unnotified.flatten
  known : ∀ x ∈ ws.cur.log, x.id.server = server → x ∈ ofServer server d.primary.flushedCb.flatten
  gapless : ∀ e ∈ stored, IdLe e.id (ws.cur.lastId server) → Has conf T ws.cur e
  gaplessF : ∀ e ∈ stored, IdLe e.id (ws.flushed.lastId server) → Has conf T ws.flushed e
  live : d.link.closed = false → LinkLive conf T server d ws stored

theorem DuoOk.all {conf : Conf} {server : Int} {d : Duo} {pops sops : List BackendOp} {wp ws : World}
    {stored : List Event} (h : DuoOk conf T server d pops sops wp ws stored) :
    Orderly server (ofServer server d.primary.flushedCb.flatten) := by
  have := h.order
  rw [told_eq, ofServer_append] at this
  exact this.prefix

theorem DuoOk.all_events {conf : Conf} {server : Int} {d : Duo} {pops sops : List BackendOp} {wp ws : World}
    {stored : List Event} (h : DuoOk conf T server d pops sops wp ws stored) :
    ∀ e ∈ ofServer server d.primary.flushedCb.flatten, T.events e := by
  intro e he
  obtain ⟨es, h1, h2⟩ := told_run (conf := conf) (ops := pops) (e := e) (by
    rw [← h.primary, told_eq]
    exact List.mem_append_left _ (mem_ofServer.1 he).1)
  exact h.eventsP es h1 e h2

theorem held_log {st : Store} (h : StoreOk st) {e : Event} (he : st.Held e) : e ∈ st.log := by
  rcases he with he | ⟨k, he⟩
  · exact (h.slotType _ _ he).2
  · exact (h.entryId _ _ he).2.1

theorem DuoOk.stored_all {conf : Conf} {server : Int} {d : Duo} {pops sops : List BackendOp} {wp ws : World}
    {stored : List Event} (h : DuoOk conf T server d pops sops wp ws stored) :
    ∀ e ∈ stored, e ∈ ofServer server d.primary.flushedCb.flatten :=
  fun e he => mem_ofServer.2 ⟨h.facts.logF e (held_log h.reachedP.rel.okF ((h.held e).1 he).1), ((h.held e).1 he).2⟩

/-- The last id of a store is that of one of its events or the one before all. -/
theorem lastId_cases (st : Store) (server : Int) :
    st.lastId server = ⟨server, 0, 0⟩ ∨ ∃ x ∈ st.log, x.id.server = server ∧ st.lastId server = x.id := by
  unfold Store.lastId
  cases hl : st.last server with
  | none => exact .inl rfl
  | some l =>
    obtain ⟨h1, h2⟩ := last_mem hl
    exact .inr ⟨l, h1, h2, rfl⟩

theorem lastId_pos {st : Store} (h : StoreOk st) (server : Int) : IdLe ⟨server, 0, 0⟩ (st.lastId server) := by
  rcases lastId_cases st server with h1 | ⟨x, h1, h2, h3⟩
  · rw [h1]; exact .refl
  · rw [h3, ← h2]; exact .inl (h.pos x h1)

/-- What a standby with a used link has. -/
theorem gapless_of_live {conf : Conf} {server : Int} {d : Duo} {ws : World} {stored : List Event}
    (ha : Orderly server (ofServer server d.primary.flushedCb.flatten))
    (hsub : ∀ e ∈ stored, e ∈ ofServer server d.primary.flushedCb.flatten) (h : LinkLive conf T server d ws stored) :
    ∀ e ∈ stored, IdLe e.id (ws.cur.lastId server) → Has conf T ws.cur e := by
  intro e he hle
  by_cases hl : IdLt d.link.last e.id
  swap
  · exact h.base e he (not_idLt.1 hl)
  obtain ⟨pre, hs⟩ := h.sync
  rcases lastId_cases ws.cur server with h1 | ⟨x, h1, h2, h3⟩
  · rw [h1] at hle
    exact absurd ((hle.trans h.pos).trans_lt hl) (not_idLt.2 .refl)
  · rw [h3] at hle
    have hx : x ∈ d.link.calls.flatten := h.received.only x h1 h2 (hl.trans_le hle)
    by_cases hlt : IdLt e.id x.id
    · exact h.received.got e (hs.gapless he hl hx hlt)
    · have := ha.same (hsub e he) (h.received.known x h1 h2) hlt (not_idLt.2 hle)
      rw [this]; exact has_log h1

theorem flush_on {l : Sync} {stored : List Event} {fresh : List (List Event)} (hk : l.keep = fun _ => true) :
    ({ l with disk := stored } : Sync).flush fresh =
      { l with disk := stored ++ ofServer l.remoteId fresh.flatten, unnotified := l.unnotified ++ fresh } := by
  obtain ⟨a, k, b, c, d, e, f, g, i, j, m, n⟩ := l
  simp only at hk
  subst hk
  have h2 : ∀ l : List Event, (l.filter fun _ => true) = l := by intro l; rw [List.filter_eq_self]; simp
  simp only [Sync.flush, Sync.relevant, h2, ofServer]

/-- The primary has stored new events, and removed some. -/
theorem live_primary {conf : Conf} {server : Int} {d d' : Duo} {ws : World} {stored : List Event}
    (gone : Event → Bool) {fresh : List (List Event)} (hl : LinkLive conf T server d ws stored)
    (hk : d.link.keep = fun _ => true) (hr : d.link.remoteId = server)
    (hcb : d'.primary.flushedCb = d.primary.flushedCb ++ fresh) (hs : d'.standby = d.standby)
    (hp : d'.primary.mem ≠ none)
    (hlink : d'.link = { d.link with unnotified := d.link.unnotified ++ fresh })
    (ha : Orderly server (ofServer server d'.primary.flushedCb.flatten)) :
    LinkLive conf T server d' ws ((stored ++ ofServer server fresh.flatten).filter fun e => !gone e) := by
  obtain ⟨pre, hsync⟩ := hl.sync
  have hall : ofServer server d'.primary.flushedCb.flatten =
      ofServer server d.primary.flushedCb.flatten ++ ofServer server fresh.flatten := by
    rw [hcb, List.flatten_append, ofServer_append]
  have hmem : ∀ x ∈ ofServer server d.primary.flushedCb.flatten, x ∈ ofServer server d'.primary.flushedCb.flatten := by
    intro x hx; rw [hall]; exact List.mem_append_left _ hx
  have hrel : ({ d.link with disk := stored } : Sync).relevant fresh.flatten = ofServer server fresh.flatten := by
    unfold Sync.relevant ofServer
    rw [← hr]
  refine ⟨hp, by rw [hs]; exact hl.smem, by rw [hlink]; exact hl.connected, ⟨pre, ?_⟩, by rw [hlink]; exact hl.pos, ?_,
    ?_, ?_⟩
  · have h1 := syncOk_flush (registered := fresh) hsync (by rw [hrel, ← hall]; exact ha.increasing)
    rw [flush_on hk] at h1
    have h2 := syncOk_remove gone h1
    rw [hrel, ← hall] at h2
    rw [hlink, ← hr]
    rw [← hr] at h2
    exact h2
  · rw [hlink]
    rcases hl.top with h | ⟨x, h1, h2⟩
    · exact .inl h
    · exact .inr ⟨x, hmem x h1, h2⟩
  · rw [hlink]
    intro e he hle
    rcases List.mem_append.1 (List.mem_filter.1 he).1 with he | he
    · exact hl.base e he hle
    · exfalso
      simp only at hle
      rw [hall] at ha
      rcases hl.top with h | ⟨x, h1, h2⟩
      · rw [h] at hle
        exact absurd (ha.pos e (List.mem_append_right _ he)).1 (not_idLt.2 hle)
      · rw [h2] at hle
        exact absurd ((List.pairwise_append.1 ha.sorted).2.2 x h1 e he).1 (not_idLt.2 hle)
  · rw [hlink]
    exact ⟨hl.received.ok, fun x hx hxs => hmem x (hl.received.known x hx hxs), hl.received.got, hl.received.only⟩

theorem duoOk_primary {conf : Conf} {server : Int} {d : Duo} {pops sops : List BackendOp} {wp ws : World}
    {stored : List Event} (h : DuoOk conf T server d pops sops wp ws stored) (op : BackendOp)
    (hc : ConfsLike conf T (pops ++ [op])) (he : ∀ es, op = .register es → ∀ e ∈ es, T.events e)
    (ho : Orderly server (ofServer server (told (d.primary.step op)))) :
    ∃ wp' stored', DuoOk conf T server (d.stepPrimary op) (pops ++ [op]) sops wp' ws stored' ∧
      ∃ fresh, ∃ gone : Event → Bool, (d.primary.step op).flushedCb = d.primary.flushedCb ++ fresh ∧
        stored' = (stored ++ ofServer server fresh.flatten).filter fun e => !gone e := by
  have hvis : ∀ e, Visible wp.conf e ↔ Visible conf e := by
    intro e
    rw [← h.reachedP.rel.conf]
    exact run_conf_like h.confP e
  obtain ⟨wp', h1, h2, h3⟩ := reached_refs_step h.reachedP (h.primary ▸ h.refs) op (fun c hc => (h.confP c hc).law) (by
    rintro c rfl t e he hm
    obtain ⟨c', c1, c2⟩ := (run_ok h.reachedP.run).shownF t e he
    exact (((hc c (by simp)).visible e).2 (((h.confP c' c1).visible e).1 c2)).1)
  have hrun : d.primary.step op = (Backend.new conf).run (pops ++ [op]) := by rw [run_snoc, h.primary]
  have hrelP : WorldRel d.primary wp := by rw [h.primary]; exact h.reachedP.rel
  have hrelP' : WorldRel (d.primary.step op) wp' := by rw [hrun]; exact h2.rel
  obtain ⟨facts, fresh, f1, f2⟩ := primary_step h.facts hrelP hrelP' h1 hvis (run_takes h.confP h.reachedP) ho
  have hall' : Orderly server (ofServer server (d.primary.step op).flushedCb.flatten) := by
    rw [told_eq, ofServer_append] at ho; exact ho.prefix
  have hflat : (d.primary.step op).flushedCb.flatten = d.primary.flushedCb.flatten ++ fresh.flatten := by
    rw [f1, List.flatten_append]
  have hfl : ofServer server (d.primary.step op).flushedCb.flatten =
      ofServer server d.primary.flushedCb.flatten ++ ofServer server fresh.flatten := by
    rw [hflat, ofServer_append]
  have hdrop : (d.primary.step op).flushedCb.drop d.primary.flushedCb.length = fresh := by
    rw [f1, List.drop_left]
  classical
  refine ⟨wp', (stored ++ ofServer server fresh.flatten).filter fun e => !(decide (¬ wp'.flushed.Held e)), ?_, fresh,
    fun e => decide (¬ wp'.flushed.Held e), f1, rfl⟩
  have hmemS : ∀ e, e ∈ (stored ++ ofServer server fresh.flatten).filter (fun e => !(decide (¬ wp'.flushed.Held e))) ↔
      wp'.flushed.Held e ∧ e.id.server = server := by
    intro e
    rw [List.mem_filter, List.mem_append]
    constructor
    · rintro ⟨h5 | h5, h6⟩
      · exact ⟨by simpa using h6, ((h.held e).1 h5).2⟩
      · exact ⟨by simpa using h6, (mem_ofServer.1 h5).2⟩
    · rintro ⟨hh, hs⟩
      refine ⟨?_, by simpa using hh⟩
      rcases f2 e hh with h5 | h5
      · exact .inl ((h.held e).2 ⟨h5, hs⟩)
      · exact .inr (mem_ofServer.2 ⟨h5, hs⟩)
  have hknown : ∀ x ∈ ws.cur.log, x.id.server = server →
      x ∈ ofServer server (d.primary.step op).flushedCb.flatten := by
    intro x hx hxs; rw [hfl]; exact List.mem_append_left _ (h.known x hx hxs)
  have hnew : ∀ (st : Store), (∀ x ∈ st.log, x ∈ ws.cur.log) → ∀ e ∈ ofServer server fresh.flatten,
      ¬ IdLe e.id (st.lastId server) := by
    intro st hst e he hle
    rw [hfl] at hall'
    rcases lastId_cases st server with h5 | ⟨x, h5, h6, h7⟩
    · rw [h5] at hle
      exact absurd (hall'.pos e (List.mem_append_right _ he)).1 (not_idLt.2 hle)
    · rw [h7] at hle
      exact absurd ((List.pairwise_append.1 hall'.sorted).2.2 x (h.known x (hst x h5) h6) e he).1 (not_idLt.2 hle)
  constructor
  · unfold Duo.stepPrimary; simp only; split <;> exact h.remote
  · unfold Duo.stepPrimary; simp only; split <;> exact h.keep
  · exact hrun
  · exact h.standby
  · exact hc
  · exact h.confS
  · exact h.eventsP.snoc he
  · exact h.eventsS
  · exact keptIn_step h.keptP h.reachedP h1
  · exact h.keptS
  · exact h2
  · show WorldRefs (d.primary.step op) wp'
    rw [hrun]; exact h3
  · exact h.reachedS
  · exact facts
  · exact ho
  · refine increasing_filter ?_ _
    refine List.pairwise_append.2 ⟨h.sorted, ?_, ?_⟩
    · rw [hfl] at hall'
      exact (List.pairwise_append.1 hall'.increasing).2.1
    · intro a ha b hb
      rw [hfl] at hall'
      exact (List.pairwise_append.1 hall'.increasing).2.2 a (h.stored_all a ha) b hb
  · exact hmemS
  · obtain ⟨pre, hp⟩ := h.suffix
    unfold Duo.stepPrimary
    simp only
    split
    · exact ⟨_, by simp; rfl⟩
    · refine ⟨pre, ?_⟩
      rw [hflat, hdrop, hp]
      simp
  · exact hknown
  · intro e he hle
    rcases List.mem_append.1 (List.mem_filter.1 he).1 with he | he
    · exact h.gapless e he hle
    · exact absurd hle (hnew _ (fun _ hx => hx) e he)
  · intro e he hle
    rcases List.mem_append.1 (List.mem_filter.1 he).1 with he | he
    · exact h.gaplessF e he hle
    · exact absurd hle (hnew _ (fun _ hx => (run_ok h.reachedS.run).pre.subset hx) e he)
  · intro hcl
    by_cases hend : (op.ends || (d.primary.step op).mem.isNone) = true
    · unfold Duo.stepPrimary at hcl
      simp only [hend, if_true] at hcl
      cases hcl
    · have hlink : (d.stepPrimary op).link = { d.link with unnotified := d.link.unnotified ++ fresh } := by
        unfold Duo.stepPrimary
        simp only [hend, hdrop]
        rfl
      have hclosed : d.link.closed = false := by rw [hlink] at hcl; exact hcl
      refine live_primary _ (h.live hclosed) h.keep h.remote f1 rfl ?_ hlink hall'
      intro hn
      apply hend
      show (op.ends || (d.primary.step op).mem.isNone) = true
      have : (d.primary.step op).mem = none := hn
      simp [this]

/-! ## The standby -/

theorem lastId_log {st st' : Store} (h : st'.log = st.log) (server : Int) : st'.lastId server = st.lastId server := by
  unfold Store.lastId Store.last
  rw [h]

/-- Same log and latest events. -/
def Alike₂ (st st' : Store) : Prop := st'.log = st.log ∧ st'.slot = st.slot

/-- What an action does to the stores. -/
theorem step_stores {w w' : World} {op : BackendOp} (hs : Step w op w') :
    (w'.cur = w.flushed ∧ w'.flushed = w.flushed ∧ (op.ends = true ∨ w'.isOpen = false)) ∨
    (Alike₂ w.cur w'.cur ∧ (Alike₂ w.flushed w'.flushed ∨ Alike₂ w.cur w'.flushed)) ∨
    ∃ es, op = .register es ∧ w'.cur = es.foldl (Store.offer w.conf w.partitions) w.cur ∧ w'.flushed = w.flushed := by
  cases hs with
  | closed => exact .inr (.inl ⟨⟨rfl, rfl⟩, .inl ⟨rfl, rfl⟩⟩)
  | register a => exact .inr (.inr ⟨_, rfl, rfl, rfl⟩)
  | touch a => exact .inr (.inl ⟨⟨rfl, rfl⟩, .inl ⟨rfl, rfl⟩⟩)
  | flush a => exact .inr (.inl ⟨⟨rfl, rfl⟩, .inr ⟨rfl, rfl⟩⟩)
  | flushFail a => exact .inl ⟨rfl, rfl, .inr rfl⟩
  | cleanup r a b => exact .inr (.inl ⟨⟨rfl, rfl⟩, .inl ⟨rfl, rfl⟩⟩)
  | cleanupFail a => exact .inl ⟨rfl, rfl, .inr rfl⟩
  | reopen a => exact .inl ⟨rfl, rfl, .inl rfl⟩
  | reopenFail => exact .inl ⟨rfl, rfl, .inl rfl⟩

theorem gapless_like {conf : Conf} {server : Int} {stored : List Event} {st st' : Store} (ha : Alike₂ st st')
    (h : ∀ e ∈ stored, IdLe e.id (st.lastId server) → Has conf T st e) :
    ∀ e ∈ stored, IdLe e.id (st'.lastId server) → Has conf T st' e := by
  intro e he hle
  rw [lastId_log ha.1] at hle
  exact (h e he hle).same ha.1 ha.2

/-- Events of other servers are registered. -/
theorem gapless_others {conf conf' : Conf} {parts : Dict Int Partition} {server : Int} {stored : List Event} {st : Store}
    (hok : StoreOk st) (hv : ∀ e, Visible conf' e ↔ Visible conf e) (es : List Event)
    (hes : ∀ x ∈ es, x.id.server ≠ server)
    (h : ∀ e ∈ stored, IdLe e.id (st.lastId server) → Has conf T st e) :
    ∀ e ∈ stored, IdLe e.id ((es.foldl (Store.offer conf' parts) st).lastId server) →
      Has conf T (es.foldl (Store.offer conf' parts) st) e := by
  intro e he hle
  refine (h e he (hle.trans ?_)).offers hv es hok
  rcases lastId_cases (es.foldl (Store.offer conf' parts) st) server with h1 | ⟨x, h1, h2, h3⟩
  · rw [h1]; exact lastId_pos hok server
  · rw [h3]
    rcases (log_offers es st).2 x h1 with h4 | h4
    · rw [← h2]; exact le_lastId hok h4
    · exact absurd h2 (hes x h4)

theorem duoOk_standby {conf : Conf} {server : Int} {d : Duo} {pops sops : List BackendOp} {wp ws : World}
    {stored : List Event} (h : DuoOk conf T server d pops sops wp ws stored) (op : BackendOp)
    (hc : ConfsLike conf T (sops ++ [op])) (hop : ∀ es, op = .register es → ∀ e ∈ es, e.id.server ≠ server)
    (hev : ∀ es, op = .register es → ∀ e ∈ es, T.events e) :
    ∃ ws', DuoOk conf T server (d.stepStandby op) pops (sops ++ [op]) wp ws' stored := by
  obtain ⟨ws', h1, h2⟩ := reached_step h.reachedS op fun c hc => (h.confS c hc).law
  have hrun : d.standby.step op = (Backend.new conf).run (sops ++ [op]) := by rw [run_snoc, h.standby]
  have hlink : ∀ {P : Sync → Prop}, P d.link → P { d.link with closed := true } → P (d.stepStandby op).link := by
    intro P p1 p2
    unfold Duo.stepStandby
    simp only
    split
    · exact p2
    · exact p1
  have hvis : ∀ e, Visible ws.conf e ↔ Visible conf e := by
    intro e
    rw [← h.reachedS.rel.conf]
    exact run_conf_like h.confS e
  have hlog := step_stores h1
  have hpre := (run_ok h.reachedS.run).pre
  have hokC := h.reachedS.rel.okC
  refine ⟨ws', ?_⟩
  constructor
  · exact hlink (P := fun l => l.remoteId = server) h.remote h.remote
  · exact hlink (P := fun l => l.keep = fun _ => true) h.keep h.keep
  · exact h.primary
  · exact hrun
  · exact h.confP
  · exact hc
  · exact h.eventsP
  · exact h.eventsS.snoc hev
  · exact h.keptP
  · exact keptIn_step h.keptS h.reachedS h1
  · exact h.reachedP
  · exact h.refs
  · exact h2
  · exact h.facts
  · exact h.order
  · exact h.sorted
  · exact h.held
  · exact hlink (P := fun l => ∃ pre, _ = pre ++ l.unnotified.flatten) h.suffix h.suffix
  · intro x hx hxs
    rcases hlog with ⟨hl, _⟩ | ⟨hl, _⟩ | ⟨es, ho, hl, _⟩
    · rw [hl] at hx; exact h.known x (hpre.subset hx) hxs
    · rw [hl.1] at hx; exact h.known x hx hxs
    · rw [hl] at hx
      rcases (log_offers es ws.cur).2 x hx with h4 | h4
      · exact h.known x h4 hxs
      · exact absurd hxs (hop es ho x h4)
  · rcases hlog with ⟨hl, _⟩ | ⟨hl, _⟩ | ⟨es, ho, hl, _⟩
    · rw [hl]; exact h.gaplessF
    · exact gapless_like hl h.gapless
    · rw [hl]; exact gapless_others hokC hvis es (hop es ho) h.gapless
  · rcases hlog with ⟨_, hl, _⟩ | ⟨_, hl | hl⟩ | ⟨es, ho, _, hl⟩
    · rw [hl]; exact h.gaplessF
    · exact gapless_like hl h.gaplessF
    · exact gapless_like hl h.gapless
    · rw [hl]; exact h.gaplessF
  · intro hcl
    by_cases hend : (op.ends || (d.standby.step op).mem.isNone) = true
    · unfold Duo.stepStandby at hcl
      simp only [hend, if_true] at hcl
      cases hcl
    · have hl' : (d.stepStandby op).link = d.link := by
        unfold Duo.stepStandby
        simp only [hend]
        rfl
      have hend' : op.ends = false ∧ (d.standby.step op).mem ≠ none := by
        constructor
        · cases ho : op.ends
          · rfl
          · rw [ho] at hend; exact absurd rfl hend
        · intro hn
          apply hend
          rw [hn]; simp
      rw [hl'] at hcl
      have live := h.live hcl
      have hopen : ws'.isOpen = true := by
        rw [h2.rel.isOpen, ← hrun]
        exact Option.isSome_iff_ne_none.2 hend'.2
      have hrec : (∀ e, Has conf T ws.cur e → Has conf T ws'.cur e) ∧
          Received conf T server (ofServer server d.primary.flushedCb.flatten) d.link.last d.link.calls.flatten ws'.cur := by
        rcases hlog with ⟨_, _, hl | hl⟩ | ⟨hl, _⟩ | ⟨es, ho, hl, _⟩
        · rw [hend'.1] at hl; cases hl
        · rw [hopen] at hl; cases hl
        · exact ⟨fun e he => he.same hl.1 hl.2, live.received.same h2.rel.okC hl.1 hl.2⟩
        · rw [hl]
          exact ⟨fun e he => he.offers hvis es hokC, live.received.others hvis es (hop es ho)⟩
      refine ⟨live.pmem, hend'.2, ?_, ?_, ?_, ?_, ?_, ?_⟩
      · rw [hl']; exact live.connected
      · rw [hl']; exact live.sync
      · rw [hl']; exact live.pos
      · rw [hl']; exact live.top
      · rw [hl']; exact fun e he hle => hrec.1 e (live.base e he hle)
      · rw [hl']; exact hrec.2

/-- Calls of `register` of the standby. -/
theorem standby_registers {conf : Conf} {server : Int} {all : List Event} (ha : Orderly server all) {last : EventId}
    (new : List (List Event)) (hx : ∀ x ∈ new.flatten, x ∈ all) (hev : ∀ x ∈ all, T.events x)
    {sops : List BackendOp} {ws : World}
    {prev : List Event} (h : Reached conf sops ws) (hc : ConfsLike conf T sops)
    (he : EventsLike T sops) (hk : KeptIn sops ws) (hm : ((Backend.new conf).run sops).mem ≠ none) (hr : Received conf T server all last prev ws.cur) :
    ∃ sops' ws', Reached conf sops' ws' ∧ (ConfsLike conf T sops' ∧ EventsLike T sops' ∧ KeptIn sops' ws') ∧
      new.foldl (fun b es => b.step (.register es)) ((Backend.new conf).run sops) = (Backend.new conf).run sops' ∧
      ((Backend.new conf).run sops').mem ≠ none ∧ Received conf T server all last (prev ++ new.flatten) ws'.cur ∧
      (∀ e, Has conf T ws.cur e → Has conf T ws'.cur e) ∧ ws'.flushed = ws.flushed := by
  induction new generalizing sops ws prev with
  | nil => exact ⟨sops, ws, h, ⟨hc, he, hk⟩, rfl, hm, by simpa using hr, fun _ h => h, rfl⟩
  | cons es new ih =>
    obtain ⟨ws', h1, h2⟩ := reached_step h (.register es) fun c hcc => (hc c hcc).law
    have hopen : ws.isOpen = true := by
      rw [h.rel.isOpen]
      exact Option.isSome_iff_ne_none.2 hm
    have hvis : ∀ e, Visible ws.conf e ↔ Visible conf e := by
      intro e
      rw [← h.rel.conf]
      exact run_conf_like hc e
    have hc' : ConfsLike conf T (sops ++ [.register es]) := by
      intro c hcc
      rcases List.mem_append.1 hcc with hcc | hcc
      · exact hc c hcc
      · simp at hcc
    have hk' := keptIn_step hk h h1
    cases h1 with
    | closed a => rw [hopen] at a; cases a
    | register a =>
      have hm' : ((Backend.new conf).run (sops ++ [.register es])).mem ≠ none := by
        have := h2.rel.isOpen
        exact Option.isSome_iff_ne_none.1 (this ▸ hopen)
      have hr' := hr.offers (parts := ws.partitions) ha hvis (run_takes hc h hopen) es fun x hxx => hx x (by simp [hxx])
      obtain ⟨sops', ws'', r1, r2, r3, r4, r5, r6, r7⟩ :=
        ih (fun x hxx => hx x (by rw [List.flatten_cons]; exact List.mem_append_right _ hxx)) h2 hc'
          (he.snoc fun es' h' x hxx => hev x (hx x (by cases h'; simp [hxx]))) hk' hm' hr'
      refine ⟨sops', ws'', r1, r2, ?_, r4, ?_, fun e he => r6 e (he.offers hvis es h.rel.okC), r7⟩
      · rw [List.foldl_cons, ← run_snoc]; exact r3
      · rw [List.flatten_cons, ← List.append_assoc]; exact r5

/-- The client goes on or receives something. -/
theorem duoOk_register {conf : Conf} {server : Int} {d : Duo} {pops sops : List BackendOp} {wp ws : World}
    {stored : List Event} (h : DuoOk conf T server d pops sops wp ws stored) {link : Sync}
    {new : List (List Event)} (hcalls : link.calls = d.link.calls ++ new) (hcl : d.link.closed = true → link = d.link)
    (h1 : link.remoteId = d.link.remoteId) (h2 : link.keep = d.link.keep) (h3 : link.last = d.link.last)
    (h4 : link.unnotified = d.link.unnotified) (h5 : link.connected = d.link.connected)
    (hclosed : link.closed = d.link.closed)
    (h6 : d.link.closed = false → ∃ pre, SyncOk { link with disk := stored } (ofServer server d.primary.flushedCb.flatten) pre) :
    ∃ sops' ws', DuoOk conf T server (d.register link) pops sops' wp ws' stored ∧
      ∀ x ∈ ((d.register link).link.calls.drop d.link.calls.length).flatten, x.id.server = server ∧ T.events x := by
  have hnew : link.calls.drop d.link.calls.length = new := by rw [hcalls, List.drop_left]
  cases hc : d.link.closed with
  | true =>
    have hl := hcl hc
    have hn : new = [] := by
      rw [hl] at hcalls
      simpa using hcalls
    refine ⟨sops, ws, ?_⟩
    have hd : d.register link = d := by
      unfold Duo.register
      rw [hnew, hn, hl]
      obtain ⟨a, b, l⟩ := d
      obtain ⟨l1, l2, l3, l4, l5, l6, l7, l8, l9, l10, l11, l12⟩ := l
      simp only at hc
      subst hc
      simp
    rw [hd]; exact ⟨h, by simp⟩
  | false =>
    have live := h.live hc
    obtain ⟨pre, hsync⟩ := h6 hc
    have hx : ∀ x ∈ new.flatten, x ∈ ofServer server d.primary.flushedCb.flatten := by
      intro x hx
      refine hsync.known x (List.mem_append_left _ ?_)
      show x ∈ link.calls.flatten
      rw [hcalls, List.flatten_append]
      exact List.mem_append_right _ hx
    obtain ⟨sops', ws', r1, r2, r3, r4, r5, r6, r7⟩ := standby_registers h.all new hx h.all_events h.reachedS h.confS
      h.eventsS h.keptS (h.standby ▸ live.smem) live.received
    have hst : (d.register link).standby = (Backend.new conf).run sops' := by
      unfold Duo.register
      simp only
      rw [hnew, h.standby, r3]
    have hlk : (d.register link).link = link := by
      have : ((link.calls.drop d.link.calls.length).foldl (fun b es => b.step (.register es)) d.standby).mem.isNone =
          false := by
        rw [hnew, h.standby, r3]
        exact Bool.eq_false_iff.2 fun hh => r4 (Option.isNone_iff_eq_none.1 hh)
      unfold Duo.register
      simp only [this]
      rfl
    have hlive : LinkLive conf T server (d.register link) ws' stored := by
      refine ⟨live.pmem, by rw [hst]; exact r4, ?_, ⟨pre, ?_⟩, ?_, ?_, ?_, ?_⟩
      · rw [hlk, h5]; exact live.connected
      · rw [hlk]; exact hsync
      · rw [hlk, h3]; exact live.pos
      · rw [hlk, h3]; exact live.top
      · rw [hlk, h3]; exact fun e he hle => r6 e (live.base e he hle)
      · rw [hlk, h3, hcalls, List.flatten_append]; exact r5
    refine ⟨sops', ws', ?_, by rw [hlk, hnew]; exact fun x hx' => ⟨h.all.owner x (hx x hx'), h.all_events x (hx x hx')⟩⟩
    constructor
    · rw [hlk, h1]; exact h.remote
    · rw [hlk, h2]; exact h.keep
    · exact h.primary
    · exact hst
    · exact h.confP
    · exact r2.1
    · exact h.eventsP
    · exact r2.2.1
    · exact h.keptP
    · exact r2.2.2
    · exact h.reachedP
    · exact h.refs
    · exact r1
    · exact h.facts
    · exact h.order
    · exact h.sorted
    · exact h.held
    · rw [hlk, h4]; exact h.suffix
    · exact r5.known
    · exact gapless_of_live (d := d.register link) h.all h.stored_all hlive
    · rw [r7]; exact h.gaplessF
    · exact fun _ => hlive

/-! ## The connection -/

/-- The link has changed; nothing else. -/
theorem duoOk_link {conf : Conf} {server : Int} {d : Duo} {pops sops : List BackendOp} {wp ws : World}
    {stored : List Event} (h : DuoOk conf T server d pops sops wp ws stored) {link : Sync}
    (h1 : link.remoteId = server) (h2 : link.keep = fun _ => true)
    (h3 : ∃ pre, d.primary.flushedCb.flatten = pre ++ link.unnotified.flatten)
    (h4 : link.closed = false → LinkLive conf T server { d with link := link } ws stored) :
    DuoOk conf T server { d with link := link } pops sops wp ws stored :=
  ⟨h1, h2, h.primary, h.standby, h.confP, h.confS, h.eventsP, h.eventsS, h.keptP, h.keptS, h.reachedP, h.refs, h.reachedS, h.facts, h.order, h.sorted, h.held,
    h3, h.known, h.gapless, h.gaplessF, h4⟩

theorem duoOk_connect {conf : Conf} {server : Int} {d : Duo} {pops sops : List BackendOp} {wp ws : World}
    {stored : List Event} (h : DuoOk conf T server d pops sops wp ws stored) :
    DuoOk conf T server d.connect pops sops wp ws stored := by
  unfold Duo.connect
  split
  · exact h
  next hno =>
  have hcl : d.link.closed = true ∧ d.primary.mem ≠ none := by
    constructor
    · cases hc : d.link.closed
      · rw [hc] at hno; simp at hno
      · rfl
    · intro hn; rw [hn] at hno; simp at hno
  split
  · exact h
  next last hlast =>
  have hsm : d.standby.mem ≠ none := by
    intro hn
    unfold Backend.getLastEventId at hlast
    rw [hn] at hlast
    simp at hlast
  have hid : last = ws.cur.lastId server := by
    unfold Backend.getLastEventId at hlast
    cases hm : d.standby.mem with
    | none => exact absurd hm hsm
    | some m =>
      rw [hm] at hlast
      have := (h.reachedS.rel.opened m (h.standby ▸ hm)).2.sys
      rw [← getLastEventId_eq this, ← h.remote]
      simpa using hlast.symm
  obtain ⟨pre, hsuf⟩ := h.suffix
  refine duoOk_link h h.remote h.keep ⟨pre, hsuf⟩ fun _ => ?_
  have hrel : d.link.relevant d.link.unnotified.flatten = ofServer server d.link.unnotified.flatten := by
    unfold Sync.relevant ofServer
    rw [h.remote]
  have hsuf' : ofServer server d.primary.flushedCb.flatten =
      ofServer server pre ++ ofServer server d.link.unnotified.flatten := by
    rw [hsuf, ofServer_append]
  have hkeep : ∀ l : List Event, l.filter d.link.keep = l := by
    intro l
    rw [h.keep, List.filter_eq_self]; simp
  refine ⟨hcl.2, hsm, rfl, ⟨ofServer server pre, ?_⟩, ?_, ?_, ?_, ?_⟩
  · have hnotes : ({ Sync.init d.link.remoteId d.link.keep last with
        unnotified := d.link.unnotified, connected := true, disk := stored } : Sync).notes =
        ofServer server d.link.unnotified.flatten := by
      show ([] : List Event) ++ [] ++ d.link.relevant d.link.unnotified.flatten = _
      rw [hrel]; rfl
    constructor
    · show stored.Sublist ((ofServer server d.primary.flushedCb.flatten).filter d.link.keep)
      rw [hkeep]
      exact increasing_sublist h.all.increasing h.sorted h.stored_all
    · exact h.all.increasing
    · intro e he
      rw [hsuf']
      refine List.mem_append_right _ ?_
      rw [← hnotes]
      simpa [Sync.init] using he
    · intro hc; cases hc
    · constructor <;> (intro hh; cases hh)
    · intro _; exact hsuf'.trans (by rw [← hnotes])
    · exact ⟨rfl, rfl, rfl⟩
    · intro hl; cases hl
  · show IdLe _ last
    rw [hid]; exact lastId_pos h.reachedS.rel.okC server
  · show last = _ ∨ ∃ x ∈ _, last = _
    rw [hid]
    rcases lastId_cases ws.cur server with h1 | ⟨x, h1, h2, h3⟩
    · exact .inl h1
    · exact .inr ⟨x, h.known x h1 h2, h3⟩
  · intro e he hle
    have hle : IdLe e.id last := hle
    rw [hid] at hle
    exact h.gapless e he hle
  · refine ⟨h.reachedS.rel.okC, h.known, ?_, ?_⟩
    · intro e he
      simp [Sync.init, accept] at he
    · intro x hx hxs hl
      have hl : IdLt last x.id := hl
      rw [hid] at hl
      have := le_lastId h.reachedS.rel.okC hx
      rw [hxs] at this
      exact absurd hl (not_idLt.2 this)

theorem sendNotify_disk (l : Sync) (disk : List Event) :
    ({ l.sendNotify with disk := disk } : Sync) = ({ l with disk := disk } : Sync).sendNotify := by
  obtain ⟨a, k, b, c, d, e, f, g, i, j, m, n⟩ := l
  cases d with
  | nil => rfl
  | cons es r =>
    unfold Sync.sendNotify Sync.relevant
    by_cases hc : (e && !(es.filter fun x => decide (x.id.server = a)).isEmpty) = true
    · simp only [hc, if_true]
    · simp only [hc]; rfl

theorem duoOk_notify {conf : Conf} {server : Int} {d : Duo} {pops sops : List BackendOp} {wp ws : World}
    {stored : List Event} (h : DuoOk conf T server d pops sops wp ws stored) :
    DuoOk conf T server { d with link := d.link.sendNotify } pops sops wp ws stored := by
  obtain ⟨e1, e2, e3, e4, e5, e6, e7, e8, e9⟩ := sendNotify_same d.link
  have hc : d.link.sendNotify.closed = d.link.closed := by
    unfold Sync.sendNotify
    cases d.link.unnotified with
    | nil => rfl
    | cons es r => simp only; split <;> rfl
  refine duoOk_link h (e9.trans h.remote) (e2.trans h.keep) ?_ ?_
  · obtain ⟨pre, hp⟩ := h.suffix
    cases hu : d.link.unnotified with
    | nil =>
      refine ⟨d.primary.flushedCb.flatten, ?_⟩
      have : d.link.sendNotify.unnotified = [] := by
        unfold Sync.sendNotify
        rw [hu]; exact hu
      rw [this]; simp
    | cons es r =>
      have : d.link.sendNotify.unnotified = r := by
        unfold Sync.sendNotify
        rw [hu]
        simp only
        split <;> rfl
      refine ⟨pre ++ es, ?_⟩
      rw [this, hp, hu]; simp
  · intro hcl
    rw [hc] at hcl
    have live := h.live hcl
    obtain ⟨pre, hs⟩ := live.sync
    obtain ⟨pre', hs'⟩ := syncOk_notify hs
    rw [← sendNotify_disk] at hs'
    refine ⟨live.pmem, live.smem, e8.trans live.connected, ⟨pre', hs'⟩, ?_, ?_, ?_, ?_⟩
    · show IdLe _ d.link.sendNotify.last
      rw [e1]; exact live.pos
    · show d.link.sendNotify.last = _ ∨ ∃ x ∈ _, d.link.sendNotify.last = _
      rw [e1]; exact live.top
    · show ∀ e ∈ stored, IdLe _ d.link.sendNotify.last → _
      rw [e1]; exact live.base
    · show Received _ _ _ _ d.link.sendNotify.last d.link.sendNotify.calls.flatten _
      rw [e1, e4]; exact live.received

/-- The answer of the primary is a page of what it has stored. -/
theorem duo_answer {conf : Conf} {server : Int} {d : Duo} {pops sops : List BackendOp} {wp ws : World}
    {stored : List Event} (h : DuoOk conf T server d pops sops wp ws stored) (last : EventId) {r : QueryResult}
    (hq : d.primary.query (.server (syncParams d.link.remoteId last)) = .ok r) :
    ∃ size, 0 < size ∧ r = ⟨(stored.filter fun e => last.lt e.id).take size,
      decide (size < (stored.filter fun e => last.lt e.id).length)⟩ := by
  have hok : ServerParamsOk (syncParams d.link.remoteId last) := by
    by_contra hn
    obtain ⟨err, he⟩ := (C31_rejected d.primary _).1 hn
    rw [he] at hq
    cases hq
  cases hm : d.primary.mem with
  | none => unfold Backend.query at hq; rw [hm] at hq; cases hq
  | some m =>
    have hrel : WorldRel d.primary wp := by rw [h.primary]; exact h.reachedP.rel
    obtain ⟨ho, hmem⟩ := hrel.opened m hm
    obtain ⟨r1, r2⟩ := startOf_range hok
    obtain ⟨full, f1, f2⟩ := server_spec hrel.disk h.refs.disk hrel.okF hmem (h.refs.opened m hm) hrel.okC
      (syncParams d.link.remoteId last).serverId true (some last) r1 r2
      (fun l hl => (hok.last l hl).1)
    obtain ⟨n1, n2⟩ := serverPage_eq hok.max
    have h3 := f2 none n1
    have hfull : full = stored.filter fun e => last.lt e.id := by
      rw [filter_lt_after]
      refine increasing_ext (increasing_after h.sorted last) f1.sorted fun x => ?_
      rw [f1.mem, mem_after, h.held]
      constructor
      · rintro ⟨a | a, b, c⟩
        · exact ⟨⟨a, b.trans h.remote⟩, c last rfl⟩
        · cases a.1
      · rintro ⟨⟨a, a'⟩, b⟩
        exact ⟨.inl a, a'.trans h.remote.symm, fun l hl => by cases hl; exact b⟩
    refine ⟨(limitResults none refMaxResults).toNat, by decide, ?_⟩
    unfold Backend.query at hq
    rw [hm] at hq
    simp only [Mem.query] at hq
    rw [hrel.conf] at hq
    have h4 : m.ref.query wp.conf d.primary.disk (syncParams d.link.remoteId last) = _ := h3
    rw [h4] at hq
    cases hq
    rw [← hfull]; rfl

theorem duoOk_serve {conf : Conf} {server : Int} {d : Duo} {pops sops : List BackendOp} {wp ws : World}
    {stored : List Event} (h : DuoOk conf T server d pops sops wp ws stored) :
    DuoOk conf T server d.serve pops sops wp ws stored := by
  unfold Duo.serve
  split
  · exact h
  next hcl =>
  have hcl : d.link.closed = false := Bool.eq_false_iff.2 hcl
  split
  · exact h
  next last hreq =>
  split
  · exact duoOk_link h h.remote h.keep h.suffix fun hc => by cases hc
  next r hr =>
  obtain ⟨size, _, rfl⟩ := duo_answer h last hr
  refine duoOk_link h h.remote h.keep h.suffix fun _ => ?_
  have live := h.live hcl
  obtain ⟨pre, hs⟩ := live.sync
  refine ⟨live.pmem, live.smem, live.connected, ⟨pre, ?_⟩, live.pos, live.top, live.base, live.received⟩
  have hs' := syncOk_serve size hs
  unfold Sync.serve at hs'
  have hreq' : ({ d.link with disk := stored } : Sync).request = some last := hreq
  rw [hreq'] at hs'
  exact hs'

/-! ## Progress of the client -/

/-- The client changes only its own part, and does not look at the disk of the remote server. -/
structure Progress (l l' : Sync) : Prop where
  remoteId : l'.remoteId = l.remoteId
  keep : l'.keep = l.keep
  last : l'.last = l.last
  unnotified : l'.unnotified = l.unnotified
  connected : l'.connected = l.connected
  closed : l'.closed = l.closed
  calls : ∃ new, l'.calls = l.calls ++ new

theorem Progress.refl (l : Sync) : Progress l l := ⟨rfl, rfl, rfl, rfl, rfl, rfl, [], by simp⟩

theorem receive_progress (l : Sync) (m : SyncMsg) : Progress l (l.receive m) := by
  unfold Sync.receive
  cases m with
  | notify es =>
    cases l.queue with
    | none => exact ⟨rfl, rfl, rfl, rfl, rfl, rfl, [es], rfl⟩
    | some q => exact ⟨rfl, rfl, rfl, rfl, rfl, rfl, [], by simp⟩
  | response es more =>
    cases l.task <;> exact ⟨rfl, rfl, rfl, rfl, rfl, rfl, [], by simp⟩

theorem store_progress (l : Sync) (last : EventId) (events : List Event) (more : Bool) :
    Progress l (l.store last events more) := by
  unfold Sync.store
  cases events with
  | nil =>
    simp only
    split <;> exact ⟨rfl, rfl, rfl, rfl, rfl, rfl, [], by simp⟩
  | cons e es =>
    simp only
    split
    · exact ⟨rfl, rfl, rfl, rfl, rfl, rfl, _, rfl⟩
    · split
      · exact ⟨rfl, rfl, rfl, rfl, rfl, rfl, [], by simp⟩
      · exact ⟨rfl, rfl, rfl, rfl, rfl, rfl, _, rfl⟩

theorem drain_progress (l : Sync) (last : EventId) : Progress l (l.drain last) := by
  unfold Sync.drain
  cases l.queue with
  | none => exact .refl l
  | some q =>
    cases q with
    | nil => exact ⟨rfl, rfl, rfl, rfl, rfl, rfl, [], by simp⟩
    | cons es q =>
      simp only
      split
      · exact ⟨rfl, rfl, rfl, rfl, rfl, rfl, [], by simp⟩
      · exact ⟨rfl, rfl, rfl, rfl, rfl, rfl, _, rfl⟩

theorem advance_progress (l : Sync) : Progress l l.advance := by
  unfold Sync.advance
  cases l.task with
  | starting => exact ⟨rfl, rfl, rfl, rfl, rfl, rfl, [], by simp⟩
  | asking a b => exact .refl l
  | answered a b c d => exact ⟨rfl, rfl, rfl, rfl, rfl, rfl, [], by simp⟩
  | storing a b c => exact store_progress l a b c
  | draining a => exact drain_progress l a
  | synced => exact .refl l

theorem receive_disk (l : Sync) (disk : List Event) (m : SyncMsg) :
    ({ l.receive m with disk := disk } : Sync) = ({ l with disk := disk } : Sync).receive m := by
  obtain ⟨a, k, b, c, d, e, f, g, i, j, n, o⟩ := l
  cases m with
  | notify es => cases i <;> rfl
  | response es more => cases j <;> rfl

theorem advance_disk (l : Sync) (disk : List Event) :
    ({ l.advance with disk := disk } : Sync) = ({ l with disk := disk } : Sync).advance := by
  obtain ⟨a, k, b, c, d, e, f, g, i, j, n, o⟩ := l
  cases j with
  | starting => rfl
  | asking _ _ => rfl
  | answered _ _ _ _ => rfl
  | storing x y z =>
    simp only [Sync.advance]
    cases y with
    | nil => cases z <;> rfl
    | cons u v =>
      unfold Sync.store
      by_cases h1 : ((u :: v).getLast?.map fun x => x.id.session) ≠ some u.id.session
      · simp only [if_pos h1]
      · simp only [if_neg h1]
        cases z <;> rfl
  | draining x =>
    simp only [Sync.advance]
    cases i with
    | none => rfl
    | some q =>
      cases q with
      | nil => rfl
      | cons es q =>
        unfold Sync.drain
        by_cases h1 : (es.filter fun e => x.lt e.id).isEmpty = true
        · simp only [if_pos h1]
        · simp only [if_neg h1]
  | synced => rfl

theorem duoOk_client {conf : Conf} {server : Int} {d : Duo} {pops sops : List BackendOp} {wp ws : World}
    {stored : List Event} (h : DuoOk conf T server d pops sops wp ws stored) {link : Sync}
    (hp : Progress d.link link) (hcl : d.link.closed = true → link = d.link)
    (h6 : d.link.closed = false → ∃ pre, SyncOk { link with disk := stored } (ofServer server d.primary.flushedCb.flatten) pre) :
    ∃ sops' ws', DuoOk conf T server (d.register link) pops sops' wp ws' stored ∧
      ∀ x ∈ ((d.register link).link.calls.drop d.link.calls.length).flatten, x.id.server = server ∧ T.events x := by
  obtain ⟨new, hn⟩ := hp.calls
  exact duoOk_register h hn hcl hp.remoteId hp.keep hp.last hp.unnotified hp.connected hp.closed h6

theorem duoOk_deliver {conf : Conf} {server : Int} {d : Duo} {pops sops : List BackendOp} {wp ws : World}
    {stored : List Event} (h : DuoOk conf T server d pops sops wp ws stored) :
    ∃ sops' ws', DuoOk conf T server (d.register (d.link.step .deliver)) pops sops' wp ws' stored ∧
      ∀ x ∈ ((d.register (d.link.step .deliver)).link.calls.drop d.link.calls.length).flatten, x.id.server = server ∧ T.events x := by
  cases hc : d.link.closed with
  | true =>
    have he : d.link.step .deliver = d.link := by simp [Sync.step, hc]
    rw [he]
    exact duoOk_client h (.refl _) (fun _ => rfl) fun hh => by rw [hc] at hh; cases hh
  | false =>
    have live := h.live hc
    obtain ⟨pre, hs⟩ := live.sync
    cases hw : d.link.wire with
    | nil =>
      have he : d.link.step .deliver = d.link := by simp [Sync.step, hc, hw]
      rw [he]
      exact duoOk_client h (.refl _) (fun _ => rfl) fun _ => ⟨pre, hs⟩
    | cons m w =>
      have he : d.link.step .deliver = ({ d.link with wire := w } : Sync).receive m := by simp [Sync.step, hc, hw]
      rw [he]
      have hp := receive_progress ({ d.link with wire := w } : Sync) m
      refine duoOk_client h ⟨hp.remoteId, hp.keep, hp.last, hp.unnotified, hp.connected, hp.closed, hp.calls⟩
        (fun hh => by rw [hc] at hh; cases hh) fun _ => ⟨pre, ?_⟩
      have := syncOk_receive (m := m) (w := w) (by exact hw) hs
      rw [receive_disk]
      exact this

theorem duoOk_advance {conf : Conf} {server : Int} {d : Duo} {pops sops : List BackendOp} {wp ws : World}
    {stored : List Event} (h : DuoOk conf T server d pops sops wp ws stored) :
    ∃ sops' ws', DuoOk conf T server (d.register (d.link.step .advance)) pops sops' wp ws' stored ∧
      ∀ x ∈ ((d.register (d.link.step .advance)).link.calls.drop d.link.calls.length).flatten, x.id.server = server ∧ T.events x := by
  cases hc : d.link.closed with
  | true =>
    have he : d.link.step .advance = d.link := by simp [Sync.step, hc]
    rw [he]
    exact duoOk_client h (.refl _) (fun _ => rfl) fun hh => by rw [hc] at hh; cases hh
  | false =>
    have live := h.live hc
    obtain ⟨pre, hs⟩ := live.sync
    have he : d.link.step .advance = d.link.advance := by simp [Sync.step, hc, live.connected]
    rw [he]
    refine duoOk_client h (advance_progress _) (fun hh => by rw [hc] at hh; cases hh) fun _ => ⟨pre, ?_⟩
    rw [advance_disk]
    exact syncOk_advance live.connected hs

/-! ## All histories -/

theorem duoOk_new (conf : Conf) (server : Int) :
    DuoOk conf T server (.new conf server) [] [] (.new conf) (.new conf) [] := by
  obtain ⟨w, hw⟩ := reached conf [] (fun c hc => by simp at hc)
  have hr : Reached conf [] (World.new conf) := ⟨.nil, worldRel_new conf, by simp [Backend.run, Backend.new]⟩
  constructor
  · rfl
  · rfl
  · rfl
  · rfl
  · intro c hc; simp at hc
  · intro c hc; simp at hc
  · intro es hes; simp at hes
  · intro es hes; simp at hes
  · exact keptIn_new conf
  · exact keptIn_new conf
  · exact hr
  · exact worldRefs_new conf
  · exact hr
  · exact primary_new conf T server
  · exact ⟨by simp [told, Duo.new, Backend.new, ofServer], by simp [told, Duo.new, Backend.new, ofServer],
      by simp [told, Duo.new, Backend.new, ofServer]⟩
  · exact List.Pairwise.nil
  · intro e
    simp [World.new, Store.empty, Store.Held]
  · exact ⟨[], rfl⟩
  · intro x hx; simp [World.new, Store.empty] at hx
  · intro e he; simp at he
  · intro e he; simp at he
  · intro hc; cases hc

theorem prefix_snoc {α : Type} {l : List α} {a : α} {pre : List α} (h : pre <+: l) : pre <+: l ++ [a] :=
  h.trans (List.prefix_append _ _)

/-- The invariant holds always. -/
theorem duoOk_run (conf : Conf) (server : Int) (acts : List DuoAct) (ha : Alike conf server acts)
    (ho : InOrder conf server acts) :
    ∃ pops sops wp ws stored, DuoOk conf .none server ((Duo.new conf server).run acts) pops sops wp ws stored := by
  induction acts using List.reverseRecOn with
  | nil => exact ⟨[], [], _, _, [], duoOk_new conf server⟩
  | append_singleton acts a ih =>
    obtain ⟨pops, sops, wp, ws, stored, h⟩ := ih
      ⟨fun c hc => ha.primary c (List.mem_append_left _ hc), fun c hc => ha.standby c (List.mem_append_left _ hc),
        fun es he => ha.receives es (List.mem_append_left _ he)⟩
      (fun pre hpre => ho pre (prefix_snoc hpre))
    have hlast := ho (acts ++ [a]) List.prefix_rfl
    rw [duo_run_snoc] at hlast ⊢
    generalize (Duo.new conf server).run acts = d at h hlast ⊢
    cases a with
    | primary op =>
      obtain ⟨wp', stored', h', _⟩ := duoOk_primary h op (by
        intro c hc
        rcases List.mem_append.1 hc with hc | hc
        · exact h.confP c hc
        · exact like_none (ha.primary c (by rw [List.mem_singleton.1 hc]; simp))) (fun _ _ _ _ => trivial) hlast
      exact ⟨_, _, _, _, _, h'⟩
    | standby op =>
      obtain ⟨ws', h'⟩ := duoOk_standby h op (by
        intro c hc
        rcases List.mem_append.1 hc with hc | hc
        · exact h.confS c hc
        · exact like_none (ha.standby c (by rw [List.mem_singleton.1 hc]; simp)))
        (fun es he => ha.receives es (by rw [← he]; simp)) (fun _ _ _ _ => trivial)
      exact ⟨_, _, _, _, _, h'⟩
    | connect => exact ⟨_, _, _, _, _, duoOk_connect h⟩
    | notify => exact ⟨_, _, _, _, _, duoOk_notify h⟩
    | serve => exact ⟨_, _, _, _, _, duoOk_serve h⟩
    | deliver =>
      obtain ⟨sops', ws', h', _⟩ := duoOk_deliver h
      exact ⟨_, _, _, _, _, h'⟩
    | advance =>
      obtain ⟨sops', ws', h', _⟩ := duoOk_advance h
      exact ⟨_, _, _, _, _, h'⟩
    | close => exact ⟨_, _, _, _, _, duoOk_link h h.remote h.keep h.suffix fun hc => by cases hc⟩

end HatEvent
