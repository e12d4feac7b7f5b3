import Verif.Props.EngineLmdb
import Verif.Proof.ReadWrites

/-!
# C80: events whose registration was answered are seen by latest queries
-/

namespace HatEvent
open Spec

/-- The events of a server in calls of `register`, in order. -/
def Spec.offeredBy (server : Int) (ops : List BackendOp) : List Event :=
  ops.flatMap fun op => match op with
    | .register es => es.filter fun e => e.id.server = server
    | _ => []

theorem mem_offeredBy {server : Int} {ops : List BackendOp} {e : Event} :
    e ∈ offeredBy server ops ↔ ∃ es, .register es ∈ ops ∧ e ∈ es ∧ e.id.server = server := by
  unfold offeredBy
  rw [List.mem_flatMap]
  constructor
  · rintro ⟨op, h1, h2⟩
    cases op with
    | register es =>
      obtain ⟨h3, h4⟩ := List.mem_filter.1 h2
      exact ⟨es, h1, h3, by simpa using h4⟩
    | _ => simp at h2
  · rintro ⟨es, h1, h2, h3⟩
    exact ⟨_, h1, List.mem_filter.2 ⟨h2, by simpa using h3⟩⟩

theorem offeredBy_snoc (server : Int) (ops : List BackendOp) (op : BackendOp) :
    offeredBy server (ops ++ [op]) = offeredBy server ops ++ offeredBy server [op] := by
  unfold offeredBy; rw [List.flatMap_append]

theorem offered_run (conf : Conf) (pre : List BackendOp) (hl : LookupLaws pre) (server : Int) (w0 : World)
    (h0 : Reached conf pre w0) (run : List BackendOp) (hno : ∀ c, .reopen c ∉ run)
    (ho : Onward server w0.cur.log (offeredBy server run))
    (hopen : ((Backend.new conf).run (pre ++ run)).mem ≠ none) :
    ∃ w, Reached conf (pre ++ run) w ∧ w.conf = w0.conf ∧
      Served w.conf server w0.cur.log w.cur (offeredBy server run) := by
  induction run using List.reverseRecOn with
  | nil =>
    refine ⟨w0, by simpa using h0, rfl, h0.rel.okC, fun x hx _ => .inl hx, by simp [offeredBy]⟩
  | append_singleton run op ih =>
    rw [offeredBy_snoc] at ho ⊢
    have hnr : ∀ c, op ≠ .reopen c := fun c hc => hno c (by simp [hc])
    have hno' : ∀ c, .reopen c ∉ run := fun c hc => hno c (by simp [hc])
    rw [← List.append_assoc] at hopen ⊢
    have hopen' : ((Backend.new conf).run (pre ++ run)).mem ≠ none := by
      intro hnone
      apply hopen
      rw [run_snoc]
      generalize (Backend.new conf).run (pre ++ run) = b at hnone
      cases op <;> simp_all [Backend.step]
    obtain ⟨w, h1, h2, h3⟩ := ih hno' ho.prefix hopen'
    have hll : LookupLaws (pre ++ run) := by
      intro c hc
      rcases List.mem_append.1 hc with hc | hc
      · exact hl c hc
      · exact absurd hc (hno' c)
    obtain ⟨w', h4, h5⟩ := reached_step h1 op hll
    have hw : w'.isOpen = true := by
      rw [h5.rel.isOpen]
      cases hm : ((Backend.new conf).run (pre ++ run ++ [op])).mem with
      | none => exact absurd hm hopen
      | some m => rfl
    refine ⟨w', h5, ?_⟩
    cases h4 with
    | closed a b => rw [hw] at a; cases a
    | @register es a =>
      have hes : offeredBy server [.register es] = es.filter fun e => e.id.server = server := by simp [offeredBy]
      rw [hes] at ho ⊢
      exact ⟨h2, h3.offers es ho⟩
    | touch a => simpa [offeredBy] using ⟨h2, h3⟩
    | flush a => simpa [offeredBy] using ⟨h2, h3⟩
    | flushFail a => cases hw
    | cleanup r a b => simpa [offeredBy] using ⟨h2, h3.drop r⟩
    | cleanupFail a => cases hw
    | reopen a => exact absurd rfl (hnr _)
    | reopenFail => exact absurd rfl (hnr _)

/-- Events of a server with increasing ids after the last one and with timestamps that do not decrease. -/
theorem onward_run (conf : Conf) (pre run : List BackendOp) (server : Int) (last : EventId) (w0 : World)
    (h0 : Reached conf pre w0) (hlast : ((Backend.new conf).run pre).getLastEventId server = .ok last)
    (hid : ∀ e ∈ offeredBy server run, IdLt last e.id)
    (hids : (offeredBy server run).Pairwise fun a b => IdLt a.id b.id)
    (htimes : (offeredBy server (pre ++ run)).Pairwise fun a b =>
      b ∈ offeredBy server run → TimeLe a.timestamp b.timestamp)
    (hmin : ∀ e ∈ offeredBy server run, TimeLe minTimestamp e.timestamp) :
    Onward server w0.cur.log (offeredBy server run) := by
  have hlastId : w0.cur.lastId server = last := by
    unfold Backend.getLastEventId at hlast
    cases hm : ((Backend.new conf).run pre).mem with
    | none => rw [hm] at hlast; simp at hlast
    | some m =>
      rw [hm] at hlast
      rw [← getLastEventId_eq (h0.rel.opened m hm).2.sys]
      simpa using hlast
  have hle : ∀ x ∈ w0.cur.log, x.id.server = server → IdLe x.id last := by
    intro x hx hs
    obtain ⟨l, h1, h2, h3⟩ := le_last h0.rel.okC hx
    rw [← hlastId]
    unfold Store.lastId
    rw [← hs, h1]
    exact h2
  have hpos : IdLe ⟨server, 0, 0⟩ last := by
    rw [← hlastId]
    unfold Store.lastId
    cases hl : w0.cur.last server with
    | none => exact .inr rfl
    | some l =>
      obtain ⟨h1, h2⟩ := last_mem hl
      have := h0.rel.okC.pos l h1
      rw [h2] at this
      exact .inl this
  have happ : offeredBy server (pre ++ run) = offeredBy server pre ++ offeredBy server run := by
    unfold offeredBy; rw [List.flatMap_append]
  rw [happ, List.pairwise_append] at htimes
  refine ⟨?_, fun e he => ?_, fun e he => ⟨hpos.trans_lt (hid e he), hmin e he⟩, fun e he x hx hs => ?_⟩
  · refine List.Pairwise.and hids (htimes.2.1.imp_of_mem fun _ hb h => h hb)
  · exact (mem_offeredBy.1 he).choose_spec.2.2
  · refine ⟨(hle x hx hs).trans_lt (hid e he), ?_⟩
    obtain ⟨es, h1, h2⟩ := (run_ok h0.run).logC x hx
    exact htimes.2.2 x (mem_offeredBy.2 ⟨es, h1, h2, hs⟩) e he he

/-- **C80** for the backend: since some moment, with the backend open, events of a server are registered, with
increasing ids after the last one at that moment and with timestamps that do not decrease (events of other
servers are registered in any order).  Then each of those events that is to be shown, or an event of its type
that is not older, is returned by a latest query. -/
theorem C80_backend (conf : Conf) (pre run : List BackendOp) (hl : LookupLaws pre) (hno : ∀ c, .reopen c ∉ run)
    (server : Int) (last : EventId) (hlast : ((Backend.new conf).run pre).getLastEventId server = .ok last)
    (hid : ∀ e ∈ offeredBy server run, IdLt last e.id)
    (hids : (offeredBy server run).Pairwise fun a b => IdLt a.id b.id)
    (htimes : (offeredBy server (pre ++ run)).Pairwise fun a b =>
      b ∈ offeredBy server run → TimeLe a.timestamp b.timestamp)
    (hmin : ∀ e ∈ offeredBy server run, TimeLe minTimestamp e.timestamp)
    (hopen : ((Backend.new conf).run (pre ++ run)).mem ≠ none) :
    ∃ events, ((Backend.new conf).run (pre ++ run)).query (.latest none) = .ok ⟨events, false⟩ ∧
      ∀ e ∈ offeredBy server run, Visible ((Backend.new conf).run (pre ++ run)).conf e →
        ∃ s ∈ events, s.type = e.type ∧ ¬ Newer e s := by
  obtain ⟨w0, h0⟩ := reached conf pre hl
  have ho := onward_run conf pre run server last w0 h0 hlast hid hids htimes hmin
  obtain ⟨w, h1, h2, h3⟩ := offered_run conf pre hl server w0 h0 run hno ho hopen
  have hrel := h1.rel
  have hc := hrel.conf
  generalize (Backend.new conf).run (pre ++ run) = b at hrel hopen hc
  cases hm : b.mem with
  | none => exact absurd hm hopen
  | some m =>
    obtain ⟨_, hr⟩ := hrel.opened m hm
    refine ⟨m.latest.events.map Prod.snd, by unfold Backend.query; rw [hm]; rfl, fun e he hv => ?_⟩
    rw [hc] at hv
    obtain ⟨s, s1, s2, s3, _⟩ := h3.shown e he hv
    have hg := (hr.latest.events e.type s).2 ⟨s1, s2⟩
    exact ⟨s, List.mem_map.2 ⟨_, Dict.mem_of_get hg, rfl⟩, (hrel.okC.slotType _ _ s1).1, s3⟩

/-- A backend of `exKeep` in which events of two servers are registered. -/
def exShared : List BackendOp :=
  [.register [⟨⟨7, 1, 1⟩, ["a"], exAt 1, none, none⟩], .register [⟨⟨8, 1, 1⟩, ["a"], exAt 3, none, none⟩], .flush,
    .register [⟨⟨7, 2, 1⟩, ["a"], exAt 2, none, none⟩]]

example : ((Backend.new exKeep).run ([.reopen exKeep])).getLastEventId 7 = .ok ⟨7, 0, 0⟩ ∧
    offeredBy 7 exShared = [⟨⟨7, 1, 1⟩, ["a"], exAt 1, none, none⟩, ⟨⟨7, 2, 1⟩, ["a"], exAt 2, none, none⟩] ∧
    ((Backend.new exKeep).run ([.reopen exKeep] ++ exShared)).query (.latest none) =
      .ok ⟨[⟨⟨8, 1, 1⟩, ["a"], exAt 3, none, none⟩], false⟩ := ⟨rfl, rfl, rfl⟩

/-- **C80** for events with timestamps that do not decrease (missing: a clock that is set back, see `C80_refuted`):
an engine is created on an open backend; the events of its server that are registered since then are those it
passed to the backend.  After a request was answered with events, each of them that is to be shown, or an event
of its type that is not older, is returned by a latest query. -/
theorem C80_engine_partial (conf : Conf) (pre run : List BackendOp) (hl : LookupLaws pre)
    (hno : ∀ c, .reopen c ∉ run) (econf : EngineConf) (last : EventId)
    (hlast : ((Backend.new conf).run pre).getLastEventId econf.serverId = .ok last) (acts : List EngineAct)
    (hcalls : offeredBy econf.serverId run = ((Engine.create econf last).run acts).sent.flatten)
    (htimes : (offeredBy econf.serverId (pre ++ run)).Pairwise fun a b =>
      b ∈ offeredBy econf.serverId run → TimeLe a.timestamp b.timestamp)
    (hmin : ∀ e ∈ offeredBy econf.serverId run, TimeLe minTimestamp e.timestamp)
    (hopen : ((Backend.new conf).run (pre ++ run)).mem ≠ none) :
    ∃ events, ((Backend.new conf).run (pre ++ run)).query (.latest none) = .ok ⟨events, false⟩ ∧
      ∀ i l, (i, .result (some l)) ∈ ((Engine.create econf last).run acts).outcomes → ∀ e ∈ l,
        Visible ((Backend.new conf).run (pre ++ run)).conf e → ∃ s ∈ events, s.type = e.type ∧ ¬ Newer e s := by
  have hsub : ((Engine.create econf last).run acts).sent.flatten.Sublist
      ((Engine.create econf last).run acts).created := by
    have := listed_run econf last acts
    exact (List.sublist_append_left _ _).trans this
  have hinc := C18_increasing econf last acts
  obtain ⟨events, h1, h2⟩ := C80_backend conf pre run hl hno econf.serverId last hlast
    (by rw [hcalls]; exact fun e he => hinc.2 e (hsub.subset he))
    (by rw [hcalls]; exact hinc.1.sublist hsub) htimes hmin hopen
  refine ⟨events, h1, fun i l hi e he hv => h2 e ?_ hv⟩
  rw [hcalls]
  rcases C19_registered econf last acts i l hi with rfl | ⟨es, hes, hp⟩
  · simp at he
  · exact List.mem_flatten.2 ⟨es, hes, hp.subset he⟩

example : ((Backend.new exKeep).run [.reopen exKeep]).getLastEventId 7 = .ok ⟨7, 0, 0⟩ ∧
    offeredBy 7 (calls exRan) = exRan.sent.flatten ∧ exRan.sent.flatten.length = 2 ∧
    ((Backend.new exKeep).run ([.reopen exKeep] ++ calls exRan)).mem ≠ none :=
  ⟨rfl, rfl, rfl, by rw [Ne, ← Option.isNone_iff_eq_none]; exact Bool.false_ne_true⟩

/-- A request for `a` when the clock was set back. -/
def exBack : List EngineAct :=
  [.spawn, .take (exAt 5), .told, .told, .next, .processed [], .next, .told, .told, .next, .registered .same (exAt 5)]
    ++ exRequest

/-- **C80 does not hold** if the clock is set back: a request is answered with registered events, but the backend
has skipped them and a latest query does not return any event of their types. -/
theorem C80_refuted : ∃ (conf : Conf) (econf : EngineConf) (acts : List EngineAct) (first : EventId),
    let start := (Backend.new conf).run [.reopen conf]
    let s := (Engine.create econf first).run acts
    (∀ e, Visible conf e) ∧ start.getLastEventId econf.serverId = .ok first ∧
      ∃ l events, (0, .result (some l)) ∈ s.outcomes ∧ l.length = 2 ∧
        (start.run (calls s)).query (.latest none) = .ok ⟨events, false⟩ ∧
        ∀ e ∈ l, ∀ x ∈ events, x.type ≠ e.type := by
  refine ⟨exKeep, exEngineConf, exBack, ⟨7, 0, 0⟩, ?_, rfl, ?_⟩
  · intro e
    exact ⟨rfl, by show nodeMatches e.type _ = true; cases e.type <;> rfl⟩
  refine ⟨[⟨⟨7, 2, 1⟩, ["a"], exAt 2, none, none⟩, ⟨⟨7, 2, 2⟩, ["b"], exAt 2, some (exAt 0), none⟩],
    [⟨⟨7, 1, 1⟩, ["event", "7", "engine"], exAt 5, none, some (.json (.str "STARTED"))⟩],
    List.mem_of_getElem? (i := 0) rfl, rfl, rfl, ?_⟩
  intro e he x hx
  obtain rfl := List.mem_singleton.1 hx
  simp only [List.mem_cons, List.not_mem_nil, or_false] at he
  rcases he with rfl | rfl <;> decide

end HatEvent
