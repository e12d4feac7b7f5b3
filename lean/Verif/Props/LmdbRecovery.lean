import Verif.Proof.LmdbRecover
import Verif.Props.LmdbLatest

/-!
# C26: recovery after a crash
-/

namespace HatEvent
open Spec

namespace Spec

/-- Two outcomes of a query with the same events (in any order). -/
def SameEvents : Except PyErr QueryResult → Except PyErr QueryResult → Prop
  | .ok r, .ok s => r.events.Perm s.events ∧ r.moreFollows = s.moreFollows
  | .error e, .error f => e = f
  | _, _ => False

/-- Two backends answer all queries in the same way; the order of the events of
latest queries does not count. -/
structure SameAnswers (b b' : Backend) : Prop where
  lastId : ∀ s, b.getLastEventId s = b'.getLastEventId s
  server : ∀ p, b.query (.server p) = b'.query (.server p)
  timeseries : ∀ p, b.query (.timeseries p) = b'.query (.timeseries p)
  latest : ∀ t, SameEvents (b.query (.latest t)) (b'.query (.latest t))

end Spec

/-- Nothing that was not flushed survives: registering and querying between the
last flush and the end of the process make no difference to a later opening with
any configuration; cleanups do. -/
theorem C26_unflushed_lost (conf : Conf) (ops : List BackendOp) (hl : LookupLaws ops)
    (ops' : List BackendOp) (hv : ∀ op ∈ ops', op.isVolatile = true) (c : Conf) :
    (((Backend.new conf).run ops).run ops').step (.reopen c) =
      (((Backend.new conf).run ops).run (ops'.filter BackendOp.isCleanup)).step (.reopen c) := by
  obtain ⟨w, _, h⟩ := run_rel conf ops hl
  have hs := sameFile_run h (fun hm => hl _ (run_conf conf ops hm)) ⟨rfl, rfl, rfl, rfl⟩ ops' hv
  have h1 := hs.disk
  have h2 := hs.cb
  simp only [Backend.step, h1, h2]

/-- A flush or cleanup that fails leaves the file as it was. -/
theorem C26_failed (b : Backend) (op : BackendOp) (hop : ∀ c, op ≠ .reopen c)
    (h : (b.step op).mem = none) : (b.step op).disk = b.disk := by
  have hst := stepTo b op
  generalize b.step op = b' at hst h
  cases hst with
  | closed h1 h2 => rfl
  | register h1 h2 => rfl
  | registerFail h1 h2 => rfl
  | touch h1 => rfl
  | flush h1 h2 => simp at h
  | flushFail h1 h2 => rfl
  | cleanup h1 h2 =>
    have h : b.mem = none := h
    rw [h] at h1; simp at h1
  | cleanupFail h1 h2 => rfl
  | reopen h1 => exact absurd rfl (hop _)
  | reopenFail h1 => exact absurd rfl (hop _)

/-- Everything is on the disk. -/
structure Clean (b : Backend) (w : World) : Prop where
  rel : WorldRel b w
  same : w.cur = w.flushed
  none : ∀ m, b.mem = some m → m.timeseries.changes = [] ∧ m.ref.changes = []

theorem clean_cleanup {b : Backend} {w : World} (h : Clean b w) {op : BackendOp}
    (hop : op.isCleanup = true) : ∃ w', Clean (b.step op) w' := by
  cases op <;> simp [BackendOp.isCleanup] at hop
  next fl se now =>
  have hst := stepTo b (.cleanup fl se now)
  generalize b.step (.cleanup fl se now) = b' at hst
  cases hst with
  | closed h1 h2 => exact ⟨w, h⟩
  | cleanup h1 h2 =>
    obtain ⟨ho, hm⟩ := h.rel.opened _ h1
    obtain ⟨rem, _, r1, _, r2, r3, _⟩ := cleanup_rel h.rel.disk hm h2
    refine ⟨{ w with cur := w.cur.drop (· ∈ rem), flushed := w.flushed.drop (· ∈ rem) },
      ⟨h.rel.conf, r2, storeOk_drop h.rel.okF _, storeOk_drop h.rel.okC _, ?_, ?_⟩, ?_, h.none⟩
    · intro m2 hm2
      have : b.mem = some m2 := hm2
      rw [h1] at this; cases this
      exact ⟨ho, r3⟩
    · intro hn
      have : b.mem = Option.none := hn
      rw [h1] at this; simp at this
    · simp only [h.same]
  | cleanupFail h1 h2 =>
    exact ⟨{ w with cur := w.flushed, isOpen := false }, ⟨h.rel.conf, h.rel.disk, h.rel.okF, h.rel.okF,
      by simp, fun _ => ⟨rfl, rfl⟩⟩, rfl, by simp⟩

theorem clean_cleanups {b : Backend} {w : World} (h : Clean b w) (cl : List BackendOp)
    (hcl : ∀ op ∈ cl, op.isCleanup = true) : ∃ w', Clean (b.run cl) w' := by
  induction cl generalizing b w with
  | nil => exact ⟨w, h⟩
  | cons op cl ih =>
    obtain ⟨w', h'⟩ := clean_cleanup h (hcl op (by simp))
    exact ih h' fun o ho => hcl o (List.mem_cons_of_mem _ ho)

theorem clean_flush {b : Backend} {w : World} (h : WorldRel b w) : ∃ w', Clean (b.step .flush) w' := by
  have hst := stepTo b .flush
  generalize b.step .flush = b' at hst
  cases hst with
  | closed h1 h2 => exact ⟨w, h, (h.closed h1).2, by simp [h1]⟩
  | flush h1 h2 =>
    obtain ⟨ho, hm⟩ := h.opened _ h1
    obtain ⟨f1, f2⟩ := flush_rel h.disk hm h2
    refine ⟨{ w with flushed := w.cur }, ⟨h.conf, f1, h.okC, h.okC, ?_, by simp⟩, rfl, ?_⟩
    · rintro m2 ⟨⟩
      exact ⟨ho, f2⟩
    · rintro m2 ⟨⟩
      exact ⟨rfl, rfl⟩
  | flushFail h1 h2 =>
    exact ⟨{ w with cur := w.flushed, isOpen := false }, ⟨h.conf, h.disk, h.okF, h.okF, by simp,
      fun _ => ⟨rfl, rfl⟩⟩, rfl, by simp⟩

theorem sameEvents_map {x : Except PyErr (List Event)} {y : Except PyErr (List Event)}
    (h : (∃ e, x = .error e ∧ y = .error e) ∨ ∃ a b, x = .ok a ∧ y = .ok b ∧ a.Perm b) :
    SameEvents (x.map fun events => ⟨events, false⟩) (y.map fun events => ⟨events, false⟩) := by
  rcases h with ⟨e, rfl, rfl⟩ | ⟨a, b, rfl, rfl, h⟩
  · exact rfl
  · exact ⟨h, rfl⟩

theorem sameLatest {conf : Conf} {d d' : Disk} {db db' : LatestDb} {slot : EventType → Option Event}
    (h : LatestRel conf d db slot) (h' : LatestRel conf d' db' slot) (t : Option (List EventType)) :
    SameEvents (db.query conf t) (db'.query conf t) := by
  have hget : ∀ t, Dict.get db.events t = Dict.get db'.events t := by
    intro t
    apply Option.ext
    intro e
    rw [h.events, h'.events]
  have hperm : db.events.Perm db'.events := by
    rw [List.perm_ext_iff_of_nodup h.nodEvents.of_map h'.nodEvents.of_map]
    intro x
    rw [← Dict.get_eq_some_iff h.nodEvents (k := x.1) (v := x.2),
      ← Dict.get_eq_some_iff h'.nodEvents (k := x.1) (v := x.2), hget]
  have hmap := hperm.map Prod.snd
  cases t with
  | none => exact ⟨hmap, rfl⟩
  | some types =>
    apply sameEvents_map
    unfold latestSelect
    rw [hperm.length_eq]
    split
    · exact .inr ⟨_, _, rfl, rfl, hmap⟩
    split
    · cases createSubscription conf.useC (toSet types) with
      | error e => exact .inl ⟨e, rfl, rfl⟩
      | ok s => exact .inr ⟨_, _, rfl, rfl, hmap.filter _⟩
    split
    · refine .inr ⟨_, _, rfl, rfl, ?_⟩
      simp only [hget]
      exact List.Perm.refl _
    · exact .inr ⟨_, _, rfl, rfl, hmap.filter _⟩

theorem sameAnswers_clean {b : Backend} {w : World} (h : Clean b w) (hr : Reopenable b)
    (hopen : b.mem ≠ none) : SameAnswers (b.step (.reopen b.conf)) b := by
  cases hm : b.mem with
  | none => exact absurd hm hopen
  | some m =>
    have hc := createDbs_again hr hm
    obtain ⟨c1, c2⟩ := h.none m hm
    obtain ⟨_, hmr⟩ := h.rel.opened m hm
    obtain ⟨_, _, r3⟩ := reopen_rel h.rel.disk h.rel.okF hc
    have hb : b.step (.reopen b.conf) = { b with mem := some (
      { system := SystemDb.create b.disk
        latest := LatestDb.create b.conf b.disk
        timeseries := ⟨m.timeseries.partitions, []⟩
        ref := ⟨[], []⟩
        registered := [] } : Mem) } := by
      simp only [Backend.step, hc]
    rw [hb]
    refine ⟨?_, ?_, ?_, ?_⟩
    · intro s
      unfold Backend.getLastEventId
      simp only [hm]
      have e1 := getLastEventId_eq r3.sys s
      have e2 := getLastEventId_eq hmr.sys s
      rw [h.same] at e2
      simp only at e1
      rw [e1, e2]
    · intro p
      unfold Backend.query
      simp only [hm, Mem.query, RefDb.query, c2]
    · intro p
      unfold Backend.query
      have : m.timeseries = ⟨m.timeseries.partitions, []⟩ := by rw [← c1]
      simp only [hm, Mem.query]
      rw [this]
    · intro t
      unfold Backend.query
      simp only [hm, Mem.query]
      have hl := hmr.latest
      have hl' := r3.latest
      rw [h.same, ← h.rel.conf] at hl
      exact sameLatest hl' hl t

/-- Everything that was flushed survives, and only cleanups count after the
flush: if the process ends at any point after a flush (`ops'` does not contain
another one), a new backend with the same configuration answers all queries as
the old one did after the flush and the cleanups. -/
theorem C26_recovery (conf : Conf) (ops : List BackendOp) (hl : LookupLaws ops)
    (ops' : List BackendOp) (hv : ∀ op ∈ ops', op.isVolatile = true)
    (hopen : ((Backend.new conf).run (ops ++ .flush :: ops'.filter BackendOp.isCleanup)).mem ≠ none) :
    SameAnswers
      (((Backend.new conf).run (ops ++ .flush :: ops')).step
        (.reopen ((Backend.new conf).run (ops ++ .flush :: ops')).conf))
      ((Backend.new conf).run (ops ++ .flush :: ops'.filter BackendOp.isCleanup)) := by
  have happ : ∀ l : List BackendOp, (Backend.new conf).run (ops ++ .flush :: l) =
      ((Backend.new conf).run (ops ++ [.flush])).run l := by
    intro l
    unfold Backend.run
    simp [List.foldl_append]
  have hl' : LookupLaws (ops ++ [.flush]) := by
    intro c hc
    simp only [List.mem_append, List.mem_singleton, reduceCtorEq, or_false] at hc
    exact hl c hc
  have hre := reopenable_run conf (ops ++ .flush :: ops'.filter BackendOp.isCleanup)
  obtain ⟨w1, _, hw1⟩ := run_rel conf (ops ++ [.flush]) hl'
  have hsf := sameFile_run hw1 (fun hm => hl' _ (run_conf conf _ hm)) ⟨rfl, rfl, rfl, rfl⟩ ops' hv
  have hu := C26_unflushed_lost conf (ops ++ [.flush]) hl' ops' hv
    ((Backend.new conf).run (ops ++ .flush :: ops')).conf
  rw [happ (ops'.filter _)] at hopen hre ⊢
  rw [happ ops'] at hu ⊢
  rw [hu, hsf.conf]
  obtain ⟨w, _, hw⟩ := run_rel conf ops hl
  obtain ⟨wf, hwf⟩ := clean_flush hw
  rw [← run_snoc] at hwf
  obtain ⟨wc, hwc⟩ := clean_cleanups hwf (ops'.filter BackendOp.isCleanup)
    (fun op h => (List.mem_filter.1 h).2)
  exact sameAnswers_clean hwc hre hopen

/-- Hypotheses of `C26_recovery`: after the flush of the example history an
event is registered and lost. -/
example : SameAnswers
    (((Backend.new (exConf none [])).run (exHistory ++ .flush ::
      [.register [exE 2 3 1 ["a"] 9 (some 9)]])).step
        (.reopen ((Backend.new (exConf none [])).run (exHistory ++ .flush ::
          [.register [exE 2 3 1 ["a"] 9 (some 9)]])).conf))
    ((Backend.new (exConf none [])).run (exHistory ++ .flush :: [])) := by
  refine C26_recovery (exConf none []) exHistory exHistory_laws [.register [exE 2 3 1 ["a"] 9 (some 9)]]
    (by simp [BackendOp.isVolatile]) ?_
  have : ((Backend.new (exConf none [])).run (exHistory ++ .flush :: [])).mem.isSome = true := by rfl
  intro h
  have h' : ((Backend.new (exConf none [])).run (exHistory ++ .flush :: [])).mem = none := h
  rw [h'] at this
  exact absurd this (by decide)

/-- The lost event is not trivially lost: without the crash it is returned. -/
example : ((Backend.new (exConf none [])).run (exHistory ++ .flush ::
      [.register [exE 2 3 1 ["a"] 9 (some 9)]])).query (.latest none) =
        .ok ⟨[exE 2 3 1 ["a"] 9 (some 9)], false⟩ ∧
    ((Backend.new (exConf none [])).run (exHistory ++ .flush ::
      [.register [exE 2 3 1 ["a"] 9 (some 9)], .reopen (exConf none exPartitions)])).query (.latest none) =
        .ok ⟨[exE 2 2 1 ["a"] 6 (some 3)], false⟩ := ⟨by rfl, by rfl⟩

/-- `C26_failed`: an event whose source timestamp cannot be stored. -/
example : ((Backend.new (exConf none [])).run
    [.reopen (exConf none exPartitions), .register [exE 1 1 1 ["a"] 1 (some (2 ^ 63))], .flush]).mem.isNone = true := by
  rfl

end HatEvent
