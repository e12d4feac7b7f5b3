import Verif.Model.LmdbAsync
import Verif.Proof.LmdbRange
import Verif.Proof.LmdbRecover

/-!
# The backend on the event loop and sequential histories
-/

namespace HatEvent
open Spec

/-! ### Registration never raises -/

/-- The reference database has seen nothing newer than the system database. -/
def RefLe (m : Mem) : Prop :=
  ∀ s i, Dict.get m.ref.lastEventIds s = some i → IdLe i (m.system.getLastEventId s)

theorem removeRef_last (db : RefDb) (r : Option (EventId × EventRef)) :
    (db.removeRef r).lastEventIds = db.lastEventIds := by
  cases r <;> rfl

theorem registerEvent_total {conf : Conf} {m : Mem} (h : RefLe m) (e : Event) :
    ∃ m', registerEvent conf m e = .ok m' ∧ RefLe m' ∧
      m'.timeseries.partitions = m.timeseries.partitions ∧ m'.registered = m.registered := by
  unfold registerEvent
  split
  · exact ⟨m, rfl, h, rfl, rfl⟩
  · next hid =>
    split
    · exact ⟨m, rfl, h, rfl, rfl⟩
    · split
      · exact ⟨m, rfl, h, rfl, rfl⟩
      · unfold storeEvent
        simp only
        split
        · refine ⟨_, rfl, ?_, rfl, rfl⟩
          intro s i hi
          simp only [removeRef_last] at hi
          exact h s i hi
        · have hadd : ∃ r, (m.ref.removeRef (m.latest.add conf e).2.removedRef).add e
              ((m.latest.add conf e).2.addedRef.toList ++ (m.timeseries.add conf e).2) = .ok r ∧
              r.lastEventIds = Dict.set m.ref.lastEventIds e.id.server e.id := by
            unfold RefDb.add
            rw [removeRef_last]
            cases hg : Dict.get m.ref.lastEventIds e.id.server with
            | none => exact ⟨_, rfl, rfl⟩
            | some last =>
              have hlt : ¬ e.id.lt last = true := by
                intro hlt
                rw [EventId.le_iff] at hid
                rw [EventId.lt_iff] at hlt
                exact hid (.inl (hlt.trans_le (h _ _ hg)))
              simp only [hlt]
              exact ⟨_, rfl, rfl⟩
          obtain ⟨r, h1, h2⟩ := hadd
          refine ⟨{ m with
              latest := (m.latest.add conf e).1
              timeseries := (m.timeseries.add conf e).1
              ref := r
              system := (m.system.setLastEventId e.id).setLastTimestamp e.id.server e.timestamp },
            by rw [h1]; rfl, ?_, rfl, rfl⟩
          intro s i hi
          simp only [h2, Dict.get_set] at hi
          simp only [SystemDb.setLastEventId, SystemDb.setLastTimestamp, SystemDb.getLastEventId, Dict.get_set]
          split at hi
          · next hs => rw [if_pos hs]; cases hi; exact IdLe.refl
          · next hs => rw [if_neg hs]; exact h s i hi

theorem register_total {conf : Conf} {m : Mem} (h : RefLe m) (es : List Event) :
    ∃ m', m.register conf es = .ok m' ∧ RefLe m' ∧
      m'.timeseries.partitions = m.timeseries.partitions ∧ m'.registered = m.registered ++ [es] := by
  have key : ∀ (es : List Event) (m : Mem), RefLe m →
      ∃ m', es.foldlM (registerEvent conf) m = .ok m' ∧ RefLe m' ∧
        m'.timeseries.partitions = m.timeseries.partitions ∧ m'.registered = m.registered := by
    intro es
    induction es with
    | nil => exact fun m h => ⟨m, rfl, h, rfl, rfl⟩
    | cons e es ih =>
      intro m h
      obtain ⟨m1, h1, h2, h3, h4⟩ := registerEvent_total (conf := conf) h e
      obtain ⟨m2, h5, h6, h7, h8⟩ := ih m1 h2
      exact ⟨m2, by rw [List.foldlM_cons, h1]; exact h5, h6, h7.trans h3, h8.trans h4⟩
  obtain ⟨m1, h1, h2, h3, h4⟩ := key es m h
  exact ⟨{ m1 with registered := m1.registered ++ [es] }, by unfold Mem.register; rw [h1]; rfl, h2, h3, by simp [h4]⟩

theorem step_refLe {b : Backend} (h : ∀ m, b.mem = some m → RefLe m) (op : BackendOp) :
    ∀ m, (b.step op).mem = some m → RefLe m := by
  have hst := stepTo b op
  generalize b.step op = b' at hst
  cases hst with
  | closed h1 h2 => exact h
  | register h1 h2 =>
    rintro m ⟨⟩
    obtain ⟨m', h3, h4, _⟩ := register_total (conf := b.conf) (h _ h1) _
    rw [h2] at h3; cases h3; exact h4
  | touch h1 => rintro m ⟨⟩; have := h _ h1; exact this
  | flush h1 h2 => rintro m ⟨⟩; have := h _ h1; exact this
  | cleanup h1 h2 => exact h
  | reopen h1 =>
    rintro m ⟨⟩
    obtain ⟨s, p, _, hp, rfl, rfl⟩ := createDbs_ok h1
    intro s i hi
    simp at hi
  | _ => simp

theorem run_refLe (conf : Conf) (ops : List BackendOp) :
    ∀ m, ((Backend.new conf).run ops).mem = some m → RefLe m := by
  induction ops using List.reverseRecOn with
  | nil => simp [Backend.run, Backend.new]
  | append_singleton ops op ih => rw [run_snoc]; exact step_refLe ih op

/-! ### Sequential histories of one opening -/

/-- The lists registered in a history. -/
def Spec.callsOf (ops : List BackendOp) : List (List Event) :=
  ops.filterMap fun op => match op with | .register es => some es | _ => none

theorem callsOf_append (a b : List BackendOp) : callsOf (a ++ b) = callsOf a ++ callsOf b := by
  simp [callsOf]

/-- After the histories `ops0` and `ops` (without opening) the backend is open
with this disk, configuration and volatile state. -/
structure OpenAt (c0 : Conf) (ops0 ops : List BackendOp) (d : Disk) (c : Conf) (m : Mem) : Prop where
  disk : ((Backend.new c0).run (ops0 ++ ops)).disk = d
  conf : ((Backend.new c0).run (ops0 ++ ops)).conf = c
  mem : ((Backend.new c0).run (ops0 ++ ops)).mem = some m
  noReopen : ∀ c', .reopen c' ∉ ops
  touched : ∀ p, .touch p ∈ ops → p ∈ Dict.keys m.timeseries.partitions

variable {c0 : Conf} {ops0 ops : List BackendOp} {d d' : Disk} {c : Conf} {m m' : Mem}

theorem OpenAt.refLe (h : OpenAt c0 ops0 ops d c m) : RefLe m := run_refLe _ _ _ h.mem

theorem run_snoc' (c0 : Conf) (ops0 ops : List BackendOp) (op : BackendOp) :
    (Backend.new c0).run (ops0 ++ (ops ++ [op])) = ((Backend.new c0).run (ops0 ++ ops)).step op := by
  rw [← List.append_assoc, run_snoc]

theorem OpenAt.register (h : OpenAt c0 ops0 ops d c m) {es : List Event} (hr : m.register c es = .ok m')
    (hp : m'.timeseries.partitions = m.timeseries.partitions) :
    OpenAt c0 ops0 (ops ++ [.register es]) d c m' := by
  have h1 := h.conf
  have h2 := h.mem
  refine ⟨?_, ?_, ?_, ?_, ?_⟩
  · rw [run_snoc', Backend.step, h2]; simp only [h1, hr]; exact h.disk
  · rw [run_snoc', Backend.step, h2]; simp only [h1, hr]
  · rw [run_snoc', Backend.step, h2]; simp only [h1, hr]
  · simpa using h.noReopen
  · intro p hp'
    rw [hp]
    simp only [List.mem_append, List.mem_singleton, reduceCtorEq, or_false] at hp'
    exact h.touched p hp'

theorem OpenAt.touch (h : OpenAt c0 ops0 ops d c m) {p : Int} (hp : p ∈ Dict.keys m.timeseries.partitions) :
    OpenAt c0 ops0 (ops ++ [.touch p]) d c (m.touch p) := by
  have h1 := h.conf
  have h2 := h.mem
  refine ⟨?_, ?_, ?_, ?_, ?_⟩
  · rw [run_snoc', Backend.step, h2]; exact h.disk
  · rw [run_snoc', Backend.step, h2]; exact h1
  · rw [run_snoc', Backend.step, h2]; rfl
  · simpa using h.noReopen
  · intro q hq
    simp only [List.mem_append, List.mem_singleton, BackendOp.touch.injEq] at hq
    rcases hq with hq | rfl
    · exact h.touched q hq
    · exact hp

theorem OpenAt.cleanup (h : OpenAt c0 ops0 ops d c m) {fl : Rat → Rat} {se : Rat → Option Int} {now : Timestamp}
    {r : Bool} (hc : extCleanup fl se now m.timeseries.partitions d = .ok (d', r)) :
    OpenAt c0 ops0 (ops ++ [.cleanup fl se now]) d' c m := by
  have h1 := h.conf
  have h2 := h.mem
  have h3 := h.disk
  refine ⟨?_, ?_, ?_, ?_, ?_⟩
  · rw [run_snoc', Backend.step, h2]; simp only [h3, hc]
  · rw [run_snoc', Backend.step, h2]; simp only [h3, hc]; exact h1
  · rw [run_snoc', Backend.step, h2]; simp only [h3, hc]
  · simpa using h.noReopen
  · simpa using h.touched

/-- The volatile state after `create_changes`. -/
def Mem.swapped (m : Mem) : Mem := { m.createChanges.2 with registered := [] }

theorem OpenAt.flush (h : OpenAt c0 ops0 ops d c m) (hf : extFlush d m.createChanges.1 = .ok d') :
    OpenAt c0 ops0 (ops ++ [.flush]) d' c m.swapped := by
  have h1 := h.conf
  have h2 := h.mem
  have h3 := h.disk
  refine ⟨?_, ?_, ?_, ?_, ?_⟩
  · rw [run_snoc', Backend.step, h2]; simp only [h3, hf]
  · rw [run_snoc', Backend.step, h2]; simp only [h3, hf]; exact h1
  · rw [run_snoc', Backend.step, h2]; simp only [h3, hf]; rfl
  · simpa using h.noReopen
  · intro p hp
    simp only [List.mem_append, List.mem_singleton, reduceCtorEq, or_false] at hp
    exact h.touched p hp

/-! ### Volatile actions -/

/-- Registering or looking up pending entries: volatile only. -/
inductive VolTo (c : Conf) (m : Mem) : List BackendOp → Mem → Prop
  | nil : VolTo c m [] m
  | register {ops : List BackendOp} {m' m'' : Mem} {es : List Event} : VolTo c m ops m' →
      m'.register c es = .ok m'' → m''.timeseries.partitions = m'.timeseries.partitions →
      VolTo c m (ops ++ [.register es]) m''
  | touch {ops : List BackendOp} {m' : Mem} {p : Int} : VolTo c m ops m' →
      p ∈ Dict.keys m'.timeseries.partitions → VolTo c m (ops ++ [.touch p]) (m'.touch p)

theorem OpenAt.vol (h : OpenAt c0 ops0 ops d c m) {opsB : List BackendOp} (hv : VolTo c m opsB m') :
    OpenAt c0 ops0 (ops ++ opsB) d c m' := by
  induction hv with
  | nil => simpa using h
  | register _ h1 h2 ih => rw [← List.append_assoc]; exact ih.register h1 h2
  | touch _ h1 ih => rw [← List.append_assoc]; exact ih.touch h1

theorem VolTo.refLe {opsB : List BackendOp} (hv : VolTo c m opsB m') (h : RefLe m) : RefLe m' := by
  induction hv with
  | nil => exact h
  | register _ h1 _ ih =>
    obtain ⟨m', h3, h4, _⟩ := register_total (conf := c) ih _
    rw [h1] at h3; cases h3; exact h4
  | touch _ _ ih => have := ih; exact this

theorem VolTo.parts {opsB : List BackendOp} (hv : VolTo c m opsB m') :
    m'.timeseries.partitions = m.timeseries.partitions := by
  induction hv with
  | nil => rfl
  | register _ _ h ih => exact h.trans ih
  | touch _ _ ih => exact ih

/-! ### Queries in parts -/

theorem query_server (conf : Conf) (d : Disk) (m : Mem) (p : QueryServerParams) (h : wrongServer p = false) :
    m.query conf d (.server p) = (Waiting.server p (limitResults p.maxResults refMaxResults)).finish
      m.timeseries.changes m.ref.changes
      ((Waiting.server p (limitResults p.maxResults refMaxResults)).read conf d) := by
  simp only [Mem.query, RefDb.query, h]
  rfl

theorem queryPartitions_eq (conf : Conf) (d : Disk) (db : TimeseriesDb) (p : QueryTimeseriesParams)
    (sub : Option Sub) (n : Int) (l : List (Int × Partition)) :
    queryPartitions conf d db p sub n l =
      (match selectPartition p sub l with
       | .error e => .error e
       | .ok none => .ok ⟨[], false⟩
       | .ok (some q) => queryPartition conf d db q p sub n) := by
  induction l with
  | nil => rfl
  | cons x l ih =>
    obtain ⟨q, part⟩ := x
    rw [queryPartitions, selectPartition]
    split
    · exact ih
    · cases unrelated sub part with
      | error e => rfl
      | ok b =>
        simp only [ok_bind]
        cases b with
        | true => exact ih
        | false => rfl

theorem query_timeseries (conf : Conf) (d : Disk) (m : Mem) (p : QueryTimeseriesParams) :
    m.query conf d (.timeseries p) =
      (match querySubscription conf p.eventTypes with
       | .error e => .error e
       | .ok sub =>
         (match selectPartition p sub m.timeseries.partitions with
          | .error e => .error e
          | .ok none => .ok ⟨[], false⟩
          | .ok (some q) => queryPartition conf d m.timeseries q p sub
              (limitResults p.maxResults conf.maxResults))) := by
  simp only [Mem.query, TimeseriesDb.query]
  cases querySubscription conf p.eventTypes with
  | error e => rfl
  | ok sub => simp only [ok_bind]; exact queryPartitions_eq _ _ _ _ _ _ _

theorem queryPartition_ascending (conf : Conf) (d : Disk) (db : TimeseriesDb) (q : Int)
    (p : QueryTimeseriesParams) (sub : Option Sub) (n : Int) (h : p.order = .ascending) (ref : RefChanges) :
    queryPartition conf d db q p sub n =
      (Waiting.ascending q p (newFilter p sub n) n).finish db.changes ref
        ((Waiting.ascending q p (newFilter p sub n) n).read conf d) := by
  unfold queryPartition
  rw [h]
  rfl

theorem queryPartition_descending (conf : Conf) (d : Disk) (db : TimeseriesDb) (q : Int)
    (p : QueryTimeseriesParams) (sub : Option Sub) (n : Int) (h : p.order = .descending)
    (ts : TimeseriesChanges) (ref : RefChanges) :
    queryPartition conf d db q p sub n =
      (match partitionChanges ((Dict.get db.changes q).getD []) p (newFilter p sub n) with
       | .error e => .error e
       | .ok r =>
         if r.2.maxResults < 1 then cutSeries r.1 n
         else (Waiting.descending q p r.2 n r.1).finish ts ref
           ((Waiting.descending q p r.2 n r.1).read conf d)) := by
  unfold queryPartition
  rw [h]
  simp only [newFilter]
  cases partitionChanges ((Dict.get db.changes q).getD []) p
    ⟨sub, p.tFrom, p.tTo, p.sourceTFrom, p.sourceTTo, n + 1, p.lastEventId⟩ with
  | error e => rfl
  | ok r => rfl

/-! ### Queries that wait -/

/-- The query refers to the changes at its end. -/
def AsyncQuery.tracked (q : AsyncQuery) : Bool :=
  match q.waiting with
  | .descending .. => false
  | _ => true

/-- The partition a query looks up at its end. -/
def Waiting.partition : Waiting → Option Int
  | .ascending partitionId .. => some partitionId
  | _ => none

theorem touch_getD (ts : TimeseriesChanges) (p q : Int) :
    (Dict.get (touchChanges ts p) q).getD [] = (Dict.get ts q).getD [] := by
  unfold touchChanges
  rw [Dict.get_set]
  split
  · next h => subst h; rfl
  · rfl

theorem finish_touch (w : Waiting) (ts : TimeseriesChanges) (ref : RefChanges) (p : Int) (r : ReadResult) :
    w.finish (touchChanges ts p) ref r = w.finish ts ref r := by
  cases w <;> cases r <;> simp only [Waiting.finish, touch_getD]

theorem finish_untracked {q : AsyncQuery} (h : q.tracked = false) (ts ts' : TimeseriesChanges)
    (ref ref' : RefChanges) (r : ReadResult) :
    q.waiting.finish ts ref r = q.waiting.finish ts' ref' r := by
  unfold AsyncQuery.tracked at h
  cases hw : q.waiting <;> rw [hw] at h <;> simp at h
  cases r <;> rfl

theorem lookup_partition {w : Waiting} {r : ReadResult} {p : Int} (h : w.lookup r = some p) :
    w.partition = some p := by
  cases w with
  | ascending q a b n =>
    cases r with
    | server _ => simp [Waiting.lookup] at h
    | series x =>
      cases x with
      | error _ => simp [Waiting.lookup] at h
      | ok x =>
        simp only [Waiting.lookup] at h
        split at h
        · simp at h
        · exact h
  | _ => simp [Waiting.lookup] at h

/-- A set of possible volatile states, with the lists registered so far, that is
closed under volatile actions. -/
structure HistClosed (c : Conf) (H : Mem → List (List Event) → Prop) : Prop where
  register : ∀ {m m' : Mem} {cs : List (List Event)} {es : List Event}, H m cs → m.register c es = .ok m' →
    m'.timeseries.partitions = m.timeseries.partitions → H m' (cs ++ [es])
  touch : ∀ {m : Mem} {cs : List (List Event)} {p : Int}, H m cs → p ∈ Dict.keys m.timeseries.partitions →
    H (m.touch p) cs

/-- States of sequential histories with this disk. -/
def Early (c0 : Conf) (ops0 : List BackendOp) (c : Conf) (d : Disk) (m : Mem) (cs : List (List Event)) : Prop :=
  ∃ ops, OpenAt c0 ops0 ops d c m ∧ callsOf ops = cs

/-- States after volatile actions. -/
def Late (c : Conf) (m0 : Mem) (cs0 : List (List Event)) (m : Mem) (cs : List (List Event)) : Prop :=
  ∃ ops, VolTo c m0 ops m ∧ cs0 ++ callsOf ops = cs

theorem early_closed (c0 : Conf) (ops0 : List BackendOp) (c : Conf) (d : Disk) :
    HistClosed c (Early c0 ops0 c d) where
  register := by
    rintro m m' cs es ⟨ops, h1, rfl⟩ h2 h3
    exact ⟨_, h1.register h2 h3, by rw [callsOf_append]; rfl⟩
  touch := by
    rintro m cs p ⟨ops, h1, rfl⟩ h2
    exact ⟨_, h1.touch h2, by rw [callsOf_append]; simp [callsOf]⟩

theorem late_closed (c : Conf) (m0 : Mem) (cs0 : List (List Event)) : HistClosed c (Late c m0 cs0) where
  register := by
    rintro m m' cs es ⟨ops, h1, rfl⟩ h2 h3
    exact ⟨_, h1.register h2 h3, by rw [callsOf_append, List.append_assoc]; rfl⟩
  touch := by
    rintro m cs p ⟨ops, h1, rfl⟩ h2
    exact ⟨_, h1.touch h2, by rw [callsOf_append]; simp [callsOf]⟩

/-- The query will give the answer of the volatile state `mq`, in which the lists
`cs` are registered. -/
structure QOk (s : Async) (q : AsyncQuery) (mq : Mem) (cs : List (List Event)) : Prop where
  gen : q.gen ≤ s.gen
  parts : mq.timeseries.partitions = s.mem.timeseries.partitions
  answer : ∀ d, mq.query s.conf d q.params =
    q.waiting.finish (s.changes q.gen).1 (s.changes q.gen).2 (q.waiting.read s.conf d)
  ready : q.tracked = true → ∀ m' : Mem, m'.timeseries.partitions = s.mem.timeseries.partitions → ∀ d,
    m'.query s.conf d q.params =
      q.waiting.finish m'.timeseries.changes m'.ref.changes (q.waiting.read s.conf d)
  cur : q.tracked = true → q.gen = s.gen → mq = s.mem ∧ cs = s.calls
  since : q.since ≤ cs.length
  pre : cs <+: s.calls
  part : ∀ p, q.waiting.partition = some p → p ∈ Dict.keys s.mem.timeseries.partitions

/-- With such a state among `H`. -/
def Tracked (H : Mem → List (List Event) → Prop) (s : Async) (q : AsyncQuery) : Prop :=
  ∃ mq cs, H mq cs ∧ QOk s q mq cs

theorem Tracked.mono {H H' : Mem → List (List Event) → Prop} {s : Async} {q : AsyncQuery}
    (h : Tracked H s q) (hH : ∀ m cs, m.timeseries.partitions = s.mem.timeseries.partitions → H m cs → H' m cs) :
    Tracked H' s q := by
  obtain ⟨mq, cs, h1, h2⟩ := h
  exact ⟨mq, cs, hH _ _ h2.parts h1, h2⟩

theorem Tracked.congr {H : Mem → List (List Event) → Prop} {s s' : Async} {q : AsyncQuery}
    (h : Tracked H s q) (h1 : s'.conf = s.conf) (h2 : s'.mem = s.mem) (h3 : s'.gen = s.gen) (h4 : s'.old = s.old)
    (h5 : s'.calls = s.calls) : Tracked H s' q := by
  obtain ⟨mq, cs, g1, g2⟩ := h
  have hc : s'.changes q.gen = s.changes q.gen := by simp only [Async.changes, h2, h3, h4]
  exact ⟨mq, cs, g1, by rw [h3]; exact g2.gen, by rw [h2]; exact g2.parts,
    by rw [h1, hc]; exact g2.answer, by rw [h1, h2]; exact g2.ready, by rw [h2, h3, h5]; exact g2.cur,
    g2.since, by rw [h5]; exact g2.pre, by rw [h2]; exact g2.part⟩

theorem Tracked.register {H : Mem → List (List Event) → Prop} {s : Async} {q : AsyncQuery}
    (h : Tracked H s q) (hc : HistClosed s.conf H) {es : List Event} {m' : Mem}
    (hr : s.mem.register s.conf es = .ok m') (hp : m'.timeseries.partitions = s.mem.timeseries.partitions) :
    Tracked H { s with mem := m', calls := s.calls ++ [es] } q := by
  obtain ⟨mq, cs, g1, g2⟩ := h
  by_cases hcur : q.tracked = true ∧ q.gen = s.gen
  · obtain ⟨rfl, rfl⟩ := g2.cur hcur.1 hcur.2
    refine ⟨m', s.calls ++ [es], hc.register g1 hr hp, g2.gen, rfl, ?_, ?_, fun _ _ => ⟨rfl, rfl⟩, ?_,
      List.prefix_rfl, ?_⟩
    · intro d
      have := g2.ready hcur.1 m' hp d
      rw [this]
      simp only [Async.changes, hcur.2, if_true]
    · intro ht m2 hm2 d
      exact g2.ready ht m2 (hm2.trans hp) d
    · have := g2.since; simp; omega
    · intro p h1; have := g2.part p h1; rwa [← hp] at this
  · refine ⟨mq, cs, g1, g2.gen, by rw [g2.parts]; exact hp.symm, ?_, ?_, fun a b => absurd ⟨a, b⟩ hcur, g2.since,
      g2.pre.trans (List.prefix_append _ _), ?_⟩
    · intro d
      rw [g2.answer d]
      by_cases ht : q.tracked = true
      · have hg : q.gen ≠ s.gen := fun hg => hcur ⟨ht, hg⟩
        simp only [Async.changes, hg, if_false]
      · exact finish_untracked (by simpa using ht) _ _ _ _ _
    · intro ht m2 hm2 d
      exact g2.ready ht m2 (hm2.trans hp) d
    · intro p h1; have := g2.part p h1; rwa [← hp] at this

@[simp] theorem touch_conf (s : Async) (g : Nat) (p : Int) : (s.touch g p).conf = s.conf := by
  unfold Async.touch; split <;> rfl
@[simp] theorem touch_calls (s : Async) (g : Nat) (p : Int) : (s.touch g p).calls = s.calls := by
  unfold Async.touch; split <;> rfl
@[simp] theorem touch_gen (s : Async) (g : Nat) (p : Int) : (s.touch g p).gen = s.gen := by
  unfold Async.touch; split <;> rfl
@[simp] theorem touch_disk (s : Async) (g : Nat) (p : Int) : (s.touch g p).disk = s.disk := by
  unfold Async.touch; split <;> rfl
@[simp] theorem touch_jobs (s : Async) (g : Nat) (p : Int) : (s.touch g p).jobs = s.jobs := by
  unfold Async.touch; split <;> rfl
@[simp] theorem touch_read (s : Async) (g : Nat) (p : Int) : (s.touch g p).read = s.read := by
  unfold Async.touch; split <;> rfl
@[simp] theorem touch_results (s : Async) (g : Nat) (p : Int) : (s.touch g p).results = s.results := by
  unfold Async.touch; split <;> rfl
@[simp] theorem touch_flusher (s : Async) (g : Nat) (p : Int) : (s.touch g p).flusher = s.flusher := by
  unfold Async.touch; split <;> rfl
@[simp] theorem touch_cb (s : Async) (g : Nat) (p : Int) : (s.touch g p).cb = s.cb := by
  unfold Async.touch; split <;> rfl
@[simp] theorem touch_isOpen (s : Async) (g : Nat) (p : Int) : (s.touch g p).isOpen = s.isOpen := by
  unfold Async.touch; split <;> rfl
@[simp] theorem touch_lost (s : Async) (g : Nat) (p : Int) : (s.touch g p).lost = s.lost := by
  unfold Async.touch; split <;> rfl
@[simp] theorem touch_requests (s : Async) (g : Nat) (p : Int) : (s.touch g p).requests = s.requests := by
  unfold Async.touch; split <;> rfl
@[simp] theorem touch_serving (s : Async) (g : Nat) (p : Int) : (s.touch g p).serving = s.serving := by
  unfold Async.touch; split <;> rfl
@[simp] theorem touch_flushed (s : Async) (g : Nat) (p : Int) : (s.touch g p).flushed = s.flushed := by
  unfold Async.touch; split <;> rfl
@[simp] theorem touch_registered (s : Async) (g : Nat) (p : Int) :
    (s.touch g p).mem.registered = s.mem.registered := by
  unfold Async.touch; split <;> rfl
@[simp] theorem touch_partitions (s : Async) (g : Nat) (p : Int) :
    (s.touch g p).mem.timeseries.partitions = s.mem.timeseries.partitions := by
  unfold Async.touch; split <;> rfl

theorem touch_mem (s : Async) (p : Int) : (s.touch s.gen p).mem = s.mem.touch p := by
  unfold Async.touch; simp

theorem touch_mem_old (s : Async) {g : Nat} (h : g ≠ s.gen) (p : Int) : (s.touch g p).mem = s.mem := by
  unfold Async.touch; simp [h]

theorem touch_old (s : Async) {g : Nat} (h : g ≠ s.gen) (p : Int) : (s.touch g p).old = fun g' => if g' = g then
        { s.old g' with timeseries := touchChanges (s.old g').timeseries p } else s.old g' := by
  unfold Async.touch; simp [h]

theorem finish_touch_changes (s : Async) (g : Nat) (p : Int) (w : Waiting) (g' : Nat) (r : ReadResult) :
    w.finish ((s.touch g p).changes g').1 ((s.touch g p).changes g').2 r =
      w.finish (s.changes g').1 (s.changes g').2 r := by
  unfold Async.changes
  rw [touch_gen]
  by_cases hg : g = s.gen
  · subst hg
    rw [touch_mem]
    split
    · exact finish_touch _ _ _ _ _
    · simp [Async.touch]
  · rw [touch_mem_old _ hg, touch_old _ hg]
    split
    · rfl
    · simp only
      split
      · exact finish_touch _ _ _ _ _
      · rfl

theorem Tracked.touch {H : Mem → List (List Event) → Prop} {s : Async} {q : AsyncQuery}
    (h : Tracked H s q) (hc : HistClosed s.conf H) {g : Nat} {p : Int}
    (hp : p ∈ Dict.keys s.mem.timeseries.partitions) : Tracked H (s.touch g p) q := by
  obtain ⟨mq, cs, g1, g2⟩ := h
  by_cases hcur : (q.tracked = true ∧ q.gen = s.gen) ∧ g = s.gen
  · obtain ⟨hcur, rfl⟩ := hcur
    obtain ⟨rfl, rfl⟩ := g2.cur hcur.1 hcur.2
    refine ⟨s.mem.touch p, s.calls, hc.touch g1 hp, by simpa using g2.gen, by rw [touch_mem], ?_, ?_, ?_,
      g2.since, by simp, by simpa using g2.part⟩
    · intro d
      rw [finish_touch_changes, touch_conf, ← g2.answer d, g2.ready hcur.1 (s.mem.touch p) rfl d,
        g2.ready hcur.1 s.mem rfl d]
      exact finish_touch _ _ _ _ _
    · intro ht m2 hm2 d
      rw [touch_conf]
      exact g2.ready ht m2 (by simpa using hm2) d
    · intro _ _
      exact ⟨(touch_mem _ _).symm, (touch_calls _ _ _).symm⟩
  · refine ⟨mq, cs, g1, by simpa using g2.gen, by simpa using g2.parts, ?_, ?_, ?_, g2.since,
      by simpa using g2.pre, by simpa using g2.part⟩
    · intro d
      rw [finish_touch_changes, touch_conf, g2.answer d]
    · intro ht m2 hm2 d
      rw [touch_conf]
      exact g2.ready ht m2 (by simpa using hm2) d
    · intro a b
      rw [touch_gen] at b
      rw [touch_mem_old _ (fun hg => hcur ⟨⟨a, b⟩, hg⟩), touch_calls]
      exact g2.cur a b

/-- The state after `create_changes`. -/
theorem Tracked.swap {H : Mem → List (List Event) → Prop} {s s' : Async} {q : AsyncQuery}
    (h : Tracked H s q) (h1 : s'.conf = s.conf) (h2 : s'.mem = s.mem.swapped) (h3 : s'.gen = s.gen + 1)
    (h4 : s'.old = fun g => if g = s.gen then s.mem.createChanges.1 else s.old g) (h5 : s'.calls = s.calls) :
    Tracked H s' q := by
  obtain ⟨mq, cs, g1, g2⟩ := h
  have hg := g2.gen
  refine ⟨mq, cs, g1, by omega, by rw [h2]; exact g2.parts, ?_, ?_, fun _ h => absurd h (by omega), g2.since,
    by rw [h5]; exact g2.pre, by rw [h2]; exact g2.part⟩
  · intro d
    rw [h1, g2.answer d]
    have hc : s'.changes q.gen = s.changes q.gen := by
      unfold Async.changes
      rw [h3, h4, if_neg (by omega)]
      by_cases hq : q.gen = s.gen
      · simp only [hq, if_true]; rfl
      · simp only [hq, if_false]
    rw [hc]
  · rw [h1, h2]; exact g2.ready

/-- A query that is submitted in state `s`. -/
theorem tracked_submit {H : Mem → List (List Event) → Prop} {s : Async} {w : Waiting} {params : QueryParams}
    (hH : H s.mem s.calls) (ha : ∀ d, s.mem.query s.conf d params =
      w.finish s.mem.timeseries.changes s.mem.ref.changes (w.read s.conf d))
    (hr : (AsyncQuery.mk params s.gen w s.calls.length).tracked = true → ∀ m' : Mem,
      m'.timeseries.partitions = s.mem.timeseries.partitions → ∀ d, m'.query s.conf d params =
        w.finish m'.timeseries.changes m'.ref.changes (w.read s.conf d))
    (hp : ∀ p, w.partition = some p → p ∈ Dict.keys s.mem.timeseries.partitions) :
    Tracked H s ⟨params, s.gen, w, s.calls.length⟩ := by
  refine ⟨s.mem, s.calls, hH, le_refl _, rfl, ?_, hr, fun _ _ => ⟨rfl, rfl⟩, le_refl _, List.prefix_rfl, hp⟩
  intro d
  simp only [Async.changes, if_true]
  exact ha d

theorem selectPartition_mem {params : QueryTimeseriesParams} {sub : Option Sub} {l : List (Int × Partition)}
    {q : Int} (h : selectPartition params sub l = .ok (some q)) : q ∈ Dict.keys l := by
  induction l with
  | nil => simp [selectPartition] at h
  | cons x l ih =>
    obtain ⟨a, part⟩ := x
    rw [selectPartition] at h
    rcases ite_cases h with ⟨_, h⟩ | ⟨_, h⟩
    · simp [Dict.keys] at ih ⊢; right; exact ih h
    · obtain ⟨b, _, h⟩ := bind_ok h
      rcases ite_cases h with ⟨_, h⟩ | ⟨_, h⟩
      · simp [Dict.keys] at ih ⊢; right; exact ih h
      · cases h; simp [Dict.keys]

/-! ### The invariant -/

/-- A result that is the answer of a sequential history. -/
def EarlyRes (c0 : Conf) (ops0 : List BackendOp) (s : Async)
    (x : QueryParams × Nat × Except PyErr QueryResult × Nat) : Prop :=
  ∃ d mq cs, Early c0 ops0 s.conf d mq cs ∧ x.2.2.1 = mq.query s.conf d x.1 ∧ x.2.1 ≤ cs.length ∧
    cs.length ≤ x.2.2.2 ∧ cs <+: s.calls

/-- A result that does not depend on the disk. -/
def LateRes (H : Mem → List (List Event) → Prop) (s : Async)
    (x : QueryParams × Nat × Except PyErr QueryResult × Nat) : Prop :=
  ∃ mq cs, H mq cs ∧ (∀ d, x.2.2.1 = mq.query s.conf d x.1) ∧ x.2.1 ≤ cs.length ∧ cs.length ≤ x.2.2.2 ∧
    cs <+: s.calls

theorem EarlyRes.congr {s s' : Async} {x : QueryParams × Nat × Except PyErr QueryResult × Nat}
    (h : EarlyRes c0 ops0 s x) (h1 : s'.conf = s.conf) (h2 : s.calls <+: s'.calls) : EarlyRes c0 ops0 s' x := by
  obtain ⟨d, mq, cs, g1, g2, g3, g4, g5⟩ := h
  exact ⟨d, mq, cs, by rw [h1]; exact g1, by rw [h1]; exact g2, g3, g4, g5.trans h2⟩

theorem LateRes.congr {H : Mem → List (List Event) → Prop} {s s' : Async}
    {x : QueryParams × Nat × Except PyErr QueryResult × Nat}
    (h : LateRes H s x) (h1 : s'.conf = s.conf) (h2 : s.calls <+: s'.calls) : LateRes H s' x := by
  obtain ⟨mq, cs, g1, g2, g3, g4, g5⟩ := h
  exact ⟨mq, cs, g1, by rw [h1]; exact g2, g3, g4, g5.trans h2⟩

/-- Queries and results: those in `pre` and those that have read see the disk as
it is; those in `post` see states in `H`. -/
structure Body (c0 : Conf) (ops0 : List BackendOp) (H : Mem → List (List Event) → Prop) (s : Async)
    (pre post : List Job) : Prop where
  closed : HistClosed s.conf H
  here : H s.mem s.calls
  refLe : RefLe s.mem
  early : ∀ q, .query q ∈ pre → Tracked (Early c0 ops0 s.conf s.disk) s q
  late : ∀ q, .query q ∈ post → Tracked H s q
  read : ∀ x ∈ s.read, ∃ d, x.2 = x.1.waiting.read s.conf d ∧ Tracked (Early c0 ops0 s.conf d) s x.1
  results : ∀ x ∈ s.results, EarlyRes c0 ops0 s x ∨ LateRes H s x

variable {H : Mem → List (List Event) → Prop} {s s' : Async} {pre post : List Job}

theorem Body.congr (h : Body c0 ops0 H s pre post) (h1 : s'.conf = s.conf) (h2 : s'.mem = s.mem)
    (h3 : s'.gen = s.gen) (h4 : s'.old = s.old) (h5 : s'.calls = s.calls) (h6 : s'.disk = s.disk)
    (h7 : ∀ x ∈ s'.read, x ∈ s.read) (h8 : s'.results = s.results) : Body c0 ops0 H s' pre post := by
  refine ⟨by rw [h1]; exact h.closed, by rw [h2, h5]; exact h.here, by rw [h2]; exact h.refLe, ?_, ?_, ?_, ?_⟩
  · intro q hq; rw [h1, h6]; exact (h.early q hq).congr h1 h2 h3 h4 h5
  · intro q hq; exact (h.late q hq).congr h1 h2 h3 h4 h5
  · intro x hx
    obtain ⟨d, g1, g2⟩ := h.read x (h7 x hx)
    exact ⟨d, by rw [h1]; exact g1, by rw [h1]; exact g2.congr h1 h2 h3 h4 h5⟩
  · intro x hx
    rw [h8] at hx
    rcases h.results x hx with g | g
    · exact .inl (g.congr h1 (by rw [h5]; exact List.prefix_rfl))
    · exact .inr (g.congr h1 (by rw [h5]; exact List.prefix_rfl))

theorem Body.jobs {pre' post' : List Job} (h : Body c0 ops0 H s pre post) (h1 : ∀ q, .query q ∈ pre' → .query q ∈ pre)
    (h2 : ∀ q, .query q ∈ post' → .query q ∈ post) : Body c0 ops0 H s pre' post' :=
  ⟨h.closed, h.here, h.refLe, fun q hq => h.early q (h1 _ hq), fun q hq => h.late q (h2 _ hq), h.read, h.results⟩

theorem Body.register (h : Body c0 ops0 H s pre post) {es : List Event} {m' : Mem}
    (hr : s.mem.register s.conf es = .ok m') :
    Body c0 ops0 H { s with mem := m', calls := s.calls ++ [es] } pre post ∧
      m'.registered = s.mem.registered ++ [es] ∧ m'.timeseries.partitions = s.mem.timeseries.partitions := by
  obtain ⟨m2, h1, h2, h3, h4⟩ := register_total (conf := s.conf) h.refLe es
  rw [hr] at h1
  cases h1
  refine ⟨⟨h.closed, h.closed.register h.here hr h3, h2, ?_, ?_, ?_, ?_⟩, h4, h3⟩
  · intro q hq; exact (h.early q hq).register (early_closed _ _ _ _) hr h3
  · intro q hq; exact (h.late q hq).register h.closed hr h3
  · intro x hx
    obtain ⟨d, g1, g2⟩ := h.read x hx
    exact ⟨d, g1, g2.register (early_closed _ _ _ _) hr h3⟩
  · intro x hx
    rcases h.results x hx with g | g
    · exact .inl (g.congr rfl (List.prefix_append _ _))
    · exact .inr (g.congr rfl (List.prefix_append _ _))

theorem Body.touch (h : Body c0 ops0 H s pre post) {g : Nat} {p : Int}
    (hp : p ∈ Dict.keys s.mem.timeseries.partitions) : Body c0 ops0 H (s.touch g p) pre post := by
  refine ⟨by rw [touch_conf]; exact h.closed, ?_, ?_, ?_, ?_, ?_, ?_⟩
  · rw [touch_calls]
    by_cases hg : g = s.gen
    · subst hg; rw [touch_mem]; exact h.closed.touch h.here hp
    · rw [touch_mem_old _ hg]; exact h.here
  · by_cases hg : g = s.gen
    · subst hg; rw [touch_mem]; have := h.refLe; exact this
    · rw [touch_mem_old _ hg]; exact h.refLe
  · intro q hq; rw [touch_conf, touch_disk]; exact (h.early q hq).touch (early_closed _ _ _ _) hp
  · intro q hq; exact (h.late q hq).touch h.closed hp
  · intro x hx
    rw [touch_read] at hx
    obtain ⟨d, g1, g2⟩ := h.read x hx
    exact ⟨d, by rw [touch_conf]; exact g1, by rw [touch_conf]; exact g2.touch (early_closed _ _ _ _) hp⟩
  · intro x hx
    rw [touch_results] at hx
    rcases h.results x hx with g | g
    · exact .inl (g.congr (by simp) (by simp))
    · exact .inr (g.congr (by simp) (by simp))

theorem Body.answer (h : Body c0 ops0 H s pre post) {params : QueryParams} {since : Nat}
    {r : Except PyErr QueryResult}
    (hr : EarlyRes c0 ops0 s (params, since, r, s.calls.length) ∨ LateRes H s (params, since, r, s.calls.length)) :
    Body c0 ops0 H (s.answer params since r) pre post := by
  refine ⟨h.closed, h.here, h.refLe, fun q hq => (h.early q hq).congr rfl rfl rfl rfl rfl,
    fun q hq => (h.late q hq).congr rfl rfl rfl rfl rfl, ?_, ?_⟩
  · intro x hx
    obtain ⟨d, g1, g2⟩ := h.read x hx
    exact ⟨d, g1, g2.congr rfl rfl rfl rfl rfl⟩
  · intro x hx
    simp only [Async.answer, List.mem_append, List.mem_singleton] at hx
    rcases hx with hx | rfl
    · rcases h.results x hx with g | g
      · exact .inl (g.congr rfl List.prefix_rfl)
      · exact .inr (g.congr rfl List.prefix_rfl)
    · rcases hr with g | g
      · exact .inl (g.congr rfl List.prefix_rfl)
      · exact .inr (g.congr rfl List.prefix_rfl)

theorem Body.submit (h : Body c0 ops0 H s pre post) {params : QueryParams} {w : Waiting}
    (ht : Tracked H s ⟨params, s.gen, w, s.calls.length⟩) :
    Body c0 ops0 H (s.submit params w) pre (post ++ [.query ⟨params, s.gen, w, s.calls.length⟩]) := by
  refine ⟨h.closed, h.here, h.refLe, fun q hq => (h.early q hq).congr rfl rfl rfl rfl rfl, ?_, ?_, ?_⟩
  · intro q hq
    simp only [List.mem_append, List.mem_singleton, Job.query.injEq] at hq
    rcases hq with hq | rfl
    · exact (h.late q hq).congr rfl rfl rfl rfl rfl
    · exact ht.congr rfl rfl rfl rfl rfl
  · intro x hx
    obtain ⟨d, g1, g2⟩ := h.read x hx
    exact ⟨d, g1, g2.congr rfl rfl rfl rfl rfl⟩
  · intro x hx
    rcases h.results x hx with g | g
    · exact .inl (g.congr rfl List.prefix_rfl)
    · exact .inr (g.congr rfl List.prefix_rfl)

theorem Body.answer_here (h : Body c0 ops0 H s pre post) {params : QueryParams} {r : Except PyErr QueryResult}
    (hr : ∀ d, r = s.mem.query s.conf d params) :
    Body c0 ops0 H (s.answer params s.calls.length r) pre post :=
  h.answer (.inr ⟨s.mem, s.calls, h.here, hr, le_refl _, le_refl _, List.prefix_rfl⟩)

/-- Only queries, results and pending entries differ. -/
structure SameRest (s s' : Async) : Prop where
  conf : s'.conf = s.conf
  disk : s'.disk = s.disk
  gen : s'.gen = s.gen
  old : s'.old = s.old
  running : s'.running = s.running
  raced : s'.raced = s.raced
  flusher : s'.flusher = s.flusher
  isOpen : s'.isOpen = s.isOpen
  requests : s'.requests = s.requests
  serving : s'.serving = s.serving
  cb : s'.cb = s.cb
  calls : s'.calls = s.calls
  flushed : s'.flushed = s.flushed
  lost : s'.lost = s.lost
  registered : s'.mem.registered = s.mem.registered
  partitions : s'.mem.timeseries.partitions = s.mem.timeseries.partitions

theorem SameRest.refl : SameRest s s := by constructor <;> rfl

theorem SameRest.trans {s'' : Async} (h : SameRest s s') (h' : SameRest s' s'') : SameRest s s'' := by
  constructor
  · exact h'.conf.trans h.conf
  · exact h'.disk.trans h.disk
  · exact h'.gen.trans h.gen
  · exact h'.old.trans h.old
  · exact h'.running.trans h.running
  · exact h'.raced.trans h.raced
  · exact h'.flusher.trans h.flusher
  · exact h'.isOpen.trans h.isOpen
  · exact h'.requests.trans h.requests
  · exact h'.serving.trans h.serving
  · exact h'.cb.trans h.cb
  · exact h'.calls.trans h.calls
  · exact h'.flushed.trans h.flushed
  · exact h'.lost.trans h.lost
  · exact h'.registered.trans h.registered
  · exact h'.partitions.trans h.partitions

theorem sameRest_answer (p : QueryParams) (n : Nat) (r : Except PyErr QueryResult) :
    SameRest s (s.answer p n r) := by constructor <;> rfl

theorem sameRest_submit (p : QueryParams) (w : Waiting) : SameRest s (s.submit p w) := by constructor <;> rfl

theorem sameRest_touch (p : Int) : SameRest s (s.touch s.gen p) := by
  unfold Async.touch; simp only [if_true]; constructor <;> rfl

/-- A step of a query. -/
def QueryStep (c0 : Conf) (ops0 : List BackendOp) (H : Mem → List (List Event) → Prop) (pre post : List Job)
    (s s' : Async) : Prop :=
  ∃ new : List Job, (∀ j ∈ new, ∃ q, j = .query q) ∧ s'.jobs = s.jobs ++ new ∧
    Body c0 ops0 H s' pre (post ++ new) ∧ SameRest s s'

theorem Body.answered (h : Body c0 ops0 H s pre post) {params : QueryParams} {r : Except PyErr QueryResult}
    (hr : ∀ d, r = s.mem.query s.conf d params) :
    QueryStep c0 ops0 H pre post s (s.answer params s.calls.length r) :=
  ⟨[], by simp, by simp [Async.answer], by simpa using h.answer_here hr, sameRest_answer _ _ _⟩

theorem Body.submitted (h : Body c0 ops0 H s pre post) {params : QueryParams} {w : Waiting}
    (ha : ∀ d, s.mem.query s.conf d params =
      w.finish s.mem.timeseries.changes s.mem.ref.changes (w.read s.conf d))
    (hr : (AsyncQuery.mk params s.gen w s.calls.length).tracked = true → ∀ m' : Mem,
      m'.timeseries.partitions = s.mem.timeseries.partitions → ∀ d, m'.query s.conf d params =
        w.finish m'.timeseries.changes m'.ref.changes (w.read s.conf d))
    (hp : ∀ p, w.partition = some p → p ∈ Dict.keys s.mem.timeseries.partitions) :
    QueryStep c0 ops0 H pre post s (s.submit params w) :=
  ⟨[.query ⟨params, s.gen, w, s.calls.length⟩], by simp, rfl, h.submit (tracked_submit h.here ha hr hp),
    sameRest_submit _ _⟩

theorem QueryStep.touched {p : Int} (h : QueryStep c0 ops0 H pre post (s.touch s.gen p) s') :
    QueryStep c0 ops0 H pre post s s' := by
  obtain ⟨new, h1, h2, h3, h4⟩ := h
  exact ⟨new, h1, by simpa using h2, h3, (sameRest_touch p).trans h4⟩

theorem Body.query (h : Body c0 ops0 H s pre post) (params : QueryParams) :
    QueryStep c0 ops0 H pre post s (s.query params) := by
  unfold Async.query
  split
  case isFalse => exact ⟨[], by simp, by simp, by simpa using h, .refl⟩
  case isTrue =>
  cases params with
  | latest t => exact h.answered fun d => rfl
  | server p =>
    simp only [Async.queryServer]
    split
    · next hw => exact h.answered fun d => by simp [Mem.query, RefDb.query, hw]
    · next hw =>
      have hw : wrongServer p = false := by simpa using hw
      exact h.submitted (fun d => query_server _ _ _ _ hw) (fun _ m' _ d => query_server _ _ _ _ hw)
        (by simp [Waiting.partition])
  | timeseries p =>
    simp only [Async.queryTimeseries]
    have hq := fun (m : Mem) d => query_timeseries s.conf d m p
    cases hsub : querySubscription s.conf p.eventTypes with
    | error e => simp only [hsub] at hq; exact h.answered fun d => (hq _ d).symm
    | ok sub =>
      simp only [hsub] at hq
      simp only
      have hsel : ∀ m' : Mem, m'.timeseries.partitions = s.mem.timeseries.partitions →
        selectPartition p sub m'.timeseries.partitions = selectPartition p sub s.mem.timeseries.partitions := by
        intro m' hm; rw [hm]
      cases hs : selectPartition p sub s.mem.timeseries.partitions with
      | error e => refine h.answered fun d => ?_; rw [hq, hs]
      | ok o =>
        cases o with
        | none => refine h.answered fun d => ?_; rw [hq, hs]
        | some q =>
          have hmem := selectPartition_mem hs
          simp only [Async.queryPartition]
          have hq' : ∀ m' : Mem, m'.timeseries.partitions = s.mem.timeseries.partitions → ∀ d,
              m'.query s.conf d (.timeseries p) = queryPartition s.conf d m'.timeseries q p sub
                (limitResults p.maxResults s.conf.maxResults) := by
            intro m' hm d
            rw [hq, hsel m' hm, hs]
          cases ho : p.order with
          | ascending =>
            simp only
            refine h.submitted (fun d => ?_) (fun _ m' hm d => ?_) ?_
            · rw [hq' _ rfl]; exact queryPartition_ascending _ _ _ _ _ _ _ ho _
            · rw [hq' _ hm]; exact queryPartition_ascending _ _ _ _ _ _ _ ho _
            · rintro _ ⟨⟩; exact hmem
          | descending =>
            simp only
            refine QueryStep.touched (p := q) ?_
            have hb : Body c0 ops0 H (s.touch s.gen q) pre post := h.touch hmem
            have hd : ∀ d ts ref, (s.touch s.gen q).mem.query (s.touch s.gen q).conf d (.timeseries p) =
                (match partitionChanges ((Dict.get s.mem.timeseries.changes q).getD []) p
                    (newFilter p sub (limitResults p.maxResults s.conf.maxResults)) with
                 | .error e => .error e
                 | .ok r =>
                   if r.2.maxResults < 1 then cutSeries r.1 (limitResults p.maxResults s.conf.maxResults)
                   else (Waiting.descending q p r.2 (limitResults p.maxResults s.conf.maxResults) r.1).finish ts ref
                     ((Waiting.descending q p r.2 (limitResults p.maxResults s.conf.maxResults) r.1).read
                       s.conf d)) := by
              intro d ts ref
              rw [touch_conf, hq' _ (by simp), queryPartition_descending _ _ _ _ _ _ _ ho ts ref, touch_mem]
              simp only [Mem.touch, touch_getD]
            cases hpc : partitionChanges ((Dict.get s.mem.timeseries.changes q).getD []) p
                (newFilter p sub (limitResults p.maxResults s.conf.maxResults)) with
            | error e =>
              simp only [hpc] at hd
              exact hb.answered fun d => (hd d [] []).symm
            | ok r =>
              simp only [hpc] at hd
              simp only
              split
              · next hlt =>
                simp only [hlt, if_true] at hd
                exact hb.answered fun d => (hd d [] []).symm
              · next hlt =>
                simp only [hlt, if_false] at hd
                refine hb.submitted (fun d => ?_) (fun ht => ?_) ?_
                · rw [touch_conf] at hd ⊢; exact hd d _ _
                · simp [AsyncQuery.tracked] at ht
                · simp [Waiting.partition]

theorem Body.finish (h : Body c0 ops0 H s pre post) (i : Nat) :
    Body c0 ops0 H (s.finish i) pre post ∧ (s.finish i).jobs = s.jobs ∧
      ((∃ g p, p ∈ Dict.keys s.mem.timeseries.partitions ∧ SameRest (s.touch g p) (s.finish i)) ∨
        SameRest s (s.finish i)) := by
  unfold Async.finish
  cases hx : s.read[i]? with
  | none => exact ⟨h, rfl, .inr .refl⟩
  | some x =>
    obtain ⟨q, r⟩ := x
    obtain ⟨d, h1, mq, cs, h2, h3⟩ := h.read _ (List.mem_of_getElem? hx)
    simp only at h1 h2 h3
    subst h1
    simp only
    have hres : ∀ s' : Async, s'.conf = s.conf → s'.calls = s.calls → EarlyRes c0 ops0 s' (q.params, q.since,
        q.waiting.finish (s.changes q.gen).1 (s.changes q.gen).2 (q.waiting.read s.conf d), s'.calls.length) := by
      intro s' e1 e2
      refine ⟨d, mq, cs, by rw [e1]; exact h2, by rw [e1]; exact (h3.answer d).symm, h3.since, ?_, by rw [e2]; exact h3.pre⟩
      rw [e2]; exact h3.pre.length_le
    cases hl : q.waiting.lookup (q.waiting.read s.conf d) with
    | none =>
      simp only [Async.touchLookup]
      refine ⟨Body.answer (s := { s with read := s.read.eraseIdx i }) ?_ (.inl (hres { s with read := s.read.eraseIdx i } rfl rfl)), rfl, .inr ?_⟩
      · exact h.congr rfl rfl rfl rfl rfl rfl (fun x hx => List.mem_of_mem_eraseIdx hx) rfl
      · constructor <;> rfl
    | some p =>
      simp only [Async.touchLookup]
      have hp := h3.part p (lookup_partition hl)
      refine ⟨Body.answer (s := { s.touch q.gen p with read := (s.touch q.gen p).read.eraseIdx i }) ?_
        (.inl (hres { s.touch q.gen p with read := (s.touch q.gen p).read.eraseIdx i } (touch_conf _ _ _) (touch_calls _ _ _))), ?_, .inl ⟨q.gen, p, hp, ?_⟩⟩
      · exact (h.touch hp).congr rfl rfl rfl rfl rfl rfl (fun x hx => List.mem_of_mem_eraseIdx hx) rfl
      · simp [Async.answer]
      · constructor <;> rfl

/-- Lists of a flush that is being written or notified. -/
def Flusher.inflight : Flusher → List (List Event)
  | .waiting registered _ | .notifying registered _ => registered
  | _ => []

/-- Lists that are written and will be notified. -/
def Flusher.written : Flusher → List (List Event)
  | .notifying registered _ => registered
  | _ => []

def Flusher.isWaiting : Flusher → Bool
  | .waiting .. => true
  | _ => false

/-- A history at whose end nothing is pending: cleanups after a flush. -/
def Spec.Synced (ops : List BackendOp) : Prop :=
  ∃ ops' cl, ops = ops' ++ cl ∧ (∀ op ∈ cl, op.isCleanup = true) ∧ (ops' = [] ∨ ∃ ops'', ops' = ops'' ++ [.flush])

theorem synced_cleanup {ops : List BackendOp} (h : Synced ops) (fl : Rat → Rat) (se : Rat → Option Int)
    (now : Timestamp) : Synced (ops ++ [.cleanup fl se now]) := by
  obtain ⟨a, b, rfl, h1, h2⟩ := h
  refine ⟨a, b ++ [.cleanup fl se now], by simp, ?_, h2⟩
  intro op ho
  simp only [List.mem_append, List.mem_singleton] at ho
  rcases ho with ho | rfl
  · exact h1 _ ho
  · rfl

def NoFlush (jobs : List Job) : Prop := ∀ g, .flush g ∉ jobs

/-- No flush waits for the thread. -/
structure Settled (c0 : Conf) (ops0 : List BackendOp) (s : Async) : Prop where
  flusher : s.flusher.isWaiting = false
  jobs : NoFlush s.jobs
  body : Body c0 ops0 (Early c0 ops0 s.conf s.disk) s [] s.jobs

/-- A flush waits for the thread. -/
structure Pending (c0 : Conf) (ops0 : List BackendOp) (s : Async) (opsA : List BackendOp) (mA : Mem)
    (pre post : List Job) (g : Nat) (final : Bool) : Prop where
  flusher : s.flusher = .waiting mA.registered final
  jobs : s.jobs = pre ++ .flush g :: post
  noPre : NoFlush pre
  noPost : NoFlush post
  gen : s.gen = g + 1
  old : s.old g = mA.createChanges.1
  hist : OpenAt c0 ops0 opsA s.disk s.conf mA
  calls : callsOf opsA = s.cb ++ mA.registered
  parts : mA.timeseries.partitions = s.mem.timeseries.partitions
  body : Body c0 ops0 (Late s.conf mA.swapped (callsOf opsA)) s pre post

/-- The invariant of a backend without failed flush. -/
structure Sim (c0 : Conf) (ops0 : List BackendOp) (s : Async) : Prop where
  seq : s.cb ++ s.flusher.inflight ++ s.mem.registered = s.calls
  disk : ∃ opsD mD, OpenAt c0 ops0 opsD s.disk s.conf mD ∧
    mD.timeseries.partitions = s.mem.timeseries.partitions ∧ Synced opsD ∧
    callsOf opsD = s.cb ++ s.flusher.written
  phase : Settled c0 ops0 s ∨ ∃ opsA mA pre post g final, Pending c0 ops0 s opsA mA pre post g final

theorem pending_congr {opsA : List BackendOp} {mA : Mem} {g : Nat} {final : Bool}
    (h : Pending c0 ops0 s opsA mA pre post g final) {new : List Job} (hn : NoFlush new)
    (hr : SameRest s s') (hj : s'.jobs = s.jobs ++ new)
    (hb : Body c0 ops0 (Late s.conf mA.swapped (callsOf opsA)) s' pre (post ++ new)) :
    Pending c0 ops0 s' opsA mA pre (post ++ new) g final where
  flusher := hr.flusher.trans h.flusher
  jobs := by rw [hj, h.jobs]; simp
  noPre := h.noPre
  noPost := by
    intro g' hg'
    rcases List.mem_append.1 hg' with hg' | hg'
    · exact h.noPost g' hg'
    · exact hn g' hg'
  gen := hr.gen.trans h.gen
  old := by rw [hr.old]; exact h.old
  hist := by rw [hr.disk, hr.conf]; exact h.hist
  calls := by rw [hr.cb]; exact h.calls
  parts := h.parts.trans hr.partitions.symm
  body := by rw [hr.conf]; exact hb

theorem settled_congr (h : Settled c0 ops0 s) {new : List Job} (hn : NoFlush new)
    (hr : SameRest s s') (hj : s'.jobs = s.jobs ++ new)
    (hb : Body c0 ops0 (Early c0 ops0 s.conf s.disk) s' [] (s.jobs ++ new)) : Settled c0 ops0 s' where
  flusher := by rw [hr.flusher]; exact h.flusher
  jobs := by
    intro g' hg'
    rw [hj] at hg'
    rcases List.mem_append.1 hg' with hg' | hg'
    · exact h.jobs g' hg'
    · exact hn g' hg'
  body := by rw [hr.conf, hr.disk, hj]; exact hb

/-- The parts of the invariant about callbacks and the disk do not change. -/
theorem sim_rest (h : Sim c0 ops0 s) (hr : SameRest s s')
    (hp : Settled c0 ops0 s' ∨ ∃ opsA mA pre post g final, Pending c0 ops0 s' opsA mA pre post g final) :
    Sim c0 ops0 s' where
  seq := by rw [hr.cb, hr.flusher, hr.registered, hr.calls]; exact h.seq
  disk := by rw [hr.disk, hr.conf, hr.partitions, hr.cb, hr.flusher]; exact h.disk
  phase := hp

theorem sim_query (h : Sim c0 ops0 s) (params : QueryParams) : Sim c0 ops0 (s.query params) := by
  have hnf : ∀ new : List Job, (∀ j ∈ new, ∃ q, j = .query q) → NoFlush new := by
    intro new hn g hg
    obtain ⟨q, hq⟩ := hn _ hg
    cases hq
  rcases h.phase with hs | ⟨opsA, mA, pre, post, g, final, hs⟩
  · obtain ⟨new, h1, h2, h3, h4⟩ := hs.body.query params
    exact sim_rest h h4 (.inl (settled_congr hs (hnf new h1) h4 h2 h3))
  · obtain ⟨new, h1, h2, h3, h4⟩ := hs.body.query params
    exact sim_rest h h4 (.inr ⟨opsA, mA, pre, post ++ new, g, final, pending_congr hs (hnf new h1) h4 h2 h3⟩)

theorem sim_register (h : Sim c0 ops0 s) (es : List Event) : Sim c0 ops0 (s.register es) := by
  unfold Async.register
  split
  case isFalse => exact h
  case isTrue =>
  cases hr : s.mem.register s.conf es with
  | error e => exact h
  | ok m' =>
    simp only
    have key : ∀ {H : Mem → List (List Event) → Prop} {pre post : List Job}, Body c0 ops0 H s pre post →
        m'.registered = s.mem.registered ++ [es] ∧ m'.timeseries.partitions = s.mem.timeseries.partitions :=
      fun hb => (hb.register hr).2
    have hm : m'.registered = s.mem.registered ++ [es] ∧
        m'.timeseries.partitions = s.mem.timeseries.partitions := by
      rcases h.phase with hs | ⟨opsA, mA, pre, post, g, final, hs⟩
      · exact key hs.body
      · exact key hs.body
    refine ⟨?_, ?_, ?_⟩
    · simp only [hm.1, ← h.seq, List.append_assoc]
    · obtain ⟨opsD, mD, h1, h2, h3, h4⟩ := h.disk
      exact ⟨opsD, mD, h1, h2.trans hm.2.symm, h3, h4⟩
    · rcases h.phase with hs | ⟨opsA, mA, pre, post, g, final, hs⟩
      · exact .inl ⟨hs.flusher, hs.jobs, (hs.body.register hr).1⟩
      · exact .inr ⟨opsA, mA, pre, post, g, final, hs.flusher, hs.jobs, hs.noPre, hs.noPost, hs.gen, hs.old,
          hs.hist, hs.calls, hs.parts.trans hm.2.symm, (hs.body.register hr).1⟩

theorem sim_finish (h : Sim c0 ops0 s) (i : Nat) : Sim c0 ops0 (s.finish i) := by
  rcases h.phase with hs | ⟨opsA, mA, pre, post, g, final, hs⟩
  · obtain ⟨h1, h2, h3⟩ := hs.body.finish i
    have hr : (s.finish i).conf = s.conf ∧ (s.finish i).disk = s.disk ∧ (s.finish i).flusher = s.flusher ∧
        (s.finish i).cb = s.cb ∧ (s.finish i).calls = s.calls ∧
        (s.finish i).mem.registered = s.mem.registered ∧
        (s.finish i).mem.timeseries.partitions = s.mem.timeseries.partitions := by
      rcases h3 with ⟨g, p, _, hr⟩ | hr
      · refine ⟨?_, ?_, ?_, ?_, ?_, ?_, ?_⟩
        · simpa using hr.conf
        · simpa using hr.disk
        · simpa using hr.flusher
        · simpa using hr.cb
        · simpa using hr.calls
        · simpa using hr.registered
        · simpa using hr.partitions
      · exact ⟨hr.conf, hr.disk, hr.flusher, hr.cb, hr.calls, hr.registered, hr.partitions⟩
    obtain ⟨r1, r2, r3, r4, r5, r6, r7⟩ := hr
    refine ⟨by rw [r3, r4, r5, r6]; exact h.seq, by rw [r1, r2, r3, r4, r7]; exact h.disk,
      .inl ⟨by rw [r3]; exact hs.flusher, by rw [h2]; exact hs.jobs, by rw [r1, r2, h2]; exact h1⟩⟩
  · obtain ⟨h1, h2, h3⟩ := hs.body.finish i
    rcases h3 with ⟨g', p, hp, hr⟩ | hr
    · have r1 := hr.conf
      have r2 := hr.disk
      have r3 := hr.flusher
      have r4 := hr.cb
      have r5 := hr.calls
      have r6 := hr.registered
      have r7 := hr.partitions
      have r8 := hr.gen
      have r9 := hr.old
      simp only [touch_conf, touch_disk, touch_flusher, touch_cb, touch_calls, touch_registered,
        touch_partitions, touch_gen] at r1 r2 r3 r4 r5 r6 r7 r8
      refine ⟨by rw [r3, r4, r5, r6]; exact h.seq, by rw [r1, r2, r3, r4, r7]; exact h.disk, .inr ?_⟩
      by_cases hg : g' = g
      · subst hg
        have hne : g' ≠ s.gen := by rw [hs.gen]; omega
        refine ⟨opsA ++ [.touch p], mA.touch p, pre, post, g', final, ?_⟩
        have hca : callsOf (opsA ++ [.touch p]) = callsOf opsA := by rw [callsOf_append]; simp [callsOf]
        refine ⟨by rw [r3]; exact hs.flusher, by rw [h2]; exact hs.jobs, hs.noPre, hs.noPost,
          by rw [r8]; exact hs.gen, ?_, ?_, by rw [r4, hca]; exact hs.calls, hs.parts.trans r7.symm,
          by rw [r1, hca]; exact h1⟩
        · rw [r9, touch_old _ hne]
          simp only [if_true, hs.old]
          rfl
        · rw [r1, r2]
          exact hs.hist.touch (by rw [hs.parts]; exact hp)
      · refine ⟨opsA, mA, pre, post, g, final, by rw [r3]; exact hs.flusher, by rw [h2]; exact hs.jobs, hs.noPre,
          hs.noPost, by rw [r8]; exact hs.gen, ?_, by rw [r1, r2]; exact hs.hist, by rw [r4]; exact hs.calls,
          hs.parts.trans r7.symm, by rw [r1]; exact h1⟩
        rw [r9]
        by_cases hne : g' = s.gen
        · subst hne
          simp only [Async.touch, if_true]; exact hs.old
        · rw [touch_old _ hne]
          simp only [if_neg (Ne.symm hg)]; exact hs.old
    · refine sim_rest h hr (.inr ⟨opsA, mA, pre, post, g, final, ?_⟩)
      have := pending_congr hs (new := []) (by intro g; simp) hr (by simpa using h2) (by simpa using h1)
      simpa using this

theorem lateRes_early {x : QueryParams × Nat × Except PyErr QueryResult × Nat}
    {d : Disk} (h : LateRes (Early c0 ops0 s.conf d) s x) : EarlyRes c0 ops0 s x := by
  obtain ⟨mq, cs, h1, h2, h3⟩ := h
  exact ⟨d, mq, cs, h1, h2 d, h3⟩

theorem sim_startFlush (h : Sim c0 ops0 s) : Sim c0 ops0 s.startFlush := by
  unfold Async.startFlush
  cases hf : s.flusher with
  | idle =>
    simp only
    rcases h.phase with hs | ⟨opsA, mA, pre, post, g, final, hs⟩
    case inr => have := hs.flusher; rw [hf] at this; cases this
    obtain ⟨opsA, hA, hcalls⟩ := hs.body.here
    have hseq := h.seq
    rw [hf] at hseq
    simp only [Flusher.inflight, List.append_nil] at hseq
    refine ⟨?_, ?_, .inr ⟨opsA, s.mem, s.jobs, [], s.gen, !s.isOpen, ?_⟩⟩
    · simp only [Flusher.inflight, List.append_nil]; exact hseq
    · have := h.disk; rw [hf] at this; exact this
    · refine ⟨rfl, rfl, hs.jobs, by intro g; simp, rfl, by simp, hA, by rw [hcalls]; exact hseq.symm, rfl, ?_⟩
      refine ⟨late_closed _ _ _, ⟨[], .nil, by rw [hcalls]; simp [callsOf]⟩, ?_, ?_, by simp, ?_, ?_⟩
      · have := hs.body.refLe; exact this
      · intro q hq
        exact (hs.body.late q hq).swap rfl rfl rfl rfl rfl
      · intro x hx
        obtain ⟨d, g1, g2⟩ := hs.body.read x hx
        exact ⟨d, g1, g2.swap rfl rfl rfl rfl rfl⟩
      · intro x hx
        rcases hs.body.results x hx with g | g
        · exact .inl (g.congr rfl List.prefix_rfl)
        · exact .inl ((lateRes_early g).congr rfl List.prefix_rfl)
  | _ => exact h

theorem Early.cleaned {mem : Mem} {d d' : Disk} {fl : Rat → Rat} {se : Rat → Option Int} {now : Timestamp}
    {r : Bool} (hc : extCleanup fl se now mem.timeseries.partitions d = .ok (d', r)) {m : Mem}
    {cs : List (List Event)} (hp : m.timeseries.partitions = mem.timeseries.partitions)
    (h : Early c0 ops0 c d m cs) : Early c0 ops0 c d' m cs := by
  obtain ⟨ops, h1, rfl⟩ := h
  exact ⟨_, h1.cleanup (by rw [hp]; exact hc), by rw [callsOf_append]; simp [callsOf]⟩

theorem noFlush_cons {j : Job} {l : List Job} (h : NoFlush (j :: l)) : NoFlush l :=
  fun g hg => h g (List.mem_cons_of_mem _ hg)

theorem sim_job_query (h : Sim c0 ops0 s) {q : AsyncQuery} {r : List Job} (hj : s.jobs = .query q :: r) :
    Sim c0 ops0 { s with jobs := r, read := s.read ++ [(q, q.waiting.read s.conf s.disk)] } := by
  refine ⟨h.seq, h.disk, ?_⟩
  have key : ∀ {H : Mem → List (List Event) → Prop} {pre post pre' post' : List Job}, Body c0 ops0 H s pre post →
      (∀ q, .query q ∈ pre' → .query q ∈ pre) → (∀ q, .query q ∈ post' → .query q ∈ post) →
      Tracked (Early c0 ops0 s.conf s.disk) s q →
      Body c0 ops0 H { s with jobs := r, read := s.read ++ [(q, q.waiting.read s.conf s.disk)] } pre' post' := by
    intro H pre post pre' post' hb h1 h2 ht
    refine ⟨hb.closed, hb.here, hb.refLe, fun q hq => (hb.early q (h1 q hq)).congr rfl rfl rfl rfl rfl,
      fun q hq => (hb.late q (h2 q hq)).congr rfl rfl rfl rfl rfl, ?_, ?_⟩
    · intro x hx
      simp only [List.mem_append, List.mem_singleton] at hx
      rcases hx with hx | rfl
      · obtain ⟨d, g1, g2⟩ := hb.read x hx
        exact ⟨d, g1, g2.congr rfl rfl rfl rfl rfl⟩
      · exact ⟨s.disk, rfl, ht.congr rfl rfl rfl rfl rfl⟩
    · intro x hx
      rcases hb.results x hx with g | g
      · exact .inl (g.congr rfl List.prefix_rfl)
      · exact .inr (g.congr rfl List.prefix_rfl)
  rcases h.phase with hs | ⟨opsA, mA, pre, post, g, final, hs⟩
  · have hno := hs.jobs
    rw [hj] at hno
    refine .inl ⟨hs.flusher, noFlush_cons hno, key hs.body (fun _ h => h) ?_ (hs.body.late q (by rw [hj]; simp))⟩
    intro q hq
    rw [hj]; exact List.mem_cons_of_mem _ hq
  · have hjj := hs.jobs
    rw [hj] at hjj
    cases pre with
    | nil => simp at hjj
    | cons j pre =>
      simp only [List.cons_append, List.cons.injEq] at hjj
      obtain ⟨rfl, rfl⟩ := hjj
      exact .inr ⟨opsA, mA, pre, post, g, final, hs.flusher, rfl, noFlush_cons hs.noPre, hs.noPost, hs.gen, hs.old,
        hs.hist, hs.calls, hs.parts, key hs.body (fun _ h => List.mem_cons_of_mem _ h) (fun _ h => h)
          (hs.body.early q (by simp))⟩

theorem sim_job_cleanup (h : Sim c0 ops0 s) {fl : Rat → Rat} {se : Rat → Option Int} {now : Timestamp}
    {r : List Job} (hj : s.jobs = .cleanup fl se now :: r) {d' : Disk} {b : Bool}
    (hc : extCleanup fl se now s.mem.timeseries.partitions s.disk = .ok (d', b)) :
    Sim c0 ops0 { s with jobs := r, disk := d' } := by
  refine ⟨h.seq, ?_, ?_⟩
  · obtain ⟨opsD, mD, h1, h2, h3, h4⟩ := h.disk
    exact ⟨_, mD, h1.cleanup (by rw [h2]; exact hc), h2, synced_cleanup h3 fl se now,
      by rw [callsOf_append, h4]; simp [callsOf]⟩
  rcases h.phase with hs | ⟨opsA, mA, pre, post, g, final, hs⟩
  · have hno := hs.jobs
    have hb := hs.body
    rw [hj] at hno
    refine .inl ⟨hs.flusher, noFlush_cons hno, early_closed _ _ _ _, hb.here.cleaned hc rfl, hb.refLe, by simp, ?_, ?_, ?_⟩
    · intro q hq
      exact ((hb.late q (by rw [hj]; exact List.mem_cons_of_mem _ hq)).mono
        fun m cs hp hm => hm.cleaned hc hp).congr rfl rfl rfl rfl rfl
    · intro x hx
      obtain ⟨d, g1, g2⟩ := hb.read x hx
      exact ⟨d, g1, g2.congr rfl rfl rfl rfl rfl⟩
    · intro x hx
      rcases hb.results x hx with g | g
      · exact .inl (g.congr rfl List.prefix_rfl)
      · exact .inl ((lateRes_early g).congr rfl List.prefix_rfl)
  · have hjj := hs.jobs
    have hb := hs.body
    rw [hj] at hjj
    cases pre with
    | nil => simp at hjj
    | cons j pre =>
      simp only [List.cons_append, List.cons.injEq] at hjj
      obtain ⟨rfl, rfl⟩ := hjj
      have hca : callsOf (opsA ++ [.cleanup fl se now]) = callsOf opsA := by rw [callsOf_append]; simp [callsOf]
      refine .inr ⟨opsA ++ [.cleanup fl se now], mA, pre, post, g, final, hs.flusher, rfl, noFlush_cons hs.noPre,
        hs.noPost, hs.gen, hs.old, hs.hist.cleanup (by rw [hs.parts]; exact hc), by rw [hca]; exact hs.calls, hs.parts, ?_⟩
      rw [hca]
      refine ⟨hb.closed, hb.here, hb.refLe, ?_, ?_, ?_, ?_⟩
      · intro q hq
        exact ((hb.early q (List.mem_cons_of_mem _ hq)).mono
          fun m cs hp hm => hm.cleaned hc hp).congr rfl rfl rfl rfl rfl
      · intro q hq
        exact (hb.late q hq).congr rfl rfl rfl rfl rfl
      · intro x hx
        obtain ⟨d, g1, g2⟩ := hb.read x hx
        exact ⟨d, g1, g2.congr rfl rfl rfl rfl rfl⟩
      · intro x hx
        rcases hb.results x hx with g | g
        · exact .inl (g.congr rfl List.prefix_rfl)
        · exact .inr (g.congr rfl List.prefix_rfl)

/-- Jobs leave the queue without effect. -/
theorem sim_job_drop (h : Sim c0 ops0 s) {fl : Rat → Rat} {se : Rat → Option Int} {now : Timestamp}
    {r : List Job} (hj : s.jobs = .cleanup fl se now :: r) :
    Sim c0 ops0 { s with jobs := r, isOpen := false } := by
  refine ⟨h.seq, h.disk, ?_⟩
  rcases h.phase with hs | ⟨opsA, mA, pre, post, g, final, hs⟩
  · have hno := hs.jobs
    rw [hj] at hno
    refine .inl ⟨hs.flusher, noFlush_cons hno, Body.congr (s := s) ?_ rfl rfl rfl rfl rfl rfl (fun _ h => h) rfl⟩
    exact hs.body.jobs (by simp) fun q hq => by rw [hj]; exact List.mem_cons_of_mem _ hq
  · have hjj := hs.jobs
    rw [hj] at hjj
    cases pre with
    | nil => simp at hjj
    | cons j pre =>
      simp only [List.cons_append, List.cons.injEq] at hjj
      obtain ⟨rfl, rfl⟩ := hjj
      refine .inr ⟨opsA, mA, pre, post, g, final, hs.flusher, rfl, noFlush_cons hs.noPre, hs.noPost, hs.gen, hs.old,
        hs.hist, hs.calls, hs.parts, Body.congr (s := s) ?_ rfl rfl rfl rfl rfl rfl (fun _ h => h) rfl⟩
      exact hs.body.jobs (fun q hq => List.mem_cons_of_mem _ hq) fun q hq => hq

/-- The flush that is executed. -/
theorem pending_of_flush (h : Sim c0 ops0 s) {g' : Nat} {r : List Job} (hj : s.jobs = .flush g' :: r) :
    ∃ opsA mA final, Pending c0 ops0 s opsA mA [] r g' final := by
  rcases h.phase with hs | ⟨opsA, mA, pre, post, g, final, hs⟩
  · exact absurd (by rw [hj]; simp) (hs.jobs g')
  · have hjj := hs.jobs
    rw [hj] at hjj
    cases pre with
    | nil =>
      simp only [List.nil_append, List.cons.injEq, Job.flush.injEq] at hjj
      obtain ⟨rfl, rfl⟩ := hjj
      exact ⟨opsA, mA, final, hs⟩
    | cons j pre =>
      simp only [List.cons_append, List.cons.injEq] at hjj
      obtain ⟨rfl, rfl⟩ := hjj
      exact absurd (by simp) (hs.noPre g')

theorem Late.flushed {opsA : List BackendOp} {mA : Mem} (h : OpenAt c0 ops0 opsA d c mA)
    (hf : extFlush d mA.createChanges.1 = .ok d') {m : Mem} {cs : List (List Event)}
    (hl : Late c mA.swapped (callsOf opsA) m cs) : Early c0 ops0 c d' m cs := by
  obtain ⟨ops, h1, rfl⟩ := hl
  exact ⟨_, (h.flush hf).vol h1, by simp only [callsOf_append]; simp [callsOf]⟩

theorem sim_job_flush (h : Sim c0 ops0 s) {g : Nat} {r : List Job} (hj : s.jobs = .flush g :: r) {d' : Disk}
    (hf : extFlush s.disk (s.old g) = .ok d') :
    Sim c0 ops0 { s with jobs := r, running := false, raced := false, disk := d', flusher := s.flusher.done true } := by
  obtain ⟨opsA, mA, final, hs⟩ := pending_of_flush h hj
  have hb := hs.body
  have hfl := hs.flusher
  rw [hs.old] at hf
  refine ⟨?_, ?_, .inl ?_⟩
  · have := h.seq
    rw [hfl] at this
    rw [hfl]; exact this
  · refine ⟨_, _, hs.hist.flush hf, hs.parts, ⟨_, [], (List.append_nil _).symm, by simp, .inr ⟨_, rfl⟩⟩, ?_⟩
    rw [hfl, callsOf_append, hs.calls]
    simp [callsOf, Flusher.done, Flusher.written]
  · refine ⟨by rw [hfl]; rfl, hs.noPost, early_closed _ _ _ _, hb.here.flushed hs.hist hf, hb.refLe, by simp, ?_, ?_, ?_⟩
    · intro q hq
      exact ((hb.late q hq).mono fun m cs hp hm => Late.flushed hs.hist hf hm).congr rfl rfl rfl rfl rfl
    · intro x hx
      obtain ⟨d, g1, g2⟩ := hb.read x hx
      exact ⟨d, g1, g2.congr rfl rfl rfl rfl rfl⟩
    · intro x hx
      rcases hb.results x hx with g | ⟨mq, cs, h1, h2, h3⟩
      · exact .inl (g.congr rfl List.prefix_rfl)
      · exact .inl ⟨d', mq, cs, Late.flushed hs.hist hf h1, h2 d', h3⟩

theorem sim_runJob (h : Sim c0 ops0 s) (raise : Bool) (hl : (s.runJob raise).lost = false) :
    Sim c0 ops0 (s.runJob raise) := by
  unfold Async.runJob at hl ⊢
  cases hj : s.jobs with
  | nil => exact h
  | cons j r =>
    rw [hj] at hl
    cases j with
    | query q => exact sim_job_query h hj
    | cleanup fl se now =>
      simp only at hl ⊢
      cases hc : extCleanup fl se now s.mem.timeseries.partitions s.disk with
      | error e => exact sim_job_drop h hj
      | ok res => exact sim_job_cleanup h hj (b := res.2) hc
    | flush g =>
      simp only at hl ⊢
      split at hl
      · simp at hl
      · next hr =>
        rw [if_neg hr]
        cases hf : extFlush s.disk (s.old g) with
        | error e => rw [hf] at hl; simp at hl
        | ok d' => exact sim_job_flush h hj hf

theorem sim_fields (h : Sim c0 ops0 s) (r1 : s'.conf = s.conf) (r2 : s'.disk = s.disk)
    (r3 : s'.flusher = s.flusher) (r4 : s'.cb = s.cb) (r5 : s'.calls = s.calls) (r8 : s'.gen = s.gen)
    (r9 : s'.old = s.old) (hm : s'.mem = s.mem) (hj : s'.jobs = s.jobs) (h7 : s'.read = s.read)
    (h8 : s'.results = s.results) : Sim c0 ops0 s' := by
  refine ⟨by rw [r3, r4, r5, hm]; exact h.seq, by rw [r1, r2, r3, r4, hm]; exact h.disk, ?_⟩
  rcases h.phase with hs | ⟨opsA, mA, pre, post, g, final, hs⟩
  · exact .inl ⟨by rw [r3]; exact hs.flusher, by rw [hj]; exact hs.jobs, by
      rw [r1, r2, hj]; exact hs.body.congr r1 hm r8 r9 r5 r2 (by rw [h7]; exact fun _ h => h) h8⟩
  · exact .inr ⟨opsA, mA, pre, post, g, final, by rw [r3]; exact hs.flusher, by rw [hj]; exact hs.jobs, hs.noPre,
      hs.noPost, by rw [r8]; exact hs.gen, by rw [r9]; exact hs.old, by rw [r1, r2]; exact hs.hist,
      by rw [r4]; exact hs.calls, by rw [hm]; exact hs.parts, by
      rw [r1]; exact hs.body.congr r1 hm r8 r9 r5 r2 (by rw [h7]; exact fun _ h => h) h8⟩

theorem sim_notify (h : Sim c0 ops0 s) : Sim c0 ops0 s.notify := by
  have key : ∀ {s' : Async}, s.flusher.isWaiting = false → s'.flusher.isWaiting = false → s'.conf = s.conf →
      s'.mem = s.mem → s'.gen = s.gen → s'.old = s.old → s'.calls = s.calls → s'.disk = s.disk →
      s'.read = s.read → s'.results = s.results → s'.jobs = s.jobs → Settled c0 ops0 s' := by
    intro s' h0 h0' h1 h2 h3 h4 h5 h6 h7 h8 h9
    rcases h.phase with hs | ⟨opsA, mA, pre, post, g, final, hs⟩
    · refine ⟨h0', by rw [h9]; exact hs.jobs, ?_⟩
      rw [h1, h6, h9]
      exact hs.body.congr h1 h2 h3 h4 h5 h6 (by rw [h7]; exact fun _ h => h) h8
    · rw [hs.flusher] at h0; simp [Flusher.isWaiting] at h0
  unfold Async.notify
  have h1 := h.seq
  have h2 := h.disk
  cases hf : s.flusher with
  | notifying reg final =>
    rw [hf] at h1 h2 key
    cases reg with
    | cons events r =>
      simp only
      refine ⟨?_, ?_, .inl (key rfl rfl rfl rfl rfl rfl rfl rfl rfl rfl rfl)⟩
      · simp only [Flusher.inflight] at h1 ⊢
        rw [← h1]; simp
      · simp only [Flusher.written] at h2 ⊢
        simpa using h2
    | nil =>
      simp only
      refine ⟨?_, ?_, .inl (key rfl ?_ rfl rfl rfl rfl rfl rfl rfl rfl rfl)⟩
      · cases final <;> exact h1
      · cases final <;> exact h2
      · cases final <;> rfl
  | failed final =>
    rw [hf] at h1 h2 key
    simp only
    refine ⟨?_, ?_, .inl (key rfl ?_ rfl rfl rfl rfl rfl rfl rfl rfl rfl)⟩
    · cases final <;> exact h1
    · cases final <;> exact h2
    · cases final <;> rfl
  | _ => exact h

theorem lost_step (s : Async) (a : Act) (h : (s.step a).lost = false) : s.lost = false := by
  have hq : ∀ p, (s.query p).lost = s.lost := by
    intro p
    unfold Async.query
    split
    · cases p with
      | latest t => rfl
      | server p => simp only [Async.queryServer]; split <;> rfl
      | timeseries p =>
        simp only [Async.queryTimeseries]
        split
        · rfl
        · split
          · rfl
          · rfl
          · simp only [Async.queryPartition]
            split
            · split
              · simp [Async.answer]
              · split <;> simp [Async.answer, Async.submit]
            · rfl
    · rfl
  cases a with
  | register es =>
    simp only [Async.step, Async.register] at h
    split at h
    · split at h <;> exact h
    · exact h
  | query p => simpa [Async.step, hq] using h
  | request => simp only [Async.step] at h; split at h <;> exact h
  | flush => simp only [Async.step, Async.startFlush] at h; split at h <;> exact h
  | cleanup => simp only [Async.step] at h; split at h <;> exact h
  | start => simp only [Async.step, Async.startJob] at h; split at h <;> exact h
  | job raise =>
    simp only [Async.step, Async.runJob] at h
    split at h
    · exact h
    · exact h
    · split at h <;> exact h
    · split at h
      · simp at h
      · split at h
        · exact h
        · simp at h
  | finish i =>
    simp only [Async.step, Async.finish] at h
    split at h
    · exact h
    · simp only [Async.answer] at h
      rename_i q r _
      revert h
      cases q.waiting.lookup r <;> simp [Async.touchLookup]
  | notify => simp only [Async.step, Async.notify] at h; split at h <;> exact h
  | close => exact h

theorem sim_step (h : s.lost = false → Sim c0 ops0 s) (a : Act) :
    (s.step a).lost = false → Sim c0 ops0 (s.step a) := by
  intro hl
  have h := h (lost_step s a hl)
  cases a with
  | register es => exact sim_register h es
  | query p => exact sim_query h p
  | request =>
    simp only [Async.step]
    split
    · exact sim_fields h rfl rfl rfl rfl rfl rfl rfl rfl rfl rfl rfl
    · exact h
  | flush => exact sim_startFlush h
  | cleanup fl se now =>
    simp only [Async.step]
    split
    · refine ⟨h.seq, h.disk, ?_⟩
      have hnf : NoFlush [Job.cleanup fl se now] := by intro g; simp
      have hbody : ∀ {H : Mem → List (List Event) → Prop} {pre post : List Job}, Body c0 ops0 H s pre post →
          Body c0 ops0 H { s with jobs := s.jobs ++ [.cleanup fl se now] } pre (post ++ [.cleanup fl se now]) :=
        fun hb => Body.congr (hb.jobs (fun _ h => h) (by simp)) rfl rfl rfl rfl rfl rfl (fun _ h => h) rfl
      rcases h.phase with hs | ⟨opsA, mA, pre, post, g, final, hs⟩
      · exact .inl (settled_congr hs hnf (by constructor <;> rfl) rfl (hbody hs.body))
      · exact .inr ⟨opsA, mA, pre, _, g, final, pending_congr hs hnf (by constructor <;> rfl) rfl (hbody hs.body)⟩
    · exact h
  | start =>
    simp only [Async.step, Async.startJob]
    split
    · exact sim_fields h rfl rfl rfl rfl rfl rfl rfl rfl rfl rfl rfl
    · exact h
  | job raise => exact sim_runJob h raise hl
  | finish i => exact sim_finish h i
  | notify => exact sim_notify h
  | close => exact sim_fields h rfl rfl rfl rfl rfl rfl rfl rfl rfl rfl rfl

/-- The start. -/
theorem sim_create {conf : Conf} {disk : Disk} {mem : Mem} (h : OpenAt c0 ops0 [] disk conf mem)
    (hr : mem.registered = []) : Sim c0 ops0 (Async.create conf disk mem) := by
  refine ⟨by simp [Async.create, Flusher.inflight, hr], ⟨[], mem, h, rfl, ⟨[], [], rfl, by simp, .inl rfl⟩, rfl⟩, .inl ?_⟩
  refine ⟨rfl, by intro g; simp [Async.create], early_closed _ _ _ _, ⟨[], h, rfl⟩, h.refLe, by simp, ?_, ?_, ?_⟩
  all_goals simp [Async.create]

theorem sim_run {conf : Conf} {disk : Disk} {mem : Mem} (h : OpenAt c0 ops0 [] disk conf mem)
    (hr : mem.registered = []) (acts : List Act) (hl : ((Async.create conf disk mem).run acts).lost = false) :
    Sim c0 ops0 ((Async.create conf disk mem).run acts) := by
  revert hl
  induction acts using List.reverseRecOn with
  | nil => exact fun _ => sim_create h hr
  | append_singleton acts a ih =>
    have : (Async.create conf disk mem).run (acts ++ [a]) = ((Async.create conf disk mem).run acts).step a := by
      simp [Async.run]
    rw [this]
    exact sim_step ih a

end HatEvent
