import Verif.Proof.LmdbOpen
import Verif.Props.Collection

/-!
# C46 and C48: identity of a database and of its partitions
-/

namespace HatEvent
open Spec

/-! ## C46 -/

/-- Opening is refused, without any effect on the file, if the stored version
is another one or if a stored and a configured identifier differ. -/
theorem C46_rejects (b : Backend) (hn : (Dict.keys b.disk.settings).Nodup) (c : Conf)
    (h : (∃ v, Dict.get b.disk.settings .version = some v ∧ v ≠ "0.9") ∨
      ∃ i j, Dict.get b.disk.settings .identifier = some i ∧ c.identifier = some j ∧ i ≠ j) :
    (b.step (.reopen c)).mem = none ∧ (b.step (.reopen c)).disk = b.disk := by
  have hs := validateSettings_spec b.disk.settings hn backendVersion c.identifier
  rw [if_neg] at hs
  · obtain ⟨e, he⟩ := hs
    unfold Backend.step createDbs
    simp only [he]
    exact ⟨rfl, rfl⟩
  · rintro ⟨h1, h2⟩
    rcases h with ⟨v, hv, hne⟩ | ⟨i, j, hi, hj, hne⟩
    · rw [hv] at h1
      simp only [reduceCtorEq, Option.some.injEq, false_or] at h1
      exact hne h1
    · rw [hi, hj] at h2
      simp only [reduceCtorEq, Option.some.injEq, false_or] at h2
      exact hne h2

/-- After a successful opening the file has the version, and the identifier
that was stored before or else the configured one. -/
theorem C46_opened (b : Backend) (hn : (Dict.keys b.disk.settings).Nodup) (c : Conf)
    (h : (b.step (.reopen c)).mem ≠ none) :
    Dict.get (b.step (.reopen c)).disk.settings .version = some "0.9" ∧
      (∀ i, Dict.get b.disk.settings .identifier = some i →
        Dict.get (b.step (.reopen c)).disk.settings .identifier = some i ∧
        (c.identifier = none ∨ c.identifier = some i)) ∧
      (Dict.get b.disk.settings .identifier = none →
        Dict.get (b.step (.reopen c)).disk.settings .identifier = c.identifier) := by
  have hs := validateSettings_spec b.disk.settings hn backendVersion c.identifier
  have hstep : b.step (.reopen c) = (match createDbs c b.disk with
    | .ok (disk, m) => { b with disk := disk, conf := c, mem := some m }
    | .error _ => { b with conf := c, mem := none }) := rfl
  cases hc : createDbs c b.disk with
  | error e => rw [hstep, hc] at h; exact absurd rfl h
  | ok r =>
    obtain ⟨d, m⟩ := r
    obtain ⟨s, p, hs', hp, rfl, rfl⟩ := createDbs_ok hc
    rw [hs'] at hs
    by_cases hcond : (Dict.get b.disk.settings .version = none ∨
        Dict.get b.disk.settings .version = some backendVersion) ∧
        (c.identifier = none ∨ Dict.get b.disk.settings .identifier = none ∨
          Dict.get b.disk.settings .identifier = c.identifier)
    · rw [if_pos hcond] at hs
      obtain ⟨s', he, _, h1, h2⟩ := hs
      cases he
      rw [hstep, hc]
      refine ⟨h1, ?_, ?_⟩
      · intro i hi
        rw [hi] at h2 hcond
        refine ⟨h2, ?_⟩
        rcases hcond.2 with h | h | h
        · exact .inl h
        · simp at h
        · exact .inr h.symm
      · intro hi; rw [hi] at h2; exact h2
    · rw [if_neg hcond] at hs
      obtain ⟨e, he⟩ := hs
      simp at he

/-- A stored identifier (and version) is never changed: not by opening with
any configuration nor by anything else the backend does. -/
theorem C46_identifier_kept (b : Backend) (hn : (Dict.keys b.disk.settings).Nodup)
    (ops : List BackendOp) (i : String) (h : Dict.get b.disk.settings .identifier = some i) :
    Dict.get (b.run ops).disk.settings .identifier = some i := by
  have key : ∀ (ops : List BackendOp) (b : Backend), (Dict.keys b.disk.settings).Nodup →
      Dict.get b.disk.settings .identifier = some i →
      Dict.get (b.run ops).disk.settings .identifier = some i := by
    intro ops
    induction ops with
    | nil => intro b _ h; exact h
    | cons op ops ih =>
      intro b hn h
      have hb : b.run (op :: ops) = (b.step op).run ops := rfl
      rw [hb]
      have hk : (Dict.keys (b.step op).disk.settings).Nodup ∧
          Dict.get (b.step op).disk.settings .identifier = some i := by
        rcases step_settings b op with ⟨c, rfl⟩ | ⟨h1, _⟩
        · have hst := stepTo b (.reopen c)
          have ho := C46_opened b hn c
          generalize b.step (.reopen c) = b' at hst ho
          cases hst with
          | closed _ h => exact absurd rfl (h c)
          | reopenFail _ => exact ⟨hn, h⟩
          | reopen hc =>
            refine ⟨?_, ((ho (by simp)).2.1 i h).1⟩
            obtain ⟨s, p, hs', _, rfl, _⟩ := createDbs_ok hc
            have hs := validateSettings_spec b.disk.settings hn backendVersion c.identifier
            rw [hs'] at hs
            split at hs
            · obtain ⟨s', he, h1, _⟩ := hs
              cases he; exact h1
            · obtain ⟨e, he⟩ := hs; simp at he
        · rw [h1]; exact ⟨hn, h⟩
      exact ih _ hk.1 hk.2
  exact key ops b hn h

/-- Configuration used in examples. -/
def exConf (identifier : Option String) (partitions : List Partition) : Conf where
  identifier := identifier
  conditions := fun _ => true
  latestSub := exA
  partitions := partitions
  lookup := fun d t => d.filter fun p => p.2.subscription.matches t
  pick := fun _ => 0
  useC := false

/-- A file that was created with identifier `x` ... -/
def exOpened : Backend := (Backend.new (exConf (some "x") [])).run [.reopen (exConf (some "x") [])]

theorem exOpened_mem : exOpened.mem ≠ none := by
  unfold exOpened Backend.run Backend.step
  simp only [List.foldl_cons, List.foldl_nil]
  have : createDbs (exConf (some "x") []) (Backend.new (exConf (some "x") [])).disk = .ok
    (⟨[(.version, "0.9"), (.identifier, "x")], [], [], [], [], [], [], [], []⟩,
     ⟨⟨[], [], [], []⟩, ⟨[], [], 1, [], []⟩, ⟨[], []⟩, ⟨[], []⟩, []⟩) := rfl
  rw [this]; simp

/-- ... is not opened with identifier `y` (hypotheses of `C46_rejects`). -/
example : (exOpened.step (.reopen (exConf (some "y") []))).mem = none :=
  (C46_rejects exOpened (by decide) (exConf (some "y") [])
    (.inr ⟨"x", "y", by decide, rfl, by decide⟩)).1

/-- ... and keeps `x` (hypotheses of `C46_identifier_kept`). -/
example : Dict.get (exOpened.run [.flush, .reopen (exConf (some "y") []), .flush,
    .reopen (exConf none [])]).disk.settings .identifier = some "x" :=
  C46_identifier_kept exOpened (by decide) _ "x" (by decide)

/-- The hypotheses of `C46_opened` hold for a new file. -/
example : (Backend.new (exConf none [])).mem = none ∧
    Dict.get ((Backend.new (exConf none [])).step (.reopen (exConf (some "x") []))).disk.settings
      .identifier = some "x" :=
  ⟨rfl, (C46_opened (Backend.new (exConf none [])) (by decide) (exConf (some "x") [])
    exOpened_mem).2.2 rfl⟩

/-! ## C48 -/

/-- Two partitions have the same description exactly when they have the same
ordering and the same query types (as a collection, in any order). -/
theorem C48_description (p q : Partition) :
    partitionData p = partitionData q ↔
      p.orderBy = q.orderBy ∧ p.subscription.getQueryTypes.Perm q.subscription.getQueryTypes := by
  unfold partitionData
  simp only [PartitionData.mk.injEq]
  refine and_congr_right fun _ => ⟨fun h => ?_, typeSort_eq_of_perm⟩
  have h1 := List.perm_insertionSort (fun a b => typeLe a b = true) p.subscription.getQueryTypes
  rw [h] at h1
  exact h1.symm.trans (List.perm_insertionSort _ _)

/-- The identities of the open backend are those of the partition table. -/
def PartsOk (b : Backend) : Prop :=
  PartTableOk b.disk.tsPartition ∧
    ∀ m, b.mem = some m → (Dict.keys m.timeseries.partitions).Nodup ∧
      ∀ i p, Dict.get m.timeseries.partitions i = some p →
        Dict.get b.disk.tsPartition i = some (partitionData p)

theorem step_partTable (b : Backend) (op : BackendOp) (h : PartsOk b) :
    PartsOk (b.step op) ∧
      (∀ i d, Dict.get b.disk.tsPartition i = some d →
        Dict.get (b.step op).disk.tsPartition i = some d) := by
  have hst := stepTo b op
  generalize b.step op = b' at hst
  cases hst with
  | closed h1 h2 => exact ⟨h, fun i d hi => hi⟩
  | register h1 h2 =>
    refine ⟨⟨h.1, ?_⟩, fun i d hi => hi⟩
    rintro m2 ⟨⟩
    rw [register_partitions h2]
    exact h.2 _ h1
  | registerFail h1 h2 => exact ⟨⟨h.1, by simp⟩, fun i d hi => hi⟩
  | touch h1 =>
    refine ⟨⟨h.1, ?_⟩, fun i d hi => hi⟩
    rintro m2 ⟨⟩
    have := h.2 _ h1
    exact this
  | flush h1 h2 =>
    obtain ⟨_, _, _, _, _, _, _, _, _, _, _, _, _, _, rfl⟩ := extFlush_ok h2
    refine ⟨⟨h.1, ?_⟩, fun i d hi => hi⟩
    rintro m2 ⟨⟩
    have := h.2 _ h1
    exact this
  | flushFail h1 h2 => exact ⟨⟨h.1, by simp⟩, fun i d hi => hi⟩
  | cleanup h1 h2 =>
    obtain ⟨_, _, _, _, ⟨_, rfl⟩ | ⟨_, _, _, rfl⟩⟩ := extCleanup_ok h2 <;>
      exact ⟨⟨h.1, h.2⟩, fun i d hi => hi⟩
  | cleanupFail h1 h2 => exact ⟨⟨h.1, by simp⟩, fun i d hi => hi⟩
  | reopen h1 =>
    obtain ⟨s, p, _, hp, rfl, rfl⟩ := createDbs_ok h1
    have hi := (initPartitions_ok h.1 hp).1
    refine ⟨⟨hi.table, ?_⟩, hi.keeps⟩
    rintro m2 ⟨⟩
    exact ⟨hi.resultNodup, hi.result⟩
  | reopenFail h1 => exact ⟨⟨h.1, by simp⟩, fun i d hi => hi⟩

theorem run_partTable (b : Backend) (ops : List BackendOp) (h : PartsOk b) :
    PartsOk (b.run ops) ∧
      (∀ i d, Dict.get b.disk.tsPartition i = some d →
        Dict.get (b.run ops).disk.tsPartition i = some d) := by
  induction ops generalizing b with
  | nil => exact ⟨h, fun i d hi => hi⟩
  | cons op ops ih =>
    obtain ⟨h1, h2⟩ := step_partTable b op h
    obtain ⟨h3, h4⟩ := ih (b.step op) h1
    exact ⟨h3, fun i d hi => h4 i d (h2 i d hi)⟩

theorem partsOk_new (c : Conf) : PartsOk (Backend.new c) :=
  ⟨⟨List.Pairwise.nil, by simp [Backend.new, Disk.empty], by simp [Backend.new, Disk.empty]⟩, by simp [Backend.new]⟩

/-- Identities of partitions in one or two openings of a file (`ops'` may
contain any number of crashes and openings with any configurations): the same
identity is used exactly for the same ordering and query types. -/
theorem C48_identity (c0 : Conf) (ops ops' : List BackendOp) (m m' : Mem)
    (hm : ((Backend.new c0).run ops).mem = some m)
    (hm' : (((Backend.new c0).run ops).run ops').mem = some m')
    (i j : Int) (p q : Partition)
    (hp : Dict.get m.timeseries.partitions i = some p)
    (hq : Dict.get m'.timeseries.partitions j = some q) :
    i = j ↔ (p.orderBy = q.orderBy ∧
      p.subscription.getQueryTypes.Perm q.subscription.getQueryTypes) := by
  rw [← C48_description]
  obtain ⟨h1, _⟩ := run_partTable _ ops (partsOk_new c0)
  obtain ⟨h2, h3⟩ := run_partTable _ ops' h1
  have e1 := h3 _ _ ((h1.2 m hm).2 i p hp)
  have e2 := (h2.2 m' hm').2 j q hq
  constructor
  · rintro rfl
    rw [e1] at e2; exact Option.some.inj e2
  · intro e
    rw [e] at e1
    exact h2.1.inj _ _ _ e1 e2

/-- Every configured partition is available under some identity, and nothing
else is; entries of all partitions, configured or not, stay stored. -/
theorem C48_configured (c0 : Conf) (ops : List BackendOp) (c : Conf) (m : Mem)
    (hm : (((Backend.new c0).run ops).step (.reopen c)).mem = some m) :
    (∀ p ∈ c.partitions, ∃ i q, Dict.get m.timeseries.partitions i = some q ∧
      q.orderBy = p.orderBy ∧ q.subscription.getQueryTypes.Perm p.subscription.getQueryTypes) ∧
    (((Backend.new c0).run ops).step (.reopen c)).disk.tsData =
      ((Backend.new c0).run ops).disk.tsData := by
  obtain ⟨h, _⟩ := run_partTable _ ops (partsOk_new c0)
  generalize (Backend.new c0).run ops = b at *
  have hst := stepTo b (.reopen c)
  generalize b.step (.reopen c) = b' at *
  cases hst with
  | closed _ h => exact absurd rfl (h c)
  | reopenFail _ => simp at hm
  | reopen h1 =>
    obtain ⟨s, p, _, hp, rfl, rfl⟩ := createDbs_ok h1
    simp only [Option.some.injEq] at hm
    subst hm
    refine ⟨?_, rfl⟩
    intro q hq
    obtain ⟨i, q', h2, h3⟩ := (initPartitions_ok h.1 hp).2 q hq
    exact ⟨i, q', h2, ((C48_description _ _).1 h3).1, ((C48_description _ _).1 h3).2⟩

/-- Two partitions of an example configuration. -/
def exPartitions : List Partition := [⟨.timestamp, exA, none⟩, ⟨.sourceTimestamp, exAB, none⟩]

/-- Their order is changed and one more added in a second configuration; the
identities 1 and 2 stay with their partitions (hypotheses of `C48_identity`
and `C48_configured`). -/
example :
    (((Backend.new (exConf none [])).run [.reopen (exConf none exPartitions)]).mem.map
      fun m => m.timeseries.partitions) =
        some [(1, ⟨.timestamp, exA, none⟩), (2, ⟨.sourceTimestamp, exAB, none⟩)] ∧
    (((Backend.new (exConf none [])).run [.reopen (exConf none exPartitions), .flush,
      .reopen (exConf none (⟨.timestamp, exAB, none⟩ :: exPartitions.reverse))]).mem.map
      fun m => m.timeseries.partitions) =
        some [(3, ⟨.timestamp, exAB, none⟩), (2, ⟨.sourceTimestamp, exAB, none⟩),
          (1, ⟨.timestamp, exA, none⟩)] := ⟨by rfl, by rfl⟩

end HatEvent
