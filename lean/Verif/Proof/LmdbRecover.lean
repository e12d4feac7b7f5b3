import Verif.Proof.LmdbRefine
import Verif.Props.LmdbOpen
import Mathlib.Data.List.Induction

/-!
# Opening a database again
-/

namespace HatEvent
open Spec

/-! ### Opening a second time changes nothing -/

theorem set_same {κ υ : Type} [DecidableEq κ] {d : Dict κ υ} {k : κ} {v : υ}
    (h : Dict.get d k = some v) : Dict.set d k v = d := by
  induction d with
  | nil => simp at h
  | cons p d ih =>
    obtain ⟨a, b⟩ := p
    rw [Dict.get_cons] at h
    unfold Dict.set
    by_cases hk : a = k
    · simp only [hk, if_true, Option.some.injEq] at h
      simp [hk, h]
    · simp only [hk, if_false] at h
      simp [hk, ih h]

theorem writeBack_same (l s : Dict SettingsId String) (h : ∀ x ∈ l, Dict.get s x.1 = some x.2) :
    l.foldl (fun d p => Dict.set d p.1 p.2) s = s := by
  induction l with
  | nil => rfl
  | cons p l ih =>
    rw [List.foldl_cons, set_same (h p (by simp))]
    exact ih fun x hx => h x (List.mem_cons_of_mem _ hx)

theorem mem_of_del {κ υ : Type} [DecidableEq κ] {d : Dict κ υ} {k : κ} {x : κ × υ}
    (h : x ∈ Dict.del d k) : x ∈ d := by
  induction d with
  | nil => exact h
  | cons p d ih =>
    obtain ⟨a, b⟩ := p
    unfold Dict.del at h
    split at h
    · exact List.mem_cons_of_mem _ (ih h)
    · rcases List.mem_cons.1 h with h | h
      · rw [h]; simp
      · exact List.mem_cons_of_mem _ (ih h)

theorem validateSettings_again {stored s : Dict SettingsId String} (hn : (Dict.keys stored).Nodup)
    {version : String} {identifier : Option String}
    (h : validateSettings stored version identifier = .ok s) :
    (Dict.keys s).Nodup ∧ validateSettings s version identifier = .ok s := by
  have hs := validateSettings_spec stored hn version identifier
  rw [h] at hs
  split at hs
  swap
  · obtain ⟨e, he⟩ := hs; simp at he
  next hc =>
  obtain ⟨s', he, hsn, hv, hi⟩ := hs
  cases he
  refine ⟨hsn, ?_⟩
  have h1 : validateVersion s version = .ok (Dict.del s .version) := by
    unfold validateVersion; rw [hv]; simp
  unfold validateSettings
  rw [h1, ok_bind]
  have h2 : validateIdentifier (Dict.del s .version) identifier =
      .ok (Dict.del (Dict.del s .version) .identifier) := by
    unfold validateIdentifier
    cases identifier with
    | none => rfl
    | some i =>
      have : Dict.get (Dict.del s .version) .identifier = some i := by
        rw [Dict.get_del]
        simp only [reduceCtorEq, if_false]
        rw [hi]
        rcases hc.2 with h | h | h
        · simp at h
        · rw [h]
        · rw [h]
      rw [this]; simp
  rw [h2, ok_bind]
  simp only [pure_ok, Except.ok.injEq]
  exact writeBack_same _ _ fun x hx => Dict.get_of_mem hsn (mem_of_del (mem_of_del hx))

theorem initPartition_result {t : Table Int PartitionData} {s s' : InitPartitions} {p : Partition}
    (h : InitOk t s) (hs : initPartition s p = .ok s') :
    (∀ i d, Dict.get s.table i = some d → Dict.get s'.table i = some d) ∧
    ∃ i, Dict.get s'.table i = some (partitionData p) ∧ s'.result = Dict.set s.result i p := by
  unfold initPartition at hs
  simp only at hs
  cases hc : Dict.get s.cache (partitionData p) with
  | some i =>
    rw [hc] at hs
    simp only [pure_ok, Except.ok.injEq] at hs
    subst hs
    exact ⟨fun i d hi => hi, i, (h.cache _ _).1 hc, rfl⟩
  | none =>
    rw [hc] at hs
    simp only at hs
    obtain ⟨t', ht', hs⟩ := bind_ok hs
    simp only [pure_ok, Except.ok.injEq] at hs
    obtain ⟨ht, henc⟩ := Table.write_eq ht'
    simp only [List.foldl_cons, List.foldl_nil] at ht
    subst hs
    have hget : ∀ k, Dict.get t' k = if s.next = k then some (partitionData p) else Dict.get s.table k := by
      intro k; rw [ht, Table.get_put]
    refine ⟨?_, s.next, by simp [hget], rfl⟩
    intro i d hi
    have := h.next _ _ hi
    simp only [hget]
    rw [if_neg (by omega)]; exact hi

theorem initPartitions_result {t : Table Int PartitionData} {ps : List Partition} {s : InitPartitions}
    (h : PartTableOk t) (hs : initPartitions t ps = .ok s) (f : Partition → Int)
    (hf : ∀ p i, Dict.get s.table i = some (partitionData p) → f p = i) :
    (∀ p ∈ ps, Dict.get s.table (f p) = some (partitionData p)) ∧
      s.result = ps.foldl (fun r p => Dict.set r (f p) p) [] := by
  have key : ∀ (ps : List Partition) (s0 s : InitPartitions), InitOk t s0 →
      ps.foldlM initPartition s0 = .ok s →
      (∀ i d, Dict.get s0.table i = some d → Dict.get s.table i = some d) ∧
      ((∀ p i, Dict.get s.table i = some (partitionData p) → f p = i) →
        (∀ p ∈ ps, Dict.get s.table (f p) = some (partitionData p)) ∧
        s.result = ps.foldl (fun r p => Dict.set r (f p) p) s0.result) := by
    intro ps
    induction ps with
    | nil =>
      intro s0 s _ h
      simp only [List.foldlM_nil, pure_ok, Except.ok.injEq] at h
      subst h
      exact ⟨fun i d hi => hi, fun _ => ⟨by simp, rfl⟩⟩
    | cons p ps ih =>
      intro s0 s h0 h
      rw [List.foldlM_cons] at h
      obtain ⟨s1, h1, h2⟩ := bind_ok h
      obtain ⟨a1, i, a2, a3⟩ := initPartition_result h0 h1
      obtain ⟨b1, b2⟩ := ih s1 s (initPartition_ok h0 h1).1 h2
      refine ⟨fun i d hi => b1 i d (a1 i d hi), fun hf => ?_⟩
      obtain ⟨b3, b4⟩ := b2 hf
      have hp := b1 _ _ a2
      have hfp := hf p i hp
      refine ⟨?_, ?_⟩
      · intro q hq
        rcases List.mem_cons.1 hq with rfl | hq
        · rw [hfp]; exact hp
        · exact b3 q hq
      · rw [b4, a3, List.foldl_cons, hfp]
  exact (key ps _ s (initOk_start t h) hs).2 hf

theorem initPartitions_known {t : Table Int PartitionData} (h : PartTableOk t) {ps : List Partition}
    (f : Partition → Int) (hf : ∀ p ∈ ps, Dict.get t (f p) = some (partitionData p)) :
    ∃ s, initPartitions t ps = .ok s ∧ s.table = t ∧
      s.result = ps.foldl (fun r p => Dict.set r (f p) p) [] := by
  have key : ∀ (ps : List Partition) (s0 : InitPartitions),
      (∀ d i, Dict.get s0.cache d = some i ↔ Dict.get s0.table i = some d) →
      (∀ p ∈ ps, Dict.get s0.table (f p) = some (partitionData p)) →
      ∃ s, ps.foldlM initPartition s0 = .ok s ∧ s.table = s0.table ∧
        s.result = ps.foldl (fun r p => Dict.set r (f p) p) s0.result := by
    intro ps
    induction ps with
    | nil => intro s0 _ _; exact ⟨s0, rfl, rfl, rfl⟩
    | cons p ps ih =>
      intro s0 h0 hf
      have h1 : initPartition s0 p = .ok { s0 with result := Dict.set s0.result (f p) p } := by
        unfold initPartition
        simp only [(h0 _ _).2 (hf p (by simp))]
        rfl
      obtain ⟨s, h2, h3, h4⟩ := ih { s0 with result := Dict.set s0.result (f p) p } h0
        (fun q hq => hf q (List.mem_cons_of_mem _ hq))
      refine ⟨s, ?_, h3, h4⟩
      rw [List.foldlM_cons, h1]; exact h2
  exact key ps _ (fun d i => cache_spec t h d i) hf

theorem initPartitions_again {t : Table Int PartitionData} {ps : List Partition} {s : InitPartitions}
    (h : PartTableOk t) (hs : initPartitions t ps = .ok s) :
    ∃ s', initPartitions s.table ps = .ok s' ∧ s'.table = s.table ∧ s'.result = s.result := by
  have hi := (initPartitions_ok h hs).1
  let f : Partition → Int := fun p => (Dict.get s.cache (partitionData p)).getD 0
  have hf : ∀ p i, Dict.get s.table i = some (partitionData p) → f p = i := by
    intro p i hp
    have := (hi.cache _ _).2 hp
    simp only [f, this, Option.getD_some]
  obtain ⟨h1, h2⟩ := initPartitions_result h hs f hf
  obtain ⟨s', h3, h4, h5⟩ := initPartitions_known hi.table f h1
  exact ⟨s', h3, h4, by rw [h5, h2]⟩

/-- The file of an open backend can be opened again and nothing changes. -/
def Reopenable (b : Backend) : Prop :=
  (Dict.keys b.disk.settings).Nodup ∧ PartTableOk b.disk.tsPartition ∧
    ∀ m, b.mem = some m →
      validateSettings b.disk.settings backendVersion b.conf.identifier = .ok b.disk.settings ∧
      ∃ s, initPartitions b.disk.tsPartition b.conf.partitions = .ok s ∧
        s.table = b.disk.tsPartition ∧ s.result = m.timeseries.partitions

theorem reopenable_step {b : Backend} (h : Reopenable b) (op : BackendOp) : Reopenable (b.step op) := by
  obtain ⟨hn, hp, ho⟩ := h
  have hst := stepTo b op
  generalize b.step op = b' at hst
  cases hst with
  | closed h1 h2 => exact ⟨hn, hp, ho⟩
  | register h1 h2 =>
    refine ⟨hn, hp, ?_⟩
    rintro m2 ⟨⟩
    rw [register_partitions h2]
    exact ho _ h1
  | registerFail h1 h2 => exact ⟨hn, hp, by simp⟩
  | touch h1 =>
    refine ⟨hn, hp, ?_⟩
    rintro m2 ⟨⟩
    have := ho _ h1
    exact this
  | flush h1 h2 =>
    obtain ⟨_, _, _, _, _, _, _, _, _, _, _, _, _, _, rfl⟩ := extFlush_ok h2
    refine ⟨hn, hp, ?_⟩
    rintro m2 ⟨⟩
    have := ho _ h1
    exact this
  | flushFail h1 h2 => exact ⟨hn, hp, by simp⟩
  | cleanup h1 h2 =>
    obtain ⟨_, _, _, _, ⟨_, rfl⟩ | ⟨_, _, _, rfl⟩⟩ := extCleanup_ok h2 <;> exact ⟨hn, hp, ho⟩
  | cleanupFail h1 h2 => exact ⟨hn, hp, by simp⟩
  | reopen h1 =>
    obtain ⟨s, p, hv, hip, rfl, rfl⟩ := createDbs_ok h1
    obtain ⟨v1, v2⟩ := validateSettings_again hn hv
    refine ⟨v1, (initPartitions_ok hp hip).1.table, ?_⟩
    rintro m2 ⟨⟩
    exact ⟨v2, initPartitions_again hp hip⟩
  | reopenFail h1 => exact ⟨hn, hp, by simp⟩

theorem reopenable_run (conf : Conf) (ops : List BackendOp) :
    Reopenable ((Backend.new conf).run ops) := by
  induction ops using List.reverseRecOn with
  | nil =>
    exact ⟨by simp [Backend.run, Backend.new, Disk.empty], (partsOk_new conf).1,
      by simp [Backend.run, Backend.new]⟩
  | append_singleton ops op ih => rw [run_snoc]; exact reopenable_step ih op

theorem createDbs_again {b : Backend} (h : Reopenable b) {m : Mem} (hm : b.mem = some m) :
    createDbs b.conf b.disk = .ok (b.disk,
      { system := SystemDb.create b.disk
        latest := LatestDb.create b.conf b.disk
        timeseries := ⟨m.timeseries.partitions, []⟩
        ref := ⟨[], []⟩
        registered := [] }) := by
  obtain ⟨h1, s, h2, h3, h4⟩ := h.2.2 m hm
  unfold createDbs
  simp only [h1, h2, ok_bind, h3, h4, pure_ok]

/-! ### Actions between two flushes -/

/-- The action is a cleanup. -/
def BackendOp.isCleanup : BackendOp → Bool
  | .cleanup _ _ _ => true
  | _ => false

/-- The action neither flushes nor opens. -/
def BackendOp.isVolatile : BackendOp → Bool
  | .flush => false
  | .reopen _ => false
  | _ => true

/-- Same file, both open (with the same partitions) or both closed. -/
structure SameFile (b b' : Backend) : Prop where
  disk : b.disk = b'.disk
  conf : b.conf = b'.conf
  cb : b.flushedCb = b'.flushedCb
  mem : b.mem.map (fun m => m.timeseries.partitions) = b'.mem.map fun m => m.timeseries.partitions

theorem step_conf {b : Backend} {op : BackendOp} (h : ∀ c, op ≠ .reopen c) : (b.step op).conf = b.conf := by
  have hst := stepTo b op
  generalize b.step op = b' at hst
  cases hst <;> first | rfl | exact absurd rfl (h _)

theorem step_closed {b : Backend} {op : BackendOp} (hb : b.mem = none) (h : ∀ c, op ≠ .reopen c) :
    b.step op = b := by
  cases op with
  | reopen c => exact absurd rfl (h c)
  | _ => simp only [Backend.step, hb]

theorem sameFile_run {b b' : Backend} {w : World} (hw : WorldRel b w)
    (hlc : b.mem ≠ none → LookupLaw b.conf) (h : SameFile b b') (ops : List BackendOp)
    (hv : ∀ op ∈ ops, op.isVolatile = true) :
    SameFile (b.run ops) (b'.run (ops.filter BackendOp.isCleanup)) := by
  induction ops generalizing b b' w with
  | nil => exact h
  | cons op ops ih =>
    have hvo := hv op (by simp)
    have hne : ∀ c, op ≠ .reopen c := by rintro c rfl; simp [BackendOp.isVolatile] at hvo
    obtain ⟨w', _, hw'⟩ := step_rel hw hlc op
    have hv' := fun o ho => hv o (List.mem_cons_of_mem _ ho)
    have hcf : (b.step op).conf = b.conf := step_conf hne
    have hlc' : (b.step op).mem ≠ none → LookupLaw (b.step op).conf := by
      intro hm
      rw [hcf]
      apply hlc
      intro hb
      apply hm
      rw [step_closed hb hne]; exact hb
    have hrun : ∀ (x : Backend) (l : List BackendOp), x.run (op :: l) = (x.step op).run l := fun _ _ => rfl
    rw [hrun]
    obtain ⟨d, c, m, f⟩ := b
    obtain ⟨d', c', m', f'⟩ := b'
    obtain ⟨h1, h2, h3, h4⟩ := h
    cases h1; cases h2; cases h3
    cases op with
    | flush => simp [BackendOp.isVolatile] at hvo
    | reopen c => exact absurd rfl (hne c)
    | register es =>
      refine ih hw' hlc' ?_ hv'
      cases m with
      | none => exact ⟨rfl, rfl, rfl, h4⟩
      | some m =>
        obtain ⟨ho, hmr⟩ := hw.opened m rfl
        have hl := hlc (by simp)
        have hcw := hw.conf
        simp only at hl hcw
        rw [← hcw] at hmr
        obtain ⟨m3, h5, _⟩ := register_rel hl hw.okC hmr es
        simp only [Backend.step, h5]
        exact ⟨rfl, rfl, rfl, by simpa [register_partitions h5] using h4⟩
    | touch p =>
      refine ih hw' hlc' ?_ hv'
      cases m with
      | none => exact ⟨rfl, rfl, rfl, h4⟩
      | some m => exact ⟨rfl, rfl, rfl, h4⟩
    | cleanup fl se now =>
      rw [List.filter_cons_of_pos (by rfl), hrun]
      refine ih hw' hlc' ?_ hv'
      cases m with
      | none =>
        cases m' with
        | none => exact ⟨rfl, rfl, rfl, rfl⟩
        | some m' => simp at h4
      | some m =>
        cases m' with
        | none => simp at h4
        | some m' =>
          simp only [Option.map_some, Option.some.injEq] at h4
          simp only [Backend.step, ← h4]
          cases hx : extCleanup fl se now m.timeseries.partitions d with
          | ok r => exact ⟨rfl, rfl, rfl, by simp [h4]⟩
          | error e => exact ⟨rfl, rfl, rfl, rfl⟩

end HatEvent
