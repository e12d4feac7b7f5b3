import Verif.Proof.LmdbBytesRun
import Verif.Proof.LmdbBytesEnv
import Verif.Props.LmdbServer

/-!
# C91: the backend on the bytes of the file
-/

namespace HatEvent
open Spec

/-- C91: a backend that keeps encoded keys and values in a file, compares keys as bytes and
decodes what it reads is in the same state, has reported the same events and
answers all queries like a backend that keeps the events themselves, if no
partition is configured to keep a negative number of entries. -/
theorem C91_same_partial {env : ByteEnv} (he : LawfulEnv env) (conf : Conf) (ops : List BackendOp)
    (hl : LookupLaws ops) (hn : NonNegMins ops) (hr : ReadableEvents env.json ops) :
    let bytes := (ByteBackend.new conf).run env ops
    let b := (Backend.new conf).run ops
    bytes.mem = b.mem ∧ bytes.flushedCb = b.flushedCb ∧ (∀ params, bytes.query env params = b.query params) := by
  have h := sameRun he conf ops hl (.inr hn) hr
  refine ⟨h.mem, h.flushedCb, fun params => ?_⟩
  unfold ByteBackend.query Backend.query
  rw [h.mem]
  cases ((Backend.new conf).run ops).mem with
  | none => rfl
  | some m => simp only; rw [h.conf]; exact query_eq he h.disk _ m params

/-- C91: at any time the file holds the encodings of the tables, entry by entry, in the
order of the tables. -/
theorem C91_file {env : ByteEnv} (he : LawfulEnv env) (conf : Conf) (ops : List BackendOp)
    (hl : LookupLaws ops) (hn : NonNegMins ops) (hr : ReadableEvents env.json ops) :
    FileHolds env ((ByteBackend.new conf).run env ops).disk ((Backend.new conf).run ops).disk :=
  (sameRun he conf ops hl (.inr hn) hr).disk.fileHolds

/-! ### Examples -/

/-- The history of `exCleaned` and a cleanup. -/
def exBytes : List BackendOp := exCleaned ++ [.cleanup id (fun _ => none) ⟨7, 0⟩]

example : ∃ env, LawfulEnv env ∧ LookupLaws exBytes ∧ NonNegMins exBytes ∧ ReadableEvents env.json exBytes := by
  obtain ⟨env, _, h, hj⟩ := env_exists true
  refine ⟨env, h, ?_, ?_, fun _ _ e _ => hj e.payload⟩
  · intro c hc
    simp only [exBytes, exCleaned, List.mem_cons, reduceCtorEq, BackendOp.reopen.injEq, List.not_mem_nil, or_false,
      List.cons_append, List.nil_append] at hc
    subst hc
    exact exConf_lookup _ _
  · intro c hc
    simp only [exBytes, exCleaned, List.mem_cons, reduceCtorEq, BackendOp.reopen.injEq, List.not_mem_nil, or_false,
      List.cons_append, List.nil_append] at hc
    subst hc
    intro p hp limit hl n hn
    simp only [exConf, exLimited, List.mem_cons, List.not_mem_nil, or_false] at hp
    rcases hp with rfl | rfl
    · cases hl; cases hn; norm_num
    · cases hl

/-! ### A negative number of entries -/

/-- A partition that is to keep no entries, with a negative number for that. -/
def exNegative : Conf := exConf none [⟨.timestamp, exA, some { minEntries := some (-1), maxEntries := some (-1) }⟩]

/-- An event is stored ... -/
def exNegStored : List BackendOp := [.reopen exNegative, .register [exE 1 1 1 ["a"] 1 none], .flush]

/-- ... and is removed later. -/
def exNegCleaned : List BackendOp := exNegStored ++ [.cleanup id (fun _ => none) ⟨7, 0⟩]

example : ((Backend.new exNegative).run exNegCleaned).mem.isSome = true := by rfl

theorem exNeg_laws : LookupLaws exNegCleaned := by
  intro c hc
  simp only [exNegCleaned, exNegStored, List.mem_cons, reduceCtorEq, BackendOp.reopen.injEq, List.not_mem_nil,
    or_false, List.cons_append, List.nil_append] at hc
  subst hc
  exact exConf_lookup _ _

/-- The entry of the event. -/
def exNegKey : TimeseriesKey := ⟨1, ⟨1, 0⟩, ⟨1, 1, 1⟩⟩

set_option maxRecDepth 100000 in
/-- Cleanup of a file with this entry alone. -/
theorem exNeg_cleanup (jc : JsonCodec) (sbs : SbsCodec) (a b c d e f g : ByteTable) (w : Bytes) :
    (extCleanupB ⟨jc, sbs, true⟩ id (fun _ => none) ⟨7, 0⟩
      [(1, ⟨.timestamp, exA, some { minEntries := some (-1), maxEntries := some (-1) }⟩)]
      ⟨a, b, c, d, e, f, [((encodeTimeseriesKey exNegKey).toOption.getD [], w)], g,
        [((encodeUint 1).toOption.getD [], (encodeUint 1).toOption.getD [])]⟩).toOption.isNone = true := by rfl

/-- C91 without the assumption on the configurations does not hold: after the last entry
of the table is removed, the cleanup goes on with an empty key, cannot decode it and closes
the backend. -/
theorem C91_same_refuted : ¬ ∀ (env : ByteEnv), LawfulEnv env → ∀ (conf : Conf) (ops : List BackendOp),
    LookupLaws ops → ReadableEvents env.json ops →
    ((ByteBackend.new conf).run env ops).mem = ((Backend.new conf).run ops).mem := by
  intro hall
  obtain ⟨env, hd, he, hj⟩ := env_exists true
  have h := hall env he exNegative exNegCleaned exNeg_laws fun _ _ e _ => hj e.payload
  have hs := sameRun he exNegative exNegStored (fun c hc => exNeg_laws c (by
    unfold exNegCleaned; exact List.mem_append_left _ hc))
    (.inl fun fl se now hc => by simp [exNegStored] at hc) fun _ _ e _ => hj e.payload
  obtain ⟨jc, sbs, dl⟩ := env
  simp only at hd
  subst hd
  have hrun : (ByteBackend.new exNegative).run ⟨jc, sbs, true⟩ exNegCleaned =
      ((ByteBackend.new exNegative).run ⟨jc, sbs, true⟩ exNegStored).step ⟨jc, sbs, true⟩
        (.cleanup id (fun _ => none) ⟨7, 0⟩) := byteRun_snoc ..
  rw [hrun] at h
  generalize (ByteBackend.new exNegative).run ⟨jc, sbs, true⟩ exNegStored = bb at h hs
  have h1 := hs.disk.tsData
  have h2 := hs.disk.tsCount
  rw [show ((Backend.new exNegative).run exNegStored).disk.tsData = [(exNegKey, exE 1 1 1 ["a"] 1 none)] by rfl] at h1
  rw [show ((Backend.new exNegative).run exNegStored).disk.tsCount = [(1, 1)] by rfl] at h2
  have hm : bb.mem.isSome = true := by rw [hs.mem]; rfl
  have hparts : ∀ m, bb.mem = some m → m.timeseries.partitions =
      [(1, ⟨.timestamp, exA, some { minEntries := some (-1), maxEntries := some (-1) }⟩)] := by
    intro m hmm
    rw [hs.mem] at hmm
    cases hmm
    rfl
  have hopen : ((Backend.new exNegative).run exNegCleaned).mem.isSome = true := by rfl
  rw [← h] at hopen
  obtain ⟨⟨a, b, c, d, e, f, ts, g, cnt⟩, conf, mem, cb⟩ := bb
  simp only at h1 h2 hm hparts
  cases mem with
  | none => cases hm
  | some m =>
    cases h1 with
    | @cons x _ l1 _ hx ht =>
    cases ht
    cases h2 with
    | @cons y _ l2 _ hy ht =>
    cases ht
    obtain ⟨x1, x2⟩ := x
    obtain ⟨y1, y2⟩ := y
    have e1 : (encodeTimeseriesKey exNegKey).toOption.getD [] = x1 := by
      rw [show encodeTimeseriesKey exNegKey = .ok x1 from hx.1]; rfl
    have e2 : (encodeUint 1).toOption.getD [] = y1 := by
      rw [show encodeUint 1 = .ok y1 from hy.1]; rfl
    have e3 : (encodeUint 1).toOption.getD [] = y2 := by
      rw [show encodeUint 1 = .ok y2 from hy.2.1]; rfl
    have hc := exNeg_cleanup jc sbs a b c d e f g x2
    rw [e1] at hc
    rw [← hparts m rfl] at hc
    rw [show (encodeUint 1).toOption.getD [] = y1 from e2] at hc
    rw [e2] at e3
    subst e3
    simp only [ByteBackend.step] at hopen
    generalize extCleanupB _ _ _ _ _ _ = r at hc hopen
    cases r with
    | ok r => cases hc
    | error e => cases hopen

end HatEvent
