import Verif.Proof.PagesDuring
import Verif.Proof.LmdbRecover

/-!
# Lemmas about paging through a timeseries query over restarts
-/

namespace HatEvent
open Spec

/-- The end of a process leaves what was flushed. -/
theorem closed_flushed {conf : Conf} {ops : List BackendOp} {w : World} (h : Run conf ops w) : w.isOpen = false → w.cur = w.flushed := by
  induction h with
  | nil => intro _; rfl
  | snoc hr hst _ ih =>
    intro hw
    cases hst with
    | closed a b => exact ih a
    | register a => rw [a] at hw; cases hw
    | touch a => rw [a] at hw; cases hw
    | flush a => rfl
    | flushFail a => rfl
    | cleanup r a b => rw [a] at hw; cases hw
    | cleanupFail a => rfl
    | reopen a => rfl
    | reopenFail => rfl

theorem nothing_pending {conf : Conf} {ops : List BackendOp} (hn : NothingPending ops) : ∀ {w : World}, Run conf ops w → w.cur = w.flushed := by
  obtain ⟨before, op, after, rfl, hop, hreg⟩ := hn
  induction after using List.reverseRecOn with
  | nil =>
    intro w h
    obtain ⟨w0, h0, hst⟩ := run_spec_snoc h
    rcases hop with rfl | ⟨c, rfl⟩
    · cases hst with
      | closed a b => exact closed_flushed h0 a
      | flush a => rfl
      | flushFail a => rfl
    · cases hst with
      | closed a b => exact closed_flushed h0 a
      | reopen a => rfl
      | reopenFail => rfl
  | append_singleton after x ih =>
    intro w h
    have e : before ++ op :: (after ++ [x]) = (before ++ op :: after) ++ [x] := by simp
    rw [e] at h
    obtain ⟨w0, h0, hst⟩ := run_spec_snoc h
    have h1 := ih (fun es hes => hreg es (by simp [hes])) h0
    cases hst with
    | closed a b => exact h1
    | @register es a => exact absurd (by simp) (hreg es)
    | touch a => exact h1
    | flush a => rfl
    | flushFail a => rfl
    | cleanup r a b => dsimp only; rw [h1]
    | cleanupFail a => rfl
    | reopen a => rfl
    | reopenFail => rfl

/-- The configuration and the identities of partitions remain, the latter also on the disk. -/
structure SameParts (c : Conf) (parts : Dict Int Partition) (b : Backend) : Prop where
  conf : b.conf = c
  table : PartTableOk b.disk.tsPartition
  again : ∃ s, initPartitions b.disk.tsPartition c.partitions = .ok s ∧ s.table = b.disk.tsPartition ∧ s.result = parts
  opened : ∀ m, b.mem = some m → m.timeseries.partitions = parts

theorem sameParts_step {c : Conf} {parts : Dict Int Partition} {b : Backend} (h : SameParts c parts b) (op : BackendOp)
    (hop : ∀ c', op = .reopen c' → c' = c) : SameParts c parts (b.step op) := by
  obtain ⟨h1, h2, h3, h4⟩ := h
  have hst := stepTo b op
  generalize b.step op = b' at hst
  cases hst with
  | closed a1 a2 => exact ⟨h1, h2, h3, h4⟩
  | register a1 a2 =>
    refine ⟨h1, h2, h3, ?_⟩
    rintro m2 ⟨⟩
    rw [register_partitions a2]
    exact h4 _ a1
  | registerFail a1 a2 => exact ⟨h1, h2, h3, by simp⟩
  | touch a1 =>
    refine ⟨h1, h2, h3, ?_⟩
    rintro m2 ⟨⟩
    have := h4 _ a1
    exact this
  | flush a1 a2 =>
    obtain ⟨_, _, _, _, _, _, _, _, _, _, _, _, _, _, rfl⟩ := extFlush_ok a2
    refine ⟨h1, h2, h3, ?_⟩
    rintro m2 ⟨⟩
    have := h4 _ a1
    exact this
  | flushFail a1 a2 => exact ⟨h1, h2, h3, by simp⟩
  | cleanup a1 a2 =>
    obtain ⟨_, _, _, _, ⟨_, rfl⟩ | ⟨_, _, _, rfl⟩⟩ := extCleanup_ok a2 <;> exact ⟨h1, h2, h3, h4⟩
  | cleanupFail a1 a2 => exact ⟨h1, h2, h3, by simp⟩
  | reopen a1 =>
    cases hop _ rfl
    obtain ⟨s, p, hv, hip, rfl, rfl⟩ := createDbs_ok a1
    obtain ⟨s', b1, b2, b3⟩ := h3
    have := b1.symm.trans hip
    cases this
    refine ⟨rfl, by rw [b2]; exact h2, ⟨_, by rw [b2]; exact b1, rfl, b3⟩, ?_⟩
    rintro m2 ⟨⟩
    exact b3
  | reopenFail a1 =>
    cases hop _ rfl
    exact ⟨rfl, h2, h3, by simp⟩

theorem sameParts_run {c : Conf} {parts : Dict Int Partition} {conf : Conf} {ops : List BackendOp}
    (h : SameParts c parts ((Backend.new conf).run ops)) (more : List BackendOp) (hsame : ∀ c', .reopen c' ∈ more → c' = c) :
    SameParts c parts ((Backend.new conf).run (ops ++ more)) := by
  induction more using List.reverseRecOn with
  | nil => simpa using h
  | append_singleton more op ih =>
    rw [← List.append_assoc, run_snoc]
    exact sameParts_step (ih fun c hc => hsame c (by simp [hc])) op fun c hc => hsame c (by simp [hc])

theorem sameParts_start {conf : Conf} {ops : List BackendOp} {w : World} (h : Reached conf ops w)
    (hopen : ((Backend.new conf).run ops).mem ≠ none) : SameParts w.conf w.partitions ((Backend.new conf).run ops) := by
  obtain ⟨m, hm⟩ := Option.ne_none_iff_exists'.1 hopen
  obtain ⟨_, r1, r2⟩ := reopenable_run conf ops
  obtain ⟨_, s, r3, r4, r5⟩ := r2 m hm
  have hcf : ((Backend.new conf).run ops).conf = w.conf := h.rel.conf
  have hpe := (h.rel.opened m hm).2.partsEq
  refine ⟨hcf, r1, ⟨s, by rw [← hcf]; exact r3, r4, r5.trans hpe⟩, ?_⟩
  intro m' hm'
  rw [hm] at hm'
  cases hm'
  exact hpe

theorem SameParts.world {c : Conf} {parts : Dict Int Partition} {conf : Conf} {ops : List BackendOp} {w : World}
    (hs : SameParts c parts ((Backend.new conf).run ops)) (h : Reached conf ops w) (hopen : ((Backend.new conf).run ops).mem ≠ none) :
    w.conf = c ∧ w.partitions = parts := by
  obtain ⟨m, hm⟩ := Option.ne_none_iff_exists'.1 hopen
  exact ⟨h.rel.conf.symm.trans hs.conf, (h.rel.opened m hm).2.partsEq.symm.trans (hs.opened m hm)⟩

/-- Entries of a partition without limit remain through restarts with the same configuration. -/
theorem entries_restarts {conf : Conf} {ops : List BackendOp} {w : World} (h : Reached conf ops w) (hopen : ((Backend.new conf).run ops).mem ≠ none)
    (hfl : w.cur = w.flushed) (q : Int) (hq : ∀ part, Dict.get w.partitions q = some part → part.limit = none) (more : List BackendOp)
    (hl : LookupLaws (ops ++ more)) (hsame : ∀ c, .reopen c ∈ more → c = w.conf) :
    ∃ w', Reached conf (ops ++ more) w' ∧ SameParts w.conf w.partitions ((Backend.new conf).run (ops ++ more)) ∧
      ∀ k e, k.partition = q → w.cur.entry k = some e → w'.cur.entry k = some e ∧ w'.flushed.entry k = some e := by
  induction more using List.reverseRecOn with
  | nil =>
    exact ⟨w, by simpa using h, by simpa using sameParts_start h hopen, fun k e _ hk => ⟨hk, by rw [← hfl]; exact hk⟩⟩
  | append_singleton more op ih =>
    rw [← List.append_assoc] at hl ⊢
    have hl1 : LookupLaws (ops ++ more) := fun c hc => hl c (by rw [List.mem_append]; exact .inl hc)
    obtain ⟨w1, g1, g2, g3⟩ := ih hl1 (fun c hc => hsame c (by simp [hc]))
    obtain ⟨w2, g4, g5⟩ := reached_step g1 op hl1
    refine ⟨w2, g5, by rw [run_snoc]; exact sameParts_step g2 op (fun c hc => hsame c (by simp [hc])), ?_⟩
    intro k e hk he
    obtain ⟨k1, k2⟩ := g3 k e hk he
    cases g4 with
    | closed a b => exact ⟨k1, k2⟩
    | @register es a => exact ⟨entry_offers es g1.rel.okC k1, k2⟩
    | touch a => exact ⟨k1, k2⟩
    | flush a => exact ⟨k1, k1⟩
    | flushFail a => exact ⟨k2, k2⟩
    | cleanup r a b =>
      have hr : ¬ r k := by
        intro hrk
        obtain ⟨-, part, limit, p1, p2⟩ := b k hrk
        rw [g1.rel.isOpen, Option.isSome_iff_exists] at a
        obtain ⟨m, hm⟩ := a
        rw [← (g1.rel.opened m hm).2.partsEq, g2.opened m hm, hk] at p1
        rw [hq part p1] at p2
        cases p2
      exact ⟨drop_entry.2 ⟨hr, k1⟩, drop_entry.2 ⟨hr, k2⟩⟩
    | cleanupFail a => exact ⟨k2, k2⟩
    | reopen a => exact ⟨k2, k2⟩
    | reopenFail => exact ⟨k2, k2⟩

/-- Nothing is out of order if nothing is pending. -/
theorem nothing_in_order {w : World} (h : w.cur = w.flushed) (o : OrderBy) : PendingInKeyOrder w.flushed w.cur o := by
  intro pre p post h1 h2
  rw [← h, h1] at h2
  simp at h2

/-- Pages when nothing is pending, while anything happens, including restarts with the same configuration. -/
theorem pages_restarts {conf : Conf} {p : QueryTimeseriesParams} {ops more : List BackendOp} {i : Option EventId} {all : List Event}
    (h : PagesDuring (fun ops i => ((Backend.new conf).run ops).query (.timeseries { p with lastEventId := i })) NothingPending
      ops i more all)
    (hl : LookupLaws (ops ++ more)) (hc : TsConfs (ops ++ more)) (ho : OrdinaryEvents (ops ++ more))
    (w : World) (hw : Reached conf ops w) (hsame : ∀ c, .reopen c ∈ more → c = w.conf) (hp : TsParamsOk w.conf p) (sub : Option Sub)
    (q : Int) (hlim : ∀ part, Dict.get w.partitions q = some part → part.limit = none)
    (hsub : querySubscription w.conf p.eventTypes = .ok sub) (hso : SubOk p.eventTypes sub)
    (hch : ChosenPartition w.conf w.partitions p sub (some q))
    (after : Option Event) (hi : i = after.map (·.id)) (hafter : ∀ x, after = some x → InAnswer w.conf w.cur q p x) :
    ∃ w', Reached conf (ops ++ more) w' ∧ w'.conf = w.conf ∧ (∀ k e, k.partition = q → w.cur.entry k = some e → w'.cur.entry k = some e) ∧
      all.Pairwise (KeyOrder p) ∧ (∀ e ∈ all, ∀ x, after = some x → KeyOrder p x e) ∧
      (∀ e, InAnswer w.conf w.cur q p e → (∀ x, after = some x → KeyOrder p x e) → e ∈ all) ∧
      ∀ e ∈ all, InAnswer w.conf w'.cur q p e := by
  refine pages_going (asked := NothingPending) (fun ops hn w hr => nothing_in_order (nothing_pending hn hr) _)
    (fun ops more => (LookupLaws (ops ++ more) ∧ TsConfs (ops ++ more)) ∧ (∀ c, .reopen c ∈ more → c = w.conf) ∧
      SameParts w.conf w.partitions ((Backend.new conf).run ops)) ?_ ?_ ?_ h
    ⟨⟨hl, hc⟩, hsame, sameParts_start hw (pages_open h)⟩ ho w hw hp sub hsub hso hch after hi hafter
  · rintro ops more ⟨⟨h1, h2⟩, -⟩
    exact ⟨fun c hc => h1 c (by simp [hc]), fun c hc => h2 c (by simp [hc])⟩
  · rintro ops between later ⟨h1, h2, h3⟩
    rw [List.append_assoc]
    exact ⟨h1, fun c hc => h2 c (by simp [hc]), sameParts_run h3 between fun c hc => h2 c (by simp [hc])⟩
  · rintro ops between later ⟨⟨h1, _⟩, h2, h3⟩ hn hopen hopen' v hv
    obtain ⟨e1, e2⟩ := h3.world hv hopen
    obtain ⟨v', g1, g2, g3⟩ := entries_restarts hv hopen (nothing_pending hn hv.run) q (by rw [e2]; exact hlim) between
      (fun c hc => h1 c (by rw [← List.append_assoc, List.mem_append]; exact .inl hc))
      (fun c hc => by rw [e1]; exact h2 c (by simp [hc]))
    obtain ⟨e3, e4⟩ := g2.world g1 hopen'
    exact ⟨v', g1, e3, e4, fun k e hk he => (g3 k e hk he).1⟩

end HatEvent
