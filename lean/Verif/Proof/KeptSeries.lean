import Verif.Proof.ReadSeries
import Verif.Proof.LmdbRecover

/-!
# Entries of partitions without limits are kept when the backend is opened again
-/

namespace HatEvent
open Spec

/-- With one list of partitions in all configurations the identities are those of the first opening. -/
theorem run_parts (conf : Conf) (ops : List BackendOp) {ps : List Partition}
    (h : ∀ c, .reopen c ∈ ops → c.partitions = ps) :
    (((Backend.new conf).run ops).disk.tsPartition = [] ∧ ((Backend.new conf).run ops).mem = none) ∨
      ∃ s, initPartitions [] ps = .ok s ∧ ((Backend.new conf).run ops).disk.tsPartition = s.table ∧
        ∀ m, ((Backend.new conf).run ops).mem = some m → m.timeseries.partitions = s.result := by
  induction ops using List.reverseRecOn with
  | nil => exact .inl ⟨rfl, rfl⟩
  | append_singleton ops op ih =>
    have ih := ih fun c hc => h c (List.mem_append_left _ hc)
    rw [run_snoc]
    have hst := stepTo ((Backend.new conf).run ops) op
    generalize ((Backend.new conf).run ops) = b at ih hst ⊢
    generalize b.step op = b' at hst ⊢
    cases hst with
    | closed h1 h2 => exact ih
    | register h1 h2 =>
      rcases ih with ⟨_, i2⟩ | ⟨s, i1, i2, i3⟩
      · rw [i2] at h1; cases h1
      · refine .inr ⟨s, i1, i2, ?_⟩
        rintro m2 ⟨⟩
        rw [register_partitions h2]
        exact i3 _ h1
    | registerFail h1 h2 =>
      rcases ih with ⟨_, i2⟩ | ⟨s, i1, i2, i3⟩
      · rw [i2] at h1; cases h1
      · exact .inr ⟨s, i1, i2, by simp⟩
    | touch h1 =>
      rcases ih with ⟨_, i2⟩ | ⟨s, i1, i2, i3⟩
      · rw [i2] at h1; cases h1
      · refine .inr ⟨s, i1, i2, ?_⟩
        rintro m2 ⟨⟩
        have := i3 _ h1
        exact this
    | flush h1 h2 =>
      rcases ih with ⟨_, i2⟩ | ⟨s, i1, i2, i3⟩
      · rw [i2] at h1; cases h1
      · obtain ⟨_, _, _, _, _, _, _, _, _, _, _, _, _, _, rfl⟩ := extFlush_ok h2
        refine .inr ⟨s, i1, i2, ?_⟩
        rintro m2 ⟨⟩
        have := i3 _ h1
        exact this
    | flushFail h1 h2 =>
      rcases ih with ⟨_, i2⟩ | ⟨s, i1, i2, i3⟩
      · rw [i2] at h1; cases h1
      · exact .inr ⟨s, i1, i2, by simp⟩
    | cleanup h1 h2 =>
      rcases ih with ⟨_, i2⟩ | ⟨s, i1, i2, i3⟩
      · rw [i2] at h1; cases h1
      · refine .inr ⟨s, i1, ?_, i3⟩
        obtain ⟨_, _, _, _, ⟨_, rfl⟩ | ⟨_, _, _, rfl⟩⟩ := extCleanup_ok h2 <;> exact i2
    | cleanupFail h1 h2 =>
      rcases ih with ⟨_, i2⟩ | ⟨s, i1, i2, i3⟩
      · rw [i2] at h1; cases h1
      · exact .inr ⟨s, i1, i2, by simp⟩
    | @reopen c d m h1 =>
      have hc := h c (by simp)
      obtain ⟨s', p, _, hip, rfl, rfl⟩ := createDbs_ok h1
      rw [hc] at hip
      rcases ih with ⟨i1, _⟩ | ⟨s, i1, i2, _⟩
      · rw [i1] at hip
        exact .inr ⟨p, hip, rfl, by rintro m2 ⟨⟩; rfl⟩
      · obtain ⟨s2, a1, a2, a3⟩ := initPartitions_again (partsOk_new conf).1 i1
        rw [i2, a1] at hip
        obtain rfl := Except.ok.inj hip
        exact .inr ⟨s, i1, a2, by rintro m2 ⟨⟩; exact a3⟩
    | reopenFail h1 =>
      rcases ih with ⟨i1, _⟩ | ⟨s, i1, i2, i3⟩
      · exact .inl ⟨i1, rfl⟩
      · exact .inr ⟨s, i1, i2, by simp⟩

/-- Stored events have their entries in partitions without limits, and all entries are those of the partitions. -/
structure Kept (parts : Dict Int Partition) (st : Store) : Prop where
  kept : ∀ e ∈ st.log, ∀ k, KeptSeries parts e k → st.entry k = some e
  series : ∀ k e, st.entry k = some e → InSeries parts e k

theorem Kept.offer {conf : Conf} {parts : Dict Int Partition} {st : Store} (hok : StoreOk st) (h : Kept parts st)
    (x : Event) : Kept parts (st.offer conf parts x) := by
  by_cases hc : Admissible conf st x ∧ (ToLatest conf st x ∨ ∃ k, InSeries parts x k)
  swap
  · unfold Store.offer
    rw [if_neg hc]
    exact h
  constructor
  · intro e he k hk
    unfold Store.offer at he ⊢
    rw [if_pos hc] at he ⊢
    dsimp only at he ⊢
    rcases List.mem_append.1 he with he | he
    · rw [if_neg]
      · exact h.kept e he k hk
      · intro hx
        have hid : x.id = e.id := hx.1.symm.trans hk.1.1
        have h1 := hc.1.1
        have h2 := le_lastId hok he
        rw [hid] at h1
        exact absurd h1 (not_idLt.2 h2)
    · obtain rfl := List.mem_singleton.1 he
      rw [if_pos hk.1]
  · intro k e he
    unfold Store.offer at he
    rw [if_pos hc] at he
    dsimp only at he
    split at he
    · next hk =>
      obtain rfl := Option.some.inj he
      exact hk
    · exact h.series k e he

theorem Kept.offers {conf : Conf} {parts : Dict Int Partition} (es : List Event) {st : Store} (hok : StoreOk st)
    (h : Kept parts st) : Kept parts (es.foldl (Store.offer conf parts) st) := by
  induction es generalizing st with
  | nil => exact h
  | cons x es ih => exact ih (storeOk_offer hok x) (h.offer hok x)

/-- With one list of partitions in all configurations, stored events keep their entries. -/
def KeptIn (ops : List BackendOp) (w : World) : Prop :=
  ∀ ps, (∀ c, .reopen c ∈ ops → c.partitions = ps) → ∀ s, initPartitions [] ps = .ok s →
    Kept s.result w.cur ∧ Kept s.result w.flushed

theorem keptIn_new (conf : Conf) : KeptIn [] (World.new conf) :=
  fun _ _ _ _ => ⟨⟨by simp [World.new, Store.empty], by simp [World.new, Store.empty]⟩,
    ⟨by simp [World.new, Store.empty], by simp [World.new, Store.empty]⟩⟩

theorem reached_parts {conf : Conf} {ops : List BackendOp} {w : World} (hr : Reached conf ops w)
    {ps : List Partition} (hps : ∀ c, .reopen c ∈ ops → c.partitions = ps) {s : InitPartitions}
    (hs : initPartitions [] ps = .ok s) (ho : w.isOpen = true) : w.partitions = s.result := by
  rw [hr.rel.isOpen] at ho
  obtain ⟨m, hm⟩ := Option.isSome_iff_exists.1 ho
  rw [← (hr.rel.opened m hm).2.partsEq]
  rcases run_parts conf ops hps with ⟨_, h2⟩ | ⟨s', h1, _, h3⟩
  · rw [h2] at hm; cases hm
  · rw [hs] at h1
    obtain rfl := Except.ok.inj h1
    exact h3 m hm

theorem keptIn_step {conf : Conf} {ops : List BackendOp} {op : BackendOp} {w w' : World} (h : KeptIn ops w)
    (hr : Reached conf ops w) (hst : Step w op w') : KeptIn (ops ++ [op]) w' := by
  intro ps hps' s hs
  have hps : ∀ c, .reopen c ∈ ops → c.partitions = ps := fun c hc => hps' c (List.mem_append_left _ hc)
  obtain ⟨h1, h2⟩ := h ps hps s hs
  have drop : ∀ (st : Store) r, w.isOpen = true → (∀ k, r k → ∃ part limit, Dict.get w.partitions k.partition = some part ∧
      part.limit = some limit) → Kept s.result st → Kept s.result (st.drop r) := by
    intro st r ho hrm hk
    refine ⟨fun e he k hks => ?_, fun k e he => ?_⟩
    swap
    · unfold Store.drop at he
      dsimp only at he
      split at he
      · cases he
      · exact hk.series k e he
    unfold Store.drop
    dsimp only
    rw [if_neg]
    · exact hk.kept e he k hks
    · intro hrk
      obtain ⟨part, limit, p1, p2⟩ := hrm k hrk
      rw [reached_parts hr hps hs ho] at p1
      rw [hks.2 part p1] at p2
      cases p2
  cases hst with
  | closed a b => exact ⟨h1, h2⟩
  | register a =>
    refine ⟨?_, h2⟩
    rw [← reached_parts hr hps hs a] at h1 ⊢
    exact h1.offers _ hr.rel.okC
  | touch a => exact ⟨h1, h2⟩
  | flush a => exact ⟨h1, h1⟩
  | flushFail a => exact ⟨h2, h2⟩
  | cleanup r a b => exact ⟨drop _ r a (fun k hk => (b k hk).2) h1, drop _ r a (fun k hk => (b k hk).2) h2⟩
  | cleanupFail a => exact ⟨h2, h2⟩
  | reopen a => exact ⟨h2, h2⟩
  | reopenFail => exact ⟨h2, h2⟩

end HatEvent
