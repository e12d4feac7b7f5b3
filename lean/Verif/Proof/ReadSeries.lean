import Verif.Proof.ReadWrites
import Verif.Props.LmdbTimeseries

/-!
# Timeseries entries of the events of one server that are registered in order
-/

namespace HatEvent
open Spec

/-- `k` is an entry the event gets in a partition without a limit. -/
def KeptSeries (parts : Dict Int Partition) (e : Event) (k : TimeseriesKey) : Prop :=
  InSeries parts e k ∧ ∀ part, Dict.get parts k.partition = some part → part.limit = none

/-- The entries of events `done` of a server are kept, and what the store has of the server are they and `base`. -/
structure Series (conf : Conf) (parts : Dict Int Partition) (server : Int) (base : List Event) (st : Store)
    (done : List Event) : Prop where
  ok : StoreOk st
  log : ∀ x ∈ st.log, x.id.server = server → x ∈ base ∨ x ∈ done
  kept : ∀ e ∈ done, conf.conditions e = true → ∀ k, KeptSeries parts e k → st.entry k = some e

theorem Series.offer {conf : Conf} {parts : Dict Int Partition} {server : Int} {base done : List Event} {st : Store}
    (h : Series conf parts server base st done) (x : Event)
    (ho : Onward server base (done ++ [x].filter fun e => e.id.server = server)) :
    Series conf parts server base (st.offer conf parts x) (done ++ [x].filter fun e => e.id.server = server) := by
  have hold : ∀ e ∈ done, conf.conditions e = true → ∀ k, KeptSeries parts e k →
      (st.offer conf parts x).entry k = some e := by
    intro e he hv k hk
    unfold Store.offer
    split
    swap
    · exact h.kept e he hv k hk
    · dsimp only
      rw [if_neg]
      · exact h.kept e he hv k hk
      · intro hx
        have hid : x.id = e.id := hx.1.symm.trans hk.1.1
        have hes : e.id.server = server := ho.owner e (List.mem_append_left _ he)
        have hxs : x.id.server = server := by rw [hid, hes]
        have := ((List.pairwise_append.1 ho.sorted).2.2 e he x (by simp [hxs])).1
        rw [hid] at this
        exact IdLt.irrefl this
  by_cases hx : x.id.server = server
  · have hf : [x].filter (fun e => e.id.server = server) = [x] := by simp [hx]
    rw [hf] at ho ⊢
    refine ⟨storeOk_offer h.ok x, ?_, ?_⟩
    · intro y hy hys
      rcases log_offer (conf := conf) (parts := parts) st x with hl | hl
      · rw [hl] at hy
        exact (h.log y hy hys).imp_right (List.mem_append_left _)
      · rw [hl] at hy
        rcases List.mem_append.1 hy with hy | hy
        · exact (h.log y hy hys).imp_right (List.mem_append_left _)
        · exact .inr (List.mem_append_right _ hy)
    · intro e he hv
      rcases List.mem_append.1 he with he | he
      · exact hold e he hv
      · obtain rfl := List.mem_singleton.1 he
        intro k hk
        have hp := ho.pos e (by simp)
        have hlog : ∀ y ∈ st.log, y.id.server = e.id.server → IdLt y.id e.id ∧ TimeLe y.timestamp e.timestamp := by
          intro y hy hys
          rcases h.log y hy (hys.trans hx) with hb | hd
          · exact ho.after e (by simp) y hb (hys.trans hx)
          · exact (List.pairwise_append.1 ho.sorted).2.2 y hd e (by simp)
        have hadm : Admissible conf st e := by
          unfold Admissible Store.lastId
          cases hl : st.last e.id.server with
          | none => exact ⟨by rw [hx]; exact hp.1, hp.2, hv⟩
          | some l =>
            obtain ⟨h1, h2⟩ := last_mem hl
            exact ⟨(hlog l h1 h2).1, (hlog l h1 h2).2, hv⟩
        unfold Store.offer
        rw [if_pos ⟨hadm, .inr ⟨k, hk.1⟩⟩]
        dsimp only
        rw [if_pos hk.1]
  · have hf : [x].filter (fun e => e.id.server = server) = [] := by simp [hx]
    rw [hf, List.append_nil] at ho ⊢
    refine ⟨storeOk_offer h.ok x, ?_, hold⟩
    intro y hy hys
    rcases log_offer (conf := conf) (parts := parts) st x with hl | hl
    · rw [hl] at hy
      exact h.log y hy hys
    · rw [hl] at hy
      rcases List.mem_append.1 hy with hy | hy
      · exact h.log y hy hys
      · rw [List.mem_singleton.1 hy] at hys; exact absurd hys hx

theorem Series.offers {conf : Conf} {parts : Dict Int Partition} {server : Int} {base : List Event}
    (es : List Event) {done : List Event} {st : Store} (h : Series conf parts server base st done)
    (ho : Onward server base (done ++ es.filter fun e => e.id.server = server)) :
    Series conf parts server base (es.foldl (Store.offer conf parts) st)
      (done ++ es.filter fun e => e.id.server = server) := by
  induction es generalizing st done with
  | nil => simpa using h
  | cons x es ih =>
    have hf : (x :: es).filter (fun e => e.id.server = server) =
        [x].filter (fun e => e.id.server = server) ++ es.filter fun e => e.id.server = server := by
      rw [← List.filter_append]; rfl
    rw [hf, ← List.append_assoc] at ho ⊢
    exact ih (h.offer x ho.prefix) ho

/-- Removal from partitions with a limit. -/
theorem Series.drop {conf : Conf} {parts : Dict Int Partition} {server : Int} {base done : List Event} {st : Store}
    (h : Series conf parts server base st done) (r : TimeseriesKey → Prop)
    (hr : ∀ k, r k → ∃ part limit, Dict.get parts k.partition = some part ∧ part.limit = some limit) :
    Series conf parts server base (st.drop r) done := by
  refine ⟨storeOk_drop h.ok r, h.log, fun e he hv k hk => ?_⟩
  unfold Store.drop
  dsimp only
  rw [if_neg]
  · exact h.kept e he hv k hk
  · intro hrk
    obtain ⟨part, limit, h1, h2⟩ := hr k hrk
    rw [hk.2 part h1] at h2
    cases h2

/-- The partitions of an open backend are those of its configuration. -/
theorem run_configured {conf : Conf} {ops : List BackendOp} {w : World} (h : Run conf ops w)
    (ho : w.isOpen = true) : Configured w.conf w.partitions := by
  induction h with
  | nil => cases ho
  | snoc _ hst _ ih =>
    cases hst with
    | closed a _ => rw [a] at ho; cases ho
    | register a => exact ih a
    | touch a => exact ih a
    | flush a => exact ih a
    | flushFail a => cases ho
    | cleanup r a _ => exact ih a
    | cleanupFail a => cases ho
    | reopen a => exact a
    | reopenFail => cases ho

end HatEvent
