import Verif.Model.ConvertFiles
import Verif.Proof.Dict
import Verif.Proof.Tactics
import Verif.Props.Convert
import Verif.Props.LmdbOpen

/-! # C75: a conversion does not touch other files -/

namespace HatEvent
open Dict

theorem tmpPath_ne (dst : String) : tmpPath dst ≠ dst := by
  intro h
  have := congrArg String.length h
  simp [tmpPath, String.length_append] at this

theorem remove_get (fs : Files) (p q : String) : Dict.get (fs.remove p) q = if p = q then none else Dict.get fs q := by
  unfold Files.remove
  rw [get_del]

theorem stepFrom06_other (fs : Files) (src dst p : String) (h1 : p ≠ src) (h2 : p ≠ dst) :
    Dict.get (stepFrom06 fs src dst).1 p = Dict.get fs p := by
  unfold stepFrom06
  split
  · exact get_set_ne _ _ (Ne.symm h2)
  · exact get_set_ne _ _ (Ne.symm h1)

theorem stepFrom07_other (fs : Files) (src dst p : String) (h1 : p ≠ src) (h2 : p ≠ dst) :
    Dict.get (stepFrom07 fs src dst).1 p = Dict.get fs p := by
  unfold stepFrom07
  split
  · exact get_set_ne _ _ (Ne.symm h2)
  · exact get_set_ne _ _ (Ne.symm h1)

theorem stepFrom06_ok {fs fs' : Files} {src dst : String} (h : stepFrom06 fs src dst = (fs', .ok ())) :
    ∃ f g, Dict.get fs src = some (.db (.v06 f)) ∧ convert06 f = .ok g ∧ fs' = Dict.set fs dst (.db (.v07 g)) := by
  unfold stepFrom06 at h
  split at h
  · next f e =>
    cases hg : convert06 f with
    | error e' => rw [hg] at h; simp [Except.map, outcome] at h
    | ok g => rw [hg] at h; simp [Except.map, outcome, written] at h; exact ⟨f, g, e, hg, h.symm⟩
  · simp at h

theorem stepFrom07_ok {fs fs' : Files} {src dst : String} (h : stepFrom07 fs src dst = (fs', .ok ())) :
    ∃ f d, Dict.get fs src = some (.db (.v07 f)) ∧ convert07 f = .ok d ∧ fs' = Dict.set fs dst (.db (.v09 d)) := by
  unfold stepFrom07 at h
  split at h
  · next f e =>
    cases hg : convert07 f with
    | error e' => rw [hg] at h; simp [Except.map, outcome] at h
    | ok g => rw [hg] at h; simp [Except.map, outcome, written] at h; exact ⟨f, g, e, hg, h.symm⟩
  · simp at h

/-- The source of a step that is there is not changed. -/
theorem stepFrom06_source {fs : Files} {src dst : String} {f : File06} (h : Dict.get fs src = some (.db (.v06 f))) (hne : src ≠ dst) :
    Dict.get (stepFrom06 fs src dst).1 src = Dict.get fs src := by
  unfold stepFrom06
  rw [h]
  simp only []
  rw [get_set_ne _ _ (Ne.symm hne), h]

theorem stepFrom07_source {fs : Files} {src dst : String} {f : File07} (h : Dict.get fs src = some (.db (.v07 f))) (hne : src ≠ dst) :
    Dict.get (stepFrom07 fs src dst).1 src = Dict.get fs src := by
  unfold stepFrom07
  rw [h]
  simp only []
  rw [get_set_ne _ _ (Ne.symm hne), h]

theorem roundFrom07_other (fs : Files) (src tmpSrc dst p : String) (h1 : p ≠ tmpSrc) (h2 : p ≠ dst) :
    Dict.get (roundFrom07 fs src tmpSrc dst).1 p = Dict.get fs p := by
  have hs := stepFrom07_other (fs.remove dst) tmpSrc dst p h1 h2
  rw [remove_get, if_neg (Ne.symm h2)] at hs
  unfold roundFrom07
  simp only []
  split
  · next e => rw [e] at hs; exact hs
  · next e =>
    rw [e] at hs
    simp only at hs ⊢
    split
    · rw [remove_get, if_neg (Ne.symm h1)]; exact hs
    · exact hs

theorem roundFrom06_other (fs : Files) (src dst p : String) (h0 : p ≠ src) (h1 : p ≠ tmpPath dst) (h2 : p ≠ dst) :
    Dict.get (roundFrom06 fs src dst).1 p = Dict.get fs p := by
  have hs := stepFrom06_other (fs.remove (tmpPath dst)) src (tmpPath dst) p h0 h1
  rw [remove_get, if_neg (Ne.symm h1)] at hs
  unfold roundFrom06
  simp only []
  split
  · next e => rw [e] at hs; exact hs
  · next e =>
    rw [e] at hs
    rw [roundFrom07_other _ _ _ _ _ h1 h2]; exact hs

theorem roundFrom07_source {fs : Files} {src dst : String} {f : File07} (h : Dict.get fs src = some (.db (.v07 f))) (hne : src ≠ dst) :
    Dict.get (roundFrom07 fs src src dst).1 src = Dict.get fs src := by
  have hr : Dict.get (fs.remove dst) src = Dict.get fs src := by rw [remove_get, if_neg (Ne.symm hne)]
  have hs := stepFrom07_source (fs := fs.remove dst) (hr.trans h) hne
  unfold roundFrom07
  simp only []
  split
  · next e => rw [e] at hs; exact hs.trans hr
  · next e => rw [e] at hs; simp only [ne_eq, not_true, ite_false]; exact hs.trans hr

theorem roundFrom06_source {fs : Files} {src dst : String} {f : File06} (h : Dict.get fs src = some (.db (.v06 f)))
    (hne : src ≠ dst) (ht : src ≠ tmpPath dst) : Dict.get (roundFrom06 fs src dst).1 src = Dict.get fs src := by
  have hr : Dict.get (fs.remove (tmpPath dst)) src = Dict.get fs src := by rw [remove_get, if_neg (Ne.symm ht)]
  have hs := stepFrom06_source (fs := fs.remove (tmpPath dst)) (hr.trans h) ht
  unfold roundFrom06
  simp only []
  split
  · next e => rw [e] at hs; exact hs.trans hr
  · next e =>
    rw [e] at hs
    rw [roundFrom07_other _ _ _ _ _ ht hne]; exact hs.trans hr

/-- The full claim: no file but the destination is created, changed or removed; the source in particular is kept. -/
def C75_files_claim : Prop :=
  ∀ (fs : Files) (args : List String) (p : String), args[1]? ≠ some p →
    Dict.get (convertMain fs args).1 p = Dict.get fs p

/-- A small file of version 0.6. -/
def exSmall06 : File06 := ⟨1, [], [], [], []⟩

/-- The claim does not hold: a source of version 0.6 whose name is that of the destination followed by `.v07` is removed before it is
read; the command fails and the data are lost.  Also any other file of this name is removed. -/
theorem C75_refuted : ¬ C75_files_claim ∧
    (∃ fs f, Dict.get fs "db.v07" = some (.db (.v06 f)) ∧ (convertMain fs ["db.v07", "db"]).2 = 1 ∧
      Dict.get (convertMain fs ["db.v07", "db"]).1 "db.v07" = some .incomplete) ∧
    ∃ fs, Dict.get fs "db.v07" = some .other ∧ (convertMain fs ["old", "db"]).2 = 0 ∧
      Dict.get (convertMain fs ["old", "db"]).1 "db.v07" = none := by
  refine ⟨fun h => ?_, ⟨[("db.v07", .db (.v06 exSmall06))], exSmall06, rfl, rfl, rfl⟩,
    ⟨[("old", .db (.v06 exSmall06)), ("db.v07", .other)], rfl, rfl, rfl⟩⟩
  have := h [("db.v07", .db (.v06 exSmall06))] ["db.v07", "db"] "db.v07" (by decide)
  exact absurd this (by rw [show Dict.get (convertMain [("db.v07", .db (.v06 exSmall06))] ["db.v07", "db"]).1 "db.v07" =
    some .incomplete from rfl]; simp [Dict.get])

/-- It holds for every file that has not the name of the temporary file, the source included, whether the conversion succeeds or not.  Missing: the file
with the name of the temporary file. -/
theorem C75_files_partial (fs : Files) (src dst p : String) (h1 : p ≠ dst) (h2 : p ≠ dst ++ ".v07") :
    Dict.get (convertMain fs [src, dst]).1 p = Dict.get fs p := by
  unfold convertMain
  simp only []
  split
  · split
    · rfl
    · simp only [convertFiles]
      by_cases hp : p = src
      · subst hp
        split
        · rfl
        · next e => exact roundFrom07_source e h1
        · next e => exact roundFrom06_source e h1 h2
        · rfl
      · split
        · rfl
        · exact roundFrom07_other _ _ _ _ _ hp h1
        · exact roundFrom06_other _ _ _ _ hp h2 h1
        · rfl
  · rfl

example : Dict.get (convertMain [("a", .other), ("old", .db (.v06 exSmall06))] ["old", "db"]).1 "old" = some (.db (.v06 exSmall06)) ∧
    (convertMain [("a", .other), ("old", .db (.v06 exSmall06))] ["old", "db"]).2 = 0 := ⟨rfl, rfl⟩

/-- With exit code 0 the destination holds the conversion of the source, and no temporary file remains. -/
theorem C75_success (fs : Files) (src dst : String) (h : (convertMain fs [src, dst]).2 = 0) :
    ∃ f d, Dict.get fs src = some (.db f) ∧ convertFile f = .ok d ∧
      Dict.get (convertMain fs [src, dst]).1 dst = some (.db (.v09 d)) ∧
      (Dict.get (convertMain fs [src, dst]).1 (dst ++ ".v07") = none ∨
        Dict.get (convertMain fs [src, dst]).1 (dst ++ ".v07") = Dict.get fs (dst ++ ".v07")) ∧
      Dict.get (convertMain fs [src, dst]).1 src = Dict.get fs src := by
  have hsd : Dict.has fs src = true ∧ Dict.has fs dst = false ∧ exitCode (convertFiles fs src dst).2 = 0 ∧
      (convertMain fs [src, dst]).1 = (convertFiles fs src dst).1 := by
    unfold convertMain at h ⊢
    simp only [] at h ⊢
    split at h
    · split at h
      · simp at h
      · next h1 h2 => exact ⟨h1, by simpa using h2, h, by simp [h1, h2]⟩
    · simp at h
  obtain ⟨hs, hd, hx, hm⟩ := hsd
  have hne : src ≠ dst := by rintro rfl; rw [hs] at hd; cases hd
  rw [hm]
  have hok : (convertFiles fs src dst).2 = .ok () := by
    cases e : (convertFiles fs src dst).2 with
    | ok u => rfl
    | error e' => rw [e] at hx; simp [exitCode] at hx
  clear hm hx h
  have ht := tmpPath_ne dst
  unfold convertFiles at hok ⊢
  split at hok
  · cases hok
  · next f e =>
    rw [e]
    have hsrc := roundFrom07_source e hne
    rw [e] at hsrc
    unfold roundFrom07 at hok hsrc ⊢
    simp only [] at hok hsrc ⊢
    cases hst : stepFrom07 (fs.remove dst) src dst with
    | mk fs' r =>
      rw [hst] at hok hsrc
      cases r with
      | error e' => cases hok
      | ok u =>
        obtain ⟨f', d, h1, h2, h3⟩ := stepFrom07_ok hst
        rw [remove_get, if_neg (Ne.symm hne), e] at h1
        cases h1
        refine ⟨_, d, rfl, h2, ?_, ?_, hsrc⟩
        · simp [h3]
        · right
          simp only [ne_eq, not_true, ite_false]
          have ht' : dst ≠ dst ++ ".v07" := Ne.symm ht
          rw [h3, get_set_ne _ _ ht', remove_get, if_neg ht']
  · next f e =>
    rw [e]
    by_cases hst : src = tmpPath dst
    · exfalso
      unfold roundFrom06 stepFrom06 at hok
      simp only [] at hok
      rw [remove_get, if_pos hst.symm] at hok
      cases hok
    · have hsrc := roundFrom06_source e hne hst
      rw [e] at hsrc
      unfold roundFrom06 at hok hsrc ⊢
      simp only [] at hok hsrc ⊢
      cases h6 : stepFrom06 (fs.remove (tmpPath dst)) src (tmpPath dst) with
      | mk fs1 r1 =>
        rw [h6] at hok hsrc
        cases r1 with
        | error e' => cases hok
        | ok u1 =>
          obtain ⟨f', g, h1, h2, h3⟩ := stepFrom06_ok h6
          rw [remove_get, if_neg (Ne.symm hst), e] at h1
          cases h1
          simp only [] at hok hsrc ⊢
          unfold roundFrom07 at hok hsrc ⊢
          simp only [] at hok hsrc ⊢
          cases h7 : stepFrom07 (fs1.remove dst) (tmpPath dst) dst with
          | mk fs2 r2 =>
            rw [h7] at hok hsrc
            cases r2 with
            | error e' => cases hok
            | ok u2 =>
              obtain ⟨g', d, k1, k2, k3⟩ := stepFrom07_ok h7
              rw [remove_get, if_neg (Ne.symm ht), h3, get_set_self] at k1
              cases k1
              simp only [ne_eq, Ne.symm hst, not_false_eq_true, ite_true] at hsrc ⊢
              refine ⟨_, d, rfl, ?_, ?_, ?_, hsrc⟩
              · simp only [convertFile, h2]; exact k2
              · rw [remove_get, if_neg ht, k3, get_set_self]
              · left
                show Dict.get (fs2.remove (tmpPath dst)) (tmpPath dst) = none
                rw [remove_get, if_pos rfl]
  · cases hok

example : (convertMain [("a", .other), ("old", .db (.v06 exSmall06))] ["old", "db"]).2 = 0 ∧
    (convertMain [("old", .db (.v07 {}))] ["old", "db"]).2 = 0 := ⟨rfl, rfl⟩

/-- An existing destination is never overwritten: nothing is changed and the exit code is 1. -/
theorem C75_existing (fs : Files) (src dst : String) (h : Dict.has fs dst = true) : convertMain fs [src, dst] = (fs, 1) := by
  unfold convertMain
  simp only [h, ite_true]
  split <;> rfl

example : Dict.has ([("old", .db (.v06 exSmall06)), ("db", .other)] : Files) "db" = true := by rfl

/-- A database that has the current version, or whose version is not known, is refused and nothing is changed. -/
theorem C75_refused (fs : Files) (src dst : String)
    (h : (∃ d, Dict.get fs src = some (.db (.v09 d))) ∨ Dict.get fs src = some .other) : convertMain fs [src, dst] = (fs, 1) := by
  unfold convertMain convertFiles
  rcases h with ⟨d, h⟩ | h
  · simp [Dict.has, h, exitCode]
  · simp [Dict.has, h, exitCode]

example : ∃ d, Dict.get ([("new", .db (.v09 ⟨[], [], [], [], [], [], [], [], []⟩))] : Files) "new" = some (.db (.v09 d)) := ⟨_, rfl⟩

/-- The full claim: a conversion that fails leaves the files as they were. -/
def C75_failure_claim : Prop :=
  ∀ (fs : Files) (src dst : String), (convertMain fs [src, dst]).2 ≠ 0 →
    Dict.get (convertMain fs [src, dst]).1 dst = Dict.get fs dst

/-- It does not hold: a conversion that fails leaves a destination without content, and another attempt is refused because the destination exists. -/
theorem C75_failure_refuted : ¬ C75_failure_claim ∧
    ∃ fs f, Dict.get fs "old" = some (.db (.v07 f)) ∧ (convertMain fs ["old", "db"]).2 = 1 ∧
      Dict.get (convertMain fs ["old", "db"]).1 "db" = some .incomplete ∧
      convertMain (convertMain fs ["old", "db"]).1 ["old", "db"] = ((convertMain fs ["old", "db"]).1, 1) := by
  constructor
  · intro h
    have := h [("old", .db (.v07 { orderedPartition := [(1, ⟨3, [["*"]]⟩)] }))] "old" "db" (by decide)
    rw [show Dict.get (convertMain [("old", .db (.v07 { orderedPartition := [(1, ⟨3, [["*"]]⟩)] }))] ["old", "db"]).1 "db" =
      some .incomplete from rfl] at this
    simp [Dict.get] at this
  · exact ⟨[("old", .db (.v07 { orderedPartition := [(1, ⟨3, [["*"]]⟩)] }))], _, rfl, rfl, rfl, C75_existing _ _ _ rfl⟩

/-- The full claim: no backend takes what a failed conversion left for its database. -/
def C75_opened_claim : Prop :=
  ∀ (fs : Files) (src dst : String) (d : Disk) (conf : Conf), Dict.get fs dst = none → (convertMain fs [src, dst]).2 ≠ 0 →
    (Dict.get (convertMain fs [src, dst]).1 dst).bind Content.opened = some d → ∃ e, createDbs conf d = .error e

/-- A database of version 0.7 with an event and a partition that cannot be converted. -/
def exBroken07 : File07 :=
  { latestData := [(1, ⟨⟨1, 1, 1⟩, ["a"], ⟨5, 0⟩, none, none⟩)], latestType := [(1, ["a"])],
    orderedPartition := [(1, ⟨3, [["*"]]⟩)] }

/-- It does not hold: a failed conversion leaves a destination that a backend opens, with every identifier, as a new database: the
version is written to it and the events of the source are not in it. -/
theorem C75_opened_refuted : ¬ C75_opened_claim ∧
    ∀ identifier, ∃ d, (convertMain [("old", .db (.v07 exBroken07))] ["old", "db"]).2 = 1 ∧
      (Dict.get (convertMain [("old", .db (.v07 exBroken07))] ["old", "db"]).1 "db").bind Content.opened = some d ∧
      d.latestData = [] ∧ ∃ d' m, createDbs (exConf identifier []) d = .ok (d', m) ∧
        Dict.get d'.settings .version = some "0.9" := by
  have key : ∀ identifier, ∃ d' m, createDbs (exConf identifier []) Disk.empty = .ok (d', m) ∧
      Dict.get d'.settings .version = some "0.9" := by
    intro identifier
    cases identifier <;> exact ⟨_, _, rfl, rfl⟩
  refine ⟨fun h => ?_, fun identifier => ⟨.empty, rfl, rfl, rfl, key identifier⟩⟩
  obtain ⟨d', m, hk, _⟩ := key none
  obtain ⟨e, he⟩ := h [("old", .db (.v07 exBroken07))] "old" "db" .empty (exConf none []) rfl (by decide) rfl
  rw [hk] at he
  cases he

end HatEvent
