import Verif.Model.LmdbEnv
import Verif.Proof.LmdbRecover
import Verif.Proof.Tactics
import Verif.Props.LmdbRecovery

/-!
# C57: interrupted creation of a database
-/

namespace HatEvent
open Spec

namespace Spec

/-- What is on the disk if the process stops while it opens a backend: the state
before, or one of the durable states passed. -/
def stoppedAt (conf : Conf) (file : Option EnvFile) (left : Option EnvFile) : Prop :=
  left = file ∨ ∃ f ∈ (openBackend conf file).1, left = some f

/-- Opening succeeds. -/
def opens (conf : Conf) (file : Option EnvFile) : Prop := ∃ r, (openBackend conf file).2 = .ok r

/-- What openings, each of them possibly stopped, can leave. -/
inductive Attempts : Option EnvFile → Option EnvFile → Prop
  | refl : Attempts f f
  | step : Attempts f g → stoppedAt conf g h → Attempts f h

end Spec

/-! ### Named databases -/

theorem openDbs_all (f : EnvFile) (l : List DbType) (h : ∀ t ∈ l, t ∈ f.names) :
    (∀ g ∈ (openDbs false f l).1, g = f) ∧ (openDbs false f l).2 = .ok f := by
  induction l with
  | nil => simp [openDbs]
  | cons t l ih =>
    have ht : t ∈ f.names := h t (by simp)
    have := ih fun x hx => h x (by simp [hx])
    simp only [openDbs, openDb, ht, if_true]
    refine ⟨?_, this.2⟩
    intro g hg
    rcases List.mem_cons.1 hg with rfl | hg
    · rfl
    · exact this.1 g hg

theorem openDbs_missing (f : EnvFile) (l : List DbType) (t : DbType) (ht : t ∈ l) (hn : t ∉ f.names) :
    (∀ g ∈ (openDbs false f l).1, g = f) ∧ (openDbs false f l).2 = .error (.exception "NotFoundError") := by
  induction l with
  | nil => simp at ht
  | cons x l ih =>
    by_cases hx : x ∈ f.names
    · have hl : t ∈ l := by
        rcases List.mem_cons.1 ht with rfl | h
        · exact absurd hx hn
        · exact h
      have := ih hl
      simp only [openDbs, openDb, hx, if_true]
      refine ⟨?_, this.2⟩
      intro g hg
      rcases List.mem_cons.1 hg with rfl | hg
      · rfl
      · exact this.1 g hg
    · simp [openDbs, openDb, hx]

theorem mem_all (t : DbType) : t ∈ DbType.all := by cases t <;> simp [DbType.all]

/-- A file in which a database is missing is never repaired. -/
theorem opens_missing (conf : Conf) (f : EnvFile) (t : DbType) (hn : t ∉ f.names) :
    (openBackend conf (some f)).2 = .error (.exception "NotFoundError") ∧
      ∀ g ∈ (openBackend conf (some f)).1, g = f := by
  obtain ⟨h1, h2⟩ := openDbs_missing f DbType.all t (mem_all t) hn
  unfold openBackend envInit
  simp only [h2]
  exact ⟨trivial, h1⟩

/-! ## C57 -/

/-- For every configuration there is a point at which stopping leaves a file
that cannot be opened: not with any configuration, and not after any number of
further attempts. -/
theorem C57_refuted : ¬ ∀ (conf : Conf) (left : Option EnvFile), stoppedAt conf none left →
    ∃ conf', opens conf' left := by
  intro h
  obtain ⟨c, r, hr⟩ := h (exConf none []) (some ⟨[.systemSettings], .empty⟩)
    (.inr ⟨_, List.mem_cons_of_mem _ List.mem_cons_self, rfl⟩)
  rw [(opens_missing c _ .ref (by simp)).1] at hr
  cases hr

/-- … and it stays so, whatever is tried later. -/
theorem C57_stuck_refuted (conf : Conf) : ∃ left, stoppedAt conf none left ∧
    ∀ later, Attempts left later → later = left ∧ ∀ conf', ¬ opens conf' later := by
  have hf : ∃ rest, (openBackend conf none).1 = ⟨[], .empty⟩ :: rest := by
    unfold openBackend
    split
    · exact ⟨_, rfl⟩
    · split
      · exact ⟨_, rfl⟩
      · exact ⟨_, rfl⟩
  obtain ⟨rest, hf⟩ := hf
  refine ⟨some ⟨[], .empty⟩, .inr ⟨_, by rw [hf]; exact List.mem_cons_self, rfl⟩, ?_⟩
  intro later hl
  have key : later = some ⟨[], .empty⟩ := by
    generalize hx : (some ⟨[], .empty⟩ : Option EnvFile) = x at hl
    induction hl with
    | refl => rfl
    | step _ hs ih =>
      subst ih
      rcases hs with h | ⟨f, h1, h2⟩
      · exact h
      · rw [← hx] at h1
        rw [h2, ← hx, (opens_missing _ _ .ref (by simp)).2 f h1]
  refine ⟨key, ?_⟩
  rintro conf' ⟨r, hr⟩
  rw [key, (opens_missing conf' _ .ref (by simp)).1] at hr
  cases hr

/-- What does hold: if an opening of a new file would succeed, then after a stop
the next one succeeds exactly if the stop came before the file was created or
after all of its databases were.  Missing: the stops in between. -/
theorem C57_partial (conf : Conf) (h : opens conf none) (left : Option EnvFile)
    (hs : stoppedAt conf none left) :
    opens conf left ↔ ∀ f, left = some f → ∀ t, t ∈ f.names := by
  constructor
  · rintro ⟨r, hr⟩ f rfl t
    by_contra hn
    rw [(opens_missing conf f t hn).1] at hr
    cases hr
  · intro hall
    rcases hs with rfl | ⟨f, hf, rfl⟩
    · exact h
    · have hn := hall f rfl
      obtain ⟨r, hr⟩ := h
      have hi : (envInit none).2 = .ok ⟨DbType.all, .empty⟩ := rfl
      have hi' : ∀ g ∈ (envInit none).1, g.disk = .empty := by
        simp [envInit, openDbs, openDb, DbType.all]
      have ho : (envInit (some f)).2 = .ok f := (openDbs_all f DbType.all fun t _ => hn t).2
      unfold openBackend at hr hf
      simp only [hi] at hr hf
      cases hc : createDbs conf Disk.empty with
      | error e => rw [hc] at hr; cases hr
      | ok p =>
        obtain ⟨d, m⟩ := p
        rw [hc] at hf hr
        rcases List.mem_append.1 hf with hf | hf
        · refine ⟨(⟨f.names, d⟩, m), ?_⟩
          unfold openBackend
          simp only [ho, hi' f hf, hc]
        · obtain rfl := List.mem_singleton.1 hf
          have hb : (Backend.new conf).run [.reopen conf] = ⟨d, conf, some m, []⟩ := by
            simp only [Backend.run, List.foldl, Backend.step, Backend.new]
            rw [hc]
          have hre := reopenable_run conf [.reopen conf]
          rw [hb] at hre
          have := createDbs_again hre rfl
          simp only at this
          unfold opens openBackend
          rw [ho]
          simp only
          rw [this]
          exact ⟨_, rfl⟩

example : opens (exConf none exPartitions) none := ⟨_, rfl⟩

end HatEvent
