import Verif.Model.Runner
import Verif.Proof.Tactics
import Mathlib.Data.List.Induction
import Mathlib.Data.List.Chain

/-!
# Client loops and the remote activity
-/

namespace HatEvent
namespace ClientRunner

theorem run_snoc (s : ClientRunner) (acts : List ClientAct) (a : ClientAct) : s.run (acts ++ [a]) = (s.run acts).step a := by
  simp [run]

/-- The task exists and did not run to its end. -/
def Held (l : ClientLoop) : Prop := l.at_ ≠ .absent ∧ l.at_ ≠ .ended

/-- A client exists. -/
def HasClient (l : ClientLoop) : Prop := l.at_ = .connected ∨ l.at_ = .closing

theorem HasClient.held {l : ClientLoop} (h : HasClient l) : Held l := by
  rcases h with h | h <;> simp [Held, h]

structure Str (s : ClientRunner) : Prop where
  fresh : ∀ i, s.nextLoop ≤ i → (s.loops i).at_ = .absent
  held : ∀ i, Held (s.loops i) → (s.loops i).data ∈ s.connecting
  own : ∀ d, d ∈ s.connecting → ∃ i, Held (s.loops i) ∧ (s.loops i).data = d
  uniq : ∀ i j, Held (s.loops i) → Held (s.loops j) → (s.loops i).data = (s.loops j).data → i = j
  never : ∀ i, (s.loops i).at_ = .never → s.isOpen = false
  canc : ∀ i, (s.loops i).cancelled = true → s.isOpen = false
  cover : s.isOpen = true → ∀ d, d ∈ s.valid → d ∈ s.connecting

structure Act (s : ClientRunner) : Prop where
  some_ : ∀ d, d ∈ s.active → ∃ i, HasClient (s.loops i) ∧ (s.loops i).data = d
  exact_ : ∀ i, HasClient (s.loops i) → (s.loops i).delayed = false →
    ((s.loops i).data ∈ s.active ↔ (s.loops i).status ≠ .standby)

structure Note (s : ClientRunner) : Prop where
  rem : s.remoteActive = !s.active.isEmpty
  chain : (false :: s.notified).IsChain (· ≠ ·)
  last : (false :: s.notified).getLast? = some s.remoteActive

theorem mem_newActive (a : List ServerAddr) (d : ServerAddr) (st : Option Status) (x : ServerAddr) :
    x ∈ newActive a d st ↔ if st = none ∨ st = some .standby then x ∈ a ∧ x ≠ d else x ∈ a ∨ x = d := by
  unfold newActive
  by_cases h : st = none ∨ st = some .standby
  · rw [if_pos h, if_pos (by rcases h with h | h <;> simp [h])]
    simp
  · rw [if_neg h, if_neg (by
      push Not at h
      simp only [Bool.or_eq_true, beq_iff_eq, Option.isNone_iff_eq_none]
      tauto)]
    split
    · next hm =>
      constructor
      · exact .inl
      · rintro (h | rfl)
        · exact h
        · exact hm
    · simp

section
variable (s : ClientRunner) (d : ServerAddr) (st : Option Status)

@[simp] theorem scs_loops : (s.setClientStatus d st).loops = s.loops := by
  unfold setClientStatus; dsimp only; split <;> rfl
@[simp] theorem scs_isOpen : (s.setClientStatus d st).isOpen = s.isOpen := by
  unfold setClientStatus; dsimp only; split <;> rfl
@[simp] theorem scs_valid : (s.setClientStatus d st).valid = s.valid := by
  unfold setClientStatus; dsimp only; split <;> rfl
@[simp] theorem scs_next : (s.setClientStatus d st).nextLoop = s.nextLoop := by
  unfold setClientStatus; dsimp only; split <;> rfl
@[simp] theorem scs_connecting : (s.setClientStatus d st).connecting = s.connecting := by
  unfold setClientStatus; dsimp only; split <;> rfl
@[simp] theorem scs_group : (s.setClientStatus d st).group = s.group := by
  unfold setClientStatus; dsimp only; split <;> rfl
@[simp] theorem scs_token : (s.setClientStatus d st).token = s.token := by
  unfold setClientStatus; dsimp only; split <;> rfl
@[simp] theorem scs_active : (s.setClientStatus d st).active = newActive s.active d st := by
  unfold setClientStatus; dsimp only; split <;> rfl
end

theorem note_scs {s : ClientRunner} (h : Note s) (d : ServerAddr) (st : Option Status) : Note (s.setClientStatus d st) := by
  unfold setClientStatus
  dsimp only
  split
  · next he => exact ⟨he.symm, h.chain, h.last⟩
  · next he =>
    refine ⟨rfl, ?_, ?_⟩
    · rw [← List.cons_append, List.isChain_append]
      refine ⟨h.chain, List.isChain_singleton _, ?_⟩
      intro x hx y hy
      rw [h.last] at hx
      cases hx
      cases hy
      exact fun e => he e.symm
    · rw [← List.cons_append, List.getLast?_append]
      simp

theorem note_of {s s' : ClientRunner} (h : Note s) (h1 : s'.active = s.active) (h2 : s'.remoteActive = s.remoteActive)
    (h3 : s'.notified = s.notified) : Note s' :=
  ⟨by rw [h1, h2]; exact h.rem, by rw [h3]; exact h.chain, by rw [h3, h2]; exact h.last⟩

/-- A loop changes and stays. -/
theorem str_keep {s s' : ClientRunner} (h : Str s) (i : Nat) (l : ClientLoop)
    (hl : s'.loops = fun k => if k = i then l else s.loops k) (hn : s'.nextLoop = s.nextLoop)
    (hc : s'.connecting = s.connecting) (hv : s'.valid = s.valid) (ho : s'.isOpen = s.isOpen)
    (hd : l.data = (s.loops i).data) (h1 : Held (s.loops i)) (h2 : Held l) (h3 : l.at_ = .never → s.isOpen = false)
    (h4 : l.cancelled = true → s.isOpen = false) : Str s' := by
  have hi : i < s.nextLoop := by
    by_contra hc
    exact h1.1 (h.fresh i (by omega))
  have hdata : ∀ k, (s'.loops k).data = (s.loops k).data := by
    intro k
    rw [hl]
    dsimp only
    split
    · next e => rw [e]; exact hd
    · rfl
  have hheld : ∀ k, Held (s'.loops k) ↔ Held (s.loops k) := by
    intro k
    rw [hl]
    dsimp only
    split
    · next e => rw [e]; exact ⟨fun _ => h1, fun _ => h2⟩
    · rfl
  refine ⟨?_, ?_, ?_, ?_, ?_, ?_, ?_⟩
  · intro k hk
    rw [hn] at hk
    rw [hl]
    dsimp only
    rw [if_neg (by omega)]
    exact h.fresh k hk
  · intro k hk
    rw [hdata, hc]
    exact h.held k ((hheld k).1 hk)
  · intro d hd
    rw [hc] at hd
    obtain ⟨k, hk, e⟩ := h.own d hd
    exact ⟨k, (hheld k).2 hk, by rw [hdata, e]⟩
  · intro a b ha hb e
    rw [hdata, hdata] at e
    exact h.uniq a b ((hheld a).1 ha) ((hheld b).1 hb) e
  · intro k hk
    rw [ho]
    rw [hl] at hk
    dsimp only at hk
    split at hk
    · exact h3 hk
    · exact h.never k hk
  · intro k hk
    rw [ho]
    rw [hl] at hk
    dsimp only at hk
    split at hk
    · exact h4 hk
    · exact h.canc k hk
  · rw [ho, hv, hc]
    exact h.cover

/-- A loop ends. -/
theorem str_end {s : ClientRunner} (h : Str s) (i : Nat) (h1 : Held (s.loops i)) (hv : s.isOpen = true → (s.loops i).data ∉ s.valid) :
    Str (s.endLoop i) := by
  have hl : ∀ k, (s.endLoop i).loops k = if k = i then { s.loops k with at_ := .ended, delayed := false } else s.loops k := by
    intro k; simp [endLoop, setLoop]
  have hi : i < s.nextLoop := by
    by_contra hc
    exact h1.1 (h.fresh i (by omega))
  have hheld : ∀ k, Held ((s.endLoop i).loops k) ↔ k ≠ i ∧ Held (s.loops k) := by
    intro k
    rw [hl]
    split
    · next e => simp [Held, e]
    · next e => simp [e]
  have hdata : ∀ k, ((s.endLoop i).loops k).data = (s.loops k).data := by
    intro k
    rw [hl]
    split <;> rfl
  refine ⟨?_, ?_, ?_, ?_, ?_, ?_, ?_⟩
  · intro k hk
    have hk : s.nextLoop ≤ k := by simpa [endLoop, setLoop] using hk
    rw [hl, if_neg (by omega)]
    exact h.fresh k hk
  · intro k hk
    obtain ⟨h2, h3⟩ := (hheld k).1 hk
    rw [hdata]
    simp only [endLoop, scs_connecting, List.mem_filter, decide_eq_true_eq]
    exact ⟨h.held k h3, fun e => h2 (h.uniq k i h3 h1 e)⟩
  · intro d hd
    simp only [endLoop, scs_connecting, List.mem_filter, decide_eq_true_eq] at hd
    obtain ⟨k, hk, e⟩ := h.own d hd.1
    refine ⟨k, (hheld k).2 ⟨?_, hk⟩, by rw [hdata, e]⟩
    intro hki
    rw [hki] at e
    exact hd.2 e.symm
  · intro a b ha hb e
    rw [hdata, hdata] at e
    exact h.uniq a b ((hheld a).1 ha).2 ((hheld b).1 hb).2 e
  · intro k hk
    rw [hl] at hk
    have : (s.endLoop i).isOpen = s.isOpen := by simp [endLoop, setLoop]
    rw [this]
    split at hk
    · cases hk
    · exact h.never k hk
  · intro k hk
    rw [hl] at hk
    have : (s.endLoop i).isOpen = s.isOpen := by simp [endLoop, setLoop]
    rw [this]
    split at hk
    · exact h.canc k hk
    · exact h.canc k hk
  · intro ho d hd
    have ho : s.isOpen = true := by simpa [endLoop, setLoop] using ho
    have hd : d ∈ s.valid := by simpa [endLoop, setLoop] using hd
    simp only [endLoop, scs_connecting, List.mem_filter, decide_eq_true_eq]
    exact ⟨h.cover ho d hd, fun e => hv ho (e ▸ hd)⟩

/-- A loop and its status change. -/
theorem act_set {s s' : ClientRunner} (h : Str s) (ha : Act s) (i : Nat) (l : ClientLoop) (st : Option Status)
    (hl : s'.loops = fun k => if k = i then l else s.loops k) (hA : s'.active = newActive s.active (s.loops i).data st)
    (hd : l.data = (s.loops i).data) (h1 : Held (s.loops i))
    (h2 : HasClient l ∧ st = some l.status ∨ ¬ HasClient l ∧ st = none) : Act s' := by
  have hk : ∀ k, k ≠ i → s'.loops k = s.loops k := by
    intro k e; rw [hl]; simp [e]
  have hi : s'.loops i = l := by rw [hl]; simp
  have hne : ∀ k, k ≠ i → Held (s.loops k) → (s.loops k).data ≠ (s.loops i).data :=
    fun k e hh he => e (h.uniq k i hh h1 he)
  have hmem : ∀ x, x ≠ (s.loops i).data → (x ∈ s'.active ↔ x ∈ s.active) := by
    intro x hx
    rw [hA, mem_newActive]
    split <;> simp [hx]
  have hown : (s.loops i).data ∈ s'.active ↔ ¬ (st = none ∨ st = some .standby) := by
    rw [hA, mem_newActive]
    split <;> simp_all
  refine ⟨?_, ?_⟩
  · intro d hdA
    by_cases e : d = (s.loops i).data
    · subst e
      rw [hown] at hdA
      refine ⟨i, ?_, by rw [hi, hd]⟩
      rw [hi]
      rcases h2 with h2 | h2
      · exact h2.1
      · exact absurd (.inl h2.2) hdA
    · obtain ⟨k, hc, ek⟩ := ha.some_ d ((hmem d e).1 hdA)
      have : k ≠ i := by rintro rfl; exact e ek.symm
      exact ⟨k, by rw [hk k this]; exact hc, by rw [hk k this]; exact ek⟩
  · intro k hc hdl
    by_cases e : k = i
    · subst e
      rw [hi] at hc hdl ⊢
      rw [hd, hown]
      rcases h2 with h2 | h2
      · rw [h2.2]; simp
      · exact absurd hc h2.1
    · rw [hk k e] at hc hdl ⊢
      rw [hmem _ (hne k e hc.held)]
      exact ha.exact_ k hc hdl

/-- A loop changes, its status is not set. -/
theorem act_keep {s s' : ClientRunner} (ha : Act s) (i : Nat) (l : ClientLoop)
    (hl : s'.loops = fun k => if k = i then l else s.loops k) (hA : s'.active = s.active)
    (hd : l.data = (s.loops i).data) (h1 : HasClient (s.loops i) ↔ HasClient l)
    (h2 : HasClient l → l.delayed = false → (s.loops i).delayed = false ∧ l.status = (s.loops i).status) : Act s' := by
  have hk : ∀ k, k ≠ i → s'.loops k = s.loops k := by
    intro k e; rw [hl]; simp [e]
  have hi : s'.loops i = l := by rw [hl]; simp
  refine ⟨?_, ?_⟩
  · intro d hdA
    rw [hA] at hdA
    obtain ⟨k, hc, ek⟩ := ha.some_ d hdA
    by_cases e : k = i
    · subst e; exact ⟨k, by rw [hi]; exact h1.1 hc, by rw [hi, hd, ek]⟩
    · exact ⟨k, by rw [hk k e]; exact hc, by rw [hk k e]; exact ek⟩
  · intro k hc hdl
    rw [hA]
    by_cases e : k = i
    · subst e
      rw [hi] at hc hdl ⊢
      obtain ⟨h3, h4⟩ := h2 hc hdl
      rw [hd, h4]
      exact ha.exact_ k (h1.2 hc) h3
    · rw [hk k e] at hc hdl ⊢
      exact ha.exact_ k hc hdl

structure Ok (s : ClientRunner) : Prop where
  str : Str s
  act : Act s
  note : Note s

theorem ok_init (group : String) (token : Option String) : Ok (init group token) :=
  ⟨⟨fun _ _ => rfl, fun _ h => absurd rfl h.1, fun _ h => (nomatch h), fun _ _ h => absurd rfl h.1, fun _ h => (nomatch h),
      fun _ h => (nomatch h), fun _ _ h => (nomatch h)⟩,
    ⟨fun _ h => (nomatch h), fun _ h => absurd rfl h.held.1⟩, ⟨rfl, List.isChain_singleton _, rfl⟩⟩

theorem setLoop_fun (s : ClientRunner) (i : Nat) (f : ClientLoop → ClientLoop) :
    (s.setLoop i f).loops = fun k => if k = i then f (s.loops i) else s.loops k := by
  funext k
  unfold setLoop
  dsimp only
  split
  · next e => rw [e]
  · rfl

theorem ok_close {s : ClientRunner} (h : Ok s) : Ok { s with isOpen := false } := by
  obtain ⟨⟨h1, h2, h3, h4, h5, h6, h7⟩, ha, hn⟩ := h
  exact ⟨⟨h1, h2, h3, h4, fun _ _ => rfl, fun _ _ => rfl, fun h => nomatch h⟩, ⟨ha.some_, ha.exact_⟩, ⟨hn.rem, hn.chain, hn.last⟩⟩

theorem ok_end {s : ClientRunner} (h : Ok s) (i : Nat) (h1 : Held (s.loops i))
    (hv : s.isOpen = true → (s.loops i).data ∉ s.valid) : Ok (s.endLoop i) := by
  refine ⟨str_end h.str i h1 hv, ?_, ?_⟩
  · refine act_set h.str h.act i { s.loops i with at_ := .ended, delayed := false } none ?_ (by simp [endLoop, setLoop]) rfl h1
      (.inr ⟨by simp [HasClient], rfl⟩)
    simp only [endLoop, scs_loops]
    exact setLoop_fun ..
  · exact note_scs (s := { s.setLoop i (fun l => { l with at_ := .ended, delayed := false }) with
      connecting := s.connecting.filter fun d => d ≠ (s.loops i).data }) (note_of h.note rfl rfl rfl) _ _

theorem ok_iterate {s : ClientRunner} (h : Ok s) (i : Nat) (h1 : Held (s.loops i)) (h2 : (s.loops i).at_ ≠ .never) :
    Ok (s.iterate i) := by
  unfold iterate
  split
  · refine ⟨?_, ?_, note_scs (s := s.setLoop i _) (note_of h.note rfl rfl rfl) _ _⟩
    · exact str_keep h.str i { s.loops i with at_ := .connecting, delayed := false } (by rw [scs_loops]; exact setLoop_fun ..)
        (by simp [setLoop]) (by simp [setLoop]) (by simp [setLoop]) (by simp [setLoop]) rfl h1 (by simp [Held])
        (fun h => nomatch h) (h.str.canc i)
    · exact act_set h.str h.act i { s.loops i with at_ := .connecting, delayed := false } none
        (by rw [scs_loops]; exact setLoop_fun ..) (by simp [setLoop]) rfl h1 (.inr ⟨by simp [HasClient], rfl⟩)
  · next hv => exact ok_end h i h1 fun _ => hv

/-- A change of a loop, its status is not set. -/
theorem ok_keep {s : ClientRunner} (h : Ok s) (i : Nat) (f : ClientLoop → ClientLoop)
    (hd : (f (s.loops i)).data = (s.loops i).data) (h1 : Held (s.loops i)) (h2 : Held (f (s.loops i)))
    (h3 : (f (s.loops i)).at_ = .never → s.isOpen = false) (h4 : (f (s.loops i)).cancelled = true → s.isOpen = false)
    (h5 : HasClient (s.loops i) ↔ HasClient (f (s.loops i)))
    (h6 : HasClient (f (s.loops i)) → (f (s.loops i)).delayed = false →
      (s.loops i).delayed = false ∧ (f (s.loops i)).status = (s.loops i).status) : Ok (s.setLoop i f) :=
  ⟨str_keep h.str i _ (setLoop_fun s i f) rfl rfl rfl rfl hd h1 h2 h3 h4, act_keep h.act i _ (setLoop_fun s i f) rfl hd h5 h6,
    note_of h.note rfl rfl rfl⟩

/-- A change of a loop, its status is set. -/
theorem ok_set {s : ClientRunner} (h : Ok s) (i : Nat) (f : ClientLoop → ClientLoop) (st : Status)
    (hd : (f (s.loops i)).data = (s.loops i).data) (h1 : Held (s.loops i)) (h2 : HasClient (f (s.loops i)))
    (h4 : (f (s.loops i)).cancelled = true → s.isOpen = false) (h5 : (f (s.loops i)).status = st) :
    Ok ((s.setLoop i f).setClientStatus (s.loops i).data (some st)) :=
  ⟨str_keep h.str i _ (by rw [scs_loops]; exact setLoop_fun s i f) (by simp [setLoop]) (by simp [setLoop]) (by simp [setLoop])
      (by simp [setLoop]) hd h1 h2.held (by rcases h2 with h2 | h2 <;> simp [h2]) h4,
    act_set h.str h.act i _ (some st) (by rw [scs_loops]; exact setLoop_fun s i f) (by simp [setLoop]) hd h1
      (.inl ⟨h2, by rw [h5]⟩),
    note_scs (s := s.setLoop i f) (note_of h.note rfl rfl rfl) _ _⟩

/-- The runner with another set of valid servers. -/
def withValid (s : ClientRunner) (v : List ServerAddr) : ClientRunner := { s with valid := v }

theorem ok_spawn {s : ClientRunner} {v : List ServerAddr} (h : Ok (s.withValid v)) (ho : s.isOpen = true) (d : ServerAddr) :
    Ok ((s.spawnLoop d).withValid (v ++ [d])) := by
  unfold spawnLoop
  obtain ⟨hs, ha, hn⟩ := h
  split
  · next hm =>
    refine ⟨⟨hs.fresh, hs.held, hs.own, hs.uniq, hs.never, hs.canc, ?_⟩, ⟨ha.some_, ha.exact_⟩, ⟨hn.rem, hn.chain, hn.last⟩⟩
    intro ho x hx
    rcases List.mem_append.1 hx with hx | hx
    · exact hs.cover ho x hx
    · rw [List.mem_singleton.1 hx]; exact hm
  · next hm =>
    set n := s.nextLoop with hnn
    have hl : ∀ k, (s.setLoop n fun _ => { data := d, at_ := .spawned }).loops k =
        if k = n then { data := d, at_ := .spawned } else s.loops k := fun k => rfl
    have hfresh : (s.loops n).at_ = .absent := hs.fresh n (Nat.le_refl _)
    have hlt : ∀ k, Held (s.loops k) → k ≠ n := by
      rintro k hk rfl
      exact hk.1 hfresh
    have hheld : ∀ k, Held ((s.setLoop n fun _ => { data := d, at_ := .spawned }).loops k) ↔ k = n ∨ Held (s.loops k) := by
      intro k
      rw [hl]
      split
      · next e => simp [Held, e]
      · next e => simp [e]
    have hcl : ∀ k, HasClient ((s.setLoop n fun _ => { data := d, at_ := .spawned }).loops k) ↔ k ≠ n ∧ HasClient (s.loops k) := by
      intro k
      rw [hl]
      split
      · next e => simp [HasClient, e]
      · next e => simp [e]
    refine ⟨⟨?_, ?_, ?_, ?_, ?_, ?_, ?_⟩, ⟨?_, ?_⟩, ⟨hn.rem, hn.chain, hn.last⟩⟩
    · intro k hk
      have hk : n + 1 ≤ k := hk
      exact (congrArg ClientLoop.at_ ((hl k).trans (if_neg (by omega)))).trans (hs.fresh k (by show n ≤ k; omega))
    · intro k hk
      refine List.mem_append.2 ?_
      rcases (hheld k).1 hk with rfl | hk
      · exact .inr (List.mem_singleton.2 (congrArg ClientLoop.data ((hl n).trans (if_pos rfl))))
      · exact .inl (by
          have : (s.setLoop n fun _ => { data := d, at_ := .spawned }).loops k = s.loops k := (hl k).trans (if_neg (hlt k hk))
          exact (congrArg ClientLoop.data this) ▸ hs.held k hk)
    · intro x hx
      rcases List.mem_append.1 hx with hx | hx
      · obtain ⟨k, hk, e⟩ := hs.own x hx
        exact ⟨k, (hheld k).2 (.inr hk), (congrArg ClientLoop.data ((hl k).trans (if_neg (hlt k hk)))).trans e⟩
      · exact ⟨n, (hheld n).2 (.inl rfl), (congrArg ClientLoop.data ((hl n).trans (if_pos rfl))).trans (List.mem_singleton.1 hx).symm⟩
    · intro a b ha' hb e
      have e : ((s.setLoop n fun _ => { data := d, at_ := .spawned }).loops a).data =
        ((s.setLoop n fun _ => { data := d, at_ := .spawned }).loops b).data := e
      rw [hl, hl] at e
      rcases (hheld a).1 ha' with rfl | ha'
      · rcases (hheld b).1 hb with rfl | hb
        · rfl
        · rw [if_pos rfl, if_neg (hlt b hb)] at e
          exact absurd ((show d = (s.loops b).data from e) ▸ hs.held b hb) hm
      · rcases (hheld b).1 hb with rfl | hb
        · rw [if_pos rfl, if_neg (hlt a ha')] at e
          exact absurd ((show (s.loops a).data = d from e) ▸ hs.held a ha') hm
        · rw [if_neg (hlt a ha'), if_neg (hlt b hb)] at e
          exact hs.uniq a b ha' hb e
    · intro k hk
      have hk : ((s.setLoop n fun _ => { data := d, at_ := .spawned }).loops k).at_ = .never := hk
      rw [hl] at hk
      split at hk
      · cases hk
      · exact hs.never k hk
    · intro k hk
      have hk : ((s.setLoop n fun _ => { data := d, at_ := .spawned }).loops k).cancelled = true := hk
      rw [hl] at hk
      split at hk
      · cases hk
      · exact hs.canc k hk
    · intro _ x hx
      refine List.mem_append.2 ?_
      rcases List.mem_append.1 hx with hx | hx
      · exact .inl (hs.cover ho x hx)
      · exact .inr hx
    · intro x hx
      obtain ⟨k, hk, e⟩ := ha.some_ x hx
      exact ⟨k, (hcl k).2 ⟨hlt k hk.held, hk⟩, (congrArg ClientLoop.data ((hl k).trans (if_neg (hlt k hk.held)))).trans e⟩
    · intro k hk hdl
      obtain ⟨h1, h2⟩ := (hcl k).1 hk
      have e : ((((s.setLoop n fun _ => { data := d, at_ := .spawned }).loops k)) = s.loops k) := (hl k).trans (if_neg h1)
      have hdl : ((s.setLoop n fun _ => { data := d, at_ := .spawned }).loops k).delayed = false := hdl
      show ((s.setLoop n fun _ => { data := d, at_ := .spawned }).loops k).data ∈ s.active ↔
        ((s.setLoop n fun _ => { data := d, at_ := .spawned }).loops k).status ≠ .standby
      rw [e] at hdl ⊢
      exact ha.exact_ k h2 hdl

theorem spawn_isOpen (s : ClientRunner) (d : ServerAddr) : (s.spawnLoop d).isOpen = s.isOpen := by
  unfold spawnLoop; split <;> rfl

theorem spawn_valid (s : ClientRunner) (d : ServerAddr) : (s.spawnLoop d).valid = s.valid := by
  unfold spawnLoop; split <;> rfl

theorem ok_spawns (l : List ServerAddr) {s : ClientRunner} {v : List ServerAddr} (h : Ok (s.withValid v)) (ho : s.isOpen = true) :
    Ok ((l.foldl spawnLoop s).withValid (v ++ l)) ∧ (l.foldl spawnLoop s).valid = s.valid := by
  induction l generalizing s v with
  | nil => exact ⟨by simpa using h, rfl⟩
  | cons d l ih =>
    obtain ⟨h1, h2⟩ := ih (ok_spawn h ho d) (by rw [spawn_isOpen]; exact ho)
    rw [List.foldl_cons]
    exact ⟨by simpa using h1, h2.trans (spawn_valid s d)⟩

theorem ok_monitor {s : ClientRunner} (h : Ok s) (state : MonitorState) : Ok (s.setMonitorState state) := by
  unfold setMonitorState
  dsimp only
  obtain ⟨hs, ha, hn⟩ := h
  split
  · next ho =>
    have := ok_spawns (eventerServerData s.group s.token state)
      (s := { s with valid := eventerServerData s.group s.token state }) (v := [])
      ⟨⟨hs.fresh, hs.held, hs.own, hs.uniq, hs.never, hs.canc, fun _ _ h => nomatch h⟩, ⟨ha.some_, ha.exact_⟩,
        ⟨hn.rem, hn.chain, hn.last⟩⟩ ho
    obtain ⟨h1, h2⟩ := this
    rw [List.nil_append] at h1
    generalize List.foldl spawnLoop _ _ = r at h1 h2 ⊢
    have : r.withValid (eventerServerData s.group s.token state) = r := by
      rw [← show r.valid = eventerServerData s.group s.token state from h2]
      rfl
    rw [this] at h1
    exact h1
  · next ho =>
    refine ⟨⟨hs.fresh, hs.held, hs.own, hs.uniq, hs.never, hs.canc, fun h => absurd h ho⟩, ⟨ha.some_, ha.exact_⟩,
        ⟨hn.rem, hn.chain, hn.last⟩⟩

theorem ok_step {s : ClientRunner} (h : Ok s) (a : ClientAct) : Ok (s.step a) := by
  cases a with
  | monitor state => exact ok_monitor h state
  | start i =>
    simp only [step]
    split
    · next e => exact ok_iterate h i (by simp [Held, e]) (by simp [e])
    · exact h
  | created i status =>
    simp only [step]
    split
    · next e =>
      exact ok_set h i (fun l => { l with at_ := .connected, status := status, delayed := false }) status rfl (by simp [Held, e])
        (.inl rfl) (h.str.canc i) rfl
    · exact h
  | failed i =>
    simp only [step]
    split
    · next e =>
      exact ok_keep h i _ rfl (by simp [Held, e]) (by simp [Held]) (fun h => nomatch h) (h.str.canc i)
        (by simp [HasClient, e]) (by simp [HasClient])
    · exact h
  | slept i =>
    simp only [step]
    split
    · next e => exact ok_iterate h i (by simp [Held, e]) (by simp [e])
    · exact h
  | report i status =>
    simp only [step, report]
    split
    · next e =>
      exact ok_keep h i _ rfl (by simp [Held, e]) (by simp [Held, e]) (by simp [e]) (h.str.canc i)
        (by simp [HasClient, e]) (by simp)
    · exact h
  | callback i =>
    simp only [step, callback]
    split
    · next e =>
      have hc : HasClient (s.loops i) := e.1
      exact ok_set h i (fun l => { l with delayed := false }) _ rfl hc.held hc (h.str.canc i) rfl
    · exact h
  | lose i =>
    simp only [step]
    split
    · next e =>
      exact ok_keep h i _ rfl (by simp [Held, e]) (by simp [Held]) (by simp) (h.str.canc i)
        (by simp [HasClient, e]) (by simp)
    · exact h
  | clientClosed i =>
    simp only [step, clientClosed]
    split
    · next e =>
      split
      · next hc => exact ok_end h i (by simp [Held, e]) (fun ho => by rw [h.str.canc i hc] at ho; cases ho)
      · exact ok_iterate h i (by simp [Held, e]) (by simp [e])
    · exact h
  | raise_ i =>
    simp only [step, raiseLoop]
    split
    · next e => exact ok_end (ok_close h) i (by simp [Held, e]) (fun h => nomatch h)
    · next e => exact ok_end (ok_close h) i (by simp [Held, e]) (fun h => nomatch h)
    · exact h
  | close => exact ok_close h
  | cancel i =>
    simp only [step, cancelLoop]
    split
    · exact h
    · next ho =>
      have ho : s.isOpen = false := by simpa using ho
      split
      · next e =>
        exact ok_keep h i _ rfl (by simp [Held, e]) (by simp [Held]) (fun _ => ho) (h.str.canc i) (by simp [HasClient, e])
          (by simp [HasClient])
      · next e => exact ok_end h i (by simp [Held, e]) (fun h => by rw [ho] at h; cases h)
      · next e => exact ok_end h i (by simp [Held, e]) (fun h => by rw [ho] at h; cases h)
      · next e =>
        exact ok_keep h i _ rfl (by simp [Held, e]) (by simp [Held]) (by simp) (fun _ => ho) (by simp [HasClient, e])
          (by simp)
      · next e =>
        exact ok_keep h i _ rfl (by simp [Held, e]) (by simp [Held, e]) (by simp [e]) (fun _ => ho) (by simp [HasClient, e])
          (by simp)
      · exact h

theorem ok_run (group : String) (token : Option String) (acts : List ClientAct) : Ok ((init group token).run acts) := by
  induction acts using List.reverseRecOn with
  | nil => exact ok_init group token
  | append_singleton acts a ih => rw [run_snoc]; exact ok_step ih a

/-- The waiter is told about every change. -/
def Told (s s' : ClientRunner) : Prop :=
  s'.waiter = s.waiter ∧ s'.remoteActive = s.remoteActive ∨ s'.waiter = s.waiter.map fun _ => true

theorem told_scs {s s' : ClientRunner} (h1 : s'.waiter = s.waiter) (h2 : s'.remoteActive = s.remoteActive) (d : ServerAddr)
    (st : Option Status) : Told s (s'.setClientStatus d st) := by
  unfold setClientStatus
  dsimp only
  split
  · exact .inl ⟨h1, h2⟩
  · exact .inr (by rw [h1])

theorem told_end (s : ClientRunner) (i : Nat) : Told s (s.endLoop i) :=
  told_scs (s' := { s.setLoop i (fun l => { l with at_ := .ended, delayed := false }) with
      connecting := s.connecting.filter fun d => d ≠ (s.loops i).data }) rfl rfl _ _

theorem told_iterate (s : ClientRunner) (i : Nat) : Told s (s.iterate i) := by
  unfold iterate
  split
  · exact told_scs (s' := s.setLoop i _) rfl rfl _ _
  · exact told_end s i

theorem told_refl (s : ClientRunner) : Told s s := .inl ⟨rfl, rfl⟩

theorem spawn_told (s : ClientRunner) (d : ServerAddr) :
    (s.spawnLoop d).waiter = s.waiter ∧ (s.spawnLoop d).remoteActive = s.remoteActive := by
  unfold spawnLoop; split <;> exact ⟨rfl, rfl⟩

theorem spawns_told (l : List ServerAddr) (s : ClientRunner) :
    (l.foldl spawnLoop s).waiter = s.waiter ∧ (l.foldl spawnLoop s).remoteActive = s.remoteActive := by
  induction l generalizing s with
  | nil => exact ⟨rfl, rfl⟩
  | cons d l ih =>
    rw [List.foldl_cons]
    exact ⟨(ih _).1.trans (spawn_told s d).1, (ih _).2.trans (spawn_told s d).2⟩

theorem told_step (s : ClientRunner) (a : ClientAct) : Told s (s.step a) := by
  cases a with
  | monitor state =>
    simp only [step, setMonitorState]
    split
    · exact .inl (spawns_told ..)
    · exact .inl ⟨rfl, rfl⟩
  | start i => simp only [step]; split; exacts [told_iterate s i, told_refl s]
  | created i status => simp only [step]; split; exacts [told_scs (s' := s.setLoop i _) rfl rfl _ _, told_refl s]
  | failed i => simp only [step]; split; exacts [.inl ⟨rfl, rfl⟩, told_refl s]
  | slept i => simp only [step]; split; exacts [told_iterate s i, told_refl s]
  | report i status => simp only [step, report]; split; exacts [.inl ⟨rfl, rfl⟩, told_refl s]
  | callback i => simp only [step, callback]; split; exacts [told_scs (s' := s.setLoop i _) rfl rfl _ _, told_refl s]
  | lose i => simp only [step]; split; exacts [.inl ⟨rfl, rfl⟩, told_refl s]
  | clientClosed i =>
    simp only [step, clientClosed]
    split
    · split
      exacts [told_end s i, told_iterate s i]
    · exact told_refl s
  | raise_ i =>
    simp only [step, raiseLoop]
    split
    · exact told_end { s with isOpen := false } i
    · exact told_end { s with isOpen := false } i
    · exact told_refl s
  | close => exact .inl ⟨rfl, rfl⟩
  | cancel i =>
    simp only [step, cancelLoop]
    split
    · exact told_refl s
    · split
      exacts [.inl ⟨rfl, rfl⟩, told_end s i, told_end s i, .inl ⟨rfl, rfl⟩, .inl ⟨rfl, rfl⟩, told_refl s]

/-- Fields that only monitor states change. -/
def Same (s s' : ClientRunner) : Prop := s'.valid = s.valid ∧ s'.group = s.group ∧ s'.token = s.token

theorem same_refl (s : ClientRunner) : Same s s := ⟨rfl, rfl, rfl⟩

theorem same_end (s : ClientRunner) (i : Nat) : Same s (s.endLoop i) := by
  simp [Same, endLoop, setLoop]

theorem same_iterate (s : ClientRunner) (i : Nat) : Same s (s.iterate i) := by
  unfold iterate
  split
  · simp [Same, setLoop]
  · exact same_end s i

theorem same_step (s : ClientRunner) (a : ClientAct) (h : ∀ state, a ≠ .monitor state) : Same s (s.step a) := by
  cases a with
  | monitor state => exact absurd rfl (h state)
  | start i => simp only [step]; split; exacts [same_iterate s i, same_refl s]
  | created i status =>
    simp only [step]
    split
    · simp [Same, established, setLoop]
    · exact same_refl s
  | failed i => simp only [step]; split; exacts [⟨rfl, rfl, rfl⟩, same_refl s]
  | slept i => simp only [step]; split; exacts [same_iterate s i, same_refl s]
  | report i status => simp only [step, report]; split; exacts [⟨rfl, rfl, rfl⟩, same_refl s]
  | callback i =>
    simp only [step, callback]
    split
    · simp [Same, setLoop]
    · exact same_refl s
  | lose i => simp only [step]; split; exacts [⟨rfl, rfl, rfl⟩, same_refl s]
  | clientClosed i =>
    simp only [step, clientClosed]
    split
    · split
      exacts [same_end s i, same_iterate s i]
    · exact same_refl s
  | raise_ i =>
    simp only [step, raiseLoop]
    split
    · exact same_end { s with isOpen := false } i
    · exact same_end { s with isOpen := false } i
    · exact same_refl s
  | close => exact ⟨rfl, rfl, rfl⟩
  | cancel i =>
    simp only [step, cancelLoop]
    split
    · exact same_refl s
    · split
      exacts [⟨rfl, rfl, rfl⟩, same_end s i, same_end s i, ⟨rfl, rfl, rfl⟩, ⟨rfl, rfl, rfl⟩, same_refl s]

theorem spawns_same (l : List ServerAddr) (s : ClientRunner) : Same s (l.foldl spawnLoop s) := by
  induction l generalizing s with
  | nil => exact same_refl s
  | cons d l ih =>
    rw [List.foldl_cons]
    have : Same s (s.spawnLoop d) := by unfold spawnLoop; split <;> exact ⟨rfl, rfl, rfl⟩
    exact ⟨(ih _).1.trans this.1, (ih _).2.1.trans this.2.1, (ih _).2.2.trans this.2.2⟩

theorem valid_monitor (s : ClientRunner) (state : MonitorState) :
    (s.step (.monitor state)).valid = eventerServerData s.group s.token state ∧ (s.step (.monitor state)).group = s.group ∧
      (s.step (.monitor state)).token = s.token := by
  simp only [step, setMonitorState]
  split
  · exact spawns_same ..
  · exact ⟨rfl, rfl, rfl⟩

theorem conf_run (group : String) (token : Option String) (acts : List ClientAct) :
    ((init group token).run acts).group = group ∧ ((init group token).run acts).token = token := by
  induction acts using List.reverseRecOn with
  | nil => exact ⟨rfl, rfl⟩
  | append_singleton acts a ih =>
    rw [run_snoc]
    by_cases h : ∃ state, a = .monitor state
    · obtain ⟨state, rfl⟩ := h
      have := valid_monitor ((init group token).run acts) state
      exact ⟨this.2.1.trans ih.1, this.2.2.trans ih.2⟩
    · have := same_step ((init group token).run acts) a (fun state e => h ⟨state, e⟩)
      exact ⟨this.2.1.trans ih.1, this.2.2.trans ih.2⟩

end ClientRunner

namespace Runners

theorem run_snoc (s : Runners) (acts : List RunnerAct) (a : RunnerAct) : s.run (acts ++ [a]) = (s.run acts).step a := by
  simp [run]

/-- The engine runner is starting or has an engine that it did not start to close. -/
def Up (at_ : EngineAt) : Prop := at_ = .starting ∨ at_ = .creating ∨ at_ = .operational ∨ at_ = .running

/-- Order of statuses. -/
def Follows (a b : Status) : Prop :=
  (b = .starting → a = .standby) ∧ (b = .operational → a = .starting) ∧ (b = .standby → a = .stopping)

/-- The last status of the eventer server. -/
def lastStatus (s : Runners) : Status := (s.statuses.getLast?.map Prod.fst).getD .standby

/-- The status that belongs to a place. -/
def Said : EngineAt → Status → Prop
  | .spawned, x => x = .standby
  | .waiting, x => x = .standby
  | .starting, x => x = .starting
  | .creating, x => x = .starting
  | .operational, x => x = .operational
  | .running, x => x = .operational
  | .closing .standby _, x => x = .standby
  | .closing .stopping _, x => x = .stopping
  | .closing .engine _, x => x = .stopping
  | .closing .flush _, x => x = .stopping
  | .ended, x => x = .standby ∨ x = .stopping

structure Good (s : Runners) : Prop where
  wait : s.at_ = .waiting → s.clients.waiter ≠ none ∧ (s.clients.waiter = some false → s.clients.remoteActive = true)
  eng : s.engine = some true → s.at_ = .operational ∨ s.at_ = .running
  flag : ∀ x, x ∈ s.statuses → (x.2 = true ↔ x.1 = .operational)
  chain : (Status.standby :: s.statuses.map Prod.fst).IsChain Follows
  said : Said s.at_ s.lastStatus

theorem last_cons (s : Runners) : (Status.standby :: s.statuses.map Prod.fst).getLast? = some s.lastStatus := by
  unfold lastStatus
  rcases List.eq_nil_or_concat s.statuses with h | ⟨l, x, h⟩
  · rw [h]; rfl
  · rw [h, List.concat_eq_append, List.map_append, ← List.cons_append, List.getLast?_append]; simp

theorem good_announce {s : Runners} (h : Good s) (status : Status) (engine : Bool) (at_ : EngineAt)
    (hw : at_ ≠ .waiting) (he : s.engine = some true → at_ = .operational ∨ at_ = .running)
    (hf : engine = true ↔ status = .operational) (hc : Follows s.lastStatus status) (hs : Said at_ status) :
    Good (s.announce status engine at_) := by
  refine ⟨fun e => absurd e hw, he, ?_, ?_, ?_⟩
  · intro x hx
    rcases List.mem_append.1 hx with hx | hx
    · exact h.flag x hx
    · rw [List.mem_singleton.1 hx]; exact hf
  · show (Status.standby :: (s.statuses ++ [(status, engine)]).map Prod.fst).IsChain Follows
    rw [List.map_append, ← List.cons_append, List.isChain_append]
    refine ⟨h.chain, List.isChain_singleton _, ?_⟩
    intro x hx y hy
    rw [last_cons] at hx
    cases hx
    cases hy
    exact hc
  · show Said at_ (((s.statuses ++ [(status, engine)]).getLast?.map Prod.fst).getD .standby)
    simpa using hs

theorem good_of {s s' : Runners} (h : Good s) (h1 : s'.statuses = s.statuses)
    (hw : s'.at_ = .waiting → s'.clients.waiter ≠ none ∧ (s'.clients.waiter = some false → s'.clients.remoteActive = true))
    (he : s'.engine = some true → s'.at_ = .operational ∨ s'.at_ = .running) (hs : Said s'.at_ s.lastStatus) : Good s' := by
  refine ⟨hw, he, ?_, ?_, ?_⟩
  · rw [h1]; exact h.flag
  · rw [h1]; exact h.chain
  · unfold lastStatus at hs ⊢; rw [h1]; exact hs

theorem not_open {s : Runners} (h : Good s) (ha : s.at_ ≠ .operational ∧ s.at_ ≠ .running) : s.engine ≠ some true :=
  fun e => by rcases h.eng e with h | h; exacts [ha.1 h, ha.2 h]

theorem good_check {s : Runners} (h : Good s) (hl : s.lastStatus = .standby) (he : s.engine ≠ some true) : Good s.check := by
  unfold check
  split
  · next hr => exact good_of h rfl (fun _ => ⟨by simp, fun _ => hr⟩) (fun e => absurd e he) hl
  · have h' : Good { s with clients := { s.clients with waiter := none }, restart := false, at_ := .closing .standby true } :=
      good_of h rfl (fun e => (nomatch e)) (fun e => absurd e he) hl
    exact good_announce h' .starting false .starting (fun e => (nomatch e)) (fun e => absurd e he) (by simp)
      ⟨fun _ => hl, fun e => (nomatch e), fun e => (nomatch e)⟩ rfl

theorem map_false (o : Option Bool) : o.map (fun _ => false) ≠ some true := by cases o <;> simp

theorem good_close {s : Runners} (h : Good s) (last : Bool) : Good (s.close last) := by
  have h' : Good { s with engine := s.engine.map (fun _ => false), clients := { s.clients with waiter := none }, at_ := .ended,
                          statuses := s.statuses ++ [(Status.stopping, false)] } := by
    refine ⟨fun e => (nomatch e), fun e => absurd e (map_false _), ?_, ?_, ?_⟩
    · intro x hx
      rcases List.mem_append.1 hx with hx | hx
      · exact h.flag x hx
      · rw [List.mem_singleton.1 hx]; simp
    · show (Status.standby :: (s.statuses ++ [(Status.stopping, false)]).map Prod.fst).IsChain Follows
      rw [List.map_append, ← List.cons_append, List.isChain_append]
      refine ⟨h.chain, List.isChain_singleton _, ?_⟩
      intro x hx y hy
      cases hy
      exact ⟨fun e => (nomatch e), fun e => (nomatch e), fun e => (nomatch e)⟩
    · show Said .ended (((s.statuses ++ [(Status.stopping, false)]).getLast?.map Prod.fst).getD .standby)
      simp [Said]
  exact good_of h' rfl (fun e => (nomatch e)) (fun e => absurd e (map_false _))
    (by show Said (.closing .stopping last) (((s.statuses ++ [(Status.stopping, false)]).getLast?.map Prod.fst).getD .standby)
        simp [Said])

theorem good_done {s : Runners} (h : Good s) : Good s.done := by
  have hs := h.said
  unfold done
  split
  · next e =>
    rw [e] at hs
    exact good_of h rfl (fun e => (nomatch e)) (fun e' => absurd e' (not_open (s := s) h (by simp [e]))) hs
  · next e =>
    rw [e] at hs
    have h' : Good { s with engine := some false } :=
      good_of h rfl (by simp [e]) (fun e => (nomatch e)) (by rw [show ({ s with engine := some false } : Runners).at_ = s.at_ from rfl, e]; exact hs)
    have := good_announce h' .operational true .operational (fun e => (nomatch e)) (fun e => (nomatch e)) (by simp)
      ⟨fun e => (nomatch e), fun _ => hs, fun e => (nomatch e)⟩ rfl
    exact ⟨fun e => (nomatch e), fun _ => .inl rfl, this.flag, this.chain, this.said⟩
  · next e =>
    rw [e] at hs
    exact good_of h rfl (fun e => (nomatch e)) (fun _ => .inr rfl) hs
  · next e =>
    unfold notice
    split
    · split
      exacts [good_close h false, h]
    · exact good_close h true
  · next last e =>
    rw [e] at hs
    refine good_of h rfl (fun e => (nomatch e)) (fun e' => absurd e' (not_open (s := s) h (by simp [e]))) ?_
    dsimp only
    split <;> exact hs
  · next last e =>
    rw [e] at hs
    exact good_of h rfl (fun e => (nomatch e)) (fun e' => absurd e' (not_open (s := s) h (by simp [e]))) hs
  · next last e =>
    rw [e] at hs
    exact good_announce h .standby false _ (fun e => (nomatch e)) (fun e' => absurd e' (not_open (s := s) h (by simp [e]))) (by simp)
      ⟨fun e => (nomatch e), fun e => (nomatch e), fun _ => hs⟩ rfl
  · next e =>
    rw [e] at hs
    exact good_of h rfl (fun e => (nomatch e)) (fun e' => absurd e' (not_open (s := s) h (by simp [e]))) (.inl hs)
  · next e =>
    rw [e] at hs
    exact good_check h hs (not_open h (by simp [e]))
  · exact h

theorem good_abort {s : Runners} (h : Good s) (raised : Bool) : Good (s.abort raised) := by
  have hs := h.said
  unfold abort
  split
  · next e =>
    rw [e] at hs
    split
    · exact h
    · exact good_of h rfl (fun e => (nomatch e)) (fun e' => absurd e' (not_open (s := s) h (by simp [e]))) (.inl hs)
  · exact h
  · next st e =>
    rw [e] at hs
    split
    · refine good_of h rfl (fun e => (nomatch e)) (fun e' => absurd e' (not_open (s := s) h (by simp [e]))) ?_
      cases st
      exacts [.inr hs, .inr hs, .inr hs, .inl hs]
    · exact h
  · exact good_close h true

theorem good_step {s : Runners} (h : Good s) (a : RunnerAct) : Good (s.step a) := by
  have hs := h.said
  cases a with
  | client a =>
    refine good_of h rfl ?_ h.eng hs
    intro e
    obtain ⟨h1, h2⟩ := h.wait e
    rcases ClientRunner.told_step s.clients a with ⟨h3, h4⟩ | h3
    · show (s.clients.step a).waiter ≠ none ∧ ((s.clients.step a).waiter = some false → (s.clients.step a).remoteActive = true)
      rw [h3, h4]
      exact ⟨h1, h2⟩
    · show (s.clients.step a).waiter ≠ none ∧ ((s.clients.step a).waiter = some false → (s.clients.step a).remoteActive = true)
      rw [h3]
      refine ⟨by simpa using h1, fun e => ?_⟩
      cases hw : s.clients.waiter <;> rw [hw] at e <;> cases e
  | start =>
    simp only [step]
    split
    · next e =>
      rw [e] at hs
      exact good_check h hs (not_open h (by simp [e]))
    · exact h
  | wake =>
    simp only [step]
    split
    · next e =>
      rw [e.1] at hs
      exact good_check h hs (not_open h (by simp [e.1]))
    · exact h
  | done => exact good_done h
  | engineCloses => exact good_of h rfl h.wait (fun e => absurd e (map_false _)) hs
  | restart => exact good_of h rfl h.wait h.eng hs
  | raise_ => exact good_abort h true
  | cancel => exact good_abort h false

theorem good_run (group : String) (token : Option String) (acts : List RunnerAct) : Good ((init group token).run acts) := by
  induction acts using List.reverseRecOn with
  | nil =>
    exact ⟨fun e => (nomatch e), fun e => (nomatch e), fun _ h => (nomatch h), List.isChain_singleton _, rfl⟩
  | append_singleton acts a ih => rw [run_snoc]; exact good_step ih a

/-- The check before the start of an engine. -/
theorem up_step (s : Runners) (a : RunnerAct) (h : Up (s.step a).at_) :
    Up s.at_ ∨ s.clients.remoteActive = false := by
  have hchk : Up s.check.at_ → s.clients.remoteActive = false := by
    unfold check
    split
    · simp [Up]
    · next hr => intro _; simpa using hr
  have hcl : ∀ b, ¬ Up (s.close b).at_ := by intro b; simp [close, announce, Up]
  cases a with
  | client a => exact .inl h
  | start =>
    simp only [step] at h
    split at h
    exacts [.inr (hchk h), .inl h]
  | wake =>
    simp only [step] at h
    split at h
    exacts [.inr (hchk h), .inl h]
  | done =>
    simp only [step, done] at h
    split at h
    · next e => exact .inl (by simp [Up, e])
    · next e => exact .inl (by simp [Up, e])
    · next e => exact .inl (by simp [Up, e])
    · next e => exact .inl (by simp [Up, e])
    · simp [Up] at h
    · simp [Up] at h
    · simp [Up, announce] at h
    · simp [Up] at h
    · exact .inr (hchk h)
    · exact .inl h
  | engineCloses => exact .inl h
  | restart => exact .inl h
  | raise_ =>
    simp only [step, abort] at h
    split at h
    · exact .inl h
    · exact .inl h
    · simp [Up] at h
    · exact absurd h (hcl true)
  | cancel =>
    simp only [step, abort] at h
    split at h
    · simp [Up] at h
    · exact .inl h
    · next e => simp [Up, e] at h
    · exact absurd h (hcl true)

theorem ok_step {s : Runners} (h : s.clients.Ok) (a : RunnerAct) : (s.step a).clients.Ok := by
  have hw : ∀ w, ClientRunner.Ok { s.clients with waiter := w } := fun w =>
    ⟨⟨h.str.fresh, h.str.held, h.str.own, h.str.uniq, h.str.never, h.str.canc, h.str.cover⟩, ⟨h.act.some_, h.act.exact_⟩,
      ⟨h.note.rem, h.note.chain, h.note.last⟩⟩
  have hchk : s.check.clients.Ok := by
    unfold check
    split
    exacts [hw _, hw _]
  have hcl : ∀ b, (s.close b).clients.Ok := fun b => hw _
  cases a with
  | client a => exact ClientRunner.ok_step h a
  | start => simp only [step]; split; exacts [hchk, h]
  | wake => simp only [step]; split; exacts [hchk, h]
  | done =>
    simp only [step, done]
    split
    · exact h
    · exact h
    · exact h
    · unfold notice
      split
      · split
        exacts [hcl _, h]
      · exact hcl _
    · exact h
    · exact h
    · exact h
    · exact h
    · exact hchk
    · exact h
  | engineCloses => exact h
  | restart => exact h
  | raise_ =>
    simp only [step, abort]
    split
    · exact h
    · exact h
    · exact h
    · exact hcl _
  | cancel =>
    simp only [step, abort]
    split
    · exact h
    · exact h
    · exact h
    · exact hcl _

theorem ok_run (group : String) (token : Option String) (acts : List RunnerAct) : ((init group token).run acts).clients.Ok := by
  induction acts using List.reverseRecOn with
  | nil => exact ClientRunner.ok_init group token
  | append_singleton acts a ih => rw [run_snoc]; exact ok_step ih a

end Runners
end HatEvent
