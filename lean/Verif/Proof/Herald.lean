import Verif.Spec.Herald
import Verif.Proof.Announcer
import Verif.Proof.RelayEngineLive

/-!
# Event servers that go on with their flush loop
-/

namespace HatEvent
open Spec

/-! ### Lists of registered events -/

/-- The lists in calls of `register`. -/
def listsOf (ops : List BackendOp) : List (List Event) :=
  ops.filterMap fun op => match op with | .register l => some l | _ => none

/-- Lists that wait for a flush. -/
def Backend.waiting (b : Backend) : List (List Event) := match b.mem with | some m => m.registered | none => []

/-- An open backend that is neither flushed nor opened. -/
theorem Backend.waiting_step {b : Backend} {op : BackendOp} (hf : op ≠ .flush) (hr : ∀ c, op ≠ .reopen c) (ho : (b.step op).mem.isSome) :
    b.mem.isSome ∧ (b.step op).flushedCb = b.flushedCb ∧ (b.step op).waiting = b.waiting ++ listsOf [op] := by
  cases hb : b.mem with
  | none =>
    exfalso
    cases op with
    | reopen c => exact hr c rfl
    | _ => simp [Backend.step, hb] at ho
  | some m =>
    refine ⟨rfl, ?_⟩
    cases op with
    | flush => exact absurd rfl hf
    | reopen c => exact absurd rfl (hr c)
    | register es =>
      simp only [Backend.step, hb] at ho ⊢
      cases h : m.register b.conf es with
      | ok m' => simp [Backend.waiting, hb, listsOf, register_registered h]
      | error e => rw [h] at ho; cases ho
    | touch p => simp [Backend.step, Backend.waiting, hb, listsOf]
    | cleanup fl se now =>
      simp only [Backend.step, hb] at ho ⊢
      split at ho
      · next h => simp [h, Backend.waiting, hb, listsOf]
      · cases ho

theorem Backend.waiting_run {b : Backend} {ops : List BackendOp} (hf : .flush ∉ ops) (hr : ∀ c, .reopen c ∉ ops) (ho : (b.run ops).mem.isSome) :
    b.mem.isSome ∧ (b.run ops).flushedCb = b.flushedCb ∧ (b.run ops).waiting = b.waiting ++ listsOf ops := by
  induction ops using List.reverseRecOn with
  | nil => exact ⟨ho, rfl, by simp [Backend.run, listsOf]⟩
  | append_singleton ops op ih =>
    have e : b.run (ops ++ [op]) = (b.run ops).step op := by simp [Backend.run]
    rw [e] at ho ⊢
    obtain ⟨h1, h2, h3⟩ := Backend.waiting_step (fun h => hf (by simp [h])) (fun c h => hr c (by simp [h])) ho
    obtain ⟨g1, g2, g3⟩ := ih (fun h => hf (by simp [h])) (fun c h => hr c (by simp [h])) h1
    refine ⟨g1, h2.trans g2, ?_⟩
    rw [h3, g3, List.append_assoc]
    congr 1
    simp [listsOf]

/-- A flush of a backend that stays open. -/
theorem Backend.waiting_flush {b : Backend} (ho : (b.step .flush).mem.isSome) :
    (b.step .flush).flushedCb = b.flushedCb ++ b.waiting ∧ (b.step .flush).waiting = [] := by
  cases hb : b.mem with
  | none => simp [Backend.step, hb] at ho
  | some m =>
    simp only [Backend.step, hb] at ho ⊢
    split at ho
    · next h => simp [h, Backend.waiting, hb]
    · cases ho

/-- What happens to the database, besides flushes. -/
theorem Station.past_plain (cf : StationConf) (s : Station) (a : StationAct) (ha : a ≠ .keep .flush) :
    ∃ more, (s.step cf a).past = s.past ++ more ∧ (∀ c, .reopen c ∉ more) ∧ .flush ∉ more := by
  have hsame : ∀ s' : Station, s'.past = s.past → ∃ more, s'.past = s.past ++ more ∧ (∀ c, .reopen c ∉ more) ∧ .flush ∉ more :=
    fun s' h => ⟨[], by simp [h], by simp, by simp⟩
  cases a with
  | host act =>
    simp only [step]
    split
    · exact hsame _ (past_hostStep cf s _)
    · exact hsame _ rfl
  | arrive i =>
    simp only [step, arrive]
    split
    · split
      · exact hsame _ (past_hostStep cf s _)
      · exact hsame _ rfl
    · exact hsame _ rfl
  | connect i => simp only [step, connect]; split <;> exact hsame _ rfl
  | client i act => cases act <;> exact hsame _ rfl
  | deliver i =>
    simp only [step, deliver]
    split
    · split <;> exact hsame _ rfl
    · exact hsame _ rfl
  | answered i =>
    simp only [step, answered]
    split
    · split
      · exact hsame _ (past_hostStep cf s _)
      · exact hsame _ rfl
    · exact hsame _ rfl
  | queried i =>
    simp only [step, queried]
    split
    · exact hsame _ (past_hostStep cf s _)
    · exact hsame _ rfl
  | start modules =>
    simp only [step, start]
    split
    · split <;> exact hsame _ rfl
    · split <;> exact hsame _ rfl
    · exact hsame _ rfl
  | engine e act =>
    simp only [step, engineStep]
    split
    · refine ⟨_, rfl, fun c hc => ?_, fun hc => ?_⟩ <;>
      · obtain ⟨es, _, h⟩ := List.mem_map.1 hc
        cases h
    · exact hsame _ rfl
  | keep op =>
    cases op with
    | register es => exact hsame _ rfl
    | reopen c => exact hsame _ rfl
    | flush => exact absurd rfl ha
    | touch p => exact ⟨_, rfl, by simp, by simp⟩
    | cleanup fl se now => exact ⟨_, rfl, by simp, by simp⟩
  | remote events => exact ⟨_, rfl, by simp, by simp⟩

theorem Relay.past_plain (cf : StationConf) (s : Relay) (a : RelayAct) (ha : a ≠ .station (.keep .flush)) :
    ∃ more, (s.step cf a).station.past = s.station.past ++ more ∧ (∀ c, .reopen c ∉ more) ∧ .flush ∉ more := by
  unfold step
  split
  · next e now =>
    split
    · exact Station.past_plain cf s.station (.engine e (.registered .same now)) nofun
    · exact ⟨[], by simp, by simp, by simp⟩
  · next act _ => exact Station.past_plain cf s.station act fun h => ha (by rw [h])
  · unfold tell
    split
    · next events _ _ _ _ => exact Station.past_plain cf s.station (.host (.notify events false false)) nofun
    · exact ⟨[], by simp, by simp, by simp⟩

theorem Relay.tell_nobody (cf : StationConf) (s : Relay) : s.step cf (.tell s.station.engines.length) = s := by
  have : s.station.engines[s.station.engines.length]? = none := by simp
  simp only [step, tell, this, Option.bind_none]
  split <;> first | rfl | (next h _ => cases h) | skip
  all_goals rename_i h _; cases h

namespace Herald

/-- Kinds of actions. -/
theorem act_cases (act : RelayAct) : (∃ es w, act = .station (.host (.notify es true w))) ∨ act = .station (.keep .flush) ∨
    (act ≠ .station (.keep .flush) ∧ (∀ s, heraldDoes s (.relay act) = act) ∧
      ∀ cf s, step cf s (.relay act) = { s with relay := s.relay.step cf act }) := by
  by_cases h1 : ∃ es w, act = .station (.host (.notify es true w))
  · exact .inl h1
  by_cases h2 : act = .station (.keep .flush)
  · exact .inr (.inl h2)
  refine .inr (.inr ⟨h2, fun s => ?_, fun cf s => ?_⟩)
  · unfold heraldDoes
    split
    · next e => exact absurd ⟨_, _, HeraldAct.relay.inj e⟩ h1
    · next e => exact absurd (HeraldAct.relay.inj e) h2
    · next e => exact (HeraldAct.relay.inj e).symm
    · next e => cases e
  · unfold step
    split
    · next e => exact absurd ⟨_, _, HeraldAct.relay.inj e⟩ h1
    · next e => exact absurd (HeraldAct.relay.inj e) h2
    · next e => rw [HeraldAct.relay.inj e]
    · next e => cases e

/-- What an action does. -/
theorem step_relay (cf : StationConf) (s : Herald) (a : HeraldAct) : (s.step cf a).relay = s.relay.step cf (heraldDoes s a) := by
  cases a with
  | announce =>
    simp only [step, announce, heraldDoes]
    cases s.written with
    | nil => exact (Relay.tell_nobody cf s.relay).symm
    | cons l rest =>
      simp only
      split
      · rfl
      · exact (Relay.tell_nobody cf s.relay).symm
  | relay act =>
    rcases act_cases act with ⟨es, w, rfl⟩ | rfl | ⟨_, h1, h2⟩
    · exact (Relay.tell_nobody cf s.relay).symm
    · simp only [step, flush, heraldDoes]
      split
      · rfl
      · exact (Relay.tell_nobody cf s.relay).symm
    · rw [h1, h2]

theorem run_snoc (cf : StationConf) (s : Herald) (acts : List HeraldAct) (a : HeraldAct) :
    s.run cf (acts ++ [a]) = (s.run cf acts).step cf a := by simp [run]

/-- What an action does to the lists of the flush loop. -/
theorem step_lists (cf : StationConf) (s : Herald) (a : HeraldAct) :
    ((s.step cf a).written = s.written ∧ (s.step cf a).announced = s.announced ∧ heraldDoes s a ≠ .station (.keep .flush)) ∨
    (s.written = [] ∧ s.free = true ∧ (s.step cf a).announced = s.announced ∧ heraldDoes s a = .station (.keep .flush) ∧
      (s.step cf a).written = ((s.step cf a).backend cf).flushedCb.drop (s.backend cf).flushedCb.length) ∨
    ∃ l rest, s.written = l :: rest ∧ (s.step cf a).written = rest ∧
      (s.step cf a).announced = s.announced ++ [(s.relay.station.host.server.nextCall, l)] ∧
      heraldDoes s a = .station (.host (.notify l true false)) := by
  cases a with
  | announce =>
    simp only [step, announce, heraldDoes]
    cases hw : s.written with
    | nil => exact .inl ⟨hw, rfl, nofun⟩
    | cons l rest =>
      simp only
      split
      · exact .inr (.inr ⟨l, rest, rfl, rfl, rfl, rfl⟩)
      · exact .inl ⟨hw, rfl, nofun⟩
  | relay act =>
    rcases act_cases act with ⟨es, w, rfl⟩ | rfl | ⟨h0, h1, h2⟩
    · exact .inl ⟨rfl, rfl, nofun⟩
    · simp only [step, flush, heraldDoes]
      by_cases hc : (s.written.isEmpty && s.free) = true
      · rw [if_pos hc, if_pos hc]
        rw [Bool.and_eq_true] at hc
        exact .inr (.inl ⟨List.isEmpty_iff.1 hc.1, hc.2, rfl, rfl, rfl⟩)
      · rw [if_neg hc, if_neg hc]
        exact .inl ⟨rfl, rfl, nofun⟩
    · rw [h1, h2]
      exact .inl ⟨rfl, rfl, h0⟩

end Herald

section
variable {cf : StationConf} {past : List BackendOp} {acts : Nat → HeraldAct}

theorem heraldAt_succ (n : Nat) : heraldAt cf past acts (n + 1) = (heraldAt cf past acts n).step cf (acts n) := by
  unfold heraldAt
  rw [upTo_succ, Herald.run_snoc]

theorem heraldAt_relay (n : Nat) : (heraldAt cf past acts n).relay = relayAt cf past (heraldActs cf past acts) n := by
  induction n with
  | zero => rfl
  | succ n ih => rw [heraldAt_succ, relayAt_succ, Herald.step_relay, ih]; rfl

/-- Lists that were registered. -/
def allLists (cf : StationConf) (s : Herald) : List (List Event) := (s.backend cf).flushedCb ++ (s.backend cf).waiting

theorem unflushed_eq (s : Herald) : heraldWaits cf s = (s.backend cf).waiting := rfl

variable (hp : ProcessGoesOn cf past (heraldActs cf past acts))
include hp

theorem herald_open (n : Nat) : ((heraldAt cf past acts n).backend cf).mem.isSome := by
  have := hp.open_ n
  rw [← heraldAt_relay] at this
  exact this

/-- An action and the lists. -/
theorem herald_step (n : Nat) {more : List BackendOp}
    (hm : (heraldAt cf past acts (n + 1)).relay.station.past = (heraldAt cf past acts n).relay.station.past ++ more) :
    allLists cf (heraldAt cf past acts (n + 1)) = allLists cf (heraldAt cf past acts n) ++ listsOf more ∧
    ((heraldActs cf past acts n ≠ .station (.keep .flush) ∧
        ((heraldAt cf past acts (n + 1)).backend cf).flushedCb = ((heraldAt cf past acts n).backend cf).flushedCb) ∨
      (heraldActs cf past acts n = .station (.keep .flush) ∧
        ((heraldAt cf past acts (n + 1)).backend cf).flushedCb = allLists cf (heraldAt cf past acts n))) := by
  have ho := herald_open hp (n + 1)
  have hb : (heraldAt cf past acts (n + 1)).backend cf = ((heraldAt cf past acts n).backend cf).run more := by
    unfold Herald.backend Station.backend
    rw [hm]
    simp [Backend.run]
  rw [hb] at ho
  have hr : (heraldAt cf past acts (n + 1)).relay = (heraldAt cf past acts n).relay.step cf (heraldActs cf past acts n) := by
    rw [heraldAt_succ, Herald.step_relay]; rfl
  by_cases hf : heraldActs cf past acts n = .station (.keep .flush)
  · have hmore : more = [.flush] := by
      rw [hr, hf] at hm
      exact (List.append_cancel_left (as := (heraldAt cf past acts n).relay.station.past) (bs := [.flush]) hm).symm
    subst hmore
    have e : ((heraldAt cf past acts n).backend cf).run [.flush] = ((heraldAt cf past acts n).backend cf).step .flush := rfl
    rw [e] at ho hb
    obtain ⟨h1, h2⟩ := Backend.waiting_flush ho
    unfold allLists
    rw [hb, h1, h2]
    exact ⟨by simp [listsOf], .inr ⟨hf, rfl⟩⟩
  · obtain ⟨more', h1, h2, h3⟩ := Relay.past_plain cf (heraldAt cf past acts n).relay _ hf
    rw [hr, h1] at hm
    obtain rfl := List.append_cancel_left hm
    obtain ⟨g1, g2, g3⟩ := Backend.waiting_run h3 h2 ho
    unfold allLists
    rw [hb, g2, g3, List.append_assoc]
    exact ⟨rfl, .inl ⟨hf, rfl⟩⟩

theorem herald_more (n : Nat) : ∃ more, (heraldAt cf past acts (n + 1)).relay.station.past = (heraldAt cf past acts n).relay.station.past ++ more := by
  rw [heraldAt_succ, Herald.step_relay]
  rcases Relay.station_step cf (heraldAt cf past acts n).relay (heraldDoes (heraldAt cf past acts n) (acts n)) with h | ⟨x, h⟩
  · exact ⟨[], by rw [h]; simp⟩
  · rw [h]
    obtain ⟨l, hl⟩ := Station.past_step cf (heraldAt cf past acts n).relay.station x
    exact ⟨l, hl.symm⟩

/-- What was flushed is written or announced. -/
theorem herald_account (n : Nat) : ((heraldAt cf past acts n).backend cf).flushedCb =
    ((heraldAt cf past acts 0).backend cf).flushedCb ++ (heraldAt cf past acts n).announced.map Prod.snd ++ (heraldAt cf past acts n).written := by
  induction n with
  | zero =>
    have h1 : (heraldAt cf past acts 0).announced = [] := rfl
    have h2 : (heraldAt cf past acts 0).written = [] := rfl
    simp [h1, h2]
  | succ n ih =>
    obtain ⟨more, hm⟩ := herald_more hp n
    obtain ⟨_, hs⟩ := herald_step hp n hm
    have hl := Herald.step_lists cf (heraldAt cf past acts n) (acts n)
    rw [← heraldAt_succ] at hl
    have hd : heraldDoes (heraldAt cf past acts n) (acts n) = heraldActs cf past acts n := rfl
    rw [hd] at hl
    rcases hl with ⟨h1, h2, h3⟩ | ⟨h1, _, h2, h3, h4⟩ | ⟨l, rest, h1, h2, h3, h4⟩
    · rcases hs with ⟨_, hs⟩ | ⟨hs, _⟩
      · rw [hs, h1, h2, ih]
      · exact absurd hs h3
    · rcases hs with ⟨hs, _⟩ | ⟨_, hs⟩
      · exact absurd h3 hs
      · rw [h4, h2]
        rw [h1, List.append_nil] at ih
        rw [hs]
        unfold allLists
        rw [List.drop_left, ← ih]
    · rcases hs with ⟨_, hs⟩ | ⟨hs, _⟩
      · rw [hs, ih, h1, h2, h3]
        simp
      · rw [h4] at hs; cases hs

theorem herald_lists_mono {n m : Nat} (h : n ≤ m) : allLists cf (heraldAt cf past acts n) <+: allLists cf (heraldAt cf past acts m) := by
  induction m, h using Nat.le_induction with
  | base => exact List.prefix_rfl
  | succ m _ ih =>
    obtain ⟨more, hm⟩ := herald_more hp m
    rw [(herald_step hp m hm).1]
    exact ih.trans (List.prefix_append _ _)

omit hp in
theorem herald_announced_step (n : Nat) : (heraldAt cf past acts n).announced <+: (heraldAt cf past acts (n + 1)).announced := by
  have hl := Herald.step_lists cf (heraldAt cf past acts n) (acts n)
  rw [← heraldAt_succ] at hl
  rcases hl with ⟨_, h2, _⟩ | ⟨_, _, h2, _⟩ | ⟨l, rest, _, _, h3, _⟩
  · rw [h2]; exact List.prefix_rfl
  · rw [h2]; exact List.prefix_rfl
  · rw [h3]; exact List.prefix_append _ _

omit hp in
theorem herald_announced_mono {n m : Nat} (h : n ≤ m) : (heraldAt cf past acts n).announced <+: (heraldAt cf past acts m).announced := by
  induction m, h using Nat.le_induction with
  | base => exact List.prefix_rfl
  | succ m _ ih => exact ih.trans (herald_announced_step m)

omit hp in
/-- The call of an announcement. -/
theorem herald_notify {n : Nat} {l : List Event} (h : heraldActs cf past acts n = .station (.host (.notify l true false))) :
    (relayAt cf past (heraldActs cf past acts) (n + 1)).station.host.server =
      (relayAt cf past (heraldActs cf past acts) n).station.host.server.notify l true false := by
  rw [relayAt_succ, h]
  show ((relayAt cf past (heraldActs cf past acts) n).station.hostStep cf _).host.server = _
  rw [(Station.hostStep_calls cf (relayAt cf past (heraldActs cf past acts) n).station _).host]
  rfl

omit hp in
/-- Announcements are calls without acknowledgment. -/
theorem herald_calls (n : Nat) : ∀ p ∈ (heraldAt cf past acts n).announced,
    p.1 < (relayAt cf past (heraldActs cf past acts) n).station.host.server.nextCall ∧
      ((relayAt cf past (heraldActs cf past acts) n).station.host.server.calls p.1).withAck = false := by
  induction n with
  | zero => exact nofun
  | succ n ih =>
    have hold : ∀ p ∈ (heraldAt cf past acts n).announced, p.1 < (relayAt cf past (heraldActs cf past acts) (n + 1)).station.host.server.nextCall ∧
        ((relayAt cf past (heraldActs cf past acts) (n + 1)).station.host.server.calls p.1).withAck = false := by
      intro p hp
      obtain ⟨h1, h2⟩ := ih p hp
      obtain ⟨l, hl, _⟩ := Relay.server_step cf (relayAt cf past (heraldActs cf past acts) n) (heraldActs cf past acts n)
      rw [relayAt_succ, hl]
      obtain ⟨g1, _, g3⟩ := EvServer.targets_run l h1
      exact ⟨g1, g3.trans h2⟩
    have hl := Herald.step_lists cf (heraldAt cf past acts n) (acts n)
    rw [← heraldAt_succ] at hl
    rcases hl with ⟨_, h2, _⟩ | ⟨_, _, h2, _⟩ | ⟨l, rest, _, _, h3, h4⟩
    · rw [h2]; exact hold
    · rw [h2]; exact hold
    · rw [h3]
      intro p hp
      rcases List.mem_append.1 hp with hp | hp
      · exact hold p hp
      · obtain rfl := List.mem_singleton.1 hp
        rw [herald_notify h4, heraldAt_relay]
        simp [EvServer.notify]

/-- If nothing is announced any more, the flush loop is free at last. -/
theorem herald_free {n : Nat} (h : ∀ m, n ≤ m → (heraldAt cf past acts m).announced = (heraldAt cf past acts n).announced) :
    ∃ m, n ≤ m ∧ ∀ j, m ≤ j → (heraldAt cf past acts j).free = true := by
  cases hl : (heraldAt cf past acts n).announced.getLast? with
  | none =>
    refine ⟨n, Nat.le_refl _, fun j hj => ?_⟩
    unfold Herald.free
    rw [h j hj, hl]
  | some p =>
    obtain ⟨h1, h2⟩ := herald_calls n p (List.mem_of_getLast? hl)
    obtain ⟨m, hm, ho⟩ := relay_over hp h1 h2
    refine ⟨m, hm, fun j hj => ?_⟩
    unfold Herald.free
    rw [h j (by omega), hl]
    simp only
    rw [heraldAt_relay]
    exact ho j hj

variable (hf : HeraldGoesOn cf past acts)
include hf

/-- What is written is announced. -/
theorem herald_announces {n : Nat} (h : (heraldAt cf past acts n).written ≠ []) :
    ∃ m, n ≤ m ∧ (heraldAt cf past acts n).announced.length < (heraldAt cf past acts m).announced.length := by
  by_contra hno
  push Not at hno
  have hconst : ∀ m, n ≤ m → (heraldAt cf past acts m).announced = (heraldAt cf past acts n).announced := by
    intro m hm
    exact ((herald_announced_mono hm).eq_of_length_le (hno m hm)).symm
  have hw : ∀ m, n ≤ m → (heraldAt cf past acts m).written = (heraldAt cf past acts n).written := by
    intro m hm
    induction m, hm using Nat.le_induction with
    | base => rfl
    | succ m hm ih =>
      have hl := Herald.step_lists cf (heraldAt cf past acts m) (acts m)
      rw [← heraldAt_succ] at hl
      rcases hl with ⟨h1, _, _⟩ | ⟨h1, _, _⟩ | ⟨l, rest, _, _, h3, _⟩
      · rw [h1, ih]
      · exact absurd (ih.symm.trans h1) h
      · rw [hconst m hm, hconst (m + 1) (by omega)] at h3
        have := congrArg List.length h3
        simp at this
  obtain ⟨m, hm, hfree⟩ := herald_free hp hconst
  obtain ⟨k, hk, ha⟩ := hf.announce m
  rcases ha with ha | ha
  · have h1 : (heraldAt cf past acts (k + 1)).announced ≠ (heraldAt cf past acts k).announced := by
      rw [heraldAt_succ, ha]
      simp only [Herald.step, Herald.announce]
      cases hwk : (heraldAt cf past acts k).written with
      | nil => exact absurd ((hw k (by omega)).symm.trans hwk) h
      | cons l rest =>
        simp only
        rw [if_pos (hfree k hk)]
        intro e
        have := congrArg List.length e
        simp at this
    exact h1 (by rw [hconst k (by omega), hconst (k + 1) (by omega)])
  · exact h ((hw k (by omega)).symm.trans ha)

theorem herald_announces_all {n i : Nat} (h : i < (heraldAt cf past acts n).announced.length + (heraldAt cf past acts n).written.length) :
    ∃ m, n ≤ m ∧ i < (heraldAt cf past acts m).announced.length := by
  obtain ⟨d, hd⟩ : ∃ d, i < (heraldAt cf past acts n).announced.length + d := ⟨i + 1, by omega⟩
  induction d generalizing n with
  | zero => exact ⟨n, Nat.le_refl _, by simpa using hd⟩
  | succ d ih =>
    by_cases hlt : i < (heraldAt cf past acts n).announced.length
    · exact ⟨n, Nat.le_refl _, hlt⟩
    have hw : (heraldAt cf past acts n).written ≠ [] := by
      intro e
      rw [e] at h
      exact hlt (by simpa using h)
    obtain ⟨m, hm, hgt⟩ := herald_announces hp hf hw
    have hK : (heraldAt cf past acts n).announced.length + (heraldAt cf past acts n).written.length ≤
        (heraldAt cf past acts m).announced.length + (heraldAt cf past acts m).written.length := by
      have hmono : ((heraldAt cf past acts n).backend cf).flushedCb.length ≤ ((heraldAt cf past acts m).backend cf).flushedCb.length := by
        clear hgt
        induction m, hm using Nat.le_induction with
        | base => exact Nat.le_refl _
        | succ m _ ih' =>
          refine Nat.le_trans ih' ?_
          obtain ⟨more, hmore⟩ := herald_more hp m
          rcases (herald_step hp m hmore).2 with ⟨_, e⟩ | ⟨_, e⟩
          · rw [e]
          · rw [e]; unfold allLists; simp
      rw [herald_account hp n, herald_account hp m] at hmono
      simp only [List.length_append, List.length_map] at hmono
      omega
    obtain ⟨m', hm', h'⟩ := ih (n := m) (by omega) (by omega)
    exact ⟨m', by omega, h'⟩

/-- What was registered is written. -/
theorem herald_writes {n i : Nat} (h : ((heraldAt cf past acts 0).backend cf).flushedCb.length + i < (allLists cf (heraldAt cf past acts n)).length) :
    ∃ m, n ≤ m ∧ i < (heraldAt cf past acts m).announced.length + (heraldAt cf past acts m).written.length := by
  by_contra hno
  push Not at hno
  have hacc : ∀ m, ((heraldAt cf past acts m).backend cf).flushedCb.length = ((heraldAt cf past acts 0).backend cf).flushedCb.length +
      ((heraldAt cf past acts m).announced.length + (heraldAt cf past acts m).written.length) := by
    intro m
    have := congrArg List.length (herald_account hp m)
    simp only [List.length_append, List.length_map] at this
    omega
  have hall : ∀ m, n ≤ m → ((heraldAt cf past acts 0).backend cf).flushedCb.length + i < (allLists cf (heraldAt cf past acts m)).length :=
    fun m hm => Nat.lt_of_lt_of_le h (herald_lists_mono hp hm).length_le
  have hnof : ∀ m, n ≤ m → heraldActs cf past acts m ≠ .station (.keep .flush) ∧
      ((heraldAt cf past acts (m + 1)).backend cf).flushedCb = ((heraldAt cf past acts m).backend cf).flushedCb := by
    intro m hm
    obtain ⟨more, hmore⟩ := herald_more hp m
    rcases (herald_step hp m hmore).2 with e | ⟨_, e⟩
    · exact e
    · have h1 := hacc (m + 1)
      have h2 := hall m hm
      have h3 := hno (m + 1) (by omega)
      rw [e] at h1
      omega
  have hsame : ∀ m, n ≤ m → ((heraldAt cf past acts m).backend cf).flushedCb = ((heraldAt cf past acts n).backend cf).flushedCb := by
    intro m hm
    induction m, hm using Nat.le_induction with
    | base => rfl
    | succ m hm ih => rw [(hnof m hm).2, ih]
  -- everything written is announced
  obtain ⟨m1, hm1, hdone⟩ : ∃ m1, n ≤ m1 ∧ (heraldAt cf past acts n).announced.length + (heraldAt cf past acts n).written.length ≤
      (heraldAt cf past acts m1).announced.length := by
    by_cases hz : (heraldAt cf past acts n).announced.length + (heraldAt cf past acts n).written.length = 0
    · exact ⟨n, Nat.le_refl _, by omega⟩
    · obtain ⟨m1, h1, h2⟩ := herald_announces_all hp hf (n := n)
        (i := (heraldAt cf past acts n).announced.length + (heraldAt cf past acts n).written.length - 1) (by omega)
      exact ⟨m1, h1, by omega⟩
  have hempty : ∀ j, m1 ≤ j → (heraldAt cf past acts j).written = [] ∧ (heraldAt cf past acts j).announced = (heraldAt cf past acts m1).announced := by
    intro j hj
    have h1 := (herald_announced_mono (cf := cf) (past := past) (acts := acts) hj).length_le
    have h2 := hacc j
    have h3 := hacc n
    rw [hsame j (by omega)] at h2
    have h4 := hacc m1
    rw [hsame m1 hm1] at h4
    refine ⟨List.eq_nil_of_length_eq_zero (by omega), ((herald_announced_mono hj).eq_of_length_le (by omega)).symm⟩
  obtain ⟨m2, hm2, hfree⟩ := herald_free hp fun m hm => (hempty m hm).2
  obtain ⟨k, hk, ha⟩ := hf.flush m2
  rcases ha with ha | ha
  · refine (hnof k (by omega)).1 ?_
    unfold heraldActs
    rw [ha]
    simp only [heraldDoes]
    rw [if_pos]
    rw [(hempty k (by omega)).1, hfree k hk]
    rfl
  · have h1 := hall k (by omega)
    rw [unflushed_eq] at ha
    unfold allLists at h1
    rw [ha, List.append_nil, hacc k] at h1
    have := hno k (by omega)
    omega

/-- What was registered is announced. -/
theorem herald_reaches {n i : Nat} (h : ((heraldAt cf past acts 0).backend cf).flushedCb.length + i < (allLists cf (heraldAt cf past acts n)).length) :
    ∃ m, n ≤ m ∧ i < (heraldAt cf past acts m).announced.length := by
  obtain ⟨m, hm, h1⟩ := herald_writes hp hf h
  obtain ⟨m', hm', h2⟩ := herald_announces_all hp hf h1
  exact ⟨m', by omega, h2⟩

/-- A list that is registered is announced later. -/
theorem herald_announced {k : Nat} {more : List BackendOp} {l : List Event}
    (hm : (heraldAt cf past acts (k + 1)).relay.station.past = (heraldAt cf past acts k).relay.station.past ++ more) (hl : .register l ∈ more) :
    ∃ j, k ≤ j ∧ heraldActs cf past acts j = .station (.host (.notify l true false)) := by
  obtain ⟨h1, h2⟩ := herald_step hp k hm
  have hll : l ∈ listsOf more := List.mem_filterMap.2 ⟨_, hl, rfl⟩
  obtain ⟨q, hq, hql⟩ := List.getElem_of_mem hll
  have hF : (allLists cf (heraldAt cf past acts k)).length = ((heraldAt cf past acts 0).backend cf).flushedCb.length +
      ((heraldAt cf past acts k).announced.length + (heraldAt cf past acts k).written.length + ((heraldAt cf past acts k).backend cf).waiting.length) := by
    unfold allLists
    have := congrArg List.length (herald_account hp k)
    simp only [List.length_append, List.length_map] at this ⊢
    omega
  -- its place among all lists
  generalize hi : (heraldAt cf past acts k).announced.length + (heraldAt cf past acts k).written.length +
    ((heraldAt cf past acts k).backend cf).waiting.length + q = i at *
  have hplace : (allLists cf (heraldAt cf past acts (k + 1)))[((heraldAt cf past acts 0).backend cf).flushedCb.length + i]? = some l := by
    rw [h1, List.getElem?_append_right (by omega), List.getElem?_eq_some_iff]
    refine ⟨by omega, ?_⟩
    rw [← hql]
    congr 1
    omega
  obtain ⟨m, hkm, hgt⟩ := herald_reaches hp hf (n := k + 1) (i := i) (List.getElem?_eq_some_iff.1 hplace).1
  -- when it is announced
  have hcross : ∀ d, (heraldAt cf past acts (k + d)).announced.length ≤ i ∨
      ∃ j, k ≤ j ∧ j < k + d ∧ (heraldAt cf past acts j).announced.length = i ∧ ∃ l' rest, (heraldAt cf past acts j).written = l' :: rest ∧
        heraldActs cf past acts j = .station (.host (.notify l' true false)) := by
    intro d
    induction d with
    | zero => left; simp only [Nat.add_zero]; omega
    | succ d ih =>
      rcases ih with ih | ⟨j, g1, g2, g3⟩
      · have hs := Herald.step_lists cf (heraldAt cf past acts (k + d)) (acts (k + d))
        rw [← heraldAt_succ] at hs
        rcases hs with ⟨_, e, _⟩ | ⟨_, _, e, _⟩ | ⟨l', rest, e1, _, e3, e4⟩
        · left; rw [show k + (d + 1) = k + d + 1 by omega, e]; exact ih
        · left; rw [show k + (d + 1) = k + d + 1 by omega, e]; exact ih
        · by_cases hlt : (heraldAt cf past acts (k + d)).announced.length = i
          · exact .inr ⟨k + d, by omega, by omega, hlt, l', rest, e1, e4⟩
          · left
            rw [show k + (d + 1) = k + d + 1 by omega, e3]
            simp only [List.length_append, List.length_singleton]
            omega
      · exact .inr ⟨j, g1, by omega, g3⟩
  rcases hcross (m - k) with hle | ⟨j, hj, _, hlen, l', rest, hw, hact⟩
  · rw [show k + (m - k) = m by omega] at hle
    omega
  refine ⟨j, hj, ?_⟩
  rw [hact]
  have hjk : j ≠ k := by
    rintro rfl
    rcases h2 with ⟨_, e⟩ | ⟨e, _⟩
    · have hs : (heraldAt cf past acts (j + 1)).relay = (heraldAt cf past acts j).relay.step cf (heraldActs cf past acts j) := by
        rw [heraldAt_succ, Herald.step_relay]; rfl
      rw [hs, hact] at hm
      have hsame : ((heraldAt cf past acts j).relay.step cf (.station (.host (.notify l' true false)))).station.past =
          (heraldAt cf past acts j).relay.station.past := Station.past_hostStep cf _ _
      rw [hsame] at hm
      have : more = [] := by simpa using hm
      rw [this] at hl
      cases hl
    · rw [hact] at e; cases e
  have hin : (allLists cf (heraldAt cf past acts j))[((heraldAt cf past acts 0).backend cf).flushedCb.length + i]? = some l' := by
    unfold allLists
    rw [herald_account hp j, hw, List.append_assoc, List.append_assoc, List.getElem?_append_right (by omega), List.getElem?_append_right (by simp; omega)]
    simp [hlen]
  obtain ⟨t, ht⟩ := herald_lists_mono hp (show k + 1 ≤ j by omega)
  rw [← ht, List.getElem?_append_left (List.getElem?_eq_some_iff.1 hplace).1, hplace] at hin
  rw [Option.some.inj hin]

end
end HatEvent
