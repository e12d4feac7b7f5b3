import Verif.Spec.Pair
import Verif.Proof.Duo

/-!
# Invariant of two servers that synchronise each other
-/

namespace HatEvent
open Spec

variable {T : Terms}

/-- The invariant of one direction. -/
def DuoReached (conf : Conf) (T : Terms) (server : Int) (d : Duo) : Prop :=
  ∃ pops sops wp ws stored, DuoOk conf T server d pops sops wp ws stored

theorem reached_primary {conf : Conf} {server : Int} {d : Duo} (h : DuoReached conf T server d) (op : BackendOp)
    (hc : ∀ c, op = .reopen c → Like conf T c)
    (hev : ∀ es, op = .register es → ∀ e ∈ es, T.events e)
    (ho : Orderly server (ofServer server (told (d.primary.step op)))) : DuoReached conf T server (d.stepPrimary op) := by
  obtain ⟨pops, sops, wp, ws, stored, h⟩ := h
  obtain ⟨wp', stored', h', _⟩ := duoOk_primary h op (by
    intro c hcc
    rcases List.mem_append.1 hcc with hcc | hcc
    · exact h.confP c hcc
    · exact hc c (List.mem_singleton.1 hcc).symm) hev ho
  exact ⟨_, _, _, _, _, h'⟩

theorem reached_standby {conf : Conf} {server : Int} {d : Duo} (h : DuoReached conf T server d) (op : BackendOp)
    (hc : ∀ c, op = .reopen c → Like conf T c)
    (hev : ∀ es, op = .register es → ∀ e ∈ es, T.events e)
    (hop : ∀ es, op = .register es → ∀ e ∈ es, e.id.server ≠ server) : DuoReached conf T server (d.stepStandby op) := by
  obtain ⟨pops, sops, wp, ws, stored, h⟩ := h
  obtain ⟨ws', h'⟩ := duoOk_standby h op (by
    intro c hcc
    rcases List.mem_append.1 hcc with hcc | hcc
    · exact h.confS c hcc
    · exact hc c (List.mem_singleton.1 hcc).symm) hop hev
  exact ⟨_, _, _, _, _, h'⟩

/-- Events of other servers do not disturb the order. -/
theorem orderly_others {server : Int} {b : Backend} (h : Orderly server (ofServer server (told b))) (es : List Event)
    (hes : ∀ e ∈ es, e.id.server ≠ server) :
    Orderly server (ofServer server (told (b.step (.register es)))) := by
  rcases told_backend b (.register es) with h1 | h1 | ⟨es', h1, h2⟩
  · rw [h1]; exact h
  · rw [h1]
    rw [told_eq, ofServer_append] at h
    exact h.prefix
  · cases h1
    have : ofServer server es = [] := by
      rw [ofServer, List.filter_eq_nil_iff]
      intro e he
      simpa using hes e he
    rw [h2, ofServer_append, this, List.append_nil]
    exact h

theorem registers_primary (d : Duo) (calls : List (List Event)) :
    (d.registers calls).primary = calls.foldl (fun b es => b.step (.register es)) d.primary ∧
      (d.registers calls).standby = d.standby := by
  induction calls generalizing d with
  | nil => exact ⟨rfl, rfl⟩
  | cons es calls ih => exact ih (d.stepPrimary (.register es))

theorem reached_registers {conf : Conf} {server : Int} (calls : List (List Event))
    (hx : ∀ x ∈ calls.flatten, x.id.server ≠ server ∧ T.events x) {d : Duo} (h : DuoReached conf T server d) :
    DuoReached conf T server (d.registers calls) := by
  induction calls generalizing d with
  | nil => exact h
  | cons es calls ih =>
    refine ih (fun x hxx => hx x (by rw [List.flatten_cons]; exact List.mem_append_right _ hxx))
      (reached_primary h (.register es) (fun c hc => by cases hc)
        (fun es' h' e he => (hx e (by cases h'; rw [List.flatten_cons]; exact List.mem_append_left _ he)).2) ?_)
    obtain ⟨_, _, _, _, _, h'⟩ := h
    exact orderly_others h'.order es fun e he => (hx e (by rw [List.flatten_cons]; exact List.mem_append_left _ he)).1

theorem told_registers (calls : List (List Event)) {b : Backend} {e : Event}
    (he : e ∈ told (calls.foldl (fun b es => b.step (.register es)) b)) : e ∈ told b ∨ e ∈ calls.flatten := by
  induction calls generalizing b with
  | nil => exact .inl he
  | cons es calls ih =>
    rcases ih he with h | h
    · rcases mem_told_step h with h | ⟨es', h1, h2⟩
      · exact .inl h
      · cases h1
        exact .inr (by rw [List.flatten_cons]; exact List.mem_append_left _ h2)
    · exact .inr (by rw [List.flatten_cons]; exact List.mem_append_right _ h)

/-- The invariant of both directions. -/
structure PairOk (conf : Conf) (T : Terms) (left right : Int) (p : Pair) : Prop where
  fore : DuoReached conf T left p.foreward
  back : DuoReached conf T right p.backward
  toldL : ∀ e ∈ told p.left, e.id.server = left ∨ e.id.server = right
  toldR : ∀ e ∈ told p.right, e.id.server = left ∨ e.id.server = right

theorem PairOk.mirror {conf : Conf} {left right : Int} {p : Pair} (h : PairOk conf T left right p) :
    PairOk conf T right left p.mirror :=
  ⟨h.back, h.fore, fun e he => (h.toldR e he).symm, fun e he => (h.toldL e he).symm⟩

theorem pairOk_left {conf : Conf} {left right : Int} {p : Pair} (hd : left ≠ right) (h : PairOk conf T left right p)
    (op : BackendOp) (hc : ∀ c, op = .reopen c → Like conf T c)
    (hev : ∀ es, op = .register es → ∀ e ∈ es, T.events e)
    (hop : ∀ es, op = .register es → ∀ e ∈ es, e.id.server = left)
    (ho : Orderly left (ofServer left (told (p.left.step op)))) : PairOk conf T left right (p.stepLeft op) := by
  refine ⟨reached_primary h.fore op hc hev ho, reached_standby h.back op hc hev ?_, ?_, h.toldR⟩
  · intro es hes e he heq
    exact hd ((hop es hes e he).symm.trans heq)
  · intro e he
    rcases mem_told_step he with he | ⟨es, h1, h2⟩
    · exact h.toldL e he
    · exact .inl (hop es h1 e h2)

/-- An action of a connection: calls of `register` of the standby, and what they have. -/
theorem duo_link {conf : Conf} {server : Int} {d : Duo} (h : DuoReached conf T server d) (act : SideAct) :
    DuoReached conf T server (d.step act.toDuo) ∧ (d.step act.toDuo).primary = d.primary ∧
      (d.step act.toDuo).standby =
        ((d.step act.toDuo).link.calls.drop d.link.calls.length).foldl (fun b es => b.step (.register es)) d.standby ∧
      ∀ x ∈ ((d.step act.toDuo).link.calls.drop d.link.calls.length).flatten, x.id.server = server ∧ T.events x := by
  obtain ⟨pops, sops, wp, ws, stored, h⟩ := h
  have nothing : ∀ d' : Duo, DuoReached conf T server d' → d'.primary = d.primary → d'.standby = d.standby →
      d'.link.calls.drop d.link.calls.length = [] →
      DuoReached conf T server d' ∧ d'.primary = d.primary ∧
        d'.standby = (d'.link.calls.drop d.link.calls.length).foldl (fun b es => b.step (.register es)) d.standby ∧
        ∀ x ∈ (d'.link.calls.drop d.link.calls.length).flatten, x.id.server = server ∧ T.events x := by
    intro d' h1 h2 h3 h4
    rw [h4]
    exact ⟨h1, h2, h3, by simp⟩
  cases act with
  | connect =>
    refine nothing _ ⟨_, _, _, _, _, duoOk_connect h⟩ ?_ ?_ ?_ <;>
      (simp only [SideAct.toDuo, Duo.step, Duo.connect]; split <;> try split) <;> simp [Sync.init]
  | notify =>
    refine nothing _ ⟨_, _, _, _, _, duoOk_notify h⟩ rfl rfl ?_
    simp only [SideAct.toDuo, Duo.step]
    rw [(sendNotify_same d.link).2.2.2.1]
    simp
  | serve =>
    refine nothing _ ⟨_, _, _, _, _, duoOk_serve h⟩ ?_ ?_ ?_ <;>
      (simp only [SideAct.toDuo, Duo.step, Duo.serve]; split <;> (try split) <;> (try split)) <;> simp
  | deliver =>
    obtain ⟨sops', ws', h1, h2⟩ := duoOk_deliver h
    refine ⟨⟨_, _, _, _, _, h1⟩, rfl, ?_, h2⟩
    simp only [SideAct.toDuo, Duo.step, Duo.register]
    split <;> rfl
  | advance =>
    obtain ⟨sops', ws', h1, h2⟩ := duoOk_advance h
    refine ⟨⟨_, _, _, _, _, h1⟩, rfl, ?_, h2⟩
    simp only [SideAct.toDuo, Duo.step, Duo.register]
    split <;> rfl
  | close =>
    refine nothing _ ⟨_, _, _, _, _, duoOk_link h h.remote h.keep h.suffix fun hc => by cases hc⟩ rfl rfl ?_
    simp [SideAct.toDuo, Duo.step, Sync.step]

theorem side_primary (d : Duo) (act : SideAct) : (d.step act.toDuo).primary = d.primary := by
  cases act with
  | connect => simp only [SideAct.toDuo, Duo.step, Duo.connect]; split <;> (try split) <;> rfl
  | serve => simp only [SideAct.toDuo, Duo.step, Duo.serve]; split <;> (try split) <;> (try split) <;> rfl
  | _ => rfl

theorem stepFore_foreward (p : Pair) (act : SideAct) : (p.stepFore act).foreward = p.foreward.step act.toDuo := by
  have h2' : (p.foreward.step act.toDuo).primary = p.left := side_primary _ act
  show (⟨p.left, (p.foreward.step act.toDuo).standby, (p.foreward.step act.toDuo).link⟩ : Duo) = _
  rw [← h2']

theorem stepFore_backward {p : Pair} {act : SideAct}
    (hr : (p.stepFore act).right = ((p.foreward.step act.toDuo).link.calls.drop p.fore.calls.length).foldl
      (fun b es => b.step (.register es)) p.right) :
    (p.stepFore act).backward =
      p.backward.registers ((p.foreward.step act.toDuo).link.calls.drop p.fore.calls.length) := by
  obtain ⟨r1, r2⟩ := registers_primary p.backward ((p.foreward.step act.toDuo).link.calls.drop p.fore.calls.length)
  unfold Pair.backward at r1 r2 ⊢
  rw [hr]
  generalize hx : ({ primary := p.right, standby := p.left, link := p.back } : Duo).registers
    ((p.foreward.step act.toDuo).link.calls.drop p.fore.calls.length) = x at r1 r2 ⊢
  obtain ⟨x1, x2, x3⟩ := x
  simp only at r1 r2
  rw [r1, r2]
  unfold Pair.stepFore Pair.backward
  simp only
  rw [hx]

theorem pairOk_fore {conf : Conf} {left right : Int} {p : Pair} (hd : left ≠ right) (h : PairOk conf T left right p)
    (act : SideAct) : PairOk conf T left right (p.stepFore act) := by
  obtain ⟨h1, h2, h3, h4⟩ := duo_link h.fore act
  have hr : (p.stepFore act).right = ((p.foreward.step act.toDuo).link.calls.drop p.fore.calls.length).foldl
      (fun b es => b.step (.register es)) p.right := h3
  have hb := stepFore_backward hr
  have hf := stepFore_foreward p act
  refine ⟨by rw [hf]; exact h1, ?_, h.toldL, ?_⟩
  · rw [hb]
    exact reached_registers _ (fun x hx => ⟨fun heq => hd ((h4 x hx).1.symm.trans heq), (h4 x hx).2⟩) h.back
  · intro e he
    rw [hr] at he
    rcases told_registers _ he with he | he
    · exact h.toldR e he
    · exact .inl (h4 e he).1

theorem pair_run_snoc (p : Pair) (acts : List PairAct) (a : PairAct) : p.run (acts ++ [a]) = (p.run acts).step a := by
  simp [Pair.run]

/-- The invariant holds always. -/
theorem pairOk_run (conf : Conf) (left right : Int) (acts : List PairAct) (ha : Matched conf left right acts)
    (hc : ∀ c, (.left (.reopen c) ∈ acts ∨ .right (.reopen c) ∈ acts) → (∀ e, T.taken e → Takes c e) ∧ T.confs c)
    (he : ∀ es, (.left (.register es) ∈ acts ∨ .right (.register es) ∈ acts) → ∀ e ∈ es, T.events e)
    (ho : BothInOrder conf left right acts) : PairOk conf T left right ((Pair.new conf left right).run acts) := by
  induction acts using List.reverseRecOn with
  | nil =>
    refine ⟨⟨_, _, _, _, _, duoOk_new conf left⟩, ⟨_, _, _, _, _, duoOk_new conf right⟩, ?_, ?_⟩ <;>
      simp [Pair.run, Pair.new, told, Backend.new]
  | append_singleton acts a ih =>
    have h := ih ⟨ha.different, fun c hc => ha.confL c (List.mem_append_left _ hc),
        fun c hc => ha.confR c (List.mem_append_left _ hc), fun c hc => ha.ownL c (List.mem_append_left _ hc),
        fun c hc => ha.ownR c (List.mem_append_left _ hc)⟩
      (fun c h => hc c (h.imp (List.mem_append_left _) (List.mem_append_left _)))
      (fun es h => he es (h.imp (List.mem_append_left _) (List.mem_append_left _)))
      (fun pre hpre => ho pre (prefix_snoc hpre))
    have hlast := ho (acts ++ [a]) List.prefix_rfl
    rw [pair_run_snoc] at hlast ⊢
    generalize (Pair.new conf left right).run acts = p at h hlast ⊢
    cases a with
    | left op =>
      exact pairOk_left ha.different h op (fun c h' => by
          have hm : .left (.reopen c) ∈ acts ++ [PairAct.left op] := by rw [h']; simp
          exact ⟨(ha.confL c hm).1, (ha.confL c hm).2, (hc c (.inl hm)).1, (hc c (.inl hm)).2⟩)
        (fun es h' => he es (.inl (by rw [h']; simp))) (fun es he => ha.ownL es (by rw [he]; simp)) hlast.1
    | right op =>
      exact (pairOk_left ha.different.symm h.mirror op (fun c h' => by
          have hm : .right (.reopen c) ∈ acts ++ [PairAct.right op] := by rw [h']; simp
          exact ⟨(ha.confR c hm).1, (ha.confR c hm).2, (hc c (.inr hm)).1, (hc c (.inr hm)).2⟩)
        (fun es h' => he es (.inr (by rw [h']; simp))) (fun es he => ha.ownR es (by rw [he]; simp)) hlast.2).mirror
    | fore act => exact pairOk_fore ha.different h act
    | back act => exact (pairOk_fore ha.different.symm h.mirror act).mirror

end HatEvent
