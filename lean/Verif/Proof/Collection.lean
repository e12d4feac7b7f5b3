import Verif.Spec.Collection
import Verif.Proof.SubscriptionCreate

/-! Lemmas about event type collections. -/

namespace HatEvent
open Spec

section
variable {V : Type}

/-! ## Histories -/

theorem registeredWith_nil {P : Sub → Prop} {v : V} : ¬ RegisteredWith P [] v := by
  rintro ⟨pre, s, post, h, _⟩
  simp at h

theorem registeredWith_add {P : Sub → Prop} {ops : List (CollOp V)} {s : Sub} {v w : V} :
    RegisteredWith P (ops ++ [.add s w]) v ↔ RegisteredWith P ops v ∨ (v = w ∧ P s) := by
  constructor
  · rintro ⟨pre, t, post, h, hr, hp⟩
    rcases List.eq_nil_or_concat post with rfl | ⟨post, x, rfl⟩
    · have := List.append_inj_right' h rfl
      simp at this
      exact .inr ⟨this.2.symm, this.1 ▸ hp⟩
    · rw [List.concat_eq_append, ← List.cons_append, ← List.append_assoc] at h
      have h1 := List.append_inj_left' h rfl
      exact .inl ⟨pre, t, post, h1, fun hm => hr (by simp [hm]), hp⟩
  · rintro (⟨pre, t, post, rfl, hr, hp⟩ | ⟨rfl, hp⟩)
    · exact ⟨pre, t, post ++ [.add s w], by simp, by simpa using hr, hp⟩
    · exact ⟨ops, s, [], by simp, by simp, hp⟩

theorem registeredWith_remove {P : Sub → Prop} {ops : List (CollOp V)} {v w : V} :
    RegisteredWith P (ops ++ [.remove w]) v ↔ v ≠ w ∧ RegisteredWith P ops v := by
  constructor
  · rintro ⟨pre, t, post, h, hr, hp⟩
    rcases List.eq_nil_or_concat post with rfl | ⟨post, x, rfl⟩
    · have := List.append_inj_right' h rfl
      simp at this
    · rw [List.concat_eq_append, ← List.cons_append, ← List.append_assoc] at h
      have h1 := List.append_inj_left' h rfl
      have h2 := List.append_inj_right' h rfl
      simp at h2
      subst h2
      refine ⟨?_, pre, t, post, h1, fun hm => hr (by simp [hm]), hp⟩
      rintro rfl
      exact hr (by simp)
  · rintro ⟨hne, pre, t, post, rfl, hr, hp⟩
    refine ⟨pre, t, post ++ [.remove w], by simp, ?_, hp⟩
    simp only [List.mem_append, List.mem_singleton, not_or]
    exact ⟨hr, fun h => hne (by injection h)⟩

theorem RegisteredWith.mono {P Q : Sub → Prop} {ops : List (CollOp V)} {v : V}
    (h : RegisteredWith P ops v) (hpq : ∀ s, .add s v ∈ ops → P s → Q s) :
    RegisteredWith Q ops v := by
  obtain ⟨pre, s, post, rfl, hr, hp⟩ := h
  exact ⟨pre, s, post, rfl, hr, hpq s (by simp) hp⟩

variable [DecidableEq V]

theorem mem_toSet {l : List V} {v : V} : v ∈ toSet l ↔ v ∈ l := by
  induction l with
  | nil => simp [toSet]
  | cons w l ih =>
    rw [toSet]
    split_ifs with h
    · rw [ih, List.mem_cons]
      constructor
      · exact .inr
      · rintro (rfl | h')
        · exact h
        · exact h'
    · rw [List.mem_cons, List.mem_cons, ih]

theorem nodup_toSet (l : List V) : (toSet l).Nodup := by
  induction l with
  | nil => simp [toSet]
  | cons w l ih =>
    rw [toSet]
    split_ifs with h
    · exact ih
    · rw [List.nodup_cons]
      exact ⟨fun hm => h (mem_toSet.1 hm), ih⟩

/-! ## Listed query types are distinct -/

theorem nodup_flatMap_cons {α : Type} {l : List (Segment × α)} {f : α → List EventType}
    (hk : (Dict.keys l).Nodup) (hf : ∀ p ∈ l, (f p.2).Nodup) :
    (l.flatMap fun p => (f p.2).map (p.1 :: ·)).Nodup := by
  induction l with
  | nil => simp
  | cons p l ih =>
    rw [Dict.keys_cons, List.nodup_cons] at hk
    rw [List.flatMap_cons, List.nodup_append]
    refine ⟨?_, ih hk.2 (fun q hq => hf q (by simp [hq])), ?_⟩
    · have h1 := hf p (by simp)
      unfold List.Nodup at h1 ⊢
      rw [List.pairwise_map]
      exact h1.imp (fun hne he => hne (List.cons.inj he).2)
    · intro a ha b hb hab
      subst hab
      obtain ⟨x, _, rfl⟩ := List.mem_map.1 ha
      obtain ⟨q, hq, hx⟩ := List.mem_flatMap.1 hb
      obtain ⟨y, _, hy⟩ := List.mem_map.1 hx
      have : q.1 = p.1 := (List.cons.inj hy).1
      exact hk.1 (this ▸ Dict.mem_keys_of_mem (v := q.2) hq)

theorem nodup_nodeToQueryTypes : ∀ (d : Nat) (n : Node), n.depth ≤ d → WF n →
    (nodeToQueryTypes n).Nodup := by
  intro d
  induction d with
  | zero => intro n hd; exact absurd hd (by have := depth_pos n; omega)
  | succ d ih =>
    rintro ⟨l, ch⟩ hd hw
    rw [nodeToQueryTypes, childrenToQueryTypes_eq, List.nodup_append]
    refine ⟨by split_ifs <;> simp, nodup_flatMap_cons hw.nodup ?_, ?_⟩
    · intro p hp
      exact ih p.2 (by have := depth_child (n := .mk l ch) hp; omega)
        (hw.child (n := .mk l ch) hp)
    · intro a ha b hb hab
      subst hab
      have ha' : a = [] := by
        split_ifs at ha
        · simpa using ha
        · simp at ha
      subst ha'
      simp at hb

theorem nodup_cGetQueryTypes : ∀ (d : Nat) (n : CNode), n.depth ≤ d → CWF n →
    (cGetQueryTypes n).Nodup := by
  intro d
  induction d with
  | zero => intro n hd; exact absurd hd (by have := cdepth_pos n; omega)
  | succ d ih =>
    rintro ⟨l, st, ch⟩ hd hw
    rw [cGetQueryTypes, cChildrenQueryTypes_eq]
    split_ifs
    · simp
    · rw [List.nodup_append]
      refine ⟨by simp, nodup_flatMap_cons hw.nodup ?_, ?_⟩
      · intro p hp
        exact ih p.2 (by have := cdepth_child (n := .mk l st ch) hp; omega)
          (hw.child (n := .mk l st ch) hp)
      · intro a ha b hb hab
        subst hab
        simp at ha
        subst ha
        simp at hb
    · rw [List.nodup_append]
      refine ⟨by simp, nodup_flatMap_cons hw.nodup ?_, by simp⟩
      · intro p hp
        exact ih p.2 (by have := cdepth_child (n := .mk l st ch) hp; omega)
          (hw.child (n := .mk l st ch) hp)

theorem Sub.queryTypes_nodup {s : Sub} (h : s.Valid) : s.getQueryTypes.Nodup := by
  cases s with
  | py root => exact nodup_nodeToQueryTypes _ root le_rfl h.1
  | c root => exact nodup_cGetQueryTypes _ root le_rfl h

/-! ## List implementation -/

/-- Invariant of the list implementation. -/
def PyList.Inv (ops : List (CollOp V)) (c : PyList V) : Prop :=
  (Dict.keys c.values).Nodup ∧ (∀ p ∈ c.values, p.2.Valid) ∧
  ∀ v e, Registered ops v e ↔
    ∃ s, Dict.get c.values v = some s ∧ s.matches e = true

theorem PyList.run_inv : ∀ (ops pre : List (CollOp V)) (c : PyList V),
    (∀ s v, .add s v ∈ ops → s.Valid) → PyList.Inv pre c →
    ∃ c', ops.foldlM (fun c op => match op with
      | .add s v => c.add s v
      | .remove v => .ok (c.remove v)) c = (.ok c' : Except PyErr _) ∧
      PyList.Inv (pre ++ ops) c' := by
  intro ops
  induction ops with
  | nil => intro pre c _ h; exact ⟨c, rfl, by simpa using h⟩
  | cons op ops ih =>
    intro pre c hv hi
    obtain ⟨hn, hval, hreg⟩ := hi
    have step : ∃ c', (match op with
        | .add s v => c.add s v
        | .remove v => .ok (c.remove v)) = (.ok c' : Except PyErr _) ∧
        PyList.Inv (pre ++ [op]) c' := by
      cases op with
      | remove w =>
        refine ⟨c.remove w, rfl, Dict.nodup_keys_del hn, ?_, ?_⟩
        · intro p hp
          have hg := Dict.get_of_mem (Dict.nodup_keys_del hn) hp
          rw [Dict.get_del] at hg
          split_ifs at hg
          exact hval p (Dict.mem_of_get hg)
        · intro v e
          unfold Registered at hreg ⊢
          rw [registeredWith_remove, hreg]
          simp only [PyList.remove, Dict.get_del]
          by_cases hvw : w = v
          · subst hvw; simp
          · simp [hvw, Ne.symm hvw]
      | add s w =>
        have hs : s.Valid := hv s w (by simp)
        have fin : ∀ t : Sub, t.Valid →
            (∀ e, t.matches e = true ↔
              ((∃ u, Dict.get c.values w = some u ∧ u.matches e = true) ∨
                s.matches e = true)) →
            PyList.Inv (pre ++ [.add s w]) ⟨Dict.set c.values w t⟩ := by
          intro t ht hte
          refine ⟨Dict.nodup_keys_set hn, ?_, ?_⟩
          · intro p hp
            rcases Dict.mem_set hp with rfl | hp
            · exact ht
            · exact hval p hp
          · intro v e
            unfold Registered at hreg ⊢
            rw [registeredWith_add, hreg]
            simp only [Dict.get_set]
            by_cases hvw : w = v
            · subst hvw
              simp only [if_true, Option.some.injEq, exists_eq_left', true_and]
              rw [hte e]
            · simp [hvw, Ne.symm hvw]
        cases hg : Dict.get c.values w with
        | none =>
          refine ⟨⟨Dict.set c.values w s⟩, by simp [PyList.add, hg], fin s hs ?_⟩
          simp [hg]
        | some u =>
          have hu : u.Valid := hval _ (Dict.mem_of_get hg)
          obtain ⟨t, ht, htv, hte⟩ := Sub.union_spec hu (others := [s]) (by simpa using hs)
          refine ⟨⟨Dict.set c.values w t⟩, by simp [PyList.add, hg, ht], fin t htv ?_⟩
          intro e
          rw [hte e]
          simp [hg]
    obtain ⟨c', h1, h2⟩ := step
    obtain ⟨c'', h3, h4⟩ := ih (pre ++ [op]) c' (fun s v h => hv s v (by simp [h])) h2
    refine ⟨c'', ?_, by simpa using h4⟩
    rw [List.foldlM_cons, h1]
    exact h3

/-! ## Python tree -/

theorem PNode.valuesAt_modifyAt (q : EventType) : ∀ (q' : EventType) (f : List V → List V)
    (n : PNode V), PNode.valuesAt q (PNode.modifyAt q' f n) =
      if q = q' then f (PNode.valuesAt q n) else PNode.valuesAt q n := by
  induction q with
  | nil =>
    rintro (_ | ⟨k, q'⟩) f ⟨vs, ch⟩
    · simp [modifyAt, valuesAt]
    · simp [modifyAt, valuesAt]
  | cons s q ih =>
    rintro (_ | ⟨k, q'⟩) f ⟨vs, ch⟩
    · simp [modifyAt, valuesAt]
    · rw [modifyAt, valuesAt, valuesAt, Dict.get_set]
      by_cases hk : k = s
      · subst hk
        simp only [if_true, ih, List.cons.injEq, true_and]
        cases hg : Dict.get ch k with
        | some c => simp
        | none =>
          have : valuesAt q (create : PNode V) = [] := by
            cases q <;> simp [create, valuesAt]
          simp [this]
      · simp [hk, Ne.symm hk]

theorem PNode.mem_get (e : EventType) : ∀ (n : PNode V) (v : V),
    v ∈ PNode.get e n ↔ ∃ q, v ∈ PNode.valuesAt q n ∧ Matches e q := by
  have star : ∀ (vs : List V) (ch : List (Segment × PNode V)) (v : V),
      v ∈ (match Dict.get ch "*" with | some child => child.values | none => []) ↔
        v ∈ valuesAt ["*"] (PNode.mk vs ch) := by
    intro vs ch v
    rw [valuesAt]
    cases Dict.get ch "*" with
    | none => exact Iff.rfl
    | some c => cases c; exact Iff.rfl
  induction e with
  | nil =>
    rintro ⟨vs, ch⟩ v
    rw [get, List.mem_append]
    refine Iff.trans (or_congr (star vs ch v) Iff.rfl) ?_
    constructor
    · rintro (h | h)
      · exact ⟨_, h, .star _⟩
      · exact ⟨[], by simpa [valuesAt] using h, .nil⟩
    · rintro ⟨q, h, hm⟩
      rcases Matches.nil_left.1 hm with rfl | rfl
      · exact .inr (by simpa [valuesAt] using h)
      · exact .inl h
  | cons s e ih =>
    rintro ⟨vs, ch⟩ v
    rw [get, List.mem_append, List.mem_append]
    have child : ∀ k, v ∈ (match Dict.get ch k with
        | some child => get e child | none => []) ↔
        ∃ q, v ∈ valuesAt (k :: q) (PNode.mk vs ch) ∧ Matches e q := by
      intro k
      simp only [valuesAt]
      cases Dict.get ch k with
      | none => simp
      | some c => exact ih c v
    refine Iff.trans (or_congr (or_congr (star vs ch v) (child s)) (child "?")) ?_
    constructor
    · rintro ((h | ⟨q, h, hm⟩) | ⟨q, h, hm⟩)
      · exact ⟨_, h, .star _⟩
      · exact ⟨_, h, .same _ hm⟩
      · exact ⟨_, h, .any _ hm⟩
    · rintro ⟨q, h, hm⟩
      cases hm with
      | star => exact .inl (.inl h)
      | any _ hm => exact .inr ⟨_, h, hm⟩
      | same _ hm => exact .inl (.inr ⟨_, h, hm⟩)

namespace PyTree

/-- Nodes holding a value. -/
def paths (c : PyTree V) (v : V) : List EventType := (Dict.get c.valueNodes v).getD []

/-- Invariant of the Python tree. -/
def Inv (c : PyTree V) : Prop :=
  (∀ v q, v ∈ PNode.valuesAt q c.root ↔ q ∈ c.paths v) ∧ ∀ v, (c.paths v).Nodup

theorem addLoop_spec (v : V) : ∀ (l : List EventType) (c : PyTree V),
    (∀ q ∈ l, WellFormed q) → Inv c →
    ∃ c', addLoop v l c = .ok c' ∧ Inv c' ∧
      (∀ u, u ≠ v → c'.paths u = c.paths u) ∧
      (∀ q, q ∈ c'.paths v → q ∈ c.paths v ∨ q ∈ l) ∧
      (∀ q, q ∈ c.paths v → q ∈ c'.paths v) ∧
      (l.Nodup → (∀ q ∈ l, q ∉ c.paths v) → ∀ q ∈ l, q ∈ c'.paths v) := by
  intro l
  induction l with
  | nil =>
    intro c _ hi
    exact ⟨c, rfl, hi, fun _ _ => rfl, fun q h => .inl h, fun q h => h, by simp⟩
  | cons q l ih =>
    intro c hw hi
    have hq : starNotLast q = false := by
      have := hw q (by simp)
      unfold WellFormed at this
      simpa [starNotLast] using this
    have hid : ∀ p, PNode.valuesAt p (PNode.modifyAt q id c.root) = PNode.valuesAt p c.root := by
      intro p; rw [PNode.valuesAt_modifyAt]; simp
    rw [addLoop]
    simp only [hq, Bool.false_eq_true, if_false, hid]
    split_ifs with hm
    · refine ⟨_, rfl, ⟨?_, hi.2⟩, fun _ _ => rfl, fun p h => .inl h, fun p h => h, ?_⟩
      · intro u p
        exact (by rw [hid]; exact hi.1 u p :
          u ∈ PNode.valuesAt p (PNode.modifyAt q id c.root) ↔ p ∈ c.paths u)
      · intro _ hno
        exact absurd ((hi.1 v q).1 hm) (hno q (by simp))
    · set c1 : PyTree V :=
        { root := PNode.modifyAt q (v :: ·) (PNode.modifyAt q id c.root)
          valueNodes := Dict.set c.valueNodes v ((Dict.get c.valueNodes v).getD [] ++ [q]) }
        with hc1
      have hp1 : ∀ u, c1.paths u = if v = u then c.paths v ++ [q] else c.paths u := by
        intro u
        simp only [paths, hc1, Dict.get_set]
        split_ifs <;> rfl
      have hi1 : Inv c1 := by
        constructor
        · intro u p
          rw [hp1]
          simp only [hc1, PNode.valuesAt_modifyAt, id, ite_self]
          by_cases hpq : p = q
          · subst hpq
            by_cases huv : v = u
            · subst huv; simp
            · simp only [if_true, List.mem_cons, if_neg huv]
              rw [← hi.1 u p]
              constructor
              · rintro (h | h)
                · exact absurd h.symm huv
                · exact h
              · exact .inr
          · rw [if_neg hpq, hi.1 u p]
            by_cases huv : v = u
            · subst huv; simp [hpq]
            · rw [if_neg huv]
        · intro u
          rw [hp1]
          split_ifs with huv
          · rw [List.nodup_append]
            refine ⟨hi.2 v, by simp, ?_⟩
            intro a ha b hb hab
            simp at hb
            subst hb hab
            exact hm ((hi.1 v a).2 ha)
          · exact hi.2 u
      obtain ⟨c', h1, h2, h3, h4, h5, h6⟩ := ih c1 (fun p hp => hw p (by simp [hp])) hi1
      refine ⟨c', h1, h2, ?_, ?_, ?_, ?_⟩
      · intro u hu
        rw [h3 u hu, hp1, if_neg (Ne.symm hu)]
      · intro p hp
        rcases h4 p hp with h | h
        · rw [hp1, if_pos rfl, List.mem_append] at h
          rcases h with h | h
          · exact .inl h
          · exact .inr (by simp at h; simp [h])
        · exact .inr (by simp [h])
      · intro p hp
        exact h5 p (by rw [hp1, if_pos rfl]; simp [hp])
      · intro hnd hno p hp
        rw [List.nodup_cons] at hnd
        rcases List.mem_cons.1 hp with rfl | hp
        · exact h5 p (by rw [hp1, if_pos rfl]; simp)
        · refine h6 hnd.2 ?_ p hp
          intro r hr
          rw [hp1, if_pos rfl, List.mem_append, not_or]
          refine ⟨hno r (by simp [hr]), ?_⟩
          simp only [List.mem_singleton]
          rintro rfl
          exact hnd.1 hr

theorem removeLoop_spec (v : V) : ∀ (l : List EventType) (n : PNode V), l.Nodup →
    (∀ q ∈ l, v ∈ PNode.valuesAt q n) →
    ∃ n', removeLoop v l n = .ok n' ∧
      ∀ q, PNode.valuesAt q n' =
        if q ∈ l then (PNode.valuesAt q n).filter (· ≠ v) else PNode.valuesAt q n := by
  intro l
  induction l with
  | nil => intro n _ _; exact ⟨n, rfl, by simp⟩
  | cons q l ih =>
    intro n hnd hm
    rw [List.nodup_cons] at hnd
    rw [removeLoop, if_pos (hm q (by simp))]
    obtain ⟨n', h1, h2⟩ := ih (PNode.modifyAt q (fun vs => vs.filter (· ≠ v)) n) hnd.2 (by
      intro p hp
      rw [PNode.valuesAt_modifyAt, if_neg (by rintro rfl; exact hnd.1 hp)]
      exact hm p (by simp [hp]))
    refine ⟨n', h1, fun p => ?_⟩
    rw [h2, PNode.valuesAt_modifyAt]
    by_cases hpq : p = q
    · subst hpq; simp [hnd.1]
    · simp [hpq]

theorem remove_spec {c : PyTree V} (hi : Inv c) (v : V) :
    ∃ c', c.remove v = .ok c' ∧ Inv c' ∧
      ∀ u, c'.paths u = if u = v then [] else c.paths u := by
  obtain ⟨n', h1, h2⟩ := removeLoop_spec v (c.paths v) c.root (hi.2 v)
    (fun q hq => (hi.1 v q).2 hq)
  refine ⟨⟨n', Dict.del c.valueNodes v⟩, by unfold remove; unfold paths at h1; rw [h1], ?_, ?_⟩
  · have hp : ∀ u, paths ⟨n', Dict.del c.valueNodes v⟩ u = if v = u then [] else c.paths u := by
      intro u
      simp only [paths, Dict.get_del]
      split_ifs <;> rfl
    constructor
    · intro u q
      rw [hp, h2]
      by_cases huv : v = u
      · subst huv
        by_cases hq : q ∈ c.paths v
        · simp [hq]
        · simp only [hq, if_false, if_true, List.not_mem_nil, iff_false]
          exact fun h => hq ((hi.1 v q).1 h)
      · rw [if_neg huv, ← hi.1 u q]
        split_ifs
        · simp [Ne.symm huv]
        · rfl
    · intro u
      rw [hp]
      split_ifs
      · simp
      · exact hi.2 u
  · intro u
    simp only [paths, Dict.get_del]
    by_cases h : v = u
    · simp [h]
    · simp [h, Ne.symm h]

/-- Every path of a value comes from the history; under `NoReAdd` also conversely. -/
def HInv (ops : List (CollOp V)) (c : PyTree V) : Prop :=
  Inv c ∧
  (∀ v q, q ∈ c.paths v → RegisteredWith (fun s => q ∈ s.getQueryTypes) ops v) ∧
  (NoReAdd ops → ∀ v q, RegisteredWith (fun s => q ∈ s.getQueryTypes) ops v → q ∈ c.paths v)

theorem NoReAdd.prefix {a b : List (CollOp V)} (h : NoReAdd (a ++ b)) : NoReAdd a := by
  rintro pre s v post rfl
  exact h pre s v (post ++ b) (by simp)

theorem run_inv : ∀ (ops pre : List (CollOp V)) (c : PyTree V),
    (∀ s v, .add s v ∈ ops → s.Valid) → HInv pre c →
    ∃ c', ops.foldlM (fun c op => match op with
      | .add s v => c.add s v
      | .remove v => c.remove v) c = (.ok c' : Except PyErr _) ∧
      HInv (pre ++ ops) c' := by
  intro ops
  induction ops with
  | nil => intro pre c _ h; exact ⟨c, rfl, by simpa using h⟩
  | cons op ops ih =>
    intro pre c hv hi
    obtain ⟨hinv, hsnd, hcpl⟩ := hi
    have step : ∃ c', (match op with
        | .add s v => c.add s v
        | .remove v => c.remove v) = (.ok c' : Except PyErr _) ∧ HInv (pre ++ [op]) c' := by
      cases op with
      | remove w =>
        obtain ⟨c', h1, h2, h3⟩ := remove_spec hinv w
        refine ⟨c', h1, h2, ?_, ?_⟩
        · intro v q hq
          rw [h3] at hq
          rw [registeredWith_remove]
          split_ifs at hq with h
          · simp at hq
          · exact ⟨h, hsnd v q hq⟩
        · intro hno v q hr
          rw [registeredWith_remove] at hr
          rw [h3, if_neg hr.1]
          exact hcpl (NoReAdd.prefix hno) v q hr.2
      | add s w =>
        have hs : s.Valid := hv s w (by simp)
        obtain ⟨c', h1, h2, h3, h4, h5, h6⟩ := addLoop_spec w s.getQueryTypes c
          (fun q hq => (Sub.queryTypes_wellFormed hs q hq).1) hinv
        refine ⟨c', h1, h2, ?_, ?_⟩
        · intro v q hq
          rw [registeredWith_add]
          by_cases hvw : v = w
          · subst hvw
            rcases h4 q hq with h | h
            · exact .inl (hsnd v q h)
            · exact .inr ⟨rfl, h⟩
          · rw [h3 v hvw] at hq
            exact .inl (hsnd v q hq)
        · intro hno v q hr
          rw [registeredWith_add] at hr
          rcases hr with hr | ⟨rfl, hr⟩
          · have := hcpl (NoReAdd.prefix hno) v q hr
            by_cases hvw : v = w
            · subst hvw; exact h5 q this
            · rw [h3 v hvw]; exact this
          · refine h6 (Sub.queryTypes_nodup hs) ?_ q hr
            intro r _ hr'
            exact hno pre s v [] rfl (RegisteredWith.mono (hsnd v r hr') (fun _ _ _ => trivial))
    obtain ⟨c', h1, h2⟩ := step
    obtain ⟨c'', h3, h4⟩ := ih (pre ++ [op]) c' (fun s v h => hv s v (by simp [h])) h2
    refine ⟨c'', ?_, by simpa using h4⟩
    rw [List.foldlM_cons, h1]
    exact h3

theorem inv_empty : HInv ([] : List (CollOp V)) ⟨PNode.create, []⟩ := by
  have hp : ∀ v, paths (⟨PNode.create, []⟩ : PyTree V) v = [] := fun v => rfl
  refine ⟨⟨?_, ?_⟩, ?_, ?_⟩
  · intro v q
    rw [hp]
    cases q <;> simp [PNode.create, PNode.valuesAt]
  · intro v; rw [hp]; simp
  · intro v q h; rw [hp] at h; simp at h
  · intro _ v q h; exact absurd h registeredWith_nil

end PyTree

/-! ## C tree -/

namespace TNode

/-- Children are never named `*` or `?`. -/
inductive Ok : TNode V → Prop
  | mk {vs as : List (Nat × V)} {ch : List (Segment × TNode V)} {qc : List (TNode V)} :
    (∀ c, Dict.get ch "*" = some c → False) → (∀ c, Dict.get ch "?" = some c → False) →
    (∀ k c, Dict.get ch k = some c → Ok c) → (∀ c ∈ qc, Ok c) → Ok (.mk vs as ch qc)

theorem Ok.create : Ok (TNode.create : TNode V) :=
  .mk (by simp) (by simp) (by simp) (by simp)

theorem Ok.modifyAt (q : EventType) (f : List (Nat × V) → List (Nat × V)) :
    ∀ n : TNode V, Ok n → Ok (TNode.modifyAt q f n) := by
  induction q with
  | nil =>
    rintro ⟨vs, as, ch, qc⟩ h
    cases h with | mk h1 h2 h3 h4 => exact .mk h1 h2 h3 h4
  | cons s q ih =>
    rintro ⟨vs, as, ch, qc⟩ h
    rw [TNode.modifyAt]
    cases h with | mk h1 h2 h3 h4 =>
    split_ifs with hs hq
    · exact .mk h1 h2 h3 h4
    · refine .mk h1 h2 h3 ?_
      intro c hc
      simp at hc
      subst hc
      apply ih
      cases qc with
      | nil => exact Ok.create
      | cons c qc => exact h4 c (by simp)
    · refine .mk ?_ ?_ ?_ h4
      · intro c hc
        rw [Dict.get_set, if_neg hs] at hc
        exact h1 c hc
      · intro c hc
        rw [Dict.get_set, if_neg hq] at hc
        exact h2 c hc
      · intro k c hc
        rw [Dict.get_set] at hc
        split_ifs at hc
        · cases hc
          apply ih
          cases hg : Dict.get ch s with
          | none => exact Ok.create
          | some c => exact h3 s c hg
        · exact h3 k c hc

theorem cellsAt_create (q : EventType) : cellsAt q (TNode.create : TNode V) = [] := by
  cases q with
  | nil => rfl
  | cons s q => rw [TNode.create, cellsAt]; split_ifs <;> rfl

theorem wellFormed_tail {s : Segment} {q : EventType} (h : WellFormed (s :: q)) :
    WellFormed q ∧ (s = "*" → q = []) := by
  unfold WellFormed at *
  by_cases hq : q = []
  · simp [hq]
  · rw [List.dropLast_cons_of_ne_nil hq, List.mem_cons, not_or] at h
    exact ⟨h.2, fun hs => absurd hs.symm h.1⟩

theorem cellsAt_modifyAt (q : EventType) : ∀ (q' : EventType)
    (f : List (Nat × V) → List (Nat × V)) (n : TNode V), WellFormed q → WellFormed q' →
    cellsAt q (modifyAt q' f n) = if q = q' then f (cellsAt q n) else cellsAt q n := by
  induction q with
  | nil =>
    rintro (_ | ⟨k, q'⟩) f ⟨vs, as, ch, qc⟩ _ _
    · simp [modifyAt, cellsAt]
    · rw [modifyAt]; split_ifs <;> simp_all [cellsAt]
  | cons s q ih =>
    rintro (_ | ⟨k, q'⟩) f ⟨vs, as, ch, qc⟩ hw hw'
    · simp [modifyAt, cellsAt]
    · obtain ⟨hwq, hsq⟩ := wellFormed_tail hw
      obtain ⟨hwq', hkq⟩ := wellFormed_tail hw'
      by_cases hs : s = "*"
      · have hq := hsq hs
        subst hs hq
        by_cases hk : k = "*"
        · have hq' := hkq hk
          subst hk hq'
          simp [modifyAt, cellsAt]
        · have hne : ¬ (["*"] = k :: q') := fun h => hk (List.cons.inj h).1.symm
          rw [modifyAt, if_neg hk, if_neg hne]
          split_ifs <;> simp [cellsAt]
      · by_cases hk : k = "*"
        · have hne : ¬ (s :: q = k :: q') := fun h => hs ((List.cons.inj h).1.trans hk)
          rw [modifyAt, if_pos hk, if_neg hne]
          simp [cellsAt, hs]
        · rw [modifyAt, if_neg hk]
          by_cases hks : s = k
          · subst hks
            simp only [List.cons.injEq, true_and]
            by_cases hqm : s = "?"
            · subst hqm
              simp only [if_true, cellsAt, List.head?_cons, hs, if_false]
              rw [ih q' f _ hwq hwq']
              cases qc with
              | nil => simp [cellsAt_create]
              | cons c qc => simp
            · simp only [hqm, if_false, cellsAt, hs, Dict.get_set_self]
              rw [ih q' f _ hwq hwq']
              cases hg : Dict.get ch s with
              | none => simp [cellsAt_create]
              | some c => simp
          · have hne : ¬ (s :: q = k :: q') := fun h => hks (List.cons.inj h).1
            rw [if_neg hne]
            by_cases hkm : k = "?"
            · have : s ≠ "?" := fun h => hks (h.trans hkm.symm)
              simp [hkm, cellsAt, hs, this]
            · rw [if_neg hkm, cellsAt, cellsAt, if_neg hs, if_neg hs,
                Dict.get_set_ne _ _ (Ne.symm hks)]

theorem mem_get (e : EventType) : ∀ (n : TNode V) (v : V), Ok n →
    (v ∈ get e n ↔ ∃ q a, WellFormed q ∧ (a, v) ∈ cellsAt q n ∧ Matches e q) := by
  have wf1 : WellFormed ["*"] := by simp [WellFormed]
  have star : ∀ (vs as : List (Nat × V)) (ch : List (Segment × TNode V)) (qc : List (TNode V)),
      cellsAt ["*"] (TNode.mk vs as ch qc) = as := by
    intros; simp [cellsAt]
  have memsnd : ∀ (l : List (Nat × V)) (v : V), v ∈ l.map Prod.snd ↔ ∃ a, (a, v) ∈ l := by
    intro l v; simp
  induction e with
  | nil =>
    rintro ⟨vs, as, ch, qc⟩ v _
    rw [get, List.mem_append, memsnd, memsnd]
    constructor
    · rintro (⟨a, h⟩ | ⟨a, h⟩)
      · exact ⟨["*"], a, wf1, by rw [star]; exact h, .star _⟩
      · exact ⟨[], a, by simp [WellFormed], by simpa [cellsAt] using h, .nil⟩
    · rintro ⟨q, a, _, h, hm⟩
      rcases Matches.nil_left.1 hm with rfl | rfl
      · exact .inr ⟨a, by simpa [cellsAt] using h⟩
      · exact .inl ⟨a, by rwa [star] at h⟩
  | cons s e ih =>
    rintro ⟨vs, as, ch, qc⟩ v hok
    cases hok with | mk h1 h2 h3 h4 =>
    rw [get, List.mem_append, List.mem_append, memsnd]
    have wfc : ∀ {k : Segment} {q : EventType}, k ≠ "*" → WellFormed q → WellFormed (k :: q) := by
      intro k q hk hq
      unfold WellFormed at *
      by_cases h0 : q = []
      · simp [h0]
      · rw [List.dropLast_cons_of_ne_nil h0, List.mem_cons, not_or]
        exact ⟨Ne.symm hk, hq⟩
    constructor
    · rintro ((⟨a, h⟩ | h) | h)
      · exact ⟨["*"], a, wf1, by rw [star]; exact h, .star _⟩
      · cases qc with
        | nil => simp at h
        | cons c qc =>
          simp only [List.head?_cons] at h
          obtain ⟨q, a, hw, hc, hm⟩ := (ih c v (h4 c (by simp))).1 h
          exact ⟨"?" :: q, a, wfc (by decide) hw, by simpa [cellsAt] using hc, .any _ hm⟩
      · cases hg : Dict.get ch s with
        | none => simp [hg] at h
        | some c =>
          simp only [hg] at h
          obtain ⟨q, a, hw, hc, hm⟩ := (ih c v (h3 s c hg)).1 h
          have hs : s ≠ "*" := by rintro rfl; exact h1 c hg
          have hs' : s ≠ "?" := by rintro rfl; exact h2 c hg
          exact ⟨s :: q, a, wfc hs hw, by simpa [cellsAt, hs, hs', hg] using hc, .same _ hm⟩
    · rintro ⟨q, a, hw, hc, hm⟩
      have quest : ∀ {q : EventType}, WellFormed q → (a, v) ∈ cellsAt ("?" :: q) (TNode.mk vs as ch qc) →
          Matches e q → v ∈ (match qc.head? with | some child => get e child | none => []) := by
        intro q hw hc hm
        rw [cellsAt, if_neg (by decide), if_pos rfl] at hc
        cases qc with
        | nil => simp at hc
        | cons c qc =>
          exact (ih c v (h4 c (by simp))).2 ⟨q, a, hw, hc, hm⟩
      cases hm with
      | star => rw [star] at hc; exact .inl (.inl ⟨a, hc⟩)
      | any _ hm => exact .inl (.inr (quest (wellFormed_tail hw).1 hc hm))
      | @same _ _ q hm =>
        obtain ⟨hwq, hsq⟩ := wellFormed_tail hw
        by_cases hs : s = "*"
        · have := hsq hs
          subst hs this
          rw [star] at hc
          exact .inl (.inl ⟨a, hc⟩)
        · by_cases hs' : s = "?"
          · subst hs'
            exact .inl (.inr (quest hwq hc hm))
          · rw [cellsAt, if_neg hs, if_neg hs'] at hc
            right
            cases hg : Dict.get ch s with
            | none => simp [hg] at hc
            | some c =>
              simp only [hg] at hc
              exact (ih c v (h3 s c hg)).2 ⟨q, a, hwq, hc, hm⟩

end TNode

namespace CTree

/-- References of a value. -/
def refsOf (c : CTree V) (v : V) : List (EventType × Nat) := (Dict.get c.refs v).getD []

/-- Invariant of the C tree. -/
structure Inv (c : CTree V) : Prop where
  ok : TNode.Ok c.root
  cells : ∀ v q a, WellFormed q → ((a, v) ∈ TNode.cellsAt q c.root ↔ (q, a) ∈ c.refsOf v)
  bound : ∀ v q a, (q, a) ∈ c.refsOf v → WellFormed q ∧ a < c.next
  uniq : ∀ v v' q q' a, (q, a) ∈ c.refsOf v → (q', a) ∈ c.refsOf v' → v = v' ∧ q = q'
  nodup : ∀ v, (c.refsOf v).Nodup

theorem addLoop_spec (v : V) : ∀ (l : List EventType) (c : CTree V),
    (∀ q ∈ l, WellFormed q) → Inv c →
    Inv (addLoop v l c) ∧
      (∀ u, u ≠ v → (addLoop v l c).refsOf u = c.refsOf u) ∧
      ∀ q, (∃ a, (q, a) ∈ (addLoop v l c).refsOf v) ↔ (∃ a, (q, a) ∈ c.refsOf v) ∨ q ∈ l := by
  intro l
  induction l with
  | nil =>
    intro c _ hi
    exact ⟨hi, fun _ _ => rfl, fun q => by simp [addLoop]⟩
  | cons q l ih =>
    intro c hw hi
    rw [addLoop]
    set c1 : CTree V :=
      { root := TNode.modifyAt q ((c.next, v) :: ·) c.root
        refs := Dict.set c.refs v ((Dict.get c.refs v).getD [] ++ [(q, c.next)])
        next := c.next + 1 } with hc1
    have hwq := hw q (by simp)
    have hr : ∀ u, c1.refsOf u = if v = u then c.refsOf v ++ [(q, c.next)] else c.refsOf u := by
      intro u
      simp only [refsOf, hc1, Dict.get_set]
      split_ifs <;> rfl
    have hmem : ∀ u p a, (p, a) ∈ c1.refsOf u ↔
        (p, a) ∈ c.refsOf u ∨ (u = v ∧ p = q ∧ a = c.next) := by
      intro u p a
      rw [hr]
      by_cases h : v = u
      · subst h; simp
      · simp [h, Ne.symm h]
    have hi1 : Inv c1 := by
      refine ⟨TNode.Ok.modifyAt q _ _ hi.ok, ?_, ?_, ?_, ?_⟩
      · intro u p a hwp
        rw [hmem]
        show (a, u) ∈ TNode.cellsAt p (TNode.modifyAt q ((c.next, v) :: ·) c.root) ↔ _
        rw [TNode.cellsAt_modifyAt p q _ _ hwp hwq, ← hi.cells u p a hwp]
        split_ifs with hpq
        · subst hpq
          simp only [List.mem_cons, Prod.mk.injEq, true_and]
          tauto
        · simp [hpq]
      · intro u p a h
        rcases (hmem u p a).1 h with h | ⟨_, rfl, rfl⟩
        · obtain ⟨h1, h2⟩ := hi.bound u p a h
          exact ⟨h1, Nat.lt_succ_of_lt h2⟩
        · exact ⟨hwq, Nat.lt_succ_self _⟩
      · intro u u' p p' a h h'
        rcases (hmem u p a).1 h with h | ⟨rfl, rfl, rfl⟩
        · rcases (hmem u' p' a).1 h' with h' | ⟨_, _, rfl⟩
          · exact hi.uniq u u' p p' a h h'
          · exact absurd (hi.bound _ _ _ h).2 (lt_irrefl _)
        · rcases (hmem u' p' c.next).1 h' with h' | ⟨rfl, rfl, _⟩
          · exact absurd (hi.bound _ _ _ h').2 (lt_irrefl _)
          · exact ⟨rfl, rfl⟩
      · intro u
        rw [hr]
        split_ifs
        · rw [List.nodup_append]
          refine ⟨hi.nodup v, by simp, ?_⟩
          intro x hx y hy hxy
          simp at hy
          subst hy hxy
          exact absurd (hi.bound _ _ _ hx).2 (lt_irrefl _)
        · exact hi.nodup u
    obtain ⟨h1, h2, h3⟩ := ih c1 (fun p hp => hw p (by simp [hp])) hi1
    refine ⟨h1, ?_, ?_⟩
    · intro u hu
      rw [h2 u hu, hr, if_neg (Ne.symm hu)]
    · intro p
      rw [h3]
      simp only [hmem, List.mem_cons, true_and]
      constructor
      · rintro (⟨a, h | ⟨rfl, _⟩⟩ | h)
        · exact .inl ⟨a, h⟩
        · exact .inr (.inl rfl)
        · exact .inr (.inr h)
      · rintro (⟨a, h⟩ | rfl | h)
        · exact .inl ⟨a, .inl h⟩
        · exact .inl ⟨c.next, .inr ⟨rfl, rfl⟩⟩
        · exact .inr h

theorem removeLoop_spec : ∀ (l : List (EventType × Nat)) (n : TNode V), TNode.Ok n →
    l.Nodup → (∀ q a, (q, a) ∈ l → WellFormed q ∧ ∃ v, (a, v) ∈ TNode.cellsAt q n) →
    ∃ n', removeLoop l n = .ok n' ∧ TNode.Ok n' ∧
      ∀ q, WellFormed q → ∀ p, p ∈ TNode.cellsAt q n' ↔ p ∈ TNode.cellsAt q n ∧ (q, p.1) ∉ l := by
  intro l
  induction l with
  | nil => intro n hok _ _; exact ⟨n, rfl, hok, by simp⟩
  | cons r l ih =>
    obtain ⟨q, a⟩ := r
    intro n hok hnd hm
    rw [List.nodup_cons] at hnd
    obtain ⟨hwq, v, hv⟩ := hm q a (by simp)
    rw [removeLoop, if_pos (List.mem_map.2 ⟨(a, v), hv, rfl⟩)]
    obtain ⟨n', h1, h2, h3⟩ := ih (TNode.modifyAt q (fun l => l.filter (·.1 ≠ a)) n)
      (TNode.Ok.modifyAt q _ n hok) hnd.2 (by
        intro p b hp
        obtain ⟨hwp, w, hw⟩ := hm p b (by simp [hp])
        refine ⟨hwp, w, ?_⟩
        rw [TNode.cellsAt_modifyAt p q _ _ hwp hwq]
        split_ifs with hpq
        · subst hpq
          rw [List.mem_filter]
          refine ⟨hw, ?_⟩
          simp only [ne_eq, decide_not, Bool.not_eq_true', decide_eq_false_iff_not]
          rintro rfl
          exact hnd.1 hp
        · exact hw)
    refine ⟨n', h1, h2, fun p hwp x => ?_⟩
    rw [h3 p hwp, TNode.cellsAt_modifyAt p q _ _ hwp hwq]
    split_ifs with hpq
    · subst hpq
      rw [List.mem_filter]
      simp only [ne_eq, decide_not, Bool.not_eq_true', decide_eq_false_iff_not, List.mem_cons,
        Prod.mk.injEq, true_and, not_or]
      tauto
    · simp [hpq]

theorem remove_spec {c : CTree V} (hi : Inv c) (v : V) :
    ∃ c', c.remove v = .ok c' ∧ Inv c' ∧
      ∀ u, c'.refsOf u = if u = v then [] else c.refsOf u := by
  obtain ⟨n', h1, h2, h3⟩ := removeLoop_spec (c.refsOf v) c.root hi.ok (hi.nodup v)
    (fun q a h => ⟨(hi.bound v q a h).1, v, (hi.cells v q a (hi.bound v q a h).1).2 h⟩)
  have hr : ∀ u, refsOf { c with root := n', refs := Dict.del c.refs v } u =
      if v = u then [] else c.refsOf u := by
    intro u
    simp only [refsOf, Dict.get_del]
    split_ifs <;> rfl
  have hmem : ∀ u p a, (p, a) ∈ refsOf { c with root := n', refs := Dict.del c.refs v } u ↔
      u ≠ v ∧ (p, a) ∈ c.refsOf u := by
    intro u p a
    rw [hr]
    by_cases h : v = u
    · simp [h]
    · simp [h, Ne.symm h]
  refine ⟨{ c with root := n', refs := Dict.del c.refs v }, ?_, ⟨h2, ?_, ?_, ?_, ?_⟩, ?_⟩
  · unfold remove; unfold refsOf at h1; rw [h1]
  · intro u q a hwq
    rw [hmem]
    show (a, u) ∈ TNode.cellsAt q n' ↔ _
    rw [h3 q hwq, hi.cells u q a hwq]
    constructor
    · rintro ⟨h, h'⟩
      exact ⟨by rintro rfl; exact h' h, h⟩
    · rintro ⟨h, h'⟩
      exact ⟨h', fun h'' => h (hi.uniq _ _ _ _ _ h' h'').1⟩
  · intro u q a h
    exact hi.bound u q a ((hmem u q a).1 h).2
  · intro u u' q q' a h h'
    exact hi.uniq u u' q q' a ((hmem u q a).1 h).2 ((hmem u' q' a).1 h').2
  · intro u
    rw [hr]
    split_ifs
    · simp
    · exact hi.nodup u
  · intro u
    rw [hr]
    by_cases h : v = u
    · simp [h]
    · simp [h, Ne.symm h]

theorem touch_inv {c : CTree V} (hi : Inv c) (v : V) :
    Inv { c with refs := Dict.set c.refs v ((Dict.get c.refs v).getD []) } ∧
    ∀ u, refsOf { c with refs := Dict.set c.refs v ((Dict.get c.refs v).getD []) } u =
      c.refsOf u := by
  have hr : ∀ u, refsOf { c with refs := Dict.set c.refs v ((Dict.get c.refs v).getD []) } u =
      c.refsOf u := by
    intro u
    simp only [refsOf, Dict.get_set]
    split_ifs with h
    · subst h; rfl
    · rfl
  refine ⟨⟨hi.ok, ?_, ?_, ?_, ?_⟩, hr⟩
  · intro u q a hw; rw [hr]; exact hi.cells u q a hw
  · intro u q a h; rw [hr] at h; exact hi.bound u q a h
  · intro u u' q q' a h h'; rw [hr] at h h'; exact hi.uniq u u' q q' a h h'
  · intro u; rw [hr]; exact hi.nodup u

/-- References are exactly the registrations of the history. -/
def HInv (ops : List (CollOp V)) (c : CTree V) : Prop :=
  Inv c ∧ ∀ v q, (∃ a, (q, a) ∈ c.refsOf v) ↔
    RegisteredWith (fun s => q ∈ s.getQueryTypes) ops v

theorem run_inv : ∀ (ops pre : List (CollOp V)) (c : CTree V),
    (∀ s v, .add s v ∈ ops → s.Valid) → HInv pre c →
    ∃ c', ops.foldlM (fun c op => match op with
      | .add s v => .ok (c.add s v)
      | .remove v => c.remove v) c = (.ok c' : Except PyErr _) ∧
      HInv (pre ++ ops) c' := by
  intro ops
  induction ops with
  | nil => intro pre c _ h; exact ⟨c, rfl, by simpa using h⟩
  | cons op ops ih =>
    intro pre c hv hi
    obtain ⟨hinv, hreg⟩ := hi
    have step : ∃ c', (match op with
        | .add s v => .ok (c.add s v)
        | .remove v => c.remove v) = (.ok c' : Except PyErr _) ∧ HInv (pre ++ [op]) c' := by
      cases op with
      | remove w =>
        obtain ⟨c', h1, h2, h3⟩ := remove_spec hinv w
        refine ⟨c', h1, h2, fun v q => ?_⟩
        rw [registeredWith_remove, ← hreg, h3]
        split_ifs with h
        · simp [h]
        · simp [h]
      | add s w =>
        have hs : s.Valid := hv s w (by simp)
        obtain ⟨ht1, ht2⟩ := touch_inv hinv w
        obtain ⟨h1, h2, h3⟩ := addLoop_spec w s.getQueryTypes _
          (fun q hq => (Sub.queryTypes_wellFormed hs q hq).1) ht1
        refine ⟨c.add s w, rfl, h1, fun v q => ?_⟩
        rw [registeredWith_add, ← hreg]
        by_cases hvw : v = w
        · subst hvw
          have := h3 q
          rw [ht2] at this
          simpa [CTree.add] using this
        · have := h2 v hvw
          rw [ht2] at this
          simp only [CTree.add, this, hvw, false_and, or_false]
    obtain ⟨c', h1, h2⟩ := step
    obtain ⟨c'', h3, h4⟩ := ih (pre ++ [op]) c' (fun s v h => hv s v (by simp [h])) h2
    refine ⟨c'', ?_, by simpa using h4⟩
    rw [List.foldlM_cons, h1]
    exact h3

theorem inv_empty : HInv ([] : List (CollOp V)) ⟨TNode.create, [], 0⟩ := by
  have hr : ∀ v, refsOf (⟨TNode.create, [], 0⟩ : CTree V) v = [] := fun v => rfl
  refine ⟨⟨TNode.Ok.create, ?_, ?_, ?_, ?_⟩, ?_⟩
  · intro v q a _; rw [hr]; simp [TNode.cellsAt_create]
  · intro v q a h; rw [hr] at h; simp at h
  · intro v v' q q' a h; rw [hr] at h; simp at h
  · intro v; rw [hr]; simp
  · intro v q; rw [hr]; simp [registeredWith_nil]

end CTree

/-! ## From query types to subscriptions -/

theorem registered_iff {ops : List (CollOp V)} (hv : ∀ s v, .add s v ∈ ops → s.Valid)
    {v : V} {e : EventType} :
    Registered ops v e ↔
      ∃ q, RegisteredWith (fun s => q ∈ s.getQueryTypes) ops v ∧ Matches e q := by
  constructor
  · rintro ⟨pre, s, post, rfl, hr, hp⟩
    obtain ⟨q, hq, hm⟩ := (Sub.matches_iff_queryTypes (hv s v (by simp)) e).1 hp
    exact ⟨q, ⟨pre, s, post, rfl, hr, hq⟩, hm⟩
  · rintro ⟨q, ⟨pre, s, post, rfl, hr, hq⟩, hm⟩
    exact ⟨pre, s, post, rfl, hr,
      (Sub.matches_iff_queryTypes (hv s v (by simp)) e).2 ⟨q, hq, hm⟩⟩

end
end HatEvent
