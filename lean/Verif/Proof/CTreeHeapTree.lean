import Verif.Proof.CTreeHeap

/-! Memory of the C tree collection: the tree. -/

namespace HatEvent
open Spec

variable {V : Type} [DecidableEq V]

/-- A tree with the addresses of its nodes and cells. -/
inductive ATree (V : Type) where
  | mk (addr : Nat) (vs as : List (Nat × V)) (table : Bool) (ch : List (Segment × ATree V)) (qc : Option (ATree V))

namespace ATree

/-- Address of the root. -/
def addr : ATree V → Nat
  | mk a _ _ _ _ _ => a

/-- The table of children. -/
def tableOf (tb : Bool) (ch : List (Segment × ATree V)) : Option (List (Segment × Nat)) :=
  if tb || !ch.isEmpty then some (ch.map fun p => (p.1, p.2.addr)) else none

/-- Address of the child for `?`. -/
def qAddr : Option (ATree V) → Nat
  | none => 0
  | some t => t.addr

mutual
/-- The objects of a tree. -/
def hp : ATree V → Objs V
  | mk a vs as tb ch qc =>
    {(a, .tree (headAddr vs 0) (headAddr as 0) (tableOf tb ch) (qAddr qc))} + chain 0 vs 0 + chain 0 as 0 + hpL ch + hpO qc
/-- The objects of children. -/
def hpL : List (Segment × ATree V) → Objs V
  | [] => 0
  | (_, t) :: r => t.hp + hpL r
/-- The objects of an optional child. -/
def hpO : Option (ATree V) → Objs V
  | none => 0
  | some t => t.hp
end

mutual
/-- Without addresses of nodes. -/
def erase : ATree V → TNode V
  | mk _ vs as _ ch qc => .mk vs as (eraseL ch) (eraseO qc)
/-- Children without addresses. -/
def eraseL : List (Segment × ATree V) → List (Segment × TNode V)
  | [] => []
  | (k, t) :: r => (k, t.erase) :: eraseL r
/-- An optional child without addresses. -/
def eraseO : Option (ATree V) → List (TNode V)
  | none => []
  | some t => [t.erase]
end

/-- The list a query type leads to. -/
def at_ : EventType → ATree V → Option (ListPtr × List (Nat × V))
  | [], mk a vs _ _ _ _ => some (⟨a, false⟩, vs)
  | head :: rest, mk a _ as _ ch qc =>
    if head = "*" then some (⟨a, true⟩, as)
    else if head = "?" then qc.bind (at_ rest)
    else (Dict.get ch head).bind (at_ rest)

/-- Replaces the list a query type leads to. -/
def setAt : EventType → List (Nat × V) → ATree V → ATree V
  | [], l, mk a _ as tb ch qc => mk a l as tb ch qc
  | head :: rest, l, mk a vs as tb ch qc =>
    if head = "*" then mk a vs l tb ch qc
    else if head = "?" then mk a vs as tb ch (qc.map (setAt rest l))
    else match Dict.get ch head with
      | none => mk a vs as tb ch qc
      | some c => mk a vs as tb (Dict.set ch head (setAt rest l c)) qc

/-- Children are never named `*` or `?`. -/
inductive Ok : ATree V → Prop
  | mk {a : Nat} {vs as : List (Nat × V)} {tb : Bool} {ch : List (Segment × ATree V)} {qc : Option (ATree V)} :
    (∀ c, Dict.get ch "*" = some c → False) → (∀ c, Dict.get ch "?" = some c → False) →
    (∀ k c, Dict.get ch k = some c → Ok c) → (∀ c, qc = some c → Ok c) → Ok (.mk a vs as tb ch qc)

theorem get_eraseL (ch : List (Segment × ATree V)) (k : Segment) : Dict.get (eraseL ch) k = (Dict.get ch k).map erase := by
  induction ch with
  | nil => simp [eraseL]
  | cons p ch ih =>
    obtain ⟨k', t⟩ := p
    rw [eraseL, Dict.get_cons, Dict.get_cons]
    split
    · rfl
    · exact ih

theorem Ok.erase {t : ATree V} (h : Ok t) : TNode.Ok t.erase := by
  induction h with
  | @mk a vs as tb ch qc h1 h2 _ _ ih3 ih4 =>
    rw [ATree.erase]
    refine .mk ?_ ?_ ?_ ?_
    · intro c hc
      rw [get_eraseL] at hc
      cases hg : Dict.get ch "*" with
      | none => rw [hg] at hc; cases hc
      | some c => exact h1 c hg
    · intro c hc
      rw [get_eraseL] at hc
      cases hg : Dict.get ch "?" with
      | none => rw [hg] at hc; cases hc
      | some c => exact h2 c hg
    · intro k c hc
      rw [get_eraseL] at hc
      cases hg : Dict.get ch k with
      | none => rw [hg] at hc; cases hc
      | some c' => rw [hg] at hc; cases hc; exact ih3 k c' hg
    · intro c hc
      cases qc with
      | none => simp [eraseO] at hc
      | some c' =>
        simp only [eraseO, List.mem_singleton] at hc
        subst hc
        exact ih4 c' rfl

/-- The cells a query type leads to. -/
theorem cellsAt_erase (q : EventType) (t : ATree V) :
    TNode.cellsAt q t.erase = ((t.at_ q).map Prod.snd).getD [] := by
  induction q generalizing t with
  | nil => obtain ⟨a, vs, as, tb, ch, qc⟩ := t; simp [erase, TNode.cellsAt, at_]
  | cons s q ih =>
    obtain ⟨a, vs, as, tb, ch, qc⟩ := t
    rw [erase, TNode.cellsAt, at_]
    split_ifs with h1 h2
    · simp
    · cases qc with
      | none => simp [eraseO]
      | some c => simp [eraseO, ih]
    · rw [get_eraseL]
      cases Dict.get ch s with
      | none => simp
      | some c => simp [ih]

theorem set_eq_of_get {κ υ : Type} [DecidableEq κ] {d : Dict κ υ} {k : κ} {v : υ} (h : Dict.get d k = some v) : Dict.set d k v = d := by
  induction d with
  | nil => cases h
  | cons p d ih =>
    obtain ⟨k', v'⟩ := p
    rw [Dict.get_cons] at h
    rw [Dict.set]
    split
    · next hk =>
      subst hk
      rw [if_pos rfl] at h
      cases h; rfl
    · next hk =>
      rw [if_neg hk] at h
      rw [ih h]

theorem map_set {κ υ υ' : Type} [DecidableEq κ] (f : υ → υ') (d : Dict κ υ) (k : κ) (v : υ) :
    (Dict.set d k v).map (fun p => (p.1, f p.2)) = Dict.set (d.map fun p => (p.1, f p.2)) k (f v) := by
  induction d with
  | nil => rfl
  | cons p d ih =>
    obtain ⟨k', v'⟩ := p
    simp only [Dict.set, List.map_cons]
    split
    · rfl
    · rw [List.map_cons, ih]

theorem get_map {κ υ υ' : Type} [DecidableEq κ] (f : υ → υ') (d : Dict κ υ) (k : κ) :
    Dict.get (d.map fun p => (p.1, f p.2)) k = (Dict.get d k).map f := by
  induction d with
  | nil => rfl
  | cons p d ih =>
    obtain ⟨k', v'⟩ := p
    rw [List.map_cons, Dict.get_cons, Dict.get_cons]
    split
    · rfl
    · exact ih

theorem hpL_set {ch : List (Segment × ATree V)} {k : Segment} {c : ATree V} (h : Dict.get ch k = some c) :
    ∃ R, hpL ch = c.hp + R ∧ ∀ c', hpL (Dict.set ch k c') = c'.hp + R := by
  induction ch with
  | nil => cases h
  | cons p ch ih =>
    obtain ⟨k', t⟩ := p
    rw [Dict.get_cons] at h
    by_cases hk : k' = k
    · subst hk
      rw [if_pos rfl] at h
      cases h
      exact ⟨hpL ch, by rw [hpL], fun c' => by rw [Dict.set, if_pos rfl, hpL]⟩
    · rw [if_neg hk] at h
      obtain ⟨R, h1, h2⟩ := ih h
      refine ⟨t.hp + R, by rw [hpL, h1]; abel, fun c' => ?_⟩
      rw [Dict.set, if_neg hk, hpL, h2]
      abel

theorem hpL_new {ch : List (Segment × ATree V)} {k : Segment} (h : Dict.get ch k = none) (c : ATree V) :
    hpL (Dict.set ch k c) = c.hp + hpL ch := by
  induction ch with
  | nil => simp [Dict.set, hpL]
  | cons p ch ih =>
    obtain ⟨k', t⟩ := p
    rw [Dict.get_cons] at h
    by_cases hk : k' = k
    · rw [if_pos hk] at h; cases h
    · rw [if_neg hk] at h
      rw [Dict.set, if_neg hk, hpL, ih h, hpL]
      abel

theorem tableOf_set {tb : Bool} {ch : List (Segment × ATree V)} {k : Segment} {c c' : ATree V} (h : Dict.get ch k = some c)
    (ha : c'.addr = c.addr) : tableOf tb (Dict.set ch k c') = tableOf tb ch := by
  unfold tableOf
  have h1 : (Dict.set ch k c').isEmpty = false := by
    cases hs : Dict.set ch k c' with
    | nil => exact absurd hs Dict.set_ne_nil
    | cons => rfl
  have h2 : ch.isEmpty = false := by
    cases ch with
    | nil => cases h
    | cons => rfl
  rw [h1, h2, map_set, ha, set_eq_of_get]
  rw [get_map, h]; rfl

theorem setAt_addr (q : EventType) (l : List (Nat × V)) (t : ATree V) : (t.setAt q l).addr = t.addr := by
  cases q with
  | nil => obtain ⟨a, vs, as, tb, ch, qc⟩ := t; rfl
  | cons s q =>
    obtain ⟨a, vs, as, tb, ch, qc⟩ := t
    rw [setAt]
    split_ifs
    · rfl
    · rfl
    · split <;> rfl

/-- A list of a tree and the rest of it. -/
theorem focus (q : EventType) : ∀ (t : ATree V) (lp : ListPtr) (l : List (Nat × V)), t.at_ q = some (lp, l) →
    t.setAt q l = t ∧ ∃ R other ch qq, ∀ l', (t.setAt q l').hp =
      {(lp.owner, treeObj lp.asterisk (headAddr l' 0) other ch qq)} + chain 0 l' 0 + R := by
  induction q with
  | nil =>
    rintro ⟨a, vs, as, tb, ch, qc⟩ lp l h
    rw [at_] at h
    cases h
    refine ⟨rfl, chain 0 as 0 + hpL ch + hpO qc, headAddr as 0, tableOf tb ch, qAddr qc, fun l' => ?_⟩
    rw [setAt, hp]
    simp only [treeObj]
    simp only [Bool.false_eq_true, if_false]
    abel
  | cons s q ih =>
    rintro ⟨a, vs, as, tb, ch, qc⟩ lp l h
    rw [at_] at h
    by_cases hs : s = "*"
    · rw [if_pos hs] at h
      cases h
      refine ⟨by rw [setAt, if_pos hs], chain 0 vs 0 + hpL ch + hpO qc, headAddr vs 0, tableOf tb ch, qAddr qc, fun l' => ?_⟩
      rw [setAt, if_pos hs, hp]
      simp only [treeObj, if_true]
      abel
    · rw [if_neg hs] at h
      by_cases hq : s = "?"
      · rw [if_pos hq] at h
        cases qc with
        | none => cases h
        | some c =>
          obtain ⟨h1, R, other, ch', qq, h2⟩ := ih c lp l h
          refine ⟨by rw [setAt, if_neg hs, if_pos hq, Option.map_some, h1],
            {(a, .tree (headAddr vs 0) (headAddr as 0) (tableOf tb ch) c.addr)} + chain 0 vs 0 + chain 0 as 0 + hpL ch + R,
            other, ch', qq, fun l' => ?_⟩
          rw [setAt, if_neg hs, if_pos hq, Option.map_some, hp, hpO, h2, qAddr, setAt_addr]
          abel
      · rw [if_neg hq] at h
        cases hg : Dict.get ch s with
        | none => rw [hg] at h; cases h
        | some c =>
          rw [hg] at h
          obtain ⟨h1, R, other, ch', qq, h2⟩ := ih c lp l h
          obtain ⟨R', _, h3⟩ := hpL_set hg
          refine ⟨?_, {(a, .tree (headAddr vs 0) (headAddr as 0) (tableOf tb ch) (qAddr qc))} + chain 0 vs 0 + chain 0 as 0 + R' + hpO qc + R,
            other, ch', qq, fun l' => ?_⟩
          · rw [setAt, if_neg hs, if_neg hq, hg]
            simp only [h1, set_eq_of_get hg]
          · rw [setAt, if_neg hs, if_neg hq, hg]
            simp only []
            rw [hp, h3, h2, tableOf_set hg (setAt_addr _ _ _)]
            abel

theorem at_setAt (q : EventType) : ∀ (q' : EventType) (t : ATree V) (lp : ListPtr) (l l' : List (Nat × V)), WellFormed q → WellFormed q' →
    t.at_ q = some (lp, l) → (t.setAt q l').at_ q' = if q' = q then some (lp, l') else t.at_ q' := by
  induction q with
  | nil =>
    rintro q' ⟨a, vs, as, tb, ch, qc⟩ lp l l' _ _ h
    rw [at_] at h
    cases h
    cases q' with
    | nil => simp [setAt, at_]
    | cons => simp [setAt, at_]
  | cons s q ih =>
    rintro q' ⟨a, vs, as, tb, ch, qc⟩ lp l l' hw hw' h
    obtain ⟨hwq, hsq⟩ := TNode.wellFormed_tail hw
    rw [at_] at h
    by_cases hs : s = "*"
    · have := hsq hs
      subst this
      rw [if_pos hs] at h
      cases h
      subst hs
      rw [setAt, if_pos rfl]
      cases q' with
      | nil => simp [at_]
      | cons s' q' =>
        by_cases hs' : s' = "*"
        · have := (TNode.wellFormed_tail hw').2 hs'
          subst this hs'
          simp [at_]
        · simp [at_, hs']
    · rw [if_neg hs] at h
      by_cases hq : s = "?"
      · subst hq
        rw [if_pos rfl] at h
        cases qc with
        | none => cases h
        | some c =>
          rw [setAt, if_neg hs, if_pos rfl]
          cases q' with
          | nil => simp [at_]
          | cons s' q' =>
            by_cases hs' : s' = "?"
            · subst hs'
              simp only [at_, hs, if_false, if_true, Option.map_some, Option.bind_some, List.cons.injEq, true_and]
              exact ih q' c lp l l' hwq (TNode.wellFormed_tail hw').1 h
            · simp [at_, hs']
      · rw [if_neg hq] at h
        cases hg : Dict.get ch s with
        | none => rw [hg] at h; cases h
        | some c =>
          rw [hg] at h
          rw [setAt, if_neg hs, if_neg hq, hg]
          cases q' with
          | nil => simp [at_]
          | cons s' q' =>
            by_cases hs' : s' = s
            · subst hs'
              simp only [at_, hs, hq, if_false, Dict.get_set_self, Option.bind_some, List.cons.injEq, true_and, hg]
              exact ih q' c lp l l' hwq (TNode.wellFormed_tail hw').1 h
            · simp [at_, hs', Dict.get_set_ne _ _ (Ne.symm hs')]

theorem Ok.setAt (q : EventType) : ∀ {t : ATree V} (l : List (Nat × V)), Ok t → Ok (t.setAt q l) := by
  induction q with
  | nil =>
    rintro ⟨a, vs, as, tb, ch, qc⟩ l h
    cases h with | mk h1 h2 h3 h4 => exact .mk h1 h2 h3 h4
  | cons s q ih =>
    rintro ⟨a, vs, as, tb, ch, qc⟩ l h
    cases h with | mk h1 h2 h3 h4 =>
    rw [ATree.setAt]
    split_ifs with hs hq
    · exact .mk h1 h2 h3 h4
    · refine .mk h1 h2 h3 ?_
      intro c hc
      cases qc with
      | none => cases hc
      | some c' => cases hc; exact ih l (h4 c' rfl)
    · split
      · exact .mk h1 h2 h3 h4
      · next c hg =>
        refine .mk ?_ ?_ ?_ h4
        · intro c' hc
          rw [Dict.get_set, if_neg hs] at hc
          exact h1 c' hc
        · intro c' hc
          rw [Dict.get_set, if_neg hq] at hc
          exact h2 c' hc
        · intro k c' hc
          rw [Dict.get_set] at hc
          split_ifs at hc
          · cases hc; exact ih l (h3 s c hg)
          · exact h3 k c' hc

/-- More nodes, the same lists. -/
structure Grown (t t' : ATree V) : Prop where
  addr : t'.addr = t.addr
  ok : Ok t → Ok t'
  count : ∀ v, cellCount v t'.hp = cellCount v t.hp
  same : ∀ q x, t.at_ q = some x → t'.at_ q = some x
  empty : ∀ q, t.at_ q = none → ∀ lp l, t'.at_ q = some (lp, l) → l = []

theorem Grown.refl (t : ATree V) : Grown t t :=
  ⟨rfl, id, fun _ => rfl, fun _ _ h => h, fun q h lp l h' => by rw [h] at h'; cases h'⟩

theorem Grown.trans {a b c : ATree V} (h1 : Grown a b) (h2 : Grown b c) : Grown a c := by
  refine ⟨h2.addr.trans h1.addr, fun h => h2.ok (h1.ok h), fun v => (h2.count v).trans (h1.count v), fun q x h => h2.same q x (h1.same q x h), ?_⟩
  intro q h lp l h'
  cases hb : b.at_ q with
  | none => exact h2.empty q hb lp l h'
  | some x =>
    obtain ⟨lp', l'⟩ := x
    have := h2.same q _ hb
    rw [this] at h'
    cases h'
    exact h1.empty q h lp l hb

/-- A new node. -/
def leaf (a : Nat) : ATree V := mk a [] [] false [] none

theorem leaf_hp (a : Nat) : (leaf a : ATree V).hp = {(a, .tree 0 0 none 0)} := by
  simp [leaf, hp, chain, hpL, hpO, headAddr, tableOf, qAddr]

theorem leaf_ok (a : Nat) : Ok (leaf a : ATree V) := .mk (by simp) (by simp) (by simp) (by simp)

theorem leaf_at (a : Nat) (q : EventType) (lp : ListPtr) (l : List (Nat × V)) (h : (leaf a).at_ q = some (lp, l)) : l = [] := by
  cases q with
  | nil => rw [leaf, at_] at h; cases h; rfl
  | cons s q =>
    rw [leaf, at_] at h
    split_ifs at h
    · cases h; rfl
    · cases h
    · cases h

theorem grown_question {a : Nat} {vs as : List (Nat × V)} {tb : Bool} {ch : List (Segment × ATree V)} {c c' : ATree V}
    (h : Grown c c') : Grown (mk a vs as tb ch (some c)) (mk a vs as tb ch (some c')) := by
  refine ⟨rfl, ?_, ?_, ?_, ?_⟩
  · intro hok
    cases hok with | mk h1 h2 h3 h4 => exact .mk h1 h2 h3 (fun x hx => by cases hx; exact h.ok (h4 c rfl))
  · intro v
    simp only [hp, hpO, h.count, CObj.refsTo, cellCount_add, cellCount_single]
  · intro q x hq
    cases q with
    | nil => exact hq
    | cons s q =>
      rw [at_] at hq ⊢
      split_ifs at hq ⊢
      · exact hq
      · exact h.same q x hq
      · exact hq
  · intro q hq lp l hq'
    cases q with
    | nil => rw [at_] at hq; cases hq
    | cons s q =>
      rw [at_] at hq hq'
      split_ifs at hq hq'
      · exact h.empty q hq lp l hq'
      · rw [hq] at hq'; cases hq'

theorem grown_new_question {a : Nat} {vs as : List (Nat × V)} {tb : Bool} {ch : List (Segment × ATree V)} (x : Nat) :
    Grown (mk a vs as tb ch none) (mk a vs as tb ch (some (leaf x))) := by
  refine ⟨rfl, ?_, ?_, ?_, ?_⟩
  · intro hok
    cases hok with | mk h1 h2 h3 h4 => exact .mk h1 h2 h3 (fun c hx => by cases hx; exact leaf_ok x)
  · intro v
    simp only [hp, hpO, leaf_hp, CObj.refsTo, cellCount_add, cellCount_single, cellCount_zero]
  · intro q y hq
    cases q with
    | nil => exact hq
    | cons s q =>
      rw [at_] at hq ⊢
      split_ifs at hq ⊢
      · exact hq
      · cases hq
      · exact hq
  · intro q hq lp l hq'
    cases q with
    | nil => rw [at_] at hq; cases hq
    | cons s q =>
      rw [at_] at hq hq'
      split_ifs at hq hq'
      · exact leaf_at x q lp l hq'
      · rw [hq] at hq'; cases hq'

theorem grown_child {a : Nat} {vs as : List (Nat × V)} {tb : Bool} {ch : List (Segment × ATree V)} {qc : Option (ATree V)} {s : Segment}
    {c c' : ATree V} (h1 : s ≠ "*") (h2 : s ≠ "?") (hg : Dict.get ch s = some c)
    (h : Grown c c') : Grown (mk a vs as tb ch qc) (mk a vs as tb (Dict.set ch s c') qc) := by
  refine ⟨rfl, ?_, ?_, ?_, ?_⟩
  · intro hok
    cases hok with | mk o1 o2 o3 o4 =>
    refine .mk ?_ ?_ ?_ o4
    · intro x hx; rw [Dict.get_set, if_neg h1] at hx; exact o1 x hx
    · intro x hx; rw [Dict.get_set, if_neg h2] at hx; exact o2 x hx
    · intro k x hx
      rw [Dict.get_set] at hx
      split_ifs at hx
      · cases hx; exact h.ok (o3 s c hg)
      · exact o3 k x hx
  · intro v
    obtain ⟨R, e1, e2⟩ := hpL_set hg
    simp only [hp, e1, e2, h.count, CObj.refsTo, cellCount_add, cellCount_single]
  · intro q x hq
    cases q with
    | nil => exact hq
    | cons k q =>
      rw [at_] at hq ⊢
      split_ifs at hq ⊢
      · exact hq
      · exact hq
      · by_cases hk : s = k
        · subst hk
          rw [Dict.get_set_self]
          rw [hg] at hq
          exact h.same q x hq
        · rw [Dict.get_set_ne _ _ hk]
          exact hq
  · intro q hq lp l hq'
    cases q with
    | nil => rw [at_] at hq; cases hq
    | cons k q =>
      rw [at_] at hq hq'
      split_ifs at hq hq'
      · rw [hq] at hq'; cases hq'
      · by_cases hk : s = k
        · subst hk
          rw [Dict.get_set_self] at hq'
          rw [hg] at hq
          exact h.empty q hq lp l hq'
        · rw [Dict.get_set_ne _ _ hk, hq] at hq'
          cases hq'

theorem grown_new_child {a : Nat} {vs as : List (Nat × V)} {tb tb' : Bool} {ch : List (Segment × ATree V)} {qc : Option (ATree V)} {s : Segment}
    (x : Nat) (h1 : s ≠ "*") (h2 : s ≠ "?") (hg : Dict.get ch s = none) :
    Grown (mk a vs as tb ch qc) (mk a vs as tb' (Dict.set ch s (leaf x)) qc) := by
  refine ⟨rfl, ?_, ?_, ?_, ?_⟩
  · intro hok
    cases hok with | mk o1 o2 o3 o4 =>
    refine .mk ?_ ?_ ?_ o4
    · intro x hx; rw [Dict.get_set, if_neg h1] at hx; exact o1 x hx
    · intro x hx; rw [Dict.get_set, if_neg h2] at hx; exact o2 x hx
    · intro k x hx
      rw [Dict.get_set] at hx
      split_ifs at hx
      · cases hx; exact leaf_ok _
      · exact o3 k x hx
  · intro v
    simp only [hp, hpL_new hg, leaf_hp, CObj.refsTo, cellCount_add, cellCount_single]
    omega
  · intro q y hq
    cases q with
    | nil => exact hq
    | cons k q =>
      rw [at_] at hq ⊢
      split_ifs at hq ⊢
      · exact hq
      · exact hq
      · by_cases hk : s = k
        · subst hk
          rw [hg] at hq; cases hq
        · rw [Dict.get_set_ne _ _ hk]
          exact hq
  · intro q hq lp l hq'
    cases q with
    | nil => rw [at_] at hq; cases hq
    | cons k q =>
      rw [at_] at hq hq'
      split_ifs at hq hq'
      · rw [hq] at hq'; cases hq'
      · by_cases hk : s = k
        · subst hk
          rw [Dict.get_set_self] at hq'
          exact leaf_at x q lp l hq'
        · rw [Dict.get_set_ne _ _ hk, hq] at hq'
          cases hq'

theorem grown_table {a : Nat} {vs as : List (Nat × V)} {tb tb' : Bool} {ch : List (Segment × ATree V)} {qc : Option (ATree V)} :
    Grown (mk a vs as tb ch qc) (mk a vs as tb' ch qc) := by
  refine ⟨rfl, ?_, ?_, ?_, ?_⟩
  · intro hok
    cases hok with | mk o1 o2 o3 o4 => exact .mk o1 o2 o3 o4
  · intro v; simp only [hp, CObj.refsTo, cellCount_add, cellCount_single]
  · intro q y hq
    cases q with
    | nil => exact hq
    | cons k q => rw [at_] at hq ⊢; exact hq
  · intro q hq lp l hq'
    cases q with
    | nil => rw [at_] at hq; cases hq
    | cons k q => rw [at_] at hq hq'; rw [hq] at hq'; cases hq'

end ATree
end HatEvent
