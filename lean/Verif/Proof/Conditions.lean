import Verif.Spec.Conditions
import Verif.Props.Collection

/-! Lemmas about conditions. -/

namespace HatEvent
open Spec

theorem pyIndex_nat {α : Type} (l : List α) (i : Nat) : pyIndex l (i : Int) = l[i]? := by
  unfold pyIndex
  rw [if_pos (by omega)]
  simp

theorem pyIndex_neg {α : Type} (l : List α) (i : Nat) :
    pyIndex l (-(i : Int) - 1) = l.reverse[i]? := by
  unfold pyIndex
  rw [if_neg (by omega)]
  split_ifs with h
  · rw [List.getElem?_reverse (by omega)]
    congr 1
    omega
  · rw [List.getElem?_eq_none (by simp; omega)]

theorem jsonWalk_iff (path : List (String ⊕ Int)) (doc data : Json) :
    jsonWalk path doc = some data ↔ Found doc path data := by
  induction path generalizing doc with
  | nil =>
    simp only [jsonWalk, Option.some.injEq]
    constructor
    · rintro rfl; exact .here _
    · intro h; cases h; rfl
  | cons x r ih =>
    cases x with
    | inl s =>
      cases doc with
      | obj l =>
        simp only [jsonWalk]
        cases hg : Dict.get l s with
        | none =>
          simp only [reduceCtorEq, false_iff]
          intro h
          cases h with
          | name h1 _ => rw [hg] at h1; cases h1
        | some d =>
          simp only [ih]
          constructor
          · exact fun h => .name hg h
          · intro h
            cases h with
            | name h1 h2 => rw [hg] at h1; cases h1; exact h2
      | _ =>
        simp only [jsonWalk, reduceCtorEq, false_iff]
        intro h; cases h
    | inr i =>
      cases doc with
      | arr l =>
        simp only [jsonWalk]
        have key : ∀ d, pyIndex l i = some d ↔
            (∃ n : Nat, i = n ∧ l[n]? = some d) ∨
            ∃ n : Nat, i = -(n : Int) - 1 ∧ n < l.length ∧ l.reverse[n]? = some d := by
          intro d
          by_cases hi : 0 ≤ i
          · obtain ⟨n, rfl⟩ := Int.eq_ofNat_of_zero_le hi
            rw [pyIndex_nat]
            constructor
            · exact fun h => .inl ⟨n, rfl, h⟩
            · rintro (⟨m, hm, h⟩ | ⟨m, hm, _⟩)
              · have : n = m := by omega
                rw [this]; exact h
              · omega
          · obtain ⟨n, hn⟩ : ∃ n : Nat, i = -(n : Int) - 1 := ⟨(-i - 1).toNat, by omega⟩
            subst hn
            rw [pyIndex_neg]
            constructor
            · intro h
              refine .inr ⟨n, rfl, ?_, h⟩
              by_contra hlt
              rw [List.getElem?_eq_none (by simp; omega)] at h
              cases h
            · rintro (⟨m, hm, h⟩ | ⟨m, hm, _, h⟩)
              · omega
              · have : n = m := by omega
                rw [this]; exact h
        cases hg : pyIndex l i with
        | none =>
          simp only [reduceCtorEq, false_iff]
          intro h
          cases h with
          | index h1 _ => have := (key _).2 (.inl ⟨_, rfl, h1⟩); rw [hg] at this; cases this
          | fromEnd h0 h1 _ =>
            have := (key _).2 (.inr ⟨_, rfl, h0, h1⟩); rw [hg] at this; cases this
        | some d =>
          simp only [ih]
          constructor
          · intro h
            rcases (key d).1 hg with ⟨n, rfl, h1⟩ | ⟨n, rfl, h0, h1⟩
            · exact .index h1 h
            · exact .fromEnd h0 h1 h
          · intro h
            cases h with
            | index h1 h2 =>
              have := (key _).2 (.inl ⟨_, rfl, h1⟩); rw [hg] at this; cases this; exact h2
            | fromEnd h0 h1 h2 =>
              have := (key _).2 (.inr ⟨_, rfl, h0, h1⟩); rw [hg] at this; cases this; exact h2
      | _ =>
        simp only [jsonWalk, reduceCtorEq, false_iff]
        intro h; cases h

theorem jsonGet_at (doc : Json) (path : JsonPath) (data : Json) :
    At doc path.flatten data ↔ jsonGet doc path = data := by
  unfold At jsonGet
  cases h : jsonWalk path.flatten doc with
  | none =>
    have hn : ¬ ∃ d, Found doc path.flatten d := by
      rintro ⟨d, hd⟩
      rw [← jsonWalk_iff, h] at hd
      cases hd
    simp only [Option.getD_none]
    constructor
    · rintro (hf | ⟨_, rfl⟩)
      · exact absurd ⟨_, hf⟩ hn
      · rfl
    · rintro rfl
      exact .inr ⟨hn, rfl⟩
  | some d =>
    have hf := (jsonWalk_iff _ _ _).1 h
    simp only [Option.getD_some]
    constructor
    · rintro (hf' | ⟨hn, _⟩)
      · rw [← jsonWalk_iff, h] at hf'
        cases hf'; rfl
      · exact absurd ⟨_, hf⟩ hn
    · rintro rfl
      exact .inl hf

theorem check_iff (t : DataType) (x : Json) : t.check x = true ↔ HasType t x := by
  cases t <;> cases x <;> simp [DataType.check, HasType]

mutual
theorem pyEq_sound : ∀ (x y : Json), pyEq x y = true → Same x y
  | .null, y, h => by
    cases y <;> simp [pyEq] at h
    exact .null
  | .bool b, y, h => by
    cases y <;> simp [pyEq, Json.number?] at h <;>
      exact .number (q := if b then 1 else 0) rfl (by simp [Json.number?, h])
  | .int n, y, h => by
    cases y <;> simp [pyEq, Json.number?] at h <;>
      exact .number (q := n) rfl (by simp [Json.number?, h])
  | .float q, y, h => by
    cases y <;> simp [pyEq, Json.number?] at h <;>
      exact .number (q := q) rfl (by simp [Json.number?, h])
  | .str s, y, h => by
    cases y <;> simp [pyEq] at h
    subst h
    exact .str _
  | .arr a, y, h => by
    cases y with
    | arr b =>
      simp only [pyEq] at h
      obtain ⟨h1, h2⟩ := pyEqL_sound a b h
      exact .arr h1 h2
    | _ => simp [pyEq] at h
  | .obj a, y, h => by
    cases y with
    | obj b =>
      simp only [pyEq, Bool.and_eq_true, beq_iff_eq] at h
      have hs := pyEqO_sound a b h.2
      refine .obj h.1 (fun p hp hn => ?_) (fun p hp y hy => ?_)
      · obtain ⟨z, hz, _⟩ := hs p hp
        rw [hn] at hz; cases hz
      · obtain ⟨z, hz, hs⟩ := hs p hp
        rw [hy] at hz; cases hz
        exact hs
    | _ => simp [pyEq] at h
theorem pyEqL_sound : ∀ (a b : List Json), pyEqL a b = true →
    a.length = b.length ∧ ∀ i (h : i < a.length) (h' : i < b.length), Same a[i] b[i]
  | [], [], _ => ⟨rfl, by intro i h; simp at h⟩
  | [], _ :: _, h => by simp [pyEqL] at h
  | _ :: _, [], h => by simp [pyEqL] at h
  | x :: a, y :: b, h => by
    simp only [pyEqL, Bool.and_eq_true] at h
    obtain ⟨h1, h2⟩ := pyEqL_sound a b h.2
    have h0 := pyEq_sound x y h.1
    refine ⟨by simp [h1], ?_⟩
    intro i hi hi'
    cases i with
    | zero => exact h0
    | succ i => exact h2 i (by simpa using hi) (by simpa using hi')
theorem pyEqO_sound : ∀ (a b : List (String × Json)), pyEqO a b = true →
    ∀ p ∈ a, ∃ y, Dict.get b p.1 = some y ∧ Same p.2 y
  | [], _, _ => by intro p hp; simp at hp
  | (k, x) :: a, b, h => by
    simp only [pyEqO, Bool.and_eq_true] at h
    obtain ⟨h1, h2⟩ := h
    have ih := pyEqO_sound a b h2
    intro p hp
    rcases List.mem_cons.1 hp with rfl | hp
    · cases hg : Dict.get b k with
      | none => simp [hg] at h1
      | some y =>
        simp only [hg] at h1
        exact ⟨y, rfl, pyEq_sound x y h1⟩
    · exact ih p hp
end

theorem pyEqL_of {a b : List Json} (hl : a.length = b.length)
    (h : ∀ i (h : i < a.length) (h' : i < b.length), pyEq a[i] b[i] = true) : pyEqL a b = true := by
  induction a generalizing b with
  | nil =>
    cases b with
    | nil => rfl
    | cons y b => simp at hl
  | cons x a ih =>
    cases b with
    | nil => simp at hl
    | cons y b =>
      simp only [pyEqL, Bool.and_eq_true]
      refine ⟨h 0 (by simp) (by simp), ih (by simpa using hl) fun i hi hi' => ?_⟩
      exact h (i + 1) (by simpa using hi) (by simpa using hi')

theorem pyEqO_of {a b : List (String × Json)}
    (h : ∀ p ∈ a, ∃ y, Dict.get b p.1 = some y ∧ pyEq p.2 y = true) : pyEqO a b = true := by
  induction a with
  | nil => rfl
  | cons p a ih =>
    obtain ⟨k, x⟩ := p
    simp only [pyEqO, Bool.and_eq_true]
    refine ⟨?_, ih fun q hq => h q (by simp [hq])⟩
    obtain ⟨y, hy, he⟩ := h (k, x) (by simp)
    simp only at hy he
    rw [hy]
    exact he

theorem pyEq_complete {x y : Json} (h : Same x y) : pyEq x y = true := by
  induction h with
  | null => simp [pyEq]
  | str s => simp [pyEq]
  | @number x y q h1 h2 =>
    cases x <;> simp_all [pyEq, Json.number?]
  | arr hl _ ih => simp only [pyEq]; exact pyEqL_of hl ih
  | obj hl hk _ ih =>
    simp only [pyEq, Bool.and_eq_true, beq_iff_eq]
    refine ⟨hl, pyEqO_of ?_⟩
    intro p hp
    obtain ⟨y, hy⟩ := Option.ne_none_iff_exists'.1 (hk p hp)
    exact ⟨y, hy, ih p hp y hy⟩

theorem pyEq_iff (x y : Json) : pyEq x y = true ↔ Same x y := ⟨pyEq_sound x y, pyEq_complete⟩

theorem allMatch_iff (l : List Condition) (e : Event) :
    Condition.allMatch l e = true ↔ ∀ c ∈ l, c.matches e = true := by
  induction l with
  | nil => simp [Condition.allMatch]
  | cons c l ih =>
    simp only [Condition.allMatch]
    by_cases hc : c.matches e = true
    · simp [hc, ih]
    · simp [hc]

theorem anyMatch_iff (l : List Condition) (e : Event) :
    Condition.anyMatch l e = true ↔ ∃ c ∈ l, c.matches e = true := by
  induction l with
  | nil => simp [Condition.anyMatch]
  | cons c l ih =>
    simp only [Condition.anyMatch]
    by_cases hc : c.matches e = true
    · simp [hc]
    · simp [hc, ih]

theorem jsonCondition_iff (p : Option JsonPath) (t : Option DataType) (v : Option Json) (e : Event) :
    jsonConditionMatches p t v e = true ↔ Satisfies e (.json p t v) := by
  have hp : ∀ doc data, At doc (match p with | some p => p.flatten | none => []) data ↔
      jsonGet doc (p.getD (.array [])) = data := by
    intro doc data
    have : (match p with | some p => p.flatten | none => []) = (p.getD (.array [])).flatten := by
      cases p <;> rfl
    rw [this]
    exact jsonGet_at ..
  unfold jsonConditionMatches
  constructor
  · intro h
    split at h
    · rename_i doc hpl
      simp only at h
      refine .json hpl ((hp _ _).2 rfl) ?_ ?_
      · rintro t' rfl
        rw [← check_iff]
        by_contra hc
        simp [hc] at h
      · rintro v' rfl
        rw [← pyEq_iff]
        by_contra hc
        simp [hc] at h
    · cases h
  · intro h
    cases h with
    | json hpl hat ht hv =>
      have hat := (hp _ _).1 hat
      subst hat
      simp only [hpl]
      cases t with
      | none =>
        cases v with
        | none => simp
        | some v => simp [(pyEq_iff _ _).2 (hv v rfl)]
      | some t =>
        have h1 := (check_iff _ _).2 (ht t rfl)
        cases v with
        | none => simp [h1]
        | some v => simp [h1, (pyEq_iff _ _).2 (hv v rfl)]

mutual
theorem condition_iff : ∀ (c : Condition) (e : Event), c.matches e = true ↔ Satisfies e c
  | .all l, e => by
    have ih := condition_iffL l e
    rw [Condition.matches, allMatch_iff]
    constructor
    · intro h
      exact .all fun c hc => (ih c hc).1 (h c hc)
    · intro h
      cases h with
      | all h => exact fun c hc => (ih c hc).2 (h c hc)
  | .any l, e => by
    have ih := condition_iffL l e
    rw [Condition.matches, anyMatch_iff]
    constructor
    · rintro ⟨c, hc, h⟩
      exact .any hc ((ih c hc).1 h)
    · intro h
      cases h with
      | any hc h => exact ⟨_, hc, (ih _ hc).2 h⟩
  | .json p t v, e => by
    rw [Condition.matches]
    exact jsonCondition_iff p t v e
theorem condition_iffL : ∀ (l : List Condition) (e : Event), ∀ c ∈ l, (c.matches e = true ↔ Satisfies e c)
  | [], _ => by intro c hc; simp at hc
  | d :: l, e => by
    have h1 := condition_iff d e
    have h2 := condition_iffL l e
    intro c hc
    rcases List.mem_cons.1 hc with rfl | hc
    · exact h1
    · exact h2 c hc
end

theorem conditionsMatch_iff (conf : List (Sub × Condition)) (found : List Nat) (e : Event) :
    conditionsMatch conf found e = true ↔
      ∀ i ∈ found, ∀ s c, conf[i]? = some (s, c) → Satisfies e c := by
  induction found with
  | nil => simp [conditionsMatch]
  | cons i r ih =>
    unfold conditionsMatch
    cases hc : conf[i]? with
    | none => simp [ih, hc]
    | some p =>
      obtain ⟨s, c⟩ := p
      simp only [List.mem_cons, forall_eq_or_imp, hc, Option.some.injEq, Prod.mk.injEq]
      by_cases hm : c.matches e = true
      · rw [if_pos hm, ih]
        constructor
        · intro h
          refine ⟨?_, h⟩
          rintro s' c' ⟨rfl, rfl⟩
          exact (condition_iff _ _).1 hm
        · exact fun h => h.2
      · rw [if_neg hm]
        simp only [Bool.false_eq_true, false_iff]
        intro h
        exact hm ((condition_iff _ _).2 (h.1 s c ⟨rfl, rfl⟩))

/-- The additions made by the constructor. -/
def condOps (conf : List (Sub × Condition)) : List (CollOp Nat) :=
  (List.range conf.length).zip conf |>.map fun (i, s, _) => .add s i

theorem mem_condOps {conf : List (Sub × Condition)} {s : Sub} {i : Nat} :
    .add s i ∈ condOps conf ↔ ∃ c, conf[i]? = some (s, c) := by
  unfold condOps
  simp only [List.mem_map, Prod.exists, CollOp.add.injEq]
  constructor
  · rintro ⟨a, b, c, hm, rfl, rfl⟩
    refine ⟨c, ?_⟩
    obtain ⟨k, hk⟩ := List.mem_iff_getElem?.1 hm
    rw [List.getElem?_zip_eq_some] at hk
    obtain ⟨h1, h2⟩ := hk
    have : k = a := by
      have hlt : k < conf.length := by
        by_contra hge
        rw [List.getElem?_eq_none (by simpa using hge)] at h1
        cases h1
      rw [List.getElem?_range hlt] at h1
      simpa using h1
    rw [← this]; exact h2
  · rintro ⟨c, hc⟩
    refine ⟨i, s, c, ?_, rfl, rfl⟩
    have hlt : i < conf.length := by
      by_contra hge
      rw [List.getElem?_eq_none (by omega)] at hc
      cases hc
    exact List.mem_iff_getElem?.2 ⟨i, List.getElem?_zip_eq_some.2 ⟨List.getElem?_range hlt, hc⟩⟩

theorem condOps_no_remove {conf : List (Sub × Condition)} {v : Nat} :
    CollOp.remove v ∉ condOps conf := by
  unfold condOps
  simp only [List.mem_map, Prod.exists, not_exists, not_and]
  intro a b c _ h
  cases h

theorem condOps_obtainable {conf : List (Sub × Condition)} (h : ∀ s c, (s, c) ∈ conf → Obtainable s) :
    ObtainableOps (condOps conf) := by
  intro s v hm
  obtain ⟨c, hc⟩ := mem_condOps.1 hm
  exact h s c (List.mem_of_getElem? hc)

theorem registered_condOps {conf : List (Sub × Condition)} {i : Nat} {t : EventType} :
    Registered (condOps conf) i t ↔ ∃ s c, conf[i]? = some (s, c) ∧ s.matches t = true := by
  unfold Registered RegisteredWith
  constructor
  · rintro ⟨pre, s, post, h, _, hm⟩
    obtain ⟨c, hc⟩ := mem_condOps.1 (show CollOp.add s i ∈ condOps conf by rw [h]; simp)
    exact ⟨s, c, hc, hm⟩
  · rintro ⟨s, c, hc, hm⟩
    obtain ⟨pre, post, h⟩ := List.append_of_mem (mem_condOps.2 ⟨c, hc⟩)
    refine ⟨pre, s, post, h, ?_, hm⟩
    intro hr
    exact condOps_no_remove (conf := conf) (v := i) (by rw [h]; simp [hr])

theorem condOps_noReAdd (conf : List (Sub × Condition)) : NoReAdd (condOps conf) := by
  rintro pre s v post h ⟨pre', s', post', rfl, _, _⟩
  -- value `v` occurs at two positions
  have hv : (condOps conf).map (fun op => match op with | .add _ v => v | .remove v => v) =
      List.range conf.length := by
    unfold condOps
    rw [List.map_map]
    have : ((fun op : CollOp Nat => match op with | .add _ v => v | .remove v => v) ∘
        fun x : Nat × Sub × Condition => match x with | (i, s, _) => CollOp.add s i) = Prod.fst := by
      funext x; rfl
    rw [this, List.map_fst_zip (by simp)]
  have hn : ((condOps conf).map (fun op => match op with | .add _ v => v | .remove v => v)).Nodup := by
    rw [hv]; exact List.nodup_range
  rw [h] at hn
  simp only [List.map_append, List.map_cons, List.append_assoc, List.cons_append] at hn
  have := (List.nodup_append.1 hn).2.1
  rw [List.nodup_cons] at this
  exact this.1 (by simp)

end HatEvent
