import Verif.Spec.LmdbBytes
import Mathlib.Data.Set.Countable
import Mathlib.Data.Rat.Encodable
import Mathlib.Logic.Equiv.List

/-!
# Libraries that read back what they write

JSON and SBS data are countable, so there are texts and bytes enough for all of them.
-/

namespace HatEvent
open Spec

theorem char_countable : Countable Char :=
  Function.Injective.countable (f := Char.toNat) fun a b h => Char.toNat_inj.1 h

theorem string_countable : Countable String := by
  have := char_countable
  exact Function.Injective.countable (f := String.toList) fun a b h => String.toList_inj.1 h


/-- JSON data of limited depth. -/
def jsonDepth : Nat → Set Json
  | 0 => ∅
  | n + 1 =>
    {.null} ∪ Set.range Json.bool ∪ Set.range Json.int ∪ Set.range Json.float ∪ Set.range Json.str ∪
    Set.range (fun l : List (jsonDepth n) => Json.arr (l.map Subtype.val)) ∪
    Set.range (fun l : List (String × jsonDepth n) => Json.obj (l.map fun p => (p.1, p.2.val)))

theorem jsonDepth_countable (n : Nat) : (jsonDepth n).Countable := by
  induction n with
  | zero => exact Set.countable_empty
  | succ n ih =>
    have : Countable (jsonDepth n) := ih
    have := string_countable
    rw [jsonDepth]
    exact (((((((Set.countable_singleton _).union (Set.countable_range _)).union (Set.countable_range _)).union
      (Set.countable_range _)).union (Set.countable_range _)).union (Set.countable_range _)).union
      (Set.countable_range _))

theorem jsonDepth_arr {n : Nat} {l : List Json} (h : ∀ x ∈ l, x ∈ jsonDepth n) : .arr l ∈ jsonDepth (n + 1) := by
  rw [jsonDepth]
  refine .inl (.inr ⟨l.attach.map fun x => ⟨x.1, h _ x.2⟩, ?_⟩)
  simp [List.map_map, Function.comp_def]

theorem jsonDepth_obj {n : Nat} {l : List (String × Json)} (h : ∀ x ∈ l, x.2 ∈ jsonDepth n) :
    .obj l ∈ jsonDepth (n + 1) := by
  rw [jsonDepth]
  refine .inr ⟨l.attach.map fun x => (x.1.1, ⟨x.1.2, h _ x.2⟩), ?_⟩
  simp only [List.map_map, Function.comp_def, List.attach_map_subtype_val, Prod.mk.eta]

theorem jsonDepth_mono {n : Nat} : ∀ j ∈ jsonDepth n, j ∈ jsonDepth (n + 1) := by
  induction n with
  | zero => intro j hj; exact hj.elim
  | succ n ih =>
    intro j hj
    rw [jsonDepth] at hj
    rcases hj with ((h | ⟨l, rfl⟩) | ⟨l, rfl⟩)
    · rw [jsonDepth]; exact .inl (.inl h)
    · refine jsonDepth_arr fun x hx => ?_
      obtain ⟨y, _, rfl⟩ := List.mem_map.1 hx
      exact ih _ y.2
    · refine jsonDepth_obj fun x hx => ?_
      obtain ⟨y, _, rfl⟩ := List.mem_map.1 hx
      exact ih _ y.2.2

theorem jsonDepth_le {n m : Nat} (h : n ≤ m) : ∀ j ∈ jsonDepth n, j ∈ jsonDepth m := by
  induction m with
  | zero => obtain rfl : n = 0 := by omega
            exact fun j hj => hj
  | succ m ih =>
    rcases Nat.lt_or_eq_of_le h with h | rfl
    · exact fun j hj => jsonDepth_mono j (ih (by omega) j hj)
    · exact fun j hj => hj

theorem json_depth (j : Json) : ∃ n, j ∈ jsonDepth n := by
  refine Json.rec (motive_1 := fun j => ∃ n, j ∈ jsonDepth n) (motive_2 := fun l => ∃ n, ∀ x ∈ l, x ∈ jsonDepth n)
    (motive_3 := fun l => ∃ n, ∀ x ∈ l, x.2 ∈ jsonDepth n) (motive_4 := fun p => ∃ n, p.2 ∈ jsonDepth n)
    ?_ ?_ ?_ ?_ ?_ ?_ ?_ ?_ ?_ ?_ ?_ ?_ j
  · exact ⟨1, by rw [jsonDepth]; simp⟩
  · exact fun b => ⟨1, by rw [jsonDepth]; simp⟩
  · exact fun b => ⟨1, by rw [jsonDepth]; simp⟩
  · exact fun b => ⟨1, by rw [jsonDepth]; simp⟩
  · exact fun b => ⟨1, by rw [jsonDepth]; simp⟩
  · rintro l ⟨n, h⟩; exact ⟨n + 1, jsonDepth_arr h⟩
  · rintro l ⟨n, h⟩; exact ⟨n + 1, jsonDepth_obj h⟩
  · exact ⟨0, by simp⟩
  · rintro x l ⟨n, hn⟩ ⟨m, hm⟩
    refine ⟨max n m, fun y hy => ?_⟩
    rcases List.mem_cons.1 hy with rfl | hy
    · exact jsonDepth_le (le_max_left ..) _ hn
    · exact jsonDepth_le (le_max_right ..) _ (hm y hy)
  · exact ⟨0, by simp⟩
  · rintro x l ⟨n, hn⟩ ⟨m, hm⟩
    refine ⟨max n m, fun y hy => ?_⟩
    rcases List.mem_cons.1 hy with rfl | hy
    · exact jsonDepth_le (le_max_left ..) _ hn
    · exact jsonDepth_le (le_max_right ..) _ (hm y hy)
  · rintro s x ⟨n, hn⟩; exact ⟨n, hn⟩

theorem json_countable : Countable Json := by
  rw [← Set.countable_univ_iff]
  refine (Set.countable_iUnion jsonDepth_countable).mono fun j _ => ?_
  obtain ⟨n, hn⟩ := json_depth j
  exact Set.mem_iUnion.2 ⟨n, hn⟩

/-- SBS data of limited depth. -/
def sbsDepth : Nat → Set Sbs
  | 0 => ∅
  | n + 1 =>
    {.none} ∪ Set.range Sbs.bool ∪ Set.range Sbs.int ∪ Set.range Sbs.str ∪
    Set.range (fun l : List (Fin 256) => Sbs.bytes (l.map fun i => UInt8.ofFin i)) ∪
    Set.range (fun p : String × sbsDepth n => Sbs.choice p.1 p.2.val) ∪
    Set.range (fun l : List (sbsDepth n) => Sbs.array (l.map Subtype.val)) ∪
    Set.range (fun l : List (String × sbsDepth n) => Sbs.record (l.map fun p => (p.1, p.2.val)))

theorem sbsDepth_countable (n : Nat) : (sbsDepth n).Countable := by
  induction n with
  | zero => exact Set.countable_empty
  | succ n ih =>
    have : Countable (sbsDepth n) := ih
    have := string_countable
    rw [sbsDepth]
    exact ((((((((Set.countable_singleton _).union (Set.countable_range _)).union (Set.countable_range _)).union
      (Set.countable_range _)).union (Set.countable_range _)).union (Set.countable_range _)).union
      (Set.countable_range _)).union (Set.countable_range _))

theorem sbsDepth_array {n : Nat} {l : List Sbs} (h : ∀ x ∈ l, x ∈ sbsDepth n) : .array l ∈ sbsDepth (n + 1) := by
  rw [sbsDepth]
  refine .inl (.inr ⟨l.attach.map fun x => ⟨x.1, h _ x.2⟩, ?_⟩)
  simp [List.map_map, Function.comp_def]

theorem sbsDepth_record {n : Nat} {l : List (String × Sbs)} (h : ∀ x ∈ l, x.2 ∈ sbsDepth n) :
    .record l ∈ sbsDepth (n + 1) := by
  rw [sbsDepth]
  refine .inr ⟨l.attach.map fun x => (x.1.1, ⟨x.1.2, h _ x.2⟩), ?_⟩
  simp only [List.map_map, Function.comp_def, List.attach_map_subtype_val, Prod.mk.eta]

theorem sbsDepth_choice {n : Nat} {s : String} {x : Sbs} (h : x ∈ sbsDepth n) : .choice s x ∈ sbsDepth (n + 1) := by
  rw [sbsDepth]
  exact .inl (.inl (.inr ⟨(s, ⟨x, h⟩), rfl⟩))

theorem sbsDepth_mono {n : Nat} : ∀ j ∈ sbsDepth n, j ∈ sbsDepth (n + 1) := by
  induction n with
  | zero => intro j hj; exact hj.elim
  | succ n ih =>
    intro j hj
    rw [sbsDepth] at hj
    rcases hj with (((h | ⟨p, rfl⟩) | ⟨l, rfl⟩) | ⟨l, rfl⟩)
    · rw [sbsDepth]; exact .inl (.inl (.inl h))
    · exact sbsDepth_choice (ih _ p.2.2)
    · refine sbsDepth_array fun x hx => ?_
      obtain ⟨y, _, rfl⟩ := List.mem_map.1 hx
      exact ih _ y.2
    · refine sbsDepth_record fun x hx => ?_
      obtain ⟨y, _, rfl⟩ := List.mem_map.1 hx
      exact ih _ y.2.2

theorem sbsDepth_le {n m : Nat} (h : n ≤ m) : ∀ j ∈ sbsDepth n, j ∈ sbsDepth m := by
  induction m with
  | zero => obtain rfl : n = 0 := by omega
            exact fun j hj => hj
  | succ m ih =>
    rcases Nat.lt_or_eq_of_le h with h | rfl
    · exact fun j hj => sbsDepth_mono j (ih (by omega) j hj)
    · exact fun j hj => hj

theorem sbs_depth (j : Sbs) : ∃ n, j ∈ sbsDepth n := by
  refine Sbs.rec (motive_1 := fun j => ∃ n, j ∈ sbsDepth n) (motive_2 := fun l => ∃ n, ∀ x ∈ l, x ∈ sbsDepth n)
    (motive_3 := fun l => ∃ n, ∀ x ∈ l, x.2 ∈ sbsDepth n) (motive_4 := fun p => ∃ n, p.2 ∈ sbsDepth n)
    ?_ ?_ ?_ ?_ ?_ ?_ ?_ ?_ ?_ ?_ ?_ ?_ ?_ j
  · exact ⟨1, by rw [sbsDepth]; simp⟩
  · exact fun b => ⟨1, by rw [sbsDepth]; simp⟩
  · exact fun b => ⟨1, by rw [sbsDepth]; simp⟩
  · exact fun b => ⟨1, by rw [sbsDepth]; simp⟩
  · refine fun b => ⟨1, ?_⟩
    rw [sbsDepth]
    refine .inl (.inl (.inl (.inr ⟨b.map fun x => x.toFin, ?_⟩)))
    simp [List.map_map, Function.comp_def]
  · rintro l ⟨n, h⟩; exact ⟨n + 1, sbsDepth_array h⟩
  · rintro l ⟨n, h⟩; exact ⟨n + 1, sbsDepth_record h⟩
  · rintro s x ⟨n, h⟩; exact ⟨n + 1, sbsDepth_choice h⟩
  · exact ⟨0, by simp⟩
  · rintro x l ⟨n, hn⟩ ⟨m, hm⟩
    refine ⟨max n m, fun y hy => ?_⟩
    rcases List.mem_cons.1 hy with rfl | hy
    · exact sbsDepth_le (le_max_left ..) _ hn
    · exact sbsDepth_le (le_max_right ..) _ (hm y hy)
  · exact ⟨0, by simp⟩
  · rintro x l ⟨n, hn⟩ ⟨m, hm⟩
    refine ⟨max n m, fun y hy => ?_⟩
    rcases List.mem_cons.1 hy with rfl | hy
    · exact sbsDepth_le (le_max_left ..) _ hn
    · exact sbsDepth_le (le_max_right ..) _ (hm y hy)
  · rintro s x ⟨n, hn⟩; exact ⟨n, hn⟩

theorem sbs_countable : Countable Sbs := by
  rw [← Set.countable_univ_iff]
  refine (Set.countable_iUnion sbsDepth_countable).mono fun j _ => ?_
  obtain ⟨n, hn⟩ := sbs_depth j
  exact Set.mem_iUnion.2 ⟨n, hn⟩

/-- Libraries that read all data back exist. -/
theorem env_exists (deleteLast : Bool) : ∃ env : ByteEnv, env.deleteLast = deleteLast ∧ LawfulEnv env ∧
    ∀ p, JsonReadable env.json p := by
  have hj : Nonempty Json := ⟨.null⟩
  have hs : Nonempty Sbs := ⟨.none⟩
  obtain ⟨f, hf⟩ := json_countable
  obtain ⟨g, hg⟩ := sbs_countable
  have hinj : Function.Injective fun j => String.ofList (List.replicate (f j) 'x') := by
    intro a b h
    have := congrArg (fun s => s.toList.length) h
    simp at this
    exact hf this
  have ginj : Function.Injective fun j => List.replicate (g j + 1) (0 : UInt8) := by
    intro a b h
    have := congrArg List.length h
    simp at this
    exact hg this
  refine ⟨⟨⟨fun j => String.ofList (List.replicate (f j) 'x'), fun s => .ok (Function.invFun _ s)⟩,
    ⟨fun j => List.replicate (g j + 1) (0 : UInt8), fun b => .ok (Function.invFun _ b)⟩, deleteLast⟩, rfl,
    ⟨fun j _ => congrArg Except.ok (Function.leftInverse_invFun hinj j),
     fun j _ => congrArg Except.ok (Function.leftInverse_invFun ginj j), fun j _ => by simp⟩,
    fun p d _ => congrArg Except.ok (Function.leftInverse_invFun hinj d)⟩

end HatEvent
