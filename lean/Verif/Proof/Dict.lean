import Verif.Model.Dict
import Verif.Proof.Tactics

/-! Lemmas about insertion ordered dictionaries. -/

set_option linter.unusedSectionVars false

namespace HatEvent
namespace Dict

variable {κ υ : Type} [DecidableEq κ]

@[simp] theorem get_nil (k : κ) : get ([] : Dict κ υ) k = none := rfl

theorem get_cons (p : κ × υ) (d : Dict κ υ) (k : κ) :
    get (p :: d) k = if p.1 = k then some p.2 else get d k := rfl

@[simp] theorem keys_nil : keys ([] : Dict κ υ) = [] := rfl
@[simp] theorem keys_cons (p : κ × υ) (d : Dict κ υ) :
    keys (p :: d) = p.1 :: keys d := rfl

theorem get_set (d : Dict κ υ) (k : κ) (v : υ) (k' : κ) :
    get (set d k v) k' = if k = k' then some v else get d k' := by
  induction d with
  | nil => simp [set, get_cons]
  | cons p d ih =>
    obtain ⟨a, b⟩ := p
    unfold set
    by_cases h : a = k
    · subst h
      by_cases h' : a = k' <;> simp [get_cons, h']
    · by_cases h' : k = k'
      · subst h'
        simp [get_cons, h, ih]
      · simp [get_cons, h, ih, h']

@[simp] theorem get_set_self (d : Dict κ υ) (k : κ) (v : υ) :
    get (set d k v) k = some v := by simp [get_set]

theorem get_set_ne (d : Dict κ υ) {k k' : κ} (v : υ) (h : k ≠ k') :
    get (set d k v) k' = get d k' := by simp [get_set, h]

theorem get_del (d : Dict κ υ) (k k' : κ) :
    get (del d k) k' = if k = k' then none else get d k' := by
  induction d with
  | nil => simp [del]
  | cons p d ih =>
    obtain ⟨a, b⟩ := p
    unfold del
    by_cases h : a = k
    · subst h
      rw [if_pos rfl, ih]
      by_cases h' : a = k'
      · simp [h']
      · simp [get_cons, h']
    · by_cases h' : k = k'
      · subst h'
        simp [get_cons, h, ih]
      · simp [get_cons, h, ih, h']

theorem mem_of_get {d : Dict κ υ} {k : κ} {v : υ} (h : get d k = some v) :
    (k, v) ∈ d := by
  induction d with
  | nil => simp at h
  | cons p d ih =>
    obtain ⟨a, b⟩ := p
    by_cases hk : a = k
    · simp [get_cons, hk] at h
      simp [hk, h]
    · simp [get_cons, hk] at h
      exact List.mem_cons_of_mem _ (ih h)

theorem mem_keys_of_mem {d : Dict κ υ} {k : κ} {v : υ} (h : (k, v) ∈ d) :
    k ∈ keys d := List.mem_map_of_mem (f := Prod.fst) h

theorem get_of_mem {d : Dict κ υ} {k : κ} {v : υ} (hn : (keys d).Nodup)
    (h : (k, v) ∈ d) : get d k = some v := by
  induction d with
  | nil => simp at h
  | cons p d ih =>
    obtain ⟨a, b⟩ := p
    simp only [keys_cons, List.nodup_cons] at hn
    rcases List.mem_cons.1 h with h | h
    · cases h; simp [get_cons]
    · have : a ≠ k := by
        rintro rfl; exact hn.1 (mem_keys_of_mem h)
      simp [get_cons, this, ih hn.2 h]

theorem get_eq_some_iff {d : Dict κ υ} (hn : (keys d).Nodup) {k : κ} {v : υ} :
    get d k = some v ↔ (k, v) ∈ d := ⟨mem_of_get, get_of_mem hn⟩

theorem get_eq_none_iff {d : Dict κ υ} {k : κ} :
    get d k = none ↔ k ∉ keys d := by
  induction d with
  | nil => simp
  | cons p d ih =>
    obtain ⟨a, b⟩ := p
    by_cases hk : a = k
    · simp [get_cons, hk]
    · simp [get_cons, hk, ih, Ne.symm hk]

theorem has_iff {d : Dict κ υ} {k : κ} : has d k = true ↔ k ∈ keys d := by
  unfold has
  rw [Option.isSome_iff_ne_none, ne_eq, get_eq_none_iff, Classical.not_not]

theorem has_eq_false_iff {d : Dict κ υ} {k : κ} :
    has d k = false ↔ k ∉ keys d := by
  rw [← has_iff]; simp

theorem mem_keys_set {d : Dict κ υ} {k : κ} {v : υ} {x : κ} :
    x ∈ keys (set d k v) ↔ x = k ∨ x ∈ keys d := by
  have h1 := get_eq_none_iff (d := set d k v) (k := x)
  have h2 := get_eq_none_iff (d := d) (k := x)
  rw [get_set] at h1
  by_cases hx : k = x
  · simp [hx] at h1; simp [hx, h1]
  · simp [hx] at h1
    have hx' : x ≠ k := fun h => hx h.symm
    simp only [hx', false_or]
    constructor
    · intro h; by_contra hc; exact (h1.1 (h2.2 hc)) h
    · intro h; by_contra hc; exact (h2.1 (h1.2 hc)) h

theorem mem_keys_del {d : Dict κ υ} {k x : κ} :
    x ∈ keys (del d k) ↔ x ≠ k ∧ x ∈ keys d := by
  have h1 := get_eq_none_iff (d := del d k) (k := x)
  have h2 := get_eq_none_iff (d := d) (k := x)
  rw [get_del] at h1
  by_cases hx : k = x
  · simp [hx] at h1; simp [hx, h1]
  · simp [hx] at h1
    have hx' : x ≠ k := fun h => hx h.symm
    simp only [hx', ne_eq, not_false_eq_true, true_and]
    constructor
    · intro h; by_contra hc; exact (h1.1 (h2.2 hc)) h
    · intro h; by_contra hc; exact (h2.1 (h1.2 hc)) h

theorem nodup_keys_set {d : Dict κ υ} {k : κ} {v : υ} (h : (keys d).Nodup) :
    (keys (set d k v)).Nodup := by
  induction d with
  | nil => simp [set]
  | cons p d ih =>
    obtain ⟨a, b⟩ := p
    simp only [keys_cons, List.nodup_cons] at h
    unfold set
    by_cases hk : a = k
    · subst hk; simp [h]
    · rw [if_neg hk, keys_cons, List.nodup_cons, mem_keys_set, not_or]
      exact ⟨⟨hk, h.1⟩, ih h.2⟩

theorem nodup_keys_del {d : Dict κ υ} {k : κ} (h : (keys d).Nodup) :
    (keys (del d k)).Nodup := by
  induction d with
  | nil => simp [del]
  | cons p d ih =>
    obtain ⟨a, b⟩ := p
    simp only [keys_cons, List.nodup_cons] at h
    unfold del
    by_cases hk : a = k
    · simp [hk, ih h.2]
    · rw [if_neg hk, keys_cons, List.nodup_cons, mem_keys_del]
      exact ⟨fun hc => h.1 hc.2, ih h.2⟩

theorem mem_set {d : Dict κ υ} {k : κ} {v : υ} {p : κ × υ}
    (h : p ∈ set d k v) : p = (k, v) ∨ p ∈ d := by
  induction d with
  | nil => simp [set] at h; exact .inl h
  | cons q d ih =>
    obtain ⟨a, b⟩ := q
    unfold set at h
    by_cases hk : a = k
    · simp only [hk, if_true] at h
      rcases List.mem_cons.1 h with h | h
      · exact .inl h
      · exact .inr (List.mem_cons_of_mem _ h)
    · simp only [hk, if_false] at h
      rcases List.mem_cons.1 h with h | h
      · exact .inr (by simp [h])
      · rcases ih h with h | h
        · exact .inl h
        · exact .inr (List.mem_cons_of_mem _ h)

theorem set_ne_nil {d : Dict κ υ} {k : κ} {v : υ} : set d k v ≠ [] := by
  cases d with
  | nil => simp [set]
  | cons q d =>
    obtain ⟨a, b⟩ := q
    unfold set
    by_cases hk : a = k <;> simp [hk]

end Dict
end HatEvent
