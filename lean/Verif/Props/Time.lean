import Verif.Proof.Time

/-!
# C16, C17, C56: timestamp arithmetic and conversions
-/

namespace HatEvent
open Spec

/-- The hypothesis on rounding can be met. -/
theorem isDouble_id : IsDouble id := by
  refine ⟨fun x => ?_, fun _ _ => rfl⟩
  simp only [id, sub_self, abs_zero]
  positivity

/-! ## C16 -/

theorem frac_bound (s : ℚ) : |(s - pyInt s) * 1000000| ≤ 1000000 := by
  rw [abs_le]
  by_cases h : 0 ≤ s
  · obtain ⟨h1, h2⟩ := pyInt_nonneg h
    constructor <;> linarith
  · push Not at h
    obtain ⟨h1, h2⟩ := pyInt_neg h
    constructor <;> linarith

/-- C16: adding a float that denotes `k` microseconds (up to less than half a
microsecond of float representation error) gives a normalised timestamp that is
exactly `k` microseconds later, for `k` of either sign. -/
theorem C16_add {fl : ℚ → ℚ} (hfl : IsDouble fl) (t : Timestamp) (s : ℚ) (k : ℤ)
    (hs : |s * 1000000 - k| ≤ 2 / 5) :
    Normal (t.add fl s) ∧ micros (t.add fl s) = micros t + k := by
  have hb := double_bound hfl (frac_bound s)
  have hr : pyRound (fl ((s - pyInt s) * 1000000)) = k - pyInt s * 1000000 := by
    rw [abs_le] at hs hb
    have : (1000000 : ℚ) / 2 ^ 53 + 1 / 2 ^ 200 ≤ 1 / 100 := by norm_num
    apply pyRound_eq <;> push_cast <;> linarith
  unfold Timestamp.add Normal micros
  simp only [hr]
  omega

/-- C16, any duration: the result is normalised and less than one microsecond
off. -/
theorem C16_add_any {fl : ℚ → ℚ} (hfl : IsDouble fl) (t : Timestamp) (s : ℚ) :
    Normal (t.add fl s) ∧ |(micros (t.add fl s) : ℚ) - (micros t + s * 1000000)| < 1 := by
  have hb := double_bound hfl (frac_bound s)
  have hr := pyRound_near (fl ((s - pyInt s) * 1000000))
  set r := pyRound (fl ((s - pyInt s) * 1000000)) with hrd
  have hm : micros (t.add fl s) = micros t + r + pyInt s * 1000000 := by
    unfold Timestamp.add micros
    simp only [← hrd]
    omega
  constructor
  · unfold Timestamp.add Normal
    simp only
    omega
  · rw [hm]
    rw [abs_le] at hb hr
    have : (1000000 : ℚ) / 2 ^ 53 + 1 / 2 ^ 200 ≤ 1 / 100 := by norm_num
    rw [abs_lt]
    push_cast
    constructor <;> linarith

/-- C16, durations half way between two microseconds: the added part of a second is the even one of the two. -/
theorem C16_add_tie (fl : ℚ → ℚ) (t : Timestamp) (s : ℚ) (n m : ℤ) (hn : pyInt s = n)
    (hm : fl ((s - n) * 1000000) = m + 1 / 2) :
    ∃ e, (e = m ∨ e = m + 1) ∧ e % 2 = 0 ∧ micros (t.add fl s) = micros t + n * 1000000 + e := by
  have hr := pyRound_tie m
  rw [← hm] at hr
  refine ⟨if m % 2 = 0 then m else m + 1, ?_, ?_, ?_⟩
  · split_ifs <;> simp
  · split_ifs with h <;> omega
  · unfold Timestamp.add micros
    simp only [hn, hr]
    omega

example : pyInt (7 / 2000000) = 0 ∧ id (((7 : ℚ) / 2000000 - (0 : ℤ)) * 1000000) = (3 : ℤ) + 1 / 2 := by
  constructor
  · decide +kernel
  · norm_num
example : |(-5 / 4 : ℚ) * 1000000 - (-1250000 : ℤ)| ≤ 2 / 5 := by norm_num
example : (⟨10, 100000⟩ : Timestamp).add id (-5 / 4) = ⟨8, 850000⟩ := by
  have h := C16_add isDouble_id ⟨10, 100000⟩ (-5 / 4) (-1250000) (by norm_num)
  exact normal_unique h.1 (by unfold Normal; norm_num) (by rw [h.2]; decide)

/-! ## C17 -/

/-- C17 is false: whole seconds before 1970 come back one second early, all of
them. -/
theorem C17_negative_refuted {fl : ℚ → ℚ} (hfl : IsDouble fl) (s : ℤ)
    (hr : -62135596800 ≤ s ∧ s < 0) :
    ∃ dt, timestampToDatetime ⟨s, 0⟩ = .ok dt ∧ timestampFromDatetime fl dt = ⟨s - 1, 0⟩ := by
  refine ⟨⟨s, 0, true⟩, ?_, ?_⟩
  · unfold timestampToDatetime
    rw [if_neg (by simp only; omega), if_neg (by simp only; omega)]
  · have hts : DateTime.timestamp fl ⟨s, 0, true⟩ = s := by
      unfold DateTime.timestamp
      simp only [Int.cast_zero, zero_div, add_zero]
      exact hfl.int s (by rw [abs_le]; omega)
    have hs : (s : ℚ) < 0 := by exact_mod_cast hr.2
    have hi : pyInt (s : ℚ) = s := by
      obtain ⟨h1, h2⟩ := pyInt_neg hs
      exact int_eq_of_abs_lt (by linarith) (by linarith)
    unfold timestampFromDatetime
    simp only [if_true, hts, if_pos hs, hi]

example : -62135596800 ≤ (-1 : ℤ) ∧ (-1 : ℤ) < 0 := by norm_num

/-- C17 is also false far in the future (from year 2514 on), for lack of
precision: the last microsecond of a second comes back one second late. -/
theorem C17_far_refuted : ∃ t dt, Normal t ∧ timestampToDatetime t = .ok dt ∧
    timestampFromDatetime double34 dt = ⟨t.s + 1, t.us⟩ := by
  refine ⟨⟨2 ^ 34, 999999⟩, ⟨2 ^ 34, 999999, true⟩, by unfold Normal; norm_num, by decide, ?_⟩
  have hts : DateTime.timestamp double34 ⟨2 ^ 34, 999999, true⟩ = 2 ^ 34 + 1 := by
    unfold DateTime.timestamp double34
    rw [pyRound_eq (k := (2 ^ 34 + 1) * 2 ^ 18) (by norm_num) (by norm_num)]
    norm_num
  have hi : pyInt (2 ^ 34 + 1 : ℚ) = 2 ^ 34 + 1 := by
    obtain ⟨h1, h2⟩ := pyInt_nonneg (q := 2 ^ 34 + 1) (by norm_num)
    exact int_eq_of_abs_lt (by push_cast; linarith) (by push_cast; linarith)
  unfold timestampFromDatetime
  simp only [if_true, hts, hi]
  norm_num

/-- Conversion to datetimes succeeds for exactly the normalised timestamps of the years 1 to 9999, and the datetime has the
seconds and microseconds of the timestamp and is in UTC. -/
theorem C17_range (t : Timestamp) (hn : Normal t) :
    (-62135596800 ≤ t.s ∧ t.s ≤ 253402300799 → timestampToDatetime t = .ok ⟨t.s, t.us, true⟩) ∧
      (¬ (-62135596800 ≤ t.s ∧ t.s ≤ 253402300799) → ∃ e, timestampToDatetime t = .error e) := by
  unfold Normal at hn
  refine ⟨fun h => ?_, fun h => ?_⟩
  · unfold timestampToDatetime
    rw [if_neg (by omega), if_neg (by omega)]
  · unfold timestampToDatetime
    rw [if_pos (by omega)]
    exact ⟨_, rfl⟩

example : Normal ⟨253402300799, 999999⟩ := by unfold Normal; norm_num

/-- C17 holds (in double precision) for all other normalised timestamps within
2^33 seconds (272 years) of 1970 (missing: negative whole seconds, where the
conversion is wrong, and times further away, where double precision does not
suffice). -/
theorem C17_datetime_partial {fl : ℚ → ℚ} (hfl : IsDouble fl) (t : Timestamp) (hn : Normal t)
    (hr : -2 ^ 33 ≤ t.s ∧ t.s < 2 ^ 33) (hz : 0 ≤ t.s ∨ t.us ≠ 0) :
    ∃ dt, timestampToDatetime t = .ok dt ∧ timestampFromDatetime fl dt = t := by
  obtain ⟨s, us⟩ := t
  unfold Normal at hn
  simp only at hn hr hz
  refine ⟨⟨s, us, true⟩, ?_, ?_⟩
  · unfold timestampToDatetime
    rw [if_neg (by simp only; omega), if_neg (by simp only; omega)]
  · have hs1 : (-2 ^ 33 : ℚ) ≤ s := by exact_mod_cast hr.1
    have hs2 : (s : ℚ) ≤ 2 ^ 33 - 1 := by
      have : s ≤ 2 ^ 33 - 1 := by omega
      exact_mod_cast this
    have hu1 : (0 : ℚ) ≤ us := by exact_mod_cast hn.1
    have hu2 : (us : ℚ) ≤ 999999 := by
      have : us ≤ 999999 := by omega
      exact_mod_cast this
    have hb := double_bound hfl (x := (s : ℚ) + us / 1000000) (B := 2 ^ 33) (by
      rw [abs_le]; constructor <;> linarith)
    set y := fl ((s : ℚ) + us / 1000000) with hy
    have he : (2 ^ 33 : ℚ) / 2 ^ 53 + 1 / 2 ^ 200 ≤ 999999 / 1000000000000 := by norm_num
    rw [abs_le] at hb
    have hts : DateTime.timestamp fl ⟨s, us, true⟩ = y := rfl
    have hlt : y < s + 1 := by linarith
    unfold timestampFromDatetime
    simp only [if_true, hts]
    refine Timestamp.ext' ?_ rfl
    simp only
    by_cases hpos : 0 ≤ s
    · have hs0 : (0 : ℚ) ≤ s := by exact_mod_cast hpos
      -- rounding cannot push a value below the integer it exceeds
      by_cases hu0 : us = 0
      · have hys : y = s := by
          rw [hy, hu0]
          simp only [Int.cast_zero, zero_div, add_zero]
          exact hfl.int s (by rw [abs_le]; omega)
        rw [hys, if_neg (by linarith)]
        obtain ⟨h1, h2⟩ := pyInt_nonneg hs0
        exact int_eq_of_abs_lt (by linarith) (by linarith)
      · have hu3 : (1 : ℚ) ≤ us := by
          have : 1 ≤ us := by omega
          exact_mod_cast this
        have hy0 : (s : ℚ) < y := by linarith
        rw [if_neg (by linarith)]
        obtain ⟨h1, h2⟩ := pyInt_nonneg (q := y) (by linarith)
        exact int_eq_of_abs_lt (by linarith) (by linarith)
    · have hu3 : (1 : ℚ) ≤ us := by
        have : 1 ≤ us := by omega
        exact_mod_cast this
      have hs0 : (s : ℚ) + 1 ≤ 0 := by
        have : s + 1 ≤ 0 := by omega
        exact_mod_cast this
      have hy0 : (s : ℚ) < y := by linarith
      rw [if_pos (by linarith)]
      obtain ⟨h1, h2⟩ := pyInt_neg (q := y) (by linarith)
      have : pyInt y = s + 1 := int_eq_of_abs_lt (by push_cast; linarith) (by push_cast; linarith)
      omega

example : Normal ⟨-5, 999999⟩ := by unfold Normal; norm_num

/-! ## C56 -/

/-- C56: a float within 0.4 microseconds of a timestamp converts to exactly
that timestamp. -/
theorem C56_from_float {fl : ℚ → ℚ} (hfl : IsDouble fl) (t : Timestamp) (hn : Normal t) (ts : ℚ)
    (hts : |ts * 1000000 - micros t| ≤ 2 / 5) : timestampFromFloat fl ts = t := by
  set s : ℤ := if ts < 0 then pyInt ts - 1 else pyInt ts with hs
  have hb : (s : ℚ) ≤ ts ∧ ts ≤ s + 1 := by
    rw [hs]
    split_ifs with h
    · obtain ⟨h1, h2⟩ := pyInt_neg h
      push_cast
      constructor <;> linarith
    · obtain ⟨h1, h2⟩ := pyInt_nonneg (q := ts) (by linarith)
      constructor <;> linarith
  have e1 := double_bound hfl (x := ts - s) (B := 1) (by rw [abs_le]; constructor <;> linarith)
  have c1 : (1 : ℚ) / 2 ^ 53 + 1 / 2 ^ 200 ≤ 1 / 10 ^ 12 := by norm_num
  rw [abs_le] at e1 hts
  have e2 := double_bound hfl (x := fl (ts - s) * 1000000) (B := 2000000) (by
    rw [abs_le]; constructor <;> linarith)
  have c2 : (2000000 : ℚ) / 2 ^ 53 + 1 / 2 ^ 200 ≤ 1 / 100 := by norm_num
  rw [abs_le] at e2
  have hr : pyRound (fl (fl (ts - s) * 1000000)) = micros t - s * 1000000 := by
    apply pyRound_eq <;> push_cast <;> linarith
  have k1 : (-1 : ℚ) < micros t - s * 1000000 := by linarith
  have k2 : (micros t - s * 1000000 : ℚ) < 1000001 := by linarith
  have k1' : -1 < micros t - s * 1000000 := by exact_mod_cast k1
  have k2' : micros t - s * 1000000 < 1000001 := by exact_mod_cast k2
  unfold timestampFromFloat
  simp only [← hs, hr]
  unfold micros Normal at *
  split_ifs with h
  · exact Timestamp.ext' (by simp only; omega) (by simp only; omega)
  · exact Timestamp.ext' (by simp only; omega) (by simp only; omega)

/-- C56: every float converts to a normalised timestamp less than one
microsecond away. -/
theorem C56_any {fl : ℚ → ℚ} (hfl : IsDouble fl) (ts : ℚ) :
    Normal (timestampFromFloat fl ts) ∧
      |(micros (timestampFromFloat fl ts) : ℚ) - ts * 1000000| < 1 := by
  set s : ℤ := if ts < 0 then pyInt ts - 1 else pyInt ts with hs
  have hb : (s : ℚ) ≤ ts ∧ ts ≤ s + 1 := by
    rw [hs]
    split_ifs with h
    · obtain ⟨h1, h2⟩ := pyInt_neg h
      push_cast
      constructor <;> linarith
    · obtain ⟨h1, h2⟩ := pyInt_nonneg (q := ts) (by linarith)
      constructor <;> linarith
  have e1 := double_bound hfl (x := ts - s) (B := 1) (by rw [abs_le]; constructor <;> linarith)
  have c1 : (1 : ℚ) / 2 ^ 53 + 1 / 2 ^ 200 ≤ 1 / 10 ^ 12 := by norm_num
  rw [abs_le] at e1
  have e2 := double_bound hfl (x := fl (ts - s) * 1000000) (B := 2000000) (by
    rw [abs_le]; constructor <;> linarith)
  have c2 : (2000000 : ℚ) / 2 ^ 53 + 1 / 2 ^ 200 ≤ 1 / 100 := by norm_num
  rw [abs_le] at e2
  have e3 := pyRound_near (fl (fl (ts - s) * 1000000))
  rw [abs_le] at e3
  set r := pyRound (fl (fl (ts - s) * 1000000)) with hr
  have k1 : (-1 : ℚ) < r := by linarith
  have k2 : (r : ℚ) < 1000001 := by linarith
  have k1' : -1 < r := by exact_mod_cast k1
  have k2' : r < 1000001 := by exact_mod_cast k2
  have hm : micros (timestampFromFloat fl ts) = s * 1000000 + r := by
    unfold timestampFromFloat micros
    simp only [← hs, ← hr]
    split_ifs with h
    · simp only; omega
    · simp only
  constructor
  · unfold timestampFromFloat Normal
    simp only [← hs, ← hr]
    split_ifs with h
    · simp
    · simp only; omega
  · rw [hm, abs_lt]
    push_cast
    constructor <;> linarith

/-- C56: converting a timestamp to float and back gives the same timestamp, in
double precision, within 2^31 seconds (68 years) of 1970. -/
theorem C56_roundtrip {fl : ℚ → ℚ} (hfl : IsDouble fl) (t : Timestamp) (hn : Normal t)
    (hr : -2 ^ 31 ≤ t.s ∧ t.s < 2 ^ 31) : timestampFromFloat fl (timestampToFloat fl t) = t := by
  apply C56_from_float hfl t hn
  obtain ⟨s, us⟩ := t
  unfold Normal at hn
  simp only at hn hr
  have hs1 : (-2 ^ 31 : ℚ) ≤ s := by exact_mod_cast hr.1
  have hs2 : (s : ℚ) ≤ 2 ^ 31 - 1 := by
    have : s ≤ 2 ^ 31 - 1 := by omega
    exact_mod_cast this
  have hu1 : (0 : ℚ) ≤ us := by exact_mod_cast hn.1
  have hu2 : (us : ℚ) ≤ 999999 := by
    have : us ≤ 999999 := by omega
    exact_mod_cast this
  unfold timestampToFloat micros
  simp only
  have e1 := double_bound hfl (x := 1 / 1000000) (B := 1 / 1000000) (by norm_num [abs_le])
  set c := fl (1 / 1000000) with hc
  have k1 : (1 / 1000000 : ℚ) / 2 ^ 53 + 1 / 2 ^ 200 ≤ 1 / 10 ^ 21 := by norm_num
  rw [abs_le] at e1
  have hc1 : c ≤ 1 / 1000000 + 1 / 10 ^ 21 := by linarith
  have hc2 : 1 / 1000000 - 1 / 10 ^ 21 ≤ c := by linarith
  have hm1 : (us : ℚ) * c ≤ us * (1 / 1000000 + 1 / 10 ^ 21) := by gcongr
  have hm2 : (us : ℚ) * (1 / 1000000 - 1 / 10 ^ 21) ≤ us * c := by gcongr
  have e2 := double_bound hfl (x := us * c) (B := 1) (by
    rw [abs_le]
    constructor
    · have : (0 : ℚ) ≤ us * c := mul_nonneg hu1 (by
        refine le_trans ?_ hc2
        norm_num)
      linarith
    · have : (us : ℚ) * (1 / 1000000 + 1 / 10 ^ 21) ≤ 999999 * (1 / 1000000 + 1 / 10 ^ 21) := by
        gcongr
      have : (999999 : ℚ) * (1 / 1000000 + 1 / 10 ^ 21) ≤ 1 := by norm_num
      linarith)
  set m := fl (us * c) with hm
  have k2 : (1 : ℚ) / 2 ^ 53 + 1 / 2 ^ 200 ≤ 1 / 10 ^ 12 := by norm_num
  rw [abs_le] at e2
  have e3 := double_bound hfl (x := s + m) (B := 2 ^ 31 + 2) (by
    rw [abs_le]
    constructor <;> linarith)
  have k3 : (2 ^ 31 + 2 : ℚ) / 2 ^ 53 + 1 / 2 ^ 200 ≤ 3 / 10 ^ 7 := by norm_num
  rw [abs_le] at e3 ⊢
  push_cast
  constructor <;> linarith

example : Normal ⟨-2 ^ 31, 1⟩ := by unfold Normal; norm_num

end HatEvent
