import Verif.Model.Clock
import Verif.Spec.Clock
/-! # Lemmas about dates -/
namespace Verif.Clock
open Verif.Spec

theorem monthStart_succ (y : Int) (m : Nat) : monthStart y (m + 1) = monthStart y m + monthDays y m := by
  simp [monthStart, List.range_succ, List.map_append, List.sum_append]

/-- The days before each month, in closed form. -/
theorem monthStart_values (y : Int) (f : Nat) (hf : f = if Leap y then 29 else 28) :
    monthStart y 1 = 0 ∧ monthStart y 2 = 31 ∧
    monthStart y 3 = 31 + f ∧ monthStart y 4 = 62 + f ∧ monthStart y 5 = 92 + f ∧ monthStart y 6 = 123 + f ∧
    monthStart y 7 = 153 + f ∧ monthStart y 8 = 184 + f ∧ monthStart y 9 = 215 + f ∧ monthStart y 10 = 245 + f ∧
    monthStart y 11 = 276 + f ∧ monthStart y 12 = 306 + f := by
  have h0 : monthStart y 1 = 0 := rfl
  have h1 : monthStart y 2 = monthStart y 1 + 31 := monthStart_succ y 1
  have h2 : monthStart y 3 = monthStart y 2 + f := by rw [hf]; exact monthStart_succ y 2
  have h3 : monthStart y 4 = monthStart y 3 + 31 := monthStart_succ y 3
  have h4 : monthStart y 5 = monthStart y 4 + 30 := monthStart_succ y 4
  have h5 : monthStart y 6 = monthStart y 5 + 31 := monthStart_succ y 5
  have h6 : monthStart y 7 = monthStart y 6 + 30 := monthStart_succ y 6
  have h7 : monthStart y 8 = monthStart y 7 + 31 := monthStart_succ y 7
  have h8 : monthStart y 9 = monthStart y 8 + 31 := monthStart_succ y 8
  have h9 : monthStart y 10 = monthStart y 9 + 30 := monthStart_succ y 9
  have h10 : monthStart y 11 = monthStart y 10 + 31 := monthStart_succ y 10
  have h11 : monthStart y 12 = monthStart y 11 + 30 := monthStart_succ y 11
  refine ⟨h0, ?_, ?_, ?_, ?_, ?_, ?_, ?_, ?_, ?_, ?_, ?_⟩ <;> omega

/-- The first of March. -/
theorem yearStart_march (y : Int) (f : Nat) (hf : f = if Leap y then 29 else 28) :
    yearStart y + f = 365 * (y - 1970) + (y / 4 - y / 100 + y / 400) - 449 := by
  unfold yearStart
  by_cases h : Leap y
  · rw [if_pos h] at hf
    unfold Leap at h
    omega
  · rw [if_neg h] at hf
    unfold Leap at h
    omega

/-- Month and day within a year that begins in March. -/
theorem march_spec (n y : Int) (doy mp day month : Nat) (hdoy : doy ≤ 365) (hl : doy = 365 → Leap (y + 1))
    (hn : n = 365 * y + y / 4 - y / 100 + y / 400 + doy - 719468)
    (hmp : mp = (5 * doy + 2) / 153) (hday : day = doy - (153 * mp + 2) / 5 + 1)
    (hmonth : month = if mp < 10 then mp + 3 else mp - 9) :
    ValidDate (y + if month ≤ 2 then 1 else 0) month day ∧
    dayNumber (y + if month ≤ 2 then 1 else 0) month day = n := by
  have hmp12 : mp < 12 := by omega
  by_cases h10 : mp < 10
  · rw [if_pos h10] at hmonth
    rw [if_neg (by omega), Int.add_zero]
    obtain ⟨f, hf⟩ : ∃ f : Nat, f = if Leap y then 29 else 28 := ⟨_, rfl⟩
    obtain ⟨-, -, m3, m4, m5, m6, m7, m8, m9, m10, m11, m12⟩ := monthStart_values y f hf
    have hs := yearStart_march y f hf
    clear hl hf
    have hcases : mp = 0 ∨ mp = 1 ∨ mp = 2 ∨ mp = 3 ∨ mp = 4 ∨ mp = 5 ∨ mp = 6 ∨ mp = 7 ∨ mp = 8 ∨
      mp = 9 := by omega
    unfold dayNumber ValidDate
    rcases hcases with e | e | e | e | e | e | e | e | e | e
    · obtain rfl : month = 3 := by omega
      clear m4 m5 m6 m7 m8 m9 m10 m11 m12
      refine ⟨⟨by decide, by decide, by omega, ?_⟩, by rw [m3]; omega⟩
      show day ≤ 31
      omega
    · obtain rfl : month = 4 := by omega
      clear m3 m5 m6 m7 m8 m9 m10 m11 m12
      refine ⟨⟨by decide, by decide, by omega, ?_⟩, by rw [m4]; omega⟩
      show day ≤ 30
      omega
    · obtain rfl : month = 5 := by omega
      clear m3 m4 m6 m7 m8 m9 m10 m11 m12
      refine ⟨⟨by decide, by decide, by omega, ?_⟩, by rw [m5]; omega⟩
      show day ≤ 31
      omega
    · obtain rfl : month = 6 := by omega
      clear m3 m4 m5 m7 m8 m9 m10 m11 m12
      refine ⟨⟨by decide, by decide, by omega, ?_⟩, by rw [m6]; omega⟩
      show day ≤ 30
      omega
    · obtain rfl : month = 7 := by omega
      clear m3 m4 m5 m6 m8 m9 m10 m11 m12
      refine ⟨⟨by decide, by decide, by omega, ?_⟩, by rw [m7]; omega⟩
      show day ≤ 31
      omega
    · obtain rfl : month = 8 := by omega
      clear m3 m4 m5 m6 m7 m9 m10 m11 m12
      refine ⟨⟨by decide, by decide, by omega, ?_⟩, by rw [m8]; omega⟩
      show day ≤ 31
      omega
    · obtain rfl : month = 9 := by omega
      clear m3 m4 m5 m6 m7 m8 m10 m11 m12
      refine ⟨⟨by decide, by decide, by omega, ?_⟩, by rw [m9]; omega⟩
      show day ≤ 30
      omega
    · obtain rfl : month = 10 := by omega
      clear m3 m4 m5 m6 m7 m8 m9 m11 m12
      refine ⟨⟨by decide, by decide, by omega, ?_⟩, by rw [m10]; omega⟩
      show day ≤ 31
      omega
    · obtain rfl : month = 11 := by omega
      clear m3 m4 m5 m6 m7 m8 m9 m10 m12
      refine ⟨⟨by decide, by decide, by omega, ?_⟩, by rw [m11]; omega⟩
      show day ≤ 30
      omega
    · obtain rfl : month = 12 := by omega
      clear m3 m4 m5 m6 m7 m8 m9 m10 m11
      refine ⟨⟨by decide, by decide, by omega, ?_⟩, by rw [m12]; omega⟩
      show day ≤ 31
      omega
  · rw [if_neg h10] at hmonth
    rw [if_pos (by omega)]
    obtain ⟨g, hg⟩ : ∃ g : Nat, g = if Leap (y + 1) then 29 else 28 := ⟨_, rfl⟩
    obtain ⟨m1, m2, -⟩ := monthStart_values (y + 1) g hg
    have hs : yearStart (y + 1) = 365 * (y - 1969) + (y / 4 - y / 100 + y / 400) - 477 := by
      unfold yearStart
      rw [Int.add_sub_cancel]
      omega
    have hcases : mp = 10 ∨ mp = 11 := by omega
    unfold dayNumber ValidDate
    rcases hcases with e | e
    · obtain rfl : month = 1 := by omega
      refine ⟨⟨by decide, by decide, by omega, ?_⟩, by rw [m1]; omega⟩
      show day ≤ 31
      omega
    · obtain rfl : month = 2 := by omega
      refine ⟨⟨by decide, by decide, by omega, ?_⟩, by rw [m2]; omega⟩
      show day ≤ if Leap (y + 1) then 29 else 28
      by_cases hL : Leap (y + 1)
      · rw [if_pos hL]; omega
      · rw [if_neg hL]
        have : doy ≠ 365 := fun h => hL (hl h)
        omega

theorem civilOfDay_spec (n : Int) : ValidDate (civilOfDay n).year (civilOfDay n).month (civilOfDay n).day ∧
    dayNumber (civilOfDay n).year (civilOfDay n).month (civilOfDay n).day = n := by
  unfold civilOfDay
  extract_lets z era doe c q r a yoe doy mp day month
  have hz : z = n + 719468 := rfl
  have hera : era = z / 146097 := rfl
  have hdoe : (doe : Int) = z % 146097 := by
    show ((z % 146097).toNat : Int) = _
    omega
  have hdoe' : doe < 146097 := by omega
  have hc : c = min (doe / 36524) 3 := rfl
  have hq : q = (doe - c * 36524) / 1461 := rfl
  have hr : r = doe - c * 36524 - q * 1461 := rfl
  have ha : a = min (r / 365) 3 := rfl
  have hyoe : yoe = 100 * c + 4 * q + a := rfl
  have hdoy : doy = r - a * 365 := rfl
  have hmp : mp = (5 * doy + 2) / 153 := rfl
  have hday : day = doy - (153 * mp + 2) / 5 + 1 := rfl
  have hmonth : month = if mp < 10 then mp + 3 else mp - 9 := rfl
  clear_value z era doe c q r a yoe doy mp day month
  have hc3 : c ≤ 3 := by omega
  have hcc : c * 36524 ≤ doe ∧ (doe < c * 36524 + 36524 ∨ (c = 3 ∧ doe < 146097)) := by omega
  have hq' : q ≤ 24 ∧ q * 1461 + r = doe - c * 36524 ∧ r < 1461 := by omega
  have ha' : a ≤ 3 ∧ a * 365 ≤ r ∧ (r < a * 365 + 365 ∨ (a = 3 ∧ r = 1460)) := by omega
  have hleap : r = 1460 → q = 24 → c = 3 := by omega
  obtain ⟨y, hy⟩ : ∃ y : Int, y = yoe + era * 400 := ⟨_, rfl⟩
  have hn : n = era * 146097 + c * 36524 + q * 1461 + a * 365 + doy - 719468 := by omega
  have hy4 : y / 4 = 100 * era + 25 * c + q := by omega
  have hy100 : y / 100 = 4 * era + c := by omega
  have hy400 : y / 400 = era := by omega
  have hd366 : doy ≤ 365 := by omega
  have hl1 : doy = 365 → Leap (y + 1) := by
    intro h
    have h3 : a = 3 ∧ r = 1460 := by omega
    unfold Leap
    by_cases hq24 : q = 24
    · have := hleap h3.2 hq24
      omega
    · omega
  rw [← hy]
  exact march_spec n y doy mp day month hd366 hl1 (by omega) hmp hday hmonth

/-! ## The order of dates -/

theorem yearStart_succ (y : Int) : yearStart (y + 1) = yearStart y + monthStart y 13 := by
  obtain ⟨f, hf⟩ : ∃ f : Nat, f = if Leap y then 29 else 28 := ⟨_, rfl⟩
  obtain ⟨-, -, -, -, -, -, -, -, -, -, -, m12⟩ := monthStart_values y f hf
  have h13 : monthStart y 13 = monthStart y 12 + 31 := monthStart_succ y 12
  have hs := yearStart_march y f hf
  have hs' : yearStart (y + 1) = 365 * (y - 1969) + (y / 4 - y / 100 + y / 400) - 477 := by
    unfold yearStart
    rw [Int.add_sub_cancel]
    omega
  omega

theorem monthStart_mono (y : Int) (m n : Nat) (h : m ≤ n) : monthStart y m ≤ monthStart y n := by
  induction n with
  | zero => obtain rfl : m = 0 := by omega
            exact Nat.le_refl _
  | succ n ih =>
    rcases Nat.lt_or_ge m (n + 1) with h' | h'
    · have := ih (by omega)
      rw [monthStart_succ]
      omega
    · obtain rfl : m = n + 1 := by omega
      exact Nat.le_refl _

theorem yearStart_mono (y : Int) (k : Nat) : yearStart y ≤ yearStart (y + k) := by
  induction k with
  | zero => simp
  | succ k ih =>
    have := yearStart_succ (y + k)
    rw [Int.add_assoc] at this
    push_cast
    omega

/-- Days are numbered in the order of their dates. -/
theorem dayNumber_lt (y y' : Int) (m d m' d' : Nat) (h : ValidDate y m d) (h' : ValidDate y' m' d')
    (hlt : y < y' ∨ (y = y' ∧ (m < m' ∨ (m = m' ∧ d < d')))) : dayNumber y m d < dayNumber y' m' d' := by
  obtain ⟨h1, h2, h3, h4⟩ := h
  obtain ⟨h1', h2', h3', h4'⟩ := h'
  have hs := monthStart_succ y m
  unfold dayNumber
  rcases hlt with hy | ⟨rfl, hm | ⟨rfl, hd⟩⟩
  · have e1 := monthStart_mono y (m + 1) 13 (by omega)
    have e2 := yearStart_succ y
    have e3 := yearStart_mono (y + 1) (y' - (y + 1)).toNat
    have e4 : y + 1 + ((y' - (y + 1)).toNat : Int) = y' := by omega
    rw [e4] at e3
    omega
  · have e1 := monthStart_mono y (m + 1) m' (by omega)
    omega
  · omega

/-- Every day has one date. -/
theorem dayNumber_inj (y y' : Int) (m d m' d' : Nat) (h : ValidDate y m d) (h' : ValidDate y' m' d')
    (e : dayNumber y m d = dayNumber y' m' d') : y = y' ∧ m = m' ∧ d = d' := by
  have a := fun hlt => dayNumber_lt y y' m d m' d' h h' hlt
  have b := fun hlt => dayNumber_lt y' y m' d' m d h' h hlt
  have hy : y = y' := by
    rcases Int.lt_trichotomy y y' with k | k | k
    · have := a (.inl k); omega
    · exact k
    · have := b (.inl k); omega
  have hm : m = m' := by
    rcases Nat.lt_trichotomy m m' with k | k | k
    · have := a (.inr ⟨hy, .inl k⟩); omega
    · exact k
    · have := b (.inr ⟨hy.symm, .inl k⟩); omega
  have hd : d = d' := by
    rcases Nat.lt_trichotomy d d' with k | k | k
    · have := a (.inr ⟨hy, .inr ⟨hm, k⟩⟩); omega
    · exact k
    · have := b (.inr ⟨hy.symm, .inr ⟨hm.symm, k⟩⟩); omega
  exact ⟨hy, hm, hd⟩

/-- A bound on the year. -/
theorem year_bounds (y : Int) (m d : Nat) (h : ValidDate y m d) (hlo : -106753 ≤ dayNumber y m d)
    (hhi : dayNumber y m d ≤ 106753) : 1677 ≤ y ∧ y ≤ 2262 := by
  obtain ⟨h1, h2, h3, h4⟩ := h
  have hs := monthStart_succ y m
  have e1 := monthStart_mono y (m + 1) 13 (by omega)
  have e2 := yearStart_succ y
  unfold dayNumber at hlo hhi
  have h5 : yearStart y ≤ 106753 := by omega
  have h6 : -106753 < yearStart (y + 1) := by omega
  unfold yearStart at h5 h6
  omega

/-! ## Digits -/

theorem digits_two (v : Nat) (h : v < 100) : digits 2 v = two v := by
  have : v / 10 / 10 = 0 := by omega
  simp only [digits, this, two, if_true, List.nil_append]
  rw [Nat.mod_eq_of_lt (show v / 10 < 10 by omega)]
  rfl

theorem digits_four (v : Nat) (h : v < 10000) : digits 4 v = two (v / 100) ++ two (v % 100) := by
  have e0 : v / 10 / 10 / 10 / 10 = 0 := by omega
  have e1 : v / 10 / 10 / 10 % 10 = v / 100 / 10 := by omega
  have e2 : v / 10 / 10 % 10 = v / 100 % 10 := by omega
  have e3 : v / 10 % 10 = v % 100 / 10 := by omega
  have e4 : v % 10 = v % 100 % 10 := by omega
  simp only [digits, e0, two, if_true, List.nil_append]
  rw [e1, e2, e3, ← e4]
  rfl

end Verif.Clock
