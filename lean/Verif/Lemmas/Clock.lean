import Verif.Model.Clock
import Verif.Spec.Clock
import Verif.Lemmas.Time
import Mathlib.Tactic.IntervalCases
import Mathlib.Tactic.Ring
/-! # Lemmas about stamps and instants -/
namespace Syslog5424.Clock
open Time Spec

theorem isLeap_iff (y : Int) : isLeap y = true ↔ Leap y := by
  simp [isLeap, Leap]

theorem daysIn_monthLength (m : Nat) (y : Int) : daysIn m y = monthLength m y := by
  unfold daysIn monthLength
  by_cases h : m = 2
  · simp [h, isLeap_iff]
  · simp [h]

theorem monthLength_le (m : Nat) (y : Int) : monthLength m y ≤ 31 := by
  rw [← daysIn_monthLength]; exact daysIn_le m y

/-! ## Days -/

theorem daysToMonth_cases (y : Int) :
    ∀ m, m < 12 → daysToMonth y (m + 1) = daysBefore.getD m 0 + (if 2 ≤ m ∧ Leap y then 1 else 0) := by
  have hl : monthLength 2 y = if Leap y then 29 else 28 := rfl
  have e : ∀ m, m ≠ 2 → monthLength m y = if m ∈ [4, 6, 9, 11] then 30 else 31 := by
    intro m h; simp [monthLength, h]
  intro m hm
  by_cases h : Leap y
  · rw [if_pos h] at hl
    interval_cases m <;> simp [daysToMonth, daysBefore, hl, e, h]
  · rw [if_neg h] at hl
    interval_cases m <;> simp [daysToMonth, daysBefore, hl, e, h]

/-- The month and the day of a common year from the day of the year. -/
theorem month_common : ∀ day, day < 365 →
    (day / 31 + 1 < 13) ∧
    (if day ≥ daysBefore.getD (day / 31 + 1) 0 then
      day / 31 + 1 < 12 ∧ day - daysBefore.getD (day / 31 + 1) 0 + 1 ≤ monthLength (day / 31 + 2) 1 ∧
      day < daysBefore.getD (day / 31 + 2) 0
    else daysBefore.getD (day / 31) 0 ≤ day ∧ day - daysBefore.getD (day / 31) 0 + 1 ≤ monthLength (day / 31 + 1) 1 ∧ day / 31 < 12) := by
  decide +kernel

theorem monthLength_common (m : Nat) (y : Int) : monthLength m 1 ≤ monthLength m y := by
  unfold monthLength
  by_cases h : m = 2
  · simp only [h, if_true]
    rw [if_neg (by decide : ¬ Leap 1)]
    split <;> omega
  · simp [h]

theorem daysBefore_step : ∀ m, m < 12 → daysBefore.getD m 0 + monthLength (m + 1) 1 = daysBefore.getD (m + 1) 0 := by
  decide +kernel

theorem daysBefore_two {m : Nat} (hm : m < 13) : 59 ≤ daysBefore.getD m 0 ↔ 2 ≤ m := by
  have : ∀ m, m < 13 → (59 ≤ daysBefore.getD m 0 ↔ 2 ≤ m) := by decide +kernel
  exact this m hm

/-- Reading month and day from the day of the year. -/
theorem month_day (year : Int) (d : Nat) (hd : d < if Leap year then 366 else 365) :
    let r : Nat × Nat := if Leap year ∧ d = 59 then (2, 29)
      else
        let day := if Leap year ∧ d > 59 then d - 1 else d
        if day ≥ daysBefore.getD (day / 31 + 1) 0 then (day / 31 + 2, day - daysBefore.getD (day / 31 + 1) 0 + 1)
        else (day / 31 + 1, day - daysBefore.getD (day / 31) 0 + 1)
    1 ≤ r.1 ∧ r.1 ≤ 12 ∧ 1 ≤ r.2 ∧ r.2 ≤ monthLength r.1 year ∧ daysToMonth year r.1 + r.2 = d + 1 := by
  simp only
  by_cases h59 : Leap year ∧ d = 59
  · rw [if_pos h59]
    obtain ⟨hl, rfl⟩ := h59
    simp [daysToMonth, monthLength, hl]
  rw [if_neg h59]
  -- the day without the leap day
  obtain ⟨day, hday⟩ : ∃ day, day = if Leap year ∧ d > 59 then d - 1 else d := ⟨_, rfl⟩
  rw [← hday]
  have hlt : day < 365 := by
    rw [hday]
    by_cases hl : Leap year
    · rw [if_pos hl] at hd
      split
      · omega
      · rename_i h
        have : ¬ d > 59 := fun h' => h ⟨hl, h'⟩
        omega
    · rw [if_neg hl] at hd
      rw [if_neg (fun h => hl h.1)]; omega
  have hback : d = day + (if Leap year ∧ 59 ≤ day then 1 else 0) := by
    rw [hday]
    by_cases hl : Leap year
    · by_cases hg : d > 59
      · rw [if_pos ⟨hl, hg⟩, if_pos ⟨hl, by omega⟩]; omega
      · have : d ≠ 59 := fun h => h59 ⟨hl, h⟩
        rw [if_neg (fun h => hg h.2), if_neg (by omega)]; omega
    · rw [if_neg (fun h => hl h.1), if_neg (fun h => hl h.1)]; rfl
  obtain ⟨m1, m2⟩ := month_common day hlt
  split
  · rename_i hge
    rw [if_pos hge] at m2
    obtain ⟨a1, a2, a3⟩ := m2
    refine ⟨by simp, by simp only; omega, by simp, Nat.le_trans a2 (monthLength_common _ _), ?_⟩
    simp only
    rw [show day / 31 + 2 = (day / 31 + 1) + 1 from rfl, daysToMonth_cases year _ a1, hback]
    have h2 := daysBefore_two (m := day / 31 + 1) (by omega)
    have h3 := daysBefore_two (m := day / 31 + 2) (by omega)
    have hs := daysBefore_step (day / 31 + 1) a1
    by_cases hl : Leap year
    · by_cases h5 : 59 ≤ day
      · have : 2 ≤ day / 31 + 1 := by omega
        rw [if_pos ⟨this, hl⟩, if_pos ⟨hl, h5⟩]; omega
      · have : ¬ 2 ≤ day / 31 + 1 := by omega
        rw [if_neg (fun h => this h.1), if_neg (fun h => h5 h.2)]; omega
    · rw [if_neg (fun h => hl h.2), if_neg (fun h => hl h.1)]; omega
  · rename_i hge
    rw [if_neg hge] at m2
    obtain ⟨a1, a2, a3⟩ := m2
    refine ⟨by simp, by simp only; omega, by simp, Nat.le_trans a2 (monthLength_common _ _), ?_⟩
    simp only
    rw [daysToMonth_cases year _ a3, hback]
    have h2 := daysBefore_two (m := day / 31) (by omega)
    have hge' : day < daysBefore.getD (day / 31 + 1) 0 := Nat.lt_of_not_le hge
    by_cases hl : Leap year
    · by_cases h5 : 59 ≤ day
      · have : 2 ≤ day / 31 := by
          have h3 := (daysBefore_two (m := day / 31 + 1) (by omega)).mp (by omega)
          by_cases h1 : day / 31 = 1
          · rw [h1] at hge'
            have : daysBefore.getD (1 + 1) 0 = 59 := rfl
            omega
          · omega
        rw [if_pos ⟨this, hl⟩, if_pos ⟨hl, h5⟩]; omega
      · have : ¬ 2 ≤ day / 31 := by omega
        rw [if_neg (fun h => this h.1), if_neg (fun h => h5 h.2)]; omega
    · rw [if_neg (fun h => hl h.2), if_neg (fun h => hl h.1)]; omega

theorem year_days (n n1 n2 n3 : Nat) (b1 : n1 ≤ 3) (b2 : n2 ≤ 24) (b3 : n3 ≤ 3) (y : Int)
    (hy : y = 400 * n + 100 * n1 + 4 * n2 + n3 - 292277022400) :
    y / 4 = 100 * n + 25 * n1 + n2 - 73069255600 ∧ y / 100 = 4 * n + n1 - 2922770224 ∧ y / 400 = n - 730692556 := by
  refine ⟨?_, ?_, ?_⟩ <;> omega

/-- `absDate` finds the date with the given day number. -/
theorem absDate_spec (d : Nat) :
    1 ≤ (absDate d).2.1 ∧ (absDate d).2.1 ≤ 12 ∧ 1 ≤ (absDate d).2.2 ∧ (absDate d).2.2 ≤ monthLength (absDate d).2.1 (absDate d).1 ∧
      dayNumber (absDate d).1 (absDate d).2.1 (absDate d).2.2 = d + dayNumber absoluteZeroYear 1 1 := by
  -- the cycles
  obtain ⟨n, hn⟩ : ∃ n, n = d / 146097 := ⟨_, rfl⟩
  obtain ⟨d0, hd0⟩ : ∃ d0, d0 = d - 146097 * n := ⟨_, rfl⟩
  obtain ⟨n1, hn1⟩ : ∃ n1, n1 = d0 / 36524 - d0 / 36524 / 4 := ⟨_, rfl⟩
  obtain ⟨d1, hd1⟩ : ∃ d1, d1 = d0 - 36524 * n1 := ⟨_, rfl⟩
  obtain ⟨n2, hn2⟩ : ∃ n2, n2 = d1 / 1461 := ⟨_, rfl⟩
  obtain ⟨d2, hd2⟩ : ∃ d2, d2 = d1 - 1461 * n2 := ⟨_, rfl⟩
  obtain ⟨n3, hn3⟩ : ∃ n3, n3 = d2 / 365 - d2 / 365 / 4 := ⟨_, rfl⟩
  obtain ⟨d3, hd3⟩ : ∃ d3, d3 = d2 - 365 * n3 := ⟨_, rfl⟩
  obtain ⟨year, hyear⟩ : ∃ year : Int, year = ((400 * n + 100 * n1 + 4 * n2 + n3 : Nat) : Int) + absoluteZeroYear := ⟨_, rfl⟩
  have b0 : d0 < 146097 := by omega
  have b1 : n1 ≤ 3 := by omega
  have b1' : d1 ≤ 36524 := by omega
  have b1'' : d1 = 36524 → n1 = 3 := by omega
  have b2 : n2 ≤ 24 := by omega
  have b2' : d2 < 1461 := by omega
  have b2'' : n2 = 24 → d2 = 1460 → n1 = 3 := by omega
  have b3 : n3 ≤ 3 := by omega
  have b3' : d3 ≤ 365 := by omega
  have b3'' : d3 = 365 → n3 = 3 ∧ d2 = 1460 := by omega
  have hd : d = 146097 * n + 36524 * n1 + 1461 * n2 + 365 * n3 + d3 := by omega
  have hz : absoluteZeroYear = -292277022399 := rfl
  have hleap : Leap year ↔ n3 = 3 ∧ (n2 ≠ 24 ∨ n1 = 3) := by
    unfold Leap; rw [hyear, hz]; omega
  have hdlt : d3 < if Leap year then 366 else 365 := by
    by_cases hl : Leap year
    · rw [if_pos hl]; omega
    · rw [if_neg hl]
      rcases Nat.lt_or_ge d3 365 with h | h
      · exact h
      · exfalso
        have h365 : d3 = 365 := by omega
        obtain ⟨c1, c2⟩ := b3'' h365
        apply hl; rw [hleap]
        refine ⟨c1, ?_⟩
        by_cases h24 : n2 = 24
        · exact .inr (b2'' h24 c2)
        · exact .inl h24
  have hmd := month_day year d3 hdlt
  have habs : absDate d = (year,
      if Leap year ∧ d3 = 59 then (2, 29)
      else
        let day := if Leap year ∧ d3 > 59 then d3 - 1 else d3
        if day ≥ daysBefore.getD (day / 31 + 1) 0 then (day / 31 + 2, day - daysBefore.getD (day / 31 + 1) 0 + 1)
        else (day / 31 + 1, day - daysBefore.getD (day / 31) 0 + 1)) := by
    unfold absDate
    simp only [isLeap_iff]
    simp only [← hn, ← hd0, ← hn1, ← hd1, ← hn2, ← hd2, ← hn3, ← hd3, ← hyear]
    split
    · rfl
    · split <;> split <;> rfl
  rw [habs]
  simp only at hmd ⊢
  refine ⟨hmd.1, hmd.2.1, hmd.2.2.1, hmd.2.2.2.1, ?_⟩
  have h5 := hmd.2.2.2.2
  unfold dayNumber
  have hz1 : daysToMonth absoluteZeroYear 1 = 0 := rfl
  rw [hz1]
  have hlin : 365 * (year - 1) + (year - 1) / 4 - (year - 1) / 100 + (year - 1) / 400 + d3 =
      d + (365 * (absoluteZeroYear - 1) + (absoluteZeroYear - 1) / 4 - (absoluteZeroYear - 1) / 100 + (absoluteZeroYear - 1) / 400) := by
    obtain ⟨g1, g2, g3⟩ := year_days n n1 n2 n3 b1 b2 b3 (year - 1) (by rw [hyear, hz]; push_cast; ring)
    rw [g1, g2, g3, hyear, hz, hd]
    push_cast
    ring
  omega

/-! ## Instants -/

theorem civil_spec (zone : Int → Int) (t : Instant) (hn : 0 ≤ t.nsec ∧ t.nsec < 10 ^ 9)
    (hr : 0 ≤ t.sec + zone t.sec + unixToAbsolute ∧ t.sec + zone t.sec + unixToAbsolute < 2 ^ 64) :
    Spec.Exists (civil zone t) ∧ (civil zone t).off = zone t.sec ∧ instant (civil zone t) = t.sec * 10 ^ 9 + t.nsec := by
  obtain ⟨abs, habs⟩ : ∃ abs : Nat, (abs : Int) = t.sec + zone t.sec + unixToAbsolute :=
    ⟨(t.sec + zone t.sec + unixToAbsolute).toNat, by omega⟩
  have hm : ((t.sec + zone t.sec + unixToAbsolute) % 2 ^ 64).toNat = abs := by
    rw [← habs, Int.emod_eq_of_lt (by omega) (by omega)]; rfl
  obtain ⟨a1, a2, a3, a4, a5⟩ := absDate_spec (abs / 86400)
  have hc : civil zone t = ⟨(absDate (abs / 86400)).1, (absDate (abs / 86400)).2.1, (absDate (abs / 86400)).2.2,
      abs % 86400 / 3600, abs % 86400 % 3600 / 60, abs % 86400 % 60, t.nsec.toNat, zone t.sec⟩ := by
    unfold civil
    simp only [hm]
  rw [hc]
  refine ⟨⟨⟨a1, a2⟩, ⟨a3, a4⟩, ?_, ?_, ?_, ?_⟩, rfl, ?_⟩
  · simp only; omega
  · simp only; omega
  · simp only; omega
  · simp only; omega
  · unfold instant
    simp only
    rw [a5]
    have h0 : dayNumber absoluteZeroYear 1 1 - dayNumber 1970 1 1 = -106751991073094 := by decide +kernel
    have h1 : unixToAbsolute = 9223372028715321600 := rfl
    omega

end Syslog5424.Clock
