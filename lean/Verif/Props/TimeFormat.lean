import Verif.Model.TimeFormat
import Verif.Lemmas.Np
import Mathlib.Algebra.Order.Archimedean.Real.Basic
import Mathlib.Algebra.Order.Floor.Ring

/-!
# C94: formatted times
-/

set_option autoImplicit false

namespace Lattpy

namespace TimeText

/-- The time in seconds a reader takes from the text. -/
noncomputable def seconds : TimeText ℝ → ℝ
  | zero => 0
  | shortMinutes m s => 60 * m + s
  | shortHours h m => 3600 * h + 60 * m
  | micros v => v / 1000000
  | millis v => v / 1000
  | secs v => v
  | minutes m s => 60 * m + s
  | hours h m s => 3600 * h + 60 * m + s

/-- The numbers of the text are in the range of a clock: less than 60 seconds and minutes, less than
1000 milli- and microseconds. -/
def InRange : TimeText ℝ → Prop
  | zero => True
  | shortMinutes m s => m < 60 ∧ s < 60
  | shortHours _ m => m < 60
  | micros v => v < 1000
  | millis v => v < 1000
  | secs v => v < 60
  | minutes m s => m < 60 ∧ s < 60
  | hours _ m s => m < 60 ∧ s < 60

/-- The same with the limits included. -/
def InClosedRange : TimeText ℝ → Prop
  | zero => True
  | shortMinutes m s => m ≤ 60 ∧ s ≤ 60
  | shortHours _ m => m < 60
  | micros v => v ≤ 1000
  | millis v => v ≤ 1000
  | secs v => v ≤ 60
  | minutes m s => m < 60 ∧ s ≤ 60
  | hours _ m s => m < 60 ∧ s ≤ 60

end TimeText

theorem npRound_floor (x : ℝ) : npRound 0 ((⌊x⌋ : ℝ)) = (⌊x⌋ : ℝ) := by
  have := npRound_of_int (K := ℝ) 0 ⌊x⌋
  simpa using this

theorem divmod60_snd (x : ℝ) : 0 ≤ (divmod60 x).2 ∧ (divmod60 x).2 < 60 := by
  unfold divmod60
  dsimp only
  have h1 := Int.floor_le (x / 60)
  have h2 := Int.lt_floor_add_one (x / 60)
  constructor <;> linarith

theorem divmod60_eq (x : ℝ) : 60 * (divmod60 x).1 + (divmod60 x).2 = x := by
  unfold divmod60
  dsimp only
  ring

/-- Whole minutes have whole remainders. -/
theorem divmod60_int (n : ℤ) : ∃ m : ℤ, (divmod60 (n : ℝ)).2 = m := by
  unfold divmod60
  exact ⟨n - 60 * ⌊(n : ℝ) / 60⌋, by push_cast; ring⟩

/-- C94, the long form: the text differs from the time by at most half of the last printed digit:
half a microsecond below a millisecond, 50 microseconds below a second, 50 milliseconds below an
hour and half a second from an hour on. -/
theorem C94_long (t : ℝ) :
    |(frmtTime t false).seconds - t| ≤
      if t < 1 / 1000 then 1 / 2000000 else if t < 1 then 1 / 20000 else
        if t < 3600 then 1 / 20 else 1 / 2 := by
  have r0 := fun x : ℝ => abs_npRound_sub_le 0 x
  have r1 := fun x : ℝ => abs_npRound_sub_le 1 x
  norm_num at r0 r1
  unfold frmtTime
  simp only [Bool.false_eq_true, if_false]
  by_cases h1 : t < 1 / 1000
  · simp only [if_pos h1, TimeText.seconds]
    have := abs_le.1 (r0 (10 ^ 6 * t))
    rw [abs_le]
    constructor <;> linarith [this.1, this.2]
  · simp only [if_neg h1]
    by_cases h2 : t < 1
    · simp only [if_pos h2, TimeText.seconds]
      have := abs_le.1 (r1 (1000 * t))
      rw [abs_le]
      constructor <;> linarith [this.1, this.2]
    · simp only [if_neg h2]
      have key : (divmod60 t).1 < 60 ↔ t < 3600 := by
        have h3 := divmod60_eq t
        obtain ⟨h4, h5⟩ := divmod60_snd t
        constructor
        · intro h
          have h6 : (divmod60 t).1 ≤ 59 := by
            unfold divmod60 at h ⊢
            dsimp only at h ⊢
            have : ⌊t / 60⌋ < 60 := by exact_mod_cast h
            have : ⌊t / 60⌋ ≤ 59 := by omega
            exact_mod_cast this
          linarith
        · intro h
          linarith
      by_cases h3 : t < 60
      · rw [if_pos h3, if_pos (by linarith)]
        exact r1 t
      · rw [if_neg h3]
        by_cases h4 : (divmod60 t).1 < 60
        · rw [if_pos h4, if_pos (key.1 h4)]
          simp only [TimeText.seconds]
          have h5 : npRound 0 (divmod60 t).1 = (divmod60 t).1 := npRound_floor _
          rw [h5]
          have := abs_le.1 (r1 (divmod60 t).2)
          have h6 := divmod60_eq t
          rw [abs_le]
          constructor <;> linarith [this.1, this.2]
        · rw [if_neg h4, if_neg fun h => h4 (key.2 h)]
          simp only [TimeText.seconds]
          have h5 : npRound 0 (divmod60 (divmod60 t).1).1 = (divmod60 (divmod60 t).1).1 :=
            npRound_floor _
          obtain ⟨m, hm⟩ := divmod60_int ⌊t / 60⌋
          have h6 : npRound 0 (divmod60 (divmod60 t).1).2 = (divmod60 (divmod60 t).1).2 := by
            have e : (divmod60 (divmod60 t).1).2 = m := hm
            rw [e]
            have := npRound_of_int (K := ℝ) 0 m
            simpa using this
          rw [h5, h6]
          have := abs_le.1 (r0 (divmod60 t).2)
          have h7 := divmod60_eq t
          have h8 := divmod60_eq (divmod60 t).1
          rw [abs_le]
          constructor <;> linarith [this.1, this.2]

/-- C94, the short form: nothing for times that are not positive, otherwise the time up to half a
second below 61 minutes and the time without the seconds from 61 minutes on. -/
theorem C94_short (t : ℝ) :
    (t ≤ 0 → frmtTime t true = .zero) ∧
    (0 < t → t < 3660 → |(frmtTime t true).seconds - t| ≤ 1 / 2) ∧
    (3660 ≤ t → (frmtTime t true).seconds ≤ t ∧ t < (frmtTime t true).seconds + 60) := by
  have r0 := fun x : ℝ => abs_npRound_sub_le 0 x
  norm_num at r0
  have key : 60 < (divmod60 t).1 ↔ 3660 ≤ t := by
    have h3 := divmod60_eq t
    obtain ⟨h4, h5⟩ := divmod60_snd t
    constructor
    · intro h
      have h6 : 61 ≤ (divmod60 t).1 := by
        unfold divmod60 at h ⊢
        dsimp only at h ⊢
        have : 60 < ⌊t / 60⌋ := by exact_mod_cast h
        have : 61 ≤ ⌊t / 60⌋ := by omega
        exact_mod_cast this
      linarith
    · intro h
      linarith
  refine ⟨fun h => ?_, fun h0 h1 => ?_, fun h1 => ?_⟩
  · unfold frmtTime
    simp [not_lt.2 h]
  · unfold frmtTime
    simp only [if_true, if_pos h0]
    rw [if_neg fun h => absurd (key.1 h) (not_le.2 h1)]
    simp only [TimeText.seconds]
    have h5 : npRound 0 (divmod60 t).1 = (divmod60 t).1 := npRound_floor _
    rw [h5]
    have := abs_le.1 (r0 (divmod60 t).2)
    have h6 := divmod60_eq t
    rw [abs_le]
    constructor <;> linarith [this.1, this.2]
  · unfold frmtTime
    simp only [if_true, if_pos (by linarith : 0 < t)]
    rw [if_pos (key.2 h1)]
    simp only [TimeText.seconds]
    have h5 : npRound 0 (divmod60 (divmod60 t).1).1 = (divmod60 (divmod60 t).1).1 :=
      npRound_floor _
    obtain ⟨m, hm⟩ := divmod60_int ⌊t / 60⌋
    have h6 : npRound 0 (divmod60 (divmod60 t).1).2 = (divmod60 (divmod60 t).1).2 := by
      have e : (divmod60 (divmod60 t).1).2 = m := hm
      rw [e]
      have := npRound_of_int (K := ℝ) 0 m
      simpa using this
    rw [h5, h6]
    have h7 := divmod60_eq t
    have h8 := divmod60_eq (divmod60 t).1
    obtain ⟨h9, h10⟩ := divmod60_snd t
    constructor <;> linarith

/-- C94, the ranges that hold for every time: no number is beyond the limit of its unit, and only
the seconds, the smaller units and the minutes of the short form can reach it. -/
theorem C94_range_partial (t : ℝ) (short : Bool) : (frmtTime t short).InClosedRange := by
  have hle : ∀ (n : ℕ) (x : ℝ) (z : ℤ), x ≤ z → npRound n x ≤ z := by
    intro n x z h
    have h1 := npRound_mono (n := n) h
    have h2 : npRound n (z : ℝ) = z := by
      have h3 := npRound_of_int (K := ℝ) n (z * 10 ^ n)
      have h4 : (((z * 10 ^ n : ℤ) : ℝ)) / 10 ^ n = z := by
        push_cast
        field_simp
      rwa [h4] at h3
    rwa [h2] at h1
  have h60 : ∀ (n : ℕ) (x : ℝ), x ≤ 60 → npRound n x ≤ 60 := fun n x h => by
    simpa using hle n x 60 (by simpa using h)
  have h1000 : ∀ (n : ℕ) (x : ℝ), x ≤ 1000 → npRound n x ≤ 1000 := fun n x h => by
    simpa using hle n x 1000 (by simpa using h)
  have hfst : ∀ x : ℝ, npRound 0 (divmod60 x).1 = (divmod60 x).1 := fun x => npRound_floor _
  have hmm : npRound 0 (divmod60 (divmod60 t).1).2 < 60 := by
    obtain ⟨m, hm⟩ := divmod60_int ⌊t / 60⌋
    have e : (divmod60 (divmod60 t).1).2 = m := hm
    have h6 : npRound 0 (divmod60 (divmod60 t).1).2 = (divmod60 (divmod60 t).1).2 := by
      rw [e]
      have := npRound_of_int (K := ℝ) 0 m
      simpa using this
    rw [h6]
    exact (divmod60_snd _).2
  have hs := (divmod60_snd t).2.le
  unfold frmtTime
  cases short
  · simp only [Bool.false_eq_true, if_false]
    split_ifs with h1 h2 h3 h4
    · exact h1000 0 _ (by linarith)
    · exact h1000 1 _ (by linarith)
    · exact h60 1 _ h3.le
    · refine ⟨?_, h60 1 _ hs⟩
      rw [hfst]
      exact h4
    · exact ⟨hmm, h60 0 _ hs⟩
  · simp only [if_true]
    split_ifs with h1 h2
    · exact hmm
    · refine ⟨?_, h60 0 _ hs⟩
      rw [hfst]
      exact not_lt.1 h2
    · trivial

/-- C94 fails: 59.96 seconds are printed as `60.0s`, 3599.96 seconds as `59:60.0min` and 0.99996
seconds as `1000.0ms`, because the unit is chosen before rounding. -/
theorem C94_range_fails :
    frmtTime (5996 / 100 : ℝ) false = .secs 60 ∧
    frmtTime (359996 / 100 : ℝ) false = .minutes 59 60 ∧
    frmtTime (99996 / 100000 : ℝ) false = .millis 1000 ∧
    ¬ (TimeText.secs 60).InRange ∧ ¬ (TimeText.minutes 59 60).InRange ∧
    ¬ (TimeText.millis 1000).InRange := by
  have f1 : ⌊(359996 / 100 / 60 : ℝ)⌋ = 59 := by rw [Int.floor_eq_iff]; norm_num
  have f2 : ⌊(5996 / 100 * 10 : ℝ)⌋ = 599 := by rw [Int.floor_eq_iff]; norm_num
  have f3 : ⌊(((359996 / 100 - 60 * 59) * 10 : ℝ))⌋ = 599 := by rw [Int.floor_eq_iff]; norm_num
  have f4 : ⌊(1000 * (99996 / 100000) * 10 : ℝ)⌋ = 9999 := by rw [Int.floor_eq_iff]; norm_num
  have f5 : ⌊(59 : ℝ)⌋ = 59 := by rw [Int.floor_eq_iff]; norm_num
  refine ⟨?_, ?_, ?_, ?_, ?_, ?_⟩
  · simp only [frmtTime, npRound, rint, Bool.false_eq_true, if_false, pow_one, f2]
    norm_num
  · simp only [frmtTime, divmod60, npRound, rint, Bool.false_eq_true, if_false, pow_one, pow_zero,
      mul_one, f1, Int.cast_ofNat, f3, f5]
    norm_num
  · simp only [frmtTime, npRound, rint, Bool.false_eq_true, if_false, pow_one, f4]
    norm_num
  all_goals simp [TimeText.InRange]

/-- C94 fails for the short form: one hour is printed as `60:00`, while 61 minutes are printed with
hours (`01:01h`), because the minutes are compared with `> 60`. -/
theorem C94_short_range_fails :
    frmtTime (3600 : ℝ) true = .shortMinutes 60 0 ∧ frmtTime (3660 : ℝ) true = .shortHours 1 1 ∧
    ¬ (TimeText.shortMinutes 60 0).InRange := by
  have f1 : ⌊(3600 / 60 : ℝ)⌋ = 60 := by rw [Int.floor_eq_iff]; norm_num
  have f2 : ⌊(3660 / 60 : ℝ)⌋ = 61 := by rw [Int.floor_eq_iff]; norm_num
  have f3 : ⌊(61 / 60 : ℝ)⌋ = 1 := by rw [Int.floor_eq_iff]; norm_num
  have f4 : ⌊(60 : ℝ)⌋ = 60 := by rw [Int.floor_eq_iff]; norm_num
  have f5 : ⌊(3600 - 60 * 60 : ℝ)⌋ = 0 := by rw [Int.floor_eq_iff]; norm_num
  have f6 : ⌊(1 : ℝ)⌋ = 1 := by rw [Int.floor_eq_iff]; norm_num
  have f7 : ⌊(61 - 60 * 1 : ℝ)⌋ = 1 := by rw [Int.floor_eq_iff]; norm_num
  refine ⟨?_, ?_, ?_⟩
  · simp only [frmtTime, divmod60, npRound, rint, if_true, pow_zero, mul_one, f1, f4,
      Int.cast_ofNat, f5]
    norm_num
  · simp only [frmtTime, divmod60, npRound, rint, if_true, pow_zero, mul_one, f2,
      Int.cast_ofNat, f3, Int.cast_one, f6]
    norm_num
  · simp [TimeText.InRange]

/-- Two hours, three minutes and 4.4 seconds. -/
example : |(frmtTime (73844 / 10 : ℝ) false).seconds - 73844 / 10| ≤ 1 / 2 := by
  have := C94_long (73844 / 10)
  norm_num at this ⊢
  exact this

end Lattpy
