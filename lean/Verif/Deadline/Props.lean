import Verif.Deadline.Model
/-!
# When a timed operation is due: property C89
-/
namespace Verif.Deadline

/-! ## The timed thread and the fallbacks -/

/-- **C89**, timed thread: `schedule_at` is ready exactly when it should be. -/
theorem C89_thread_at (s tp : Int) : threadAt s tp = dueAt s tp := by
  unfold threadAt dueAt; omega

/-- **C89**, `schedule_after` on a scheduler with `schedule_at` only (partial: if adding the duration to the current time does
not overflow): ready exactly when it should be. -/
theorem C89_thread_after_partial (s d : Int) (h1 : -(2 ^ 63) ≤ s + d) (h2 : s + d < 2 ^ 63) :
    threadAfter s d = some (dueAfter s d) := by
  simp only [threadAfter, i64, if_pos (And.intro h1 h2), dueAfter, threadAt]
  simp only [bind, Option.bind, pure]
  congr 1; omega

example : threadAfter 1000 (-5) = some 1000 ∧ threadAfter 1000 5 = some 1005 := by decide

/-- **C89** is false without the proviso: a duration that the caller may well give, the largest one, is undefined behaviour at
every time after the clock's epoch. -/
theorem C89_thread_after_violated {s : Int} (hs : 0 < s) : threadAfter s (2 ^ 63 - 1) = none := by
  have : ¬(-(2 ^ 63) ≤ s + (2 ^ 63 - 1) ∧ s + (2 ^ 63 - 1) < (2 : Int) ^ 63) := by omega
  simp only [threadAfter, i64, if_neg this]; rfl

/-- **C89**, `schedule_at` on a scheduler with `schedule_after` only (partial: no overflow): never early, and late by no more
than passes between reading the clock and starting the inner operation. -/
theorem C89_fallback_at_partial {s s' tp : Int} (hs : s ≤ s') (h1 : -(2 ^ 63) ≤ tp - s) (h2 : tp - s < 2 ^ 63) :
    ∃ r, fallbackAt s s' tp = some r ∧ dueAt s' tp ≤ r ∧ r ≤ dueAt s tp + (s' - s) := by
  refine ⟨dueAfter s' (tp - s), ?_, ?_, ?_⟩
  · simp only [fallbackAt, i64, if_pos (And.intro h1 h2)]; rfl
  · simp only [dueAfter, dueAt]; omega
  · simp only [dueAfter, dueAt]; omega

example : fallbackAt 1000 1002 1500 = some 1502 ∧ dueAt 1000 1500 = 1500 := by decide

/-- **C89** is false without the proviso: `schedule_at(time_point::min())` is undefined behaviour. -/
theorem C89_fallback_at_violated {s s' : Int} (hs : 0 < s) : fallbackAt s s' (-(2 ^ 63)) = none := by
  have : ¬(-(2 ^ 63) ≤ -(2 ^ 63) - s ∧ -(2 ^ 63) - s < (2 : Int) ^ 63) := by omega
  simp only [fallbackAt, i64, if_neg this]; rfl

/-! ## io_uring -/

theorem tdiv_bounds (d : Int) : let q := d.tdiv 1000000000
    (0 ≤ d → 0 ≤ q ∧ q * 1000000000 ≤ d ∧ d - q * 1000000000 < 1000000000) ∧
    (d ≤ 0 → q ≤ 0 ∧ d ≤ q * 1000000000 ∧ q * 1000000000 - d < 1000000000) := by
  dsimp only
  constructor
  · intro h
    rw [Int.tdiv_eq_ediv_of_nonneg h]
    omega
  · intro h
    have h2 : d.tdiv 1000000000 = -((-d) / 1000000000) := by
      rw [← Int.tdiv_eq_ediv_of_nonneg (by omega : 0 ≤ -d), Int.neg_tdiv]; omega
    rw [h2]; omega

/-- **C89**, io_uring: the timespec denotes the duration, 0 if it is negative, and is one the kernel accepts. -/
theorem C89_timespec (d : Int) :
    (toTimespec d).1 * 1000000000 + (toTimespec d).2 = max d 0 ∧ 0 ≤ (toTimespec d).1 ∧
      0 ≤ (toTimespec d).2 ∧ (toTimespec d).2 < 1000000000 := by
  have h := tdiv_bounds d
  dsimp only at h
  simp only [toTimespec, clamp]
  generalize d.tdiv 1000000000 = q at h
  rcases Int.le_total 0 d with hd | hd
  · have := h.1 hd; omega
  · have := h.2 hd; omega

/-- **C89**, io_uring: `schedule_after` is accepted by the kernel and ready exactly when it should be, for every duration. -/
theorem C89_uring_after (s d : Int) : uringAfter s d = some (dueAfter s d) := by
  obtain ⟨h1, h2, h3, h4⟩ := C89_timespec d
  simp only [uringAfter, kernelTimeout, h2, h3, h4, and_self, if_true, dueAfter]
  congr 1; omega

/-- **C89**, io_uring: `schedule_at` is never early (partial: no overflow)… -/
theorem C89_uring_at_not_early_partial {c s tp : Int} (hc : c ≤ s) (h1 : -(2 ^ 63) ≤ tp - c) (h2 : tp - c < 2 ^ 63) :
    ∃ r, uringAt c s tp = some r ∧ dueAt s tp ≤ r := by
  refine ⟨dueAfter s (tp - c), ?_, ?_⟩
  · simp only [uringAt, i64, if_pos (And.intro h1 h2)]; exact C89_uring_after s _
  · simp only [dueAfter, dueAt]; omega

/-- … and ready when it should be if it is started at the moment when `schedule_at` is called. -/
theorem C89_uring_at_partial {s tp : Int} (h1 : -(2 ^ 63) ≤ tp - s) (h2 : tp - s < 2 ^ 63) :
    uringAt s s tp = some (dueAt s tp) := by
  simp only [uringAt, i64, if_pos (And.intro h1 h2)]
  refine (C89_uring_after s _).trans ?_
  simp only [dueAfter, dueAt]; congr 1; omega

/-- **C89** is false of io_uring's `schedule_at`: the sender is late by all the time that passes between the call of
`schedule_at` and the start, if the time point was in the future by then. -/
theorem C89_uring_at_late {c s tp : Int} (hc : c ≤ s) (ht : s ≤ tp) (h2 : tp - c < 2 ^ 63) :
    uringAt c s tp = some (dueAt s tp + (s - c)) := by
  have h1 : -(2 ^ 63) ≤ tp - c := by omega
  simp only [uringAt, i64, if_pos (And.intro h1 h2)]
  refine (C89_uring_after s _).trans ?_
  simp only [dueAfter, dueAt]; congr 1; omega

/-- … for example one hour after the call for a time point two hours after it. -/
theorem C89_uring_at_violated : ∃ c s tp r, c ≤ s ∧ uringAt c s tp = some r ∧ r = dueAt s tp + 3600000000000 :=
  ⟨0, 3600000000000, 7200000000000, 10800000000000, by decide, by decide, by decide⟩

/-- **C89**, io_uring with a timerfd (partial: durations that are not negative and do not overflow): the timer is armed for the
duration after `connect`. -/
theorem C89_timerfd_partial {sec nsec d : Int} (hs : 0 < sec) (hn : 0 ≤ nsec) (hn2 : nsec < 1000000000) (hd : 0 ≤ d)
    (h1 : nsec + d < 2 ^ 63) (h2 : sec * 1000000000 + nsec + d < 2 ^ 63) :
    timerfdSet sec nsec d = some (.armed (sec * 1000000000 + nsec + d)) := by
  have h := (tdiv_bounds (nsec + d)).1 (by omega)
  have g1 : -(2 ^ 63) ≤ nsec + d := by omega
  simp only [timerfdSet, i64, if_pos (And.intro g1 h1), bind, Option.bind]
  generalize (nsec + d).tdiv 1000000000 = q at h
  have g2 : -(2 ^ 63) ≤ sec + q ∧ sec + q < 2 ^ 63 := by omega
  simp only [if_pos g2, pure, timerSet, clamp]
  have a1 : ¬(nsec + d - q * 1000000000 < 0) := by omega
  have a2 : ¬(999999999 < nsec + d - q * 1000000000) := by omega
  have a3 : ¬(sec + q < 0 ∨ nsec + d - q * 1000000000 < 0 ∨ 1000000000 ≤ nsec + d - q * 1000000000) := by omega
  have a4 : ¬(sec + q = 0 ∧ nsec + d - q * 1000000000 = 0) := by omega
  simp only [if_neg a1, if_neg a2, if_neg a3, if_neg a4]
  congr 2; omega

example : timerfdSet 100 999999999 2 = some (.armed 101000000001) := by decide

/-- … and for a negative duration that does not reach back to the epoch it is ready at once. -/
theorem C89_timerfd_past_partial {s sec nsec d : Int} (hn : 0 ≤ nsec) (hn2 : nsec < 1000000000) (hsec : sec < 2 ^ 62)
    (hc : sec * 1000000000 + nsec ≤ s) (hd : d < 0) (h1 : 1000000000 ≤ sec * 1000000000 + nsec + d)
    (h2 : -(2 ^ 63) ≤ d) :
    ∃ t, timerfdSet sec nsec d = some t ∧ timerfdReady s t = some (dueAfter s d) := by
  have h := tdiv_bounds (nsec + d)
  dsimp only at h
  have g1 : -(2 ^ 63) ≤ nsec + d ∧ nsec + d < 2 ^ 63 := by omega
  simp only [timerfdSet, i64, if_pos g1, bind, Option.bind]
  generalize (nsec + d).tdiv 1000000000 = q at h
  have hq : 1 ≤ sec + q ∧ q ≤ 0 := by
    rcases Int.le_total 0 (nsec + d) with h0 | h0
    · have := h.1 h0; omega
    · have := h.2 h0; omega
  have hr : 0 ≤ clamp (nsec + d - q * 1000000000) 0 999999999 ∧
      clamp (nsec + d - q * 1000000000) 0 999999999 < 1000000000 ∧
      (sec + q) * 1000000000 + clamp (nsec + d - q * 1000000000) 0 999999999 ≤ sec * 1000000000 + nsec := by
    simp only [clamp]
    rcases Int.le_total 0 (nsec + d) with h0 | h0
    · have := h.1 h0; omega
    · have := h.2 h0; omega
  generalize clamp (nsec + d - q * 1000000000) 0 999999999 = r at hr
  have g2 : -(2 ^ 63) ≤ sec + q ∧ sec + q < 2 ^ 63 := by omega
  have a3 : ¬(sec + q < 0 ∨ r < 0 ∨ 1000000000 ≤ r) := by omega
  have a4 : ¬(sec + q = 0 ∧ r = 0) := by omega
  simp only [if_pos g2, pure, timerSet, if_neg a3, if_neg a4]
  refine ⟨_, rfl, ?_⟩
  simp only [timerfdReady, dueAfter]; congr 1; omega

example : timerfdSet 100 5 (-2500000000) = some (.armed 98000000000) := by decide

/-- **C89** is false of the timerfd version: (1) the duration counts from `connect`, so that an operation started later is
early; -/
theorem C89_timerfd_early : ∃ s sec nsec d t r, sec * 1000000000 + nsec ≤ s ∧ timerfdSet sec nsec d = some t ∧
    timerfdReady s t = some r ∧ r < dueAfter s d :=
  ⟨105000000000, 100, 0, 5000000000, .armed 105000000000, 105000000000, by decide, by decide, by decide, by decide⟩

/-- (2) minus the current time as duration disarms the timer: the operation never completes; -/
theorem C89_timerfd_never {sec nsec : Int} (hs : 0 ≤ sec) (hn : 0 ≤ nsec) (hn2 : nsec < 1000000000)
    (h : sec * 1000000000 + nsec < 2 ^ 63) :
    timerfdSet sec nsec (-(sec * 1000000000 + nsec)) = some .disarmed := by
  have e : nsec + -(sec * 1000000000 + nsec) = -(sec * 1000000000) := by omega
  have t : (-(sec * 1000000000)).tdiv 1000000000 = -sec := by
    have := (tdiv_bounds (-(sec * 1000000000))).2 (by omega)
    omega
  have g : -(2 ^ 63) ≤ -(sec * 1000000000) ∧ -(sec * 1000000000) < (2 : Int) ^ 63 := by omega
  have g2 : -(2 ^ 63) ≤ (0 : Int) ∧ (0 : Int) < 2 ^ 63 := by decide
  have z : sec + -sec = 0 := by omega
  have z2 : -(sec * 1000000000) - -sec * 1000000000 = 0 := by omega
  simp only [timerfdSet, e, i64, if_pos g, bind, Option.bind, t, z, z2, if_pos g2]
  decide

/-- (3) a smaller duration is refused by the kernel: `connect` throws. -/
theorem C89_timerfd_invalid {sec nsec d : Int} (hs : 0 ≤ sec) (hs2 : sec < 2 ^ 62) (hn : 0 ≤ nsec) (hn2 : nsec < 1000000000)
    (hd : sec * 1000000000 + nsec + d ≤ -1000000000) (h2 : -(2 ^ 63) ≤ d) :
    timerfdSet sec nsec d = some .invalid := by
  have h := (tdiv_bounds (nsec + d)).2 (by omega)
  have g1 : -(2 ^ 63) ≤ nsec + d ∧ nsec + d < 2 ^ 63 := by omega
  simp only [timerfdSet, i64, if_pos g1, bind, Option.bind]
  generalize (nsec + d).tdiv 1000000000 = q at h
  have g2 : -(2 ^ 63) ≤ sec + q ∧ sec + q < 2 ^ 63 := by omega
  have a : sec + q < 0 := by omega
  simp only [if_pos g2, pure, timerSet, if_pos (Or.inl a)]

/-! ## Windows -/

theorem mod_id {x : Int} (h0 : 0 ≤ x) (h1 : x < 2 ^ 64) : x % 2 ^ 64 = x := Int.emod_eq_of_lt h0 h1

/-- **C89**, Windows: `schedule_at` is ready when it should be, for every time point up to `time_point::max()`. -/
theorem C89_win_at_partial {s tp : Int} (h0 : 0 ≤ tp) (h1 : tp < 2 ^ 63) : winAt s tp = dueAt s tp := by
  have : toS64 tp = tp := by simp only [toS64]; omega
  simp only [winAt, fileTimeReady, this, if_pos h0, dueAt]

/-- **C89**, Windows: `schedule_after` of a whole number of ticks is ready when it should be (partial: if the due time lies
between the epoch and `time_point::max()`). -/
theorem C89_win_after_partial {s k : Int} (h0 : 0 ≤ s + k) (h1 : s + k < 2 ^ 63) :
    winAfter s (k * 100) = dueAfter s k := by
  have e : (k * 100).tdiv 100 = k := Int.mul_tdiv_cancel k (by decide)
  have m : (s + k) % 2 ^ 64 = s + k := mod_id h0 (by omega)
  have : toS64 (s + k) = s + k := by simp only [toS64]; omega
  simp only [winAfter, ftAdd, e, m, fileTimeReady, this, if_pos h0, dueAfter]
  omega

/-- … and of any other duration less than one tick early. -/
theorem C89_win_after_rounding_partial {s d : Int} (hd : 0 ≤ d) (hs : 0 ≤ s) (h1 : s + d < 2 ^ 63) :
    s * 100 + d - 100 < winAfter s d * 100 ∧ winAfter s d * 100 ≤ s * 100 + d := by
  have e : d.tdiv 100 = d / 100 := Int.tdiv_eq_ediv_of_nonneg hd
  have := C89_win_after_partial (s := s) (k := d / 100) (by omega) (by omega)
  have e2 : winAfter s d = winAfter s (d / 100 * 100) := by
    simp only [winAfter, ftAdd, e]
    rw [show (d / 100 * 100).tdiv 100 = d / 100 from Int.mul_tdiv_cancel _ (by decide)]
  rw [e2, this]; simp only [dueAfter]; omega

/-- **C89** is false on Windows: (1) a duration that is not a whole number of ticks is rounded down, so that the operation is
early; -/
theorem C89_win_early : ∃ s d, 0 ≤ s ∧ 0 < d ∧ winAfter s d * 100 < s * 100 + d := ⟨1000, 150, by decide, by decide, by decide⟩

/-- (2) a negative duration that reaches back behind the epoch is taken for a relative time: the operation waits for as long as
it reaches back. -/
theorem C89_win_negative {s k : Int} (h0 : s + k < 0) (h1 : -(2 ^ 63) ≤ s + k) :
    winAfter s (k * 100) = s + -(s + k) := by
  have e : (k * 100).tdiv 100 = k := Int.mul_tdiv_cancel k (by decide)
  have m : (s + k) % 2 ^ 64 = s + k + 2 ^ 64 := by
    rw [← Int.add_emod_right]; exact mod_id (by omega) (by omega)
  have : toS64 (s + k + 2 ^ 64) = s + k := by simp only [toS64]; omega
  have n : ¬(0 ≤ s + k) := by omega
  simp only [winAfter, ftAdd, e, m, fileTimeReady, this, if_neg n]; omega

/-- **C89**: the arithmetic of `filetime_clock::time_point` is that of the integers in the range of its clock: adding and
subtracting a duration are inverse to each other, differences are right. -/
theorem C89_filetime_partial {t k : Int} (h0 : 0 ≤ t) (h1 : t < 2 ^ 63) (h2 : 0 ≤ t + k) (h3 : t + k < 2 ^ 63) :
    ftAdd t (k * 100) = t + k ∧ ftSub (ftAdd t (k * 100)) (k * 100) = t ∧ ftDiff (ftAdd t (k * 100)) t = some k := by
  have e : (k * 100).tdiv 100 = k := Int.mul_tdiv_cancel k (by decide)
  have a : ftAdd t (k * 100) = t + k := by simp only [ftAdd, e]; exact mod_id h2 (by omega)
  refine ⟨a, ?_, ?_⟩
  · rw [a]; simp only [ftSub, e]
    rw [show t + k - k = t by omega]; exact mod_id h0 (by omega)
  · rw [a]
    have e1 : toS64 (t + k) = t + k := by simp only [toS64]; omega
    have e2 : toS64 t = t := by simp only [toS64]; omega
    have g : -(2 ^ 63) ≤ k ∧ k < (2 : Int) ^ 63 := by omega
    simp only [ftDiff, e1, e2, show t + k - t = k by omega, i64, if_pos g]

example : winAfter 132000000000000000 50000000 = 132000000000500000 := by decide
example : ftDiff 7 9 = some (-2) := by decide

end Verif.Deadline
