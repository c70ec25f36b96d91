/-!
# When a timed operation is due — model (C89)

Models the arithmetic by which the timed schedulers turn a duration or a time point into the moment at which the operation
may complete: `/repo/include/exec/timed_scheduler.hpp` 228-246 (`schedule_after` for a scheduler with `schedule_at` only) and
299-321 (`schedule_at` for a scheduler with `schedule_after` only); `/repo/include/exec/timed_thread_scheduler.hpp` 175-182;
`/repo/include/exec/linux/io_uring_context.hpp` 1096-1190 (`__schedule_after_operation`, both the `IORING_OP_TIMEOUT` and the
`timerfd` version) and 1323-1341 (`__scheduler`); `/repo/include/exec/windows/filetime_clock.hpp` 26-140 and
`/repo/include/exec/windows/windows_thread_pool.hpp` 750-760, 826-838.

Times are integers: nanoseconds on one clock (Linux) or ticks of 100 ns (Windows). Signed 64-bit arithmetic that overflows is
undefined behaviour, here `none`; unsigned arithmetic is modulo 2^64. What the operating system does with the numbers it is
given is taken from its documentation (`Timer`, `kernelTimeout`, `fileTimeReady`). "Ready at t" means: the operation may be
completed at t and not before; how much later the thread gets to it is not modelled.
Simplification: the clock does not jump, and the clock of the caller is the clock of the scheduler.
-/
namespace Verif.Deadline

/-- Signed 64-bit arithmetic: the mathematical result, or undefined behaviour. -/
def i64 (x : Int) : Option Int := if -(2 ^ 63) ≤ x ∧ x < 2 ^ 63 then some x else none

/-! ## Specification -/

/-- `schedule_after(sched, d)` started at `s` should be ready at this time. -/
def dueAfter (s d : Int) : Int := s + max d 0

/-- `schedule_at(sched, tp)` started at `s` should be ready at this time. -/
def dueAt (s tp : Int) : Int := max s tp

/-! ## A scheduler with a native `schedule_at`: the timed thread -/

/-- `timed_thread_scheduler.hpp:177` — an operation in the heap is completed when `time_point_ <= now`; it is in the heap from
its start on. -/
def threadAt (s tp : Int) : Int := if tp ≤ s then s else tp

/-- `timed_scheduler.hpp:244` — the fallback, evaluated when the operation is started: `schedule_at(now() + d)`. -/
def threadAfter (s d : Int) : Option Int := do
  let tp ← i64 (s + d)
  return threadAt s tp

/-! ## A scheduler with a native `schedule_after` only -/

/-- `timed_scheduler.hpp:319` — the fallback: `now()` is read at `s`, the operation of `schedule_after(tp - now())` is started
at `s'`. -/
def fallbackAt (s s' tp : Int) : Option Int := do
  let d ← i64 (tp - s)
  return dueAfter s' d

/-! ## io_uring -/

/-- `__utility.hpp:206` `__clamp`. -/
def clamp (v lo hi : Int) : Int := if v < lo then lo else if hi < v then hi else v

/-- `io_uring_context.hpp:1108` `__duration_to_timespec` (duration_cast truncates towards zero). -/
def toTimespec (dur : Int) : Int × Int :=
  let secs := dur.tdiv 1000000000
  let dur' := dur - secs * 1000000000
  (max secs 0, clamp dur' 0 999999999)

/-- The kernel's `IORING_OP_TIMEOUT` with a relative timespec, submitted at `s`; `none`: it fails with `EINVAL`. -/
def kernelTimeout (s : Int) (ts : Int × Int) : Option Int :=
  if 0 ≤ ts.1 ∧ 0 ≤ ts.2 ∧ ts.2 < 1000000000 then some (s + ts.1 * 1000000000 + ts.2) else none

/-- `io_uring_context.hpp:1143`, `:1180` — an operation of `schedule_after(d)` started at `s`. -/
def uringAfter (s d : Int) : Option Int := kernelTimeout s (toTimespec d)

/-- `io_uring_context.hpp:1336` — `schedule_at(tp)` called at time `c`, its operation started at `s`. -/
def uringAt (c s tp : Int) : Option Int := do
  let d ← i64 (tp - c)
  uringAfter s d

/-- What `timerfd_settime` with `TFD_TIMER_ABSTIME` makes of a time. -/
inductive Timer
  | invalid
  | disarmed
  | armed (t : Int)
  deriving DecidableEq, Repr

/-- The kernel: negative seconds are invalid, zero disarms the timer. -/
def timerSet (sec nsec : Int) : Timer :=
  if sec < 0 ∨ nsec < 0 ∨ 1000000000 ≤ nsec then .invalid
  else if sec = 0 ∧ nsec = 0 then .disarmed else .armed (sec * 1000000000 + nsec)

/-- `io_uring_context.hpp:1124` `__duration_to_timespec` (version with a timerfd), called by `connect` when the clock shows
`sec` seconds and `nsec` nanoseconds, and `timerfd_settime` with the result (`:1155`). -/
def timerfdSet (sec nsec d : Int) : Option Timer := do
  let ns ← i64 (nsec + d)
  let q := ns.tdiv 1000000000
  let rem := clamp (ns - q * 1000000000) 0 999999999
  let tsec ← i64 (sec + q)
  return timerSet tsec rem

/-- The operation, connected when the clock showed `sec`, `nsec`, and started at `s`; `none`: never. -/
def timerfdReady (s : Int) : Timer → Option Int
  | .armed t => some (max s t)
  | _ => none

/-! ## Windows -/

/-- `filetime_clock.hpp:72` `time_point::operator+=` — `d` in nanoseconds; the cast truncates towards zero, the sum wraps. -/
def ftAdd (ticks d : Int) : Int := (ticks + d.tdiv 100) % 2 ^ 64

/-- `filetime_clock.hpp:79` `time_point::operator-=`. -/
def ftSub (ticks d : Int) : Int := (ticks - d.tdiv 100) % 2 ^ 64

/-- `filetime_clock.hpp:85` `operator-(time_point, time_point)`, in ticks: the conversions to a signed number wrap, the
subtraction must not overflow. -/
def toS64 (x : Int) : Int := if x < 2 ^ 63 then x else x - 2 ^ 64

@[inherit_doc toS64]
def ftDiff (a b : Int) : Option Int := i64 (toS64 a - toS64 b)

/-- `SetThreadpoolTimer` called at `s` (ticks) with a FILETIME of 64 bits: "if the value is negative it is a relative time".
-/
def fileTimeReady (s ft : Int) : Int :=
  if 0 ≤ toS64 ft then max s (toS64 ft) else s - toS64 ft

/-- `windows_thread_pool.hpp:826` — `schedule_after(d)` started at tick `s`; `d` in nanoseconds. -/
def winAfter (s d : Int) : Int := fileTimeReady s (ftAdd s d)

/-- `windows_thread_pool.hpp:750` — `schedule_at(tp)` started at tick `s`. -/
def winAt (s tp : Int) : Int := fileTimeReady s tp

end Verif.Deadline
