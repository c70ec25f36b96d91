/-!
# The pseudo random numbers of the thread pool — model (C90)

Models `/repo/include/exec/detail/xorshift.hpp` 38-90 (`exec::xorshift`, which the workers of the static thread pool use to
choose from whom to steal, `static_thread_pool.hpp`), function by function, with 64-bit words as bit vectors. Not modelled:
`std::random_device`, whose numbers are arguments here.
-/
namespace Verif.Xorshift

/-- `xorshift.hpp:60` — the state of a default-constructed generator. -/
def defaultSeed : BitVec 64 := 0xc1f651c67c62c6e0#64

/-- `xorshift.hpp:72` `seed(rd)`; the two numbers of the random device, in the order in which they end up. -/
def seed (r1 r2 : BitVec 32) : BitVec 64 := (r1.setWidth 64 <<< 31) ||| r2.setWidth 64

/-- `xorshift.hpp:80` — the number that `operator()` returns. -/
def out (s : BitVec 64) : BitVec 32 := ((s * 0xd989bcacc137dcd5#64) >>> 32).setWidth 32

/-- `xorshift.hpp:81` -/
def step1 (s : BitVec 64) : BitVec 64 := s ^^^ (s >>> 11)

/-- `xorshift.hpp:82` -/
def step2 (s : BitVec 64) : BitVec 64 := s ^^^ (s <<< 31)

/-- `xorshift.hpp:83` -/
def step3 (s : BitVec 64) : BitVec 64 := s ^^^ (s >>> 18)

/-- `xorshift.hpp:78` — the state that `operator()` leaves behind. -/
def next (s : BitVec 64) : BitVec 64 := step3 (step2 (step1 s))

/-- `xorshift.hpp:87` `discard`: the loop. -/
def discard : Nat → BitVec 64 → BitVec 64
  | 0, s => s
  | n + 1, s => discard n (next s)

/-- The number that call number `i` (from 0) returns. -/
def nth (s : BitVec 64) (i : Nat) : BitVec 32 := out (discard i s)

end Verif.Xorshift
