import Verif.Common
/-!
# The rings that `io_uring_context` shares with the kernel (`exec/linux/io_uring_context.hpp:196-335`)

One producer and one consumer on a ring of `2^k` entries with 32-bit indices that wrap around: for the submission ring the producer is
`__submission_queue::submit` and the consumer the kernel; for the completion ring the producer is the kernel and the consumer
`__completion_queue::complete`. Both sides keep their own index, publish it with a release store and read the other's with an acquire
load. A load may return any stored value that is not older than the one the thread has read before (coherence), so it may be stale. The
completion ring is the case in which `array` stays the identity.

Simplifications: an entry is one value; what `submit` does with tasks that are not put into the ring is C55; the kernel follows the
documented protocol of the interface (it is the other side of the same ring). A task that is completed with `-ECANCELED` instead (`:264-267`)
has written to an entry that is not counted and is written again by the next one.
-/
namespace Verif.IoRing

/-- `__u32` arithmetic is modulo `2^32`. -/
def W : Nat := 4294967296

/-- `a - b` for two `__u32`. -/
def sub32 (a b : Nat) : Nat := (a + W - b) % W
/-- `++a` for a `__u32`. -/
def inc32 (a : Nat) : Nat := (a + 1) % W

/-- The stores to an index, oldest first: the value, and (ghost) how many entries it stands for. -/
structure Hist where
  n : Nat
  val : Nat → Nat
  cnt : Nat → Nat

/-- A store. -/
def Hist.push (h : Hist) (v c : Nat) : Hist :=
  { n := h.n + 1, val := fun i => if i = h.n then v else h.val i, cnt := fun i => if i = h.n then c else h.cnt i }

/-- The ring and the two threads. -/
structure St where
  k : Nat                 -- `sq_entries` or `cq_entries` is `2^k`
  cells : Nat → Nat       -- `__entries_`
  array : Nat → Nat       -- `__array_`
  tail : Hist             -- the shared tail
  head : Hist             -- the shared head
  -- the producer (`submit`, `:236-280`)
  pOn : Bool              -- inside `submit`
  t : Nat                 -- `__tail`
  mx : Nat                -- `__max_submissions`
  ns : Nat                -- `__n_submitted`
  pSeen : Nat             -- ghost: which store to the head it has read
  -- the consumer (`complete`, `:312-328`)
  cOn : Bool              -- inside `complete`
  h : Nat                 -- `__head`
  te : Nat                -- `__tail`
  cSeen : Nat             -- ghost: which store to the tail it has read
  -- ghosts
  inp : List Nat          -- what the producer has written
  out : List Nat          -- what the consumer has read

/-- The kernel has set both indices to the same value `b`. -/
def init (k b : Nat) : St :=
  { k := k, cells := fun _ => 0, array := fun i => i
    tail := { n := 1, val := fun _ => b % W, cnt := fun _ => 0 }
    head := { n := 1, val := fun _ => b % W, cnt := fun _ => 0 }
    pOn := false, t := 0, mx := 0, ns := 0, pSeen := 0
    cOn := false, h := 0, te := 0, cSeen := 0, inp := [], out := [] }

/-- `__mask_`: `ring_mask`, one less than the number of entries (`:224`, `:305`). -/
def mask (s : St) : Nat := 2 ^ s.k - 1

/-- A step of one of the two. -/
inductive Act
  | pBegin (j m : Nat)   -- enters `submit` with `__max_submissions == m`, reading the `j`-th store to the head
  | pWrite (x : Nat)     -- puts `x` into the ring
  | pEnd                 -- publishes the tail and leaves
  | cBegin (j : Nat)     -- enters `complete`, reading the `j`-th store to the tail
  | cRead                -- takes one entry
  | cLoad (j : Nat)      -- reads the tail again
  | cEnd                 -- publishes the head and leaves
  deriving DecidableEq, Repr

/-- `submit` (`:236-243`, `:245-271`, `:272`) and `complete` (`:314-327`). -/
def step (s : St) : Act → Option St
  | .pBegin j m =>
    if s.pOn = false ∧ s.pSeen ≤ j ∧ j < s.head.n then
      let t := s.tail.val (s.tail.n - 1)                       -- `:239`
      let count := sub32 t (s.head.val j)                      -- `:240-241`
      some { s with pOn := true, t := t, mx := min m (2 ^ s.k - count), ns := 0, pSeen := j }   -- `:243-245`
    else none
  | .pWrite x =>
    if s.pOn = true ∧ s.ns < s.mx then                         -- `:247`
      let index := s.t &&& mask s                              -- `:249`
      some { s with
        cells := fun i => if i = index then x else s.cells i       -- `:259`, `:269`
        array := fun i => if i = index then index else s.array i   -- `:270`
        ns := s.ns + 1, t := inc32 s.t                         -- `:271-272`
        inp := s.inp ++ [x] }
    else none
  | .pEnd =>
    if s.pOn = true then some { s with pOn := false, tail := s.tail.push s.t s.inp.length } else none   -- `:276`
  | .cBegin j =>
    if s.cOn = false ∧ s.cSeen ≤ j ∧ j < s.tail.n then
      some { s with cOn := true, h := s.head.val (s.head.n - 1), te := s.tail.val j, cSeen := j }     -- `:314-315`
    else none
  | .cRead =>
    if s.cOn = true ∧ s.h ≠ s.te then                          -- `:317`
      some { s with h := inc32 s.h, out := s.out ++ [s.cells (s.array (s.h &&& mask s))] }             -- `:319-323`
    else none
  | .cLoad j =>
    if s.cOn = true ∧ s.cSeen ≤ j ∧ j < s.tail.n then some { s with te := s.tail.val j, cSeen := j } else none   -- `:325`
  | .cEnd =>
    if s.cOn = true then some { s with cOn := false, head := s.head.push s.h s.out.length } else none   -- `:327`

end Verif.IoRing
