import Verif.Common
/-!
# nvexec's memory resources — model

Models `/repo/include/nvexec/detail/memory.cuh` lines 236-309 (`monotonic_buffer_resource`), 311-425
(`synchronized_pool_resource`) and 427-443 (`resource_storage`: a pool on top of a monotonic buffer on
top of CUDA's allocation functions). Every allocation of a GPU operation (operation states, results,
temporary storage) goes through this pair. Line numbers below refer to that file.

CUDA's allocation function (`upstream->allocate`, lines 256 and 289) may fail, or return any memory that
is not in use, aligned to 256 bytes. Insertions into `std::vector`, `std::set` and `std::multiset` may
throw (`push`, `ins`). Calls are serialised by the pool's mutex (375, 395), so a call is one step.
Addresses are natural numbers; `std::size_t` arithmetic that can wrap (`get_next_space`, `1ull << bin`)
wraps at 2^64.
-/
namespace Verif.NvMem

/-- Modulus of `std::size_t`. -/
def W : Nat := 18446744073709551616

/-- A block of memory. -/
structure Blk where
  ptr : Nat
  size : Nat
  deriving DecidableEq, Repr

/-- Two blocks do not overlap. -/
def Blk.Disj (a b : Blk) : Prop := a.ptr + a.size ≤ b.ptr ∨ b.ptr + b.size ≤ a.ptr

/-- `a` lies inside `b`. -/
def Blk.In (a b : Blk) : Prop := b.ptr ≤ a.ptr ∧ a.ptr + a.size ≤ b.ptr + b.size

instance (a b : Blk) : Decidable (a.Disj b) := by unfold Blk.Disj; infer_instance

/-- `std::bit_width`. -/
def bitWidth (n : Nat) : Nat := if n = 0 then 0 else Nat.log2 n + 1

/-- The `bin` of `block_descriptor(bytes)`, lines 323-332, `min_bin = 3`. -/
def binOf (n : Nat) : Nat := if bitWidth n < 3 then 3 else bitWidth n

/-- The `bytes` of `block_descriptor(bytes)`: `1ull << bit_width(bytes)` (325). The assignment in line 330 is
to the constructor's parameter of the same name and has no effect. A shift by 64 is what the hardware makes
of it (x86 and ARM: modulo 64). -/
def szOf (n : Nat) : Nat := 2 ^ (bitWidth n % 64)

/-- A `block_descriptor` of the pool (315-337). `req` is a ghost: the size the user asked for last. -/
structure Desc where
  ptr : Nat
  bin : Nat
  bytes : Nat
  req : Nat
  deriving DecidableEq, Repr

/-- The memory a descriptor stands for. -/
def Desc.blk (d : Desc) : Blk := ⟨d.ptr, d.bytes⟩

/-- What the user was given: the pointer, and the size that was asked for. -/
def Desc.user (d : Desc) : Blk := ⟨d.ptr, d.req⟩

structure St where
  up : List Blk            -- ghost: memory obtained from upstream and not given back
  blocks : List Blk        -- `allocated_blocks` (247), last first
  cur : Nat                -- `current_ptr` (250)
  space : Nat              -- `space` (249)
  cached : List Desc       -- `cached_blocks` (361), in the multiset's order
  live : List Desc         -- `live_blocks` (362)
  badAlloc : Bool          -- ghost: upstream has failed
  badPush : Bool           -- ghost: `allocated_blocks.push_back` has thrown
  got : List Blk           -- ghost: all memory ever obtained from upstream, latest first
  returned : List Blk      -- ghost: memory given back to upstream, latest first
  dead : Bool              -- destroyed
  deriving DecidableEq, Repr

/-- The constructors, 252-260, 364-368 and 434-437. `n0` is `512 * 1024` there, `a` the memory upstream
returned. -/
def init (n0 a : Nat) : St :=
  { up := [⟨a, max n0 2⟩], blocks := [⟨a, max n0 2⟩], cur := a, space := max n0 2, cached := [], live := []
    badAlloc := false, badPush := false, got := [⟨a, max n0 2⟩], returned := [], dead := false }

/-- `std::align(256, bytes, ptr, space)`. -/
def align256 (bytes ptr space : Nat) : Option (Nat × Nat) :=
  let diff := (256 - ptr % 256) % 256
  if bytes ≤ space ∧ diff ≤ space - bytes then some (ptr + diff, space - diff) else none

/-- `get_next_space`, 275-279. -/
def nextSpace (blocks : List Blk) : Nat :=
  let last := (blocks.headD ⟨0, 0⟩).size
  (last + last / 2) % W

/-- Upstream may return `a` for `n` bytes. -/
def fresh (s : St) (a n : Nat) : Bool :=
  decide (0 < a) && decide (a % 256 = 0) && s.up.all (fun b => decide (Blk.Disj ⟨a, n⟩ b))

/-- `monotonic_buffer_resource::do_allocate`, 281-297, called with alignment 256 (388). `r` is upstream's
answer, if it is asked; `push` — `push_back` (290) does not throw. The result is the pointer, `none` if
the call throws. -/
def monoAlloc (s : St) (bytes : Nat) (r : Option Nat) (push : Bool) : Option (St × Option Nat) :=
  match align256 bytes s.cur s.space with
  | some (p, sp) => if r = none then some ({ s with cur := p + bytes, space := sp - bytes }, some p) else none
  | none =>
    let sp := max bytes (nextSpace s.blocks)           -- 288
    match r with
    | none => some ({ s with space := sp, badAlloc := true }, none)      -- 289 throws
    | some a =>
      if fresh s a sp then
        if push then
          some ({ s with blocks := ⟨a, sp⟩ :: s.blocks, up := ⟨a, sp⟩ :: s.up, got := ⟨a, sp⟩ :: s.got
                         cur := a + bytes, space := sp - bytes }, some a)
        else some ({ s with up := ⟨a, sp⟩ :: s.up, got := ⟨a, sp⟩ :: s.got, cur := a, space := sp, badPush := true }, none)
      else none

/-- `multiset::insert`: after the elements that are not larger. -/
def insertSorted (d : Desc) : List Desc → List Desc
  | [] => [d]
  | x :: xs => if d.bytes < x.bytes then d :: x :: xs else x :: insertSorted d xs

inductive Act
  | alloc (bytes : Nat) (r : Option Nat) (push ins : Bool)   -- `do_allocate(bytes, _)`
  | dealloc (p : Nat) (ins : Bool)                           -- `do_deallocate(p, _, _)`
  | destroy                                                  -- the destructors
  deriving DecidableEq, Repr

/-- `synchronized_pool_resource::do_allocate` (370-391), `do_deallocate` (393-406) and the destructors
(414-424, then 262-268). -/
def step (s : St) : Act → Option St
  | .alloc bytes r push ins =>
    if s.dead || decide (W ≤ bytes) then none else
    let bin := binOf bytes
    let sz := szOf bytes
    match s.cached.find? (fun d => decide (sz ≤ d.bytes)) with     -- `lower_bound`, 378
    | some d =>
      if d.bin = bin then                                          -- 380-386
        if r = none then
          if ins then
            some { s with live := { d with req := bytes } :: s.live
                          cached := s.cached.eraseP (fun d => decide (sz ≤ d.bytes)) }
          else some s
        else none
      else
        match monoAlloc s sz r push with                           -- 388-390
        | none => none
        | some (s', none) => some s'
        | some (s', some p) => if ins then some { s' with live := ⟨p, bin, sz, bytes⟩ :: s'.live } else some s'
    | none =>
      match monoAlloc s sz r push with
      | none => none
      | some (s', none) => some s'
      | some (s', some p) => if ins then some { s' with live := ⟨p, bin, sz, bytes⟩ :: s'.live } else some s'
  | .dealloc p ins =>
    if s.dead then none else
    match s.live.find? (fun d => decide (d.ptr = p)) with          -- 398
    | none => some s
    | some d => some { s with live := s.live.eraseP (fun d => decide (d.ptr = p))
                              cached := if ins then insertSorted d s.cached else s.cached }
  | .destroy =>
    if s.dead = false ∧ s.live = [] then                           -- 416
      some { s with cached := [], returned := s.blocks ++ s.returned, dead := true
                    up := s.up.filter (fun b => !s.blocks.contains b) }
    else none

end Verif.NvMem
