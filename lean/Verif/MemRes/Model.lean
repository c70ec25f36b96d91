import Verif.Common
/-!
# `__memory_resource_adaptor` — model

Models `/repo/include/exec/__memory_resource_adaptor.hpp` lines 136-251: the `memory_resource` that
`exec::function` builds on top of an arbitrary allocator of bytes. The allocator underneath
(`__traits::allocate`) may return any address it likes, without any alignment, as long as the buffer is
not part of a buffer that is still allocated and lies inside the address space; the objects that users
store in their blocks are arbitrary bytes written at arbitrary times.

Memory is a map from addresses to bytes; addresses and sizes are 64-bit (`W = 2^64`) and pointers are
stored as 8 bytes, little endian (`std::memcpy`, lines 192 and 209).
-/
namespace Verif.MemRes

/-- Size of the address space, and modulus of `std::size_t`. -/
def W : Nat := 18446744073709551616

/-- `std::memcpy(q, &v, sizeof(void*))` (line 192). -/
def writePtr (mem : Nat → Nat) (q v : Nat) : Nat → Nat :=
  fun a => if a = q then v % 256
    else if a = q + 1 then v / 256 % 256
    else if a = q + 2 then v / 65536 % 256
    else if a = q + 3 then v / 16777216 % 256
    else if a = q + 4 then v / 4294967296 % 256
    else if a = q + 5 then v / 1099511627776 % 256
    else if a = q + 6 then v / 281474976710656 % 256
    else if a = q + 7 then v / 72057594037927936 % 256
    else mem a

/-- `std::memcpy(&v, q, sizeof(void*))` (line 209). -/
def readPtr (mem : Nat → Nat) (q : Nat) : Nat :=
  mem q + mem (q + 1) * 256 + mem (q + 2) * 65536 + mem (q + 3) * 16777216 +
  mem (q + 4) * 4294967296 + mem (q + 5) * 1099511627776 + mem (q + 6) * 281474976710656 +
  mem (q + 7) * 72057594037927936

/-- `std::align(align, bytes, ptr, space)`: the adjusted pointer and the remaining space, or nothing. -/
def stdAlign (align bytes ptr space : Nat) : Option (Nat × Nat) :=
  let diff := (align - ptr % align) % align
  if bytes ≤ space ∧ diff ≤ space - bytes then some (ptr + diff, space - diff) else none

/-- Lines 174 and 211: the size asked from the allocator underneath, in `std::size_t` arithmetic. -/
def upstream (bytes align : Nat) : Nat := (bytes + align - 1 + 8) % W

/-- What `allocate` was called with, and the (ghost) address that the allocator underneath returned. -/
structure Blk where
  bytes : Nat
  align : Nat
  base : Nat
  deriving DecidableEq, Repr

structure St where
  mem : Nat → Nat
  up : Nat → Option Nat            -- allocated buffers of the allocator underneath: address ↦ size
  blk : Nat → Option Blk           -- blocks given out by the adaptor: address ↦ request
  ub : Bool                        -- null dereferenced, buffer overrun, or a wrong deallocation

def init : St := { mem := fun _ => 0, up := fun _ => none, blk := fun _ => none, ub := false }

inductive Act
  | alloc (bytes k base : Nat)     -- `allocate(bytes, 2^k)`; the allocator underneath returns `base`
  | dealloc (p : Nat)              -- `deallocate(p, bytes, align)` of a block given out
  | write (p off v : Nat)          -- the user of block `p` writes a byte into it
  deriving DecidableEq, Repr

/-- The contract of the allocator underneath: a new buffer is inside the address space, not null and
    does not overlap an allocated one. -/
def Fresh (s : St) (base n : Nat) : Prop :=
  0 < base ∧ base + n ≤ W ∧ ∀ b m, s.up b = some m → base + n ≤ b ∨ b + m ≤ base

open Classical in
/-- Lines 158-199 (`allocate`), 201-222 (`deallocate`). -/
noncomputable def step (s : St) : Act → Option St
  | .alloc bytes k base =>
      if bytes < W ∧ 2 ^ k < W ∧ Fresh s base (upstream bytes (2 ^ k)) then
        let n := upstream bytes (2 ^ k)
        match stdAlign (2 ^ k) bytes base n with
        | none => some { s with up := upd s.up base (some n), ub := true }       -- null pointer
        | some (p, space) =>
            some { mem := writePtr s.mem (p + bytes) base,
                   up := upd s.up base (some n),
                   blk := upd s.blk p (some ⟨bytes, 2 ^ k, base⟩),
                   ub := s.ub || decide (space < bytes + 8) }                  -- overrun
      else none
  | .dealloc p =>
      match s.blk p with
      | none => none
      | some b =>
          let addr := readPtr s.mem (p + b.bytes)
          let n := upstream b.bytes b.align
          some { s with blk := upd s.blk p none,
                        up := upd s.up addr none,
                        ub := s.ub || decide (s.up addr ≠ some n) }
  | .write p off v =>
      match s.blk p with
      | none => none
      | some b => if off < b.bytes ∧ v < 256 then some { s with mem := upd s.mem (p + off) v }
                  else none

abbrev Reachable (s : St) : Prop := Reach init step s

end Verif.MemRes
