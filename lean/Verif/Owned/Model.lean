import Verif.Common
/-!
# Owning handles of operating-system resources (`exec/linux/detail/safe_file_descriptor.hpp`,
# `exec/linux/detail/memory_mapped_region.hpp`) and the set-up of `io_uring_context` (`exec/linux/io_uring_context.hpp:63-150`)

Any number of handles, used by any program of constructions, moves, assignments, resets and destructions. The operating system hands
out a descriptor, or a mapping, only while it is not handed out already; a number may be handed out again once it was released.

Simplifications: addresses and sizes are natural numbers; `::close` and `::munmap` do not fail (the code ignores their result); a handle
is used by one thread.
-/
namespace Verif.Owned

/-- What the operating system hands out: a file descriptor, or `size` bytes mapped at `ptr`. -/
inductive Res
  | fd (n : Int)
  | map (ptr size : Nat)
  deriving DecidableEq, Repr

/-- What the operating system is called for. -/
inductive Ev
  | acq (r : Res)   -- `::open`, `::eventfd`, `io_uring_setup`, `::mmap` succeeded
  | rel (r : Res)   -- `::close`, `::munmap`
  deriving DecidableEq, Repr

/-- `MAP_FAILED`, that is `(void*) -1`. -/
def mapFailed : Nat := 2 ^ 64 - 1

/-- An object: a `safe_file_descriptor` (`__fd_`) or a `memory_mapped_region` (`__ptr_`, `__size_`). -/
inductive Obj
  | fd (n : Int)
  | map (ptr size : Nat)
  deriving DecidableEq, Repr

/-- The default member initialisers: `int __fd_{-1}` (safe_file_descriptor.hpp:23), `void* __ptr_{nullptr}; size_t __size_{0}`
    (memory_mapped_region.hpp:24-25). -/
def fdEmpty : Obj := .fd (-1)
/-- See `fdEmpty`. -/
def mapEmpty : Obj := .map 0 0

/-- The constructors from what a system call returned (detail/safe_file_descriptor.hpp:26-28, detail/memory_mapped_region.hpp:26-34). -/
def fdCtor (n : Int) : Obj := .fd n
/-- See `fdCtor`. -/
def mapCtor (ptr size : Nat) : Obj := .map (if ptr = mapFailed then 0 else ptr) size

/-- The destructors (detail/safe_file_descriptor.hpp:48-51, detail/memory_mapped_region.hpp:36-42): the calls made. -/
def dtor : Obj → List Ev
  | .fd n => if n = -1 then [] else [.rel (.fd n)]
  | .map p z => if p = 0 then [] else [.rel (.map p z)]

/-- What remains in an object that was moved from: `std::exchange(__other.__fd_, -1)` (detail/safe_file_descriptor.hpp:31),
    `std::exchange(__other.__ptr_, nullptr)`, `std::exchange(__other.__size_, 0)` (detail/memory_mapped_region.hpp:45-46). -/
def moved : Obj → Obj
  | .fd _ => .fd (-1)
  | .map _ _ => .map 0 0

/-- `operator=` of two different objects (detail/safe_file_descriptor.hpp:34-46, detail/memory_mapped_region.hpp:49-62): the
    object assigned to, the other one, the calls made. -/
def assign (this other : Obj) : Obj × Obj × List Ev :=
  match this with
  | .fd n => (other, moved other, if n = -1 then [] else [.rel (.fd n)])
  | .map p z => (other, moved other, if p = 0 then [] else [.rel (.map p z)])

/-- `reset` of a `safe_file_descriptor` (detail/safe_file_descriptor.hpp:53-60). -/
def fdReset (n m : Int) : Obj × List Ev := (.fd m, if n = -1 then [] else [.rel (.fd n)])

/-- `operator bool` (detail/safe_file_descriptor.hpp:62-65, detail/memory_mapped_region.hpp:64-67). -/
def toBool : Obj → Bool
  | .fd n => decide (n ≠ -1)
  | .map p _ => decide (p ≠ 0)

/-- Both are the same class. -/
def same : Obj → Obj → Bool
  | .fd _, .fd _ => true
  | .map _ _, .map _ _ => true
  | _, _ => false

/-- A program in the middle of its work: its live objects, and what it has called the operating system for. -/
structure St where
  obj : Nat → Option Obj
  log : List Ev

/-- No object, no call. -/
def init : St := { obj := fun _ => none, log := [] }

/-- A statement of the program. -/
inductive Act
  | fdNew (i : Nat) (n : Int)            -- construct object `i` from a descriptor just opened, or from -1
  | mapNew (i : Nat) (ptr size : Nat)    -- construct object `i` from what `::mmap` just returned
  | move (i j : Nat)                     -- construct object `i` from `std::move` of object `j`
  | assign (i j : Nat)                   -- `object i = std::move(object j)`
  | reset (i : Nat) (n : Int)            -- `object i.reset(n)`, `n` a descriptor just opened, or -1
  | drop (i : Nat)                       -- destroy object `i`
  deriving DecidableEq, Repr

/-- How often `r` was handed out. -/
def acqs (r : Res) (l : List Ev) : Nat := l.count (.acq r)
/-- How often `r` was given back. -/
def rels (r : Res) (l : List Ev) : Nat := l.count (.rel r)

/-- What happens when a system call returns the descriptor `n` (a number ≥ 0 that is not open), or -1. -/
def openFd (l : List Ev) (n : Int) : Option (List Ev) :=
  if n = -1 then some l
  else if 0 ≤ n ∧ acqs (.fd n) l = rels (.fd n) l then some (l ++ [.acq (.fd n)]) else none

/-- What happens when `::mmap` returns `ptr` (not null, not mapped) for `size` bytes, or `MAP_FAILED`. -/
def openMap (l : List Ev) (p z : Nat) : Option (List Ev) :=
  if p = mapFailed then some l
  else if p ≠ 0 ∧ acqs (.map p z) l = rels (.map p z) l then some (l ++ [.acq (.map p z)]) else none

/-- `f` with the value at `k` replaced. -/
def upd (f : Nat → Option Obj) (k : Nat) (v : Option Obj) : Nat → Option Obj := fun x => if x = k then v else f x

/-- A statement of the program (see `Act`), with the functions above; `none` for a program that is not well formed: it constructs an
    object that exists, or uses one that does not exist. -/
def step (s : St) : Act → Option St
  | .fdNew i n =>
    if s.obj i = none then (openFd s.log n).map fun l => { obj := upd s.obj i (some (fdCtor n)), log := l } else none
  | .mapNew i p z =>
    if s.obj i = none then (openMap s.log p z).map fun l => { obj := upd s.obj i (some (mapCtor p z)), log := l } else none
  | .move i j =>
    if s.obj i = none then
      (s.obj j).map fun o => { obj := upd (upd s.obj j (some (moved o))) i (some o), log := s.log }
    else none
  | .assign i j =>
    match s.obj i, s.obj j with
    | some o, some o' =>
      if same o o' = true then
        if i = j then some s
        else some { obj := upd (upd s.obj j (some (assign o o').2.1)) i (some (assign o o').1), log := s.log ++ (assign o o').2.2 }
      else none
    | _, _ => none
  | .reset i m =>
    match s.obj i with
    | some (.fd n) =>
      (openFd s.log m).map fun l => { obj := upd s.obj i (some (fdReset n m).1), log := l ++ (fdReset n m).2 }
    | _ => none
  | .drop i => (s.obj i).map fun o => { obj := upd s.obj i none, log := s.log ++ dtor o }

/-- The same with a `reset` to a descriptor that the object may own already: `fd.reset(fd.native_handle())`. -/
def resetSelf (s : St) (i : Nat) : Option St :=
  match s.obj i with
  | some (.fd n) => some { obj := upd s.obj i (some (fdReset n n).1), log := s.log ++ (fdReset n n).2 }
  | _ => none

/-! ## The set-up of the context -/

/-- What the machine answers to the system calls of the constructor. -/
structure Machine where
  /-- the error of `io_uring_setup`, or the descriptor -/
  ring : Except Int Int
  /-- the error of `::eventfd`, or the descriptor -/
  event : Except Int Int
  /-- the errors of the three calls of `::mmap`, or the addresses -/
  maps : Fin 3 → Except Int Nat
  /-- `__params_.features & IORING_FEAT_SINGLE_MMAP` -/
  single : Bool
  /-- the bytes that the submission ring needs: `sq_off.array + sq_entries * sizeof(unsigned)` -/
  sq : Nat
  /-- the bytes that the completion ring needs: `cq_off.cqes + cq_entries * sizeof(io_uring_cqe)` -/
  cq : Nat
  /-- the bytes that the submission entries need -/
  sqes : Nat

/-- How the constructor ends: the members, or the error code of the `std::system_error`. -/
inductive Out
  | ok (subm compl entries ring event : Obj)
  | throws (code : Int)
  deriving DecidableEq, Repr

/-- `__map_region` (:101-107) and the assignment of its result to an empty member (:126-131). -/
def mapRegion (r : Except Int Nat) (size : Nat) (l : List Ev) : Except Int Obj × List Ev :=
  match r with
  | .error e => (.error e, l)                      -- `MAP_FAILED`: throws `errno`
  | .ok p =>
    let tmp := mapCtor p size
    let a := assign mapEmpty tmp
    (.ok a.1, l ++ [.acq (.map p size)] ++ a.2.2 ++ dtor a.2.1)

/-- `__context_base::__context_base` (:112-132) with the member initialisers (:141-149) and `__io_uring_setup` (:71-77): if it throws,
    the members constructed so far are destroyed in reverse order. `::syscall` returns -1 for an error, so the code thrown for a failed
    `io_uring_setup` is `-(-1)`. -/
def setup (m : Machine) : Out × List Ev :=
  match m.ring with
  | .error _ => (.throws 1, dtor mapEmpty ++ dtor mapEmpty ++ dtor mapEmpty)
  | .ok r =>
    let ring := fdCtor r
    let l := [Ev.acq (.fd r)]
    match m.event with
    | .error e =>
      (.throws e, l ++ dtor (fdCtor (-1)) ++ dtor ring ++ dtor mapEmpty ++ dtor mapEmpty ++ dtor mapEmpty)
    | .ok v =>
      let event := fdCtor v
      let l := l ++ [.acq (.fd v)]
      let sringSz := if m.single = true then max m.sq m.cq else m.sq
      let cringSz := if m.single = true then sringSz else m.cq
      match mapRegion (m.maps 0) sringSz l with
      | (.error e, l) => (.throws e, l ++ dtor event ++ dtor ring ++ dtor mapEmpty ++ dtor mapEmpty ++ dtor mapEmpty)
      | (.ok subm, l) =>
        match mapRegion (m.maps 1) m.sqes l with
        | (.error e, l) => (.throws e, l ++ dtor event ++ dtor ring ++ dtor mapEmpty ++ dtor mapEmpty ++ dtor subm)
        | (.ok entries, l) =>
          if m.single = true then (.ok subm mapEmpty entries ring event, l)
          else
            match mapRegion (m.maps 2) cringSz l with
            | (.error e, l) => (.throws e, l ++ dtor event ++ dtor ring ++ dtor entries ++ dtor mapEmpty ++ dtor subm)
            | (.ok compl, l) => (.ok subm compl entries ring event, l)

/-- `__context_base::~__context_base`: the members in reverse order (:141-149). -/
def teardown : Out → List Ev
  | .ok subm compl entries ring event => dtor event ++ dtor ring ++ dtor entries ++ dtor compl ++ dtor subm
  | .throws _ => []

/-- The region in which the completion queue lies (:402-403). -/
def complRegion : Out → Option Obj
  | .ok subm compl _ _ _ => some (if toBool compl = true then compl else subm)
  | .throws _ => none

end Verif.Owned
