import Verif.Common
/-!
# Type-erased value storage: `STDEXEC::__any::__any<Interface>` (`__detail/__any.hpp`)

An `__any` owns a buffer whose first word is a `__tagged_ptr`: a tagged null (empty), a tagged
pointer to a heap-allocated model, or -- untagged -- the vtable pointer of a model living in the
buffer itself.  The model keeps the words of all `__any` objects of a program, all value objects ever
constructed (with the number of times their destructor ran) and all heap blocks (with the number of
times they were freed), and executes the member functions of `__value_proxy_root` and `__any` one
primitive effect at a time.  Constructors and allocations fail as an oracle says.

Simplifications: single-threaded (an `__any` is not shared); the allocator is stateless; the
constant-evaluation branches are not modelled; type-erased references are not modelled; a value is a
type and a payload; a moved-from value keeps its storage but its payload must not be read again.
-/
namespace Verif.AnyBox

/-- The types and interfaces of a program.  `size`/`align` are those of the model `__value_model`
(`__any.hpp:717-721`: vtable pointer, allocator and value). -/
structure P where
  size : Nat → Nat
  align : Nat → Nat
  nothrowMove : Nat → Bool
  /-- does some constructor of this type (other than a `noexcept` move) throw? -/
  mayThrow : Nat → Bool
  /-- `__interface_base::__buffer_size`, `__buffer_alignment` (`__any.hpp:794-800`) -/
  bufSize : Nat → Nat
  bufAlign : Nat → Nat
  /-- `std::derived_from<_Other, __iabstract<_Interface>>` (`__any.hpp:1958`), from → to -/
  ptrConv : Nat → Nat → Bool

/-- `__is_small` (`__any.hpp:357-373`) for an interface that extends `__imovable`. -/
def small (p : P) (ty f : Nat) : Bool := decide (p.size ty ≤ p.bufSize f) && p.nothrowMove ty

/-- Where a value object lives. -/
inductive Place
  | buf (i : Nat)
  | blk (b : Nat)
  deriving DecidableEq, Repr

/-- A value object that was constructed at some time. -/
structure Obj where
  ty : Nat
  val : Nat
  place : Place
  /-- moved from: the value must not be read any more -/
  moved : Bool
  /-- how many times its destructor ran -/
  dead : Nat
  deriving DecidableEq, Repr

/-- The first word of the buffer (`__tagged_ptr`, `__any.hpp:375-408`). -/
inductive Word
  | null                 -- tagged null
  | heap (b o : Nat)     -- tagged pointer to block `b`, in which object `o` lives
  | insitu (o : Nat)     -- untagged: vtable pointer of object `o` in the buffer
  | stale                -- untagged: vtable pointer left behind by a constructor that threw
  deriving DecidableEq, Repr

structure Cell where
  iface : Nat
  word : Word
  deriving DecidableEq, Repr

structure St where
  /-- the `__any` objects (ids 0 and 1 are the temporaries of the library's own functions) -/
  cell : Nat → Option Cell
  nobj : Nat
  obj : Nat → Obj
  nblk : Nat
  /-- how many times block `b` was deallocated -/
  freed : Nat → Nat
  /-- a destructor ran on something that is not a live object, a dead or moved-from value was read,
  a dead object's storage was used, or an internal precondition (`STDEXEC_ASSERT`) failed -/
  bad : Bool
  /-- an object was constructed at an address that is not a multiple of its alignment -/
  misaligned : Bool
  /-- an exception left a `noexcept` function -/
  terminated : Bool

def init : St :=
  { cell := fun _ => none, nobj := 0, obj := fun _ => ⟨0, 0, .buf 0, false, 0⟩, nblk := 0
    freed := fun _ => 0, bad := false, misaligned := false, terminated := false }

def setWord (s : St) (i : Nat) (w : Word) : St :=
  match s.cell i with
  | some c => { s with cell := upd s.cell i (some { c with word := w }) }
  | none => { s with bad := true }

def word (s : St) (i : Nat) : Word := (s.cell i).elim .null (·.word)
def ifaceOf (s : St) (i : Nat) : Nat := (s.cell i).elim 0 (·.iface)

/-- `__empty_` (`__any.hpp:1143-1154`): `*start_lifetime_as<__tagged_ptr>(__buff_) == nullptr`. -/
def empty (s : St) (i : Nat) : Bool := word s i == .null

/-- Run a value constructor at a place. -/
def build (s : St) (ty val : Nat) (pl : Place) : St :=
  { s with nobj := s.nobj + 1, obj := upd s.obj s.nobj ⟨ty, val, pl, false, 0⟩ }

/-- Run the destructor of object `o`. -/
def destroy (s : St) (o : Nat) : St :=
  { s with obj := upd s.obj o { s.obj o with dead := (s.obj o).dead + 1 }
           bad := s.bad || !(decide (o < s.nobj) && (s.obj o).dead == 0) }

/-- Read the value of object `o` (to copy or move it): it must be alive and not moved from. -/
def touch (s : St) (o : Nat) : St :=
  { s with bad := s.bad || !(decide (o < s.nobj) && (s.obj o).dead == 0 && !(s.obj o).moved) }

def markMoved (s : St) (o : Nat) : St :=
  { touch s o with obj := upd s.obj o { s.obj o with moved := true } }

def free (s : St) (b : Nat) : St :=
  { s with freed := upd s.freed b (s.freed b + 1)
           bad := s.bad || !(decide (b < s.nblk) && s.freed b == 0) }

/-- The object a non-empty cell holds. -/
def objOf : Word → Option Nat
  | .heap _ o => some o
  | .insitu o => some o
  | _ => .none

/-- Answers of the environment to the throwing operations of one call. -/
structure Orc where
  alloc : Bool    -- the allocation fails
  ctor : Bool     -- the constructor throws (if the type can throw)
  deriving DecidableEq, Repr

/-- `__emplace_into` (`__any.hpp:637-671`): construct a model from a value; the flag says whether an
exception was thrown.  A small model is constructed in the buffer (`construct_at`, line 653): its
vtable pointer is written before the value's constructor runs.  A big one is allocated and guarded by
`__dealloc_guard` (617-635). -/
def emplaceInto (p : P) (s : St) (i ty val : Nat) (e : Orc) : St × Bool :=
  if small p ty (ifaceOf s i) then
    if e.ctor && p.mayThrow ty then (setWord s i .stale, true)
    else
      ({ setWord (build s ty val (.buf i)) i (.insitu s.nobj) with
           misaligned := s.misaligned || !decide (p.align ty ∣ p.bufAlign (ifaceOf s i)) }, false)
  else if e.alloc then (s, true)
  else if e.ctor && p.mayThrow ty then
    -- the guard deallocates the block
    (free { s with nblk := s.nblk + 1 } s.nblk, true)
  else
    (setWord (build { s with nblk := s.nblk + 1 } ty val (.blk s.nblk)) i (.heap s.nblk s.nobj), false)

/-- `__reset_` (`__any.hpp:1182-1203`): destroy the value in the buffer, or `__delete_` (723-730) the
one on the heap, and become empty. -/
def reset (s : St) (i : Nat) : St :=
  match word s i with
  | .null => s
  | .insitu o => setWord (destroy s o) i .null
  | .heap b o => setWord (free (destroy s o) b) i .null
  | .stale => setWord { s with bad := true } i .null

/-- `__move_to_empty` (`__any.hpp:1157-1180`): hand the content of `i` to the empty `j`: exchange the
pointer, or `__move_to` (735-747) -- move-construct in the other buffer, then reset. -/
def moveToEmpty (p : P) (s : St) (i j : Nat) : St :=
  match word s i with
  | .heap b o => setWord (setWord s j (.heap b o)) i .null
  | .insitu o =>
      reset (emplaceInto p (markMoved s o) j (s.obj o).ty (s.obj o).val ⟨false, false⟩).1 i
  | _ => { s with bad := true }

/-- `swap` without its last branch (`__any.hpp:999-1026`). -/
def swapNT (p : P) (s : St) (i j : Nat) : St :=
  if i = j then s
  else
    match word s i, word s j with
    | .null, .null => s
    | .null, .heap b o => setWord (setWord s i (.heap b o)) j .null
    | .heap b o, .null => setWord (setWord s i .null) j (.heap b o)
    | .heap b o, .heap b' o' => setWord (setWord s i (.heap b' o')) j (.heap b o)
    | .null, _ => moveToEmpty p s j i
    | _, .null => moveToEmpty p s i j
    | _, _ => { s with bad := true }

/-- The default constructor (`__any.hpp:951-961`). -/
def defaultCtor (s : St) (i f : Nat) : St := { s with cell := upd s.cell i (some ⟨f, .null⟩) }

/-- The destructor (`__any.hpp:979-982`). -/
def dtor (s : St) (i : Nat) : St :=
  { reset s i with cell := upd (reset s i).cell i .none }

/-- The move constructor (`__any.hpp:963-968`): default-construct, then `swap`. -/
def moveCtor (p : P) (s : St) (i j : Nat) : St := swapNT p (defaultCtor s i (ifaceOf s j)) i j

/-- Do both words carry the tag, or is one of them null?  Then `swap` needs no temporary. -/
def easySwap : Word → Word → Bool
  | .null, _ => true
  | _, .null => true
  | .heap _ _, .heap _ _ => true
  | _, _ => false

/-- `swap` (`__any.hpp:999-1032`), with the temporary of its last branch in cell 1. -/
def swap (p : P) (s : St) (i j : Nat) : St :=
  if i = j then s
  else if easySwap (word s i) (word s j) then swapNT p s i j
  else
    dtor (moveToEmpty p (moveToEmpty p (moveCtor p s 1 i) j i) 1 j) 1

/-- The copy constructor (`__any.hpp:970-977`) with `__copy_to` (750-760).  It delegates to the default
constructor, so an exception runs the destructor of the object under construction. -/
def copyCtor (p : P) (s : St) (i j : Nat) (e : Orc) : St × Bool :=
  match objOf (word s j) with
  | .none => if word s j = .null then (defaultCtor s i (ifaceOf s j), false)
             else ({ s with bad := true }, true)
  | some o =>
      let r := emplaceInto p (touch (defaultCtor s i (ifaceOf s j)) o) i (s.obj o).ty (s.obj o).val e
      if r.2 then (dtor r.1 i, true) else (r.1, false)

/-- Move assignment (`__any.hpp:984-993`). -/
def moveAssign (p : P) (s : St) (i j : Nat) : St :=
  if i = j then s else swapNT p (reset s i) i j

/-- Copy assignment (`__any.hpp:995-1001`): copy to a temporary (cell 0), swap, destroy it. -/
def copyAssign (p : P) (s : St) (i j : Nat) (e : Orc) : St × Bool :=
  if i = j then (s, false)
  else
    let r := copyCtor p s 0 j e
    if r.2 then (r.1, true) else (dtor (swap p r.1 0 i) 0, false)

/-- `emplace` (`__any.hpp:1034-1046`) and `operator=(_Value)` (`__any.hpp:1906-1912`). -/
def emplace (p : P) (s : St) (i ty val : Nat) (e : Orc) : St × Bool :=
  emplaceInto p (reset s i) i ty val e

/-- The constructors from a value, in place and from a factory (`__any.hpp:1865-1886`); all delegate to
the default constructor. -/
def valueCtor (p : P) (s : St) (i f ty val : Nat) (e : Orc) : St × Bool :=
  let r := emplaceInto p (defaultCtor s i f) i ty val e
  if r.2 then (dtor r.1 i, true) else (r.1, false)

/-- `__as_large_as` (`__any.hpp:1852-1855`): the conversion is `noexcept`. -/
def asLarge (p : P) (fi fj : Nat) : Bool :=
  decide (p.bufSize fi ≥ p.bufSize fj) && decide (p.bufAlign fi ∣ p.bufAlign fj)

/-- `__slice_to_` from an `__any` of another interface (`__any.hpp:810-836`): the value is moved into
the target with `emplace`, then the source proxy is reset. -/
def sliceTo (p : P) (s : St) (i j : Nat) (e : Orc) : St × Bool :=
  match objOf (word s j) with
  | .none => ({ s with bad := true }, false)
  | some o =>
      -- the constructor of the new model moves from the old value: it throws only if the move can
      let r := emplace p (touch s o) i (s.obj o).ty (s.obj o).val
                 ⟨e.alloc, e.ctor && !p.nothrowMove (s.obj o).ty⟩
      if r.2 then (r.1, true) else (reset (markMoved r.1 o) j, false)

/-- `__assign_from` (`__any.hpp:1949-1990`) between different interfaces; the target `i` is empty. -/
def assignFrom (p : P) (s : St) (i j : Nat) (e : Orc) : St × Bool :=
  match word s j with
  | .null => (s, false)
  | .heap b o =>
      if p.ptrConv (ifaceOf s j) (ifaceOf s i) then
        (setWord (setWord s i (.heap b o)) j .null, false)
      else sliceTo p s i j e
  | _ => sliceTo p s i j e

/-- An exception that leaves a `noexcept` conversion terminates the program. -/
def noexceptIf (b : Bool) (r : St × Bool) : St × Bool :=
  if b && r.2 then ({ r.1 with terminated := true }, true) else r

/-- The converting constructor from a moved `__any` of a derived interface (`__any.hpp:1889-1895`): the
parameter `__other` (cell 0) is move-constructed from the argument; if an exception leaves the body the
(already constructed) bases of the new object are destroyed; the parameter is destroyed last. -/
def convCtor (p : P) (s : St) (i f j : Nat) (e : Orc) : St × Bool :=
  let s1 := defaultCtor (moveCtor p s 0 j) i f
  let r := noexceptIf (asLarge p f (ifaceOf s j)) (assignFrom p s1 i 0 e)
  if r.2 then (dtor (dtor r.1 i) 0, true) else (dtor r.1 0, false)

/-- The converting assignment (`__any.hpp:1914-1922`). -/
def convAssign (p : P) (s : St) (i j : Nat) (e : Orc) : St × Bool :=
  let s1 := reset (moveCtor p s 0 j) i
  let r := noexceptIf (asLarge p (ifaceOf s i) (ifaceOf s j)) (assignFrom p s1 i 0 e)
  (dtor r.1 0, r.2)

/-- The operations of a program on its `__any` objects (ids from 2). -/
inductive Op
  | new (i f : Nat)                       -- `__any<F> i;`
  | val (i f ty v : Nat) (e : Orc)        -- `__any<F> i(value)` / in-place
  | move (i j : Nat)                      -- `__any<F> i(std::move(j))`
  | copy (i j : Nat) (e : Orc)            -- `__any<F> i(j)`
  | conv (i f j : Nat) (e : Orc)          -- `__any<Base> i(std::move(j))`
  | del (i : Nat)                         -- end of lifetime
  | reset (i : Nat)                       -- `__reset(i)`
  | emplace (i ty v : Nat) (e : Orc)      -- `i.emplace<T>(v)` / `i = value`
  | massign (i j : Nat)                   -- `i = std::move(j)`
  | cassign (i j : Nat) (e : Orc)         -- `i = j`
  | vassign (i j : Nat) (e : Orc)         -- `i = std::move(j)`, `j` of a derived interface
  | swap (i j : Nat)                      -- `swap(i, j)`
  deriving DecidableEq, Repr

def live (s : St) (i : Nat) : Bool := decide (2 ≤ i) && (s.cell i).isSome
def fresh (s : St) (i : Nat) : Bool := decide (2 ≤ i) && (s.cell i).isNone

/-- One operation; `none` if the program is not entitled to it (object not alive, id in use, wrong
interface).  The flag is "an exception was thrown". -/
def stepOp (p : P) (s : St) : Op → Option (St × Bool)
  | .new i f => if fresh s i then some (defaultCtor s i f, false) else none
  | .val i f ty v e => if fresh s i then some (valueCtor p s i f ty v e) else none
  | .move i j => if fresh s i && live s j then some (moveCtor p s i j, false) else none
  | .copy i j e => if fresh s i && live s j then some (copyCtor p s i j e) else none
  | .conv i f j e =>
      if fresh s i && live s j && !(f == ifaceOf s j) then some (convCtor p s i f j e) else none
  | .del i => if live s i then some (dtor s i, false) else none
  | .reset i => if live s i then some (AnyBox.reset s i, false) else none
  | .emplace i ty v e => if live s i then some (AnyBox.emplace p s i ty v e) else none
  | .massign i j =>
      if live s i && live s j && ifaceOf s i == ifaceOf s j then some (moveAssign p s i j, false)
      else none
  | .cassign i j e =>
      if live s i && live s j && ifaceOf s i == ifaceOf s j then some (copyAssign p s i j e)
      else none
  | .vassign i j e =>
      if live s i && live s j && !(ifaceOf s i == ifaceOf s j) then some (convAssign p s i j e)
      else none
  | .swap i j =>
      if live s i && live s j && ifaceOf s i == ifaceOf s j then some (AnyBox.swap p s i j, false)
      else none

/-- Run a program, collecting which operations threw. -/
def run (p : P) : St → List Op → Option (St × List Bool)
  | s, [] => some (s, [])
  | s, op :: ops =>
    match stepOp p s op with
    | none => none
    | some (s', t) =>
      match run p s' ops with
      | none => none
      | some (s'', ts) => some (s'', t :: ts)

end Verif.AnyBox
