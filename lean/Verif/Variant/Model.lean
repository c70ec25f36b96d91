import Verif.Common
/-!
# `__variant` — model (C43)

Models `/repo/include/stdexec/__detail/__variant.hpp`: `__mk_index_guard` 82-86, `__visit_alt` 100-105, `__move_visitor` /
`__copy_visitor` 141-161, `__destroy` 163-172, constructors 182-203, destructor 205-209, assignments 211-241, `emplace`
281-313, `__emplace_from` 337-372 (same steps as `emplace`), `__visit` 374-390, `swap` 392-395, `__get` 397-405, and
`__index_of` of `__utility.hpp` 176-196.

A heap of C++ objects, numbered in the order of construction, and any number of variants of one variant type with
alternatives `T 0, …, T (n-1)` (types are numbers; they need not be distinct). `fault` records undefined behaviour:
destroying or reading an object that is not alive, destroying it at the wrong type, constructing over an object,
visiting a valueless variant.
Simplifications: the value of an object is a number, `none` after it was moved from; storage bytes and alignment are
not modelled; user code runs only as constructors, which finish, throw, or (as described at 259-271) destroy the owner.
-/
namespace Verif.Variant

/-- How the constructor of a new alternative ends. `destroysOwner`: the (complete) object's constructor makes the
owner destroy this variant before it returns (comment at 259-271). -/
inductive Out
  | ok | throws | destroysOwner
  deriving DecidableEq, Repr

structure H where
  -- objects
  nobj : Nat := 0
  alive : Nat → Bool := fun _ => false
  ty : Nat → Nat := fun _ => 0
  val : Nat → Option Nat := fun _ => none
  dtors : Nat → Nat := fun _ => 0
  -- variants
  vlive : Nat → Bool := fun _ => false
  /-- `__index_`; `none`: `__variant_npos` -/
  idx : Nat → Option Nat := fun _ => none
  /-- the object in `__storage_` -/
  cell : Nat → Option Nat := fun _ => none
  fault : Bool := false

/-- `std::destroy_at` of the object in the storage of `v`, as a `t`. -/
def destroyAt (h : H) (v t : Nat) : H :=
  match h.cell v with
  | none => { h with fault := true }
  | some o =>
    { h with alive := upd h.alive o false, dtors := upd h.dtors o (h.dtors o + 1), cell := upd h.cell v none,
             fault := h.fault || !h.alive o || h.ty o != t }

/-- `__destroy` (163-172). -/
def destroyV (T : Nat → Nat) (h : H) (v : Nat) : H :=
  match h.idx v with
  | none => h
  | some k => destroyAt { h with idx := upd h.idx v none } v (T k)

/-- `std::construct_at` / placement new of a `t` in the storage of `v`. -/
def construct (h : H) (v t : Nat) (x : Option Nat) : H :=
  { h with
    nobj := h.nobj + 1
    alive := upd h.alive h.nobj true
    ty := upd h.ty h.nobj t
    val := upd h.val h.nobj x
    cell := upd h.cell v (some h.nobj)
    fault := h.fault || h.cell v != none }

/-- A constructor argument: a value, or a reference to the alternative held by a variant, to be copied or moved. -/
inductive Arg
  | val (n : Nat)
  | copyOf (w : Nat)
  | moveOf (w : Nat)
  deriving DecidableEq, Repr

/-- Read the argument, as the constructor does. A reference `moveOf w` / `copyOf w` is to the object `o`, bound before. -/
def readArg (h : H) (a : Arg) (o : Option Nat) : H × Option Nat :=
  match a with
  | .val n => (h, some n)
  | .copyOf _ => match o with
    | none => ({ h with fault := true }, none)
    | some o => ({ h with fault := h.fault || !h.alive o }, h.val o)
  | .moveOf _ => match o with
    | none => ({ h with fault := true }, none)
    | some o => ({ h with fault := h.fault || !h.alive o, val := upd h.val o none }, h.val o)

/-- The object an argument refers to. -/
def argObj (h : H) : Arg → Option Nat
  | .val _ => none
  | .copyOf w | .moveOf w => h.cell w

/-- `emplace<k>` (299-313): destroy, set the index under a guard, construct, dismiss the guard. -/
def emplace (T : Nat → Nat) (h : H) (v k : Nat) (a : Arg) (out : Out) : H :=
  let o := argObj h a
  let h := destroyV T h v
  let h := { h with idx := upd h.idx v (some k) }
  let (h, x) := readArg h a o
  match out with
  | .ok => construct h v (T k) x
  | .throws => { h with idx := upd h.idx v none }
  | .destroysOwner =>
    let h := destroyV T (construct h v (T k) x) v
    { h with vlive := upd h.vlive v false }

/-- `__index_of` (`__utility.hpp` 176-196): the first position at which the type occurs. -/
def indexOf (T : Nat → Nat) (n t : Nat) : Option Nat := (List.range n).find? fun k => T k == t

/-- `emplace<T>` (281-297): by type. A type that does not occur is rejected when compiling. -/
def emplaceTy (T : Nat → Nat) (n : Nat) (h : H) (v t : Nat) (a : Arg) (out : Out) : H :=
  match indexOf T n t with
  | some k => emplace T h v k a out
  | none => { h with fault := true }

/-- `__visit(__copy_visitor{} / __move_visitor{}, other, *this)`: the alternative of the source is emplaced **by type**. -/
def visitInto (T : Nat → Nat) (n : Nat) (h : H) (v w : Nat) (move : Bool) (out : Out) : H :=
  match h.idx w with
  | none => { h with fault := true }
  | some k => emplaceTy T n h v (T k) (if move then .moveOf w else .copyOf w) out

/-- `__variant(__no_init_t)` (180). -/
def make (h : H) (v : Nat) : H := { h with vlive := upd h.vlive v true, idx := upd h.idx v none, cell := upd h.cell v none }

/-- The destructor (205-209). -/
def drop (T : Nat → Nat) (h : H) (v : Nat) : H :=
  let h := destroyV T h v
  { h with vlive := upd h.vlive v false }

/-- Copy / move constructor (182-203). If it throws there is no variant. -/
def ctorFrom (T : Nat → Nat) (n : Nat) (h : H) (v w : Nat) (move : Bool) (out : Out) : H :=
  let h := make h v
  if h.idx w = none then h
  else
    let h := visitInto T n h v w move out
    if out = .throws then { h with vlive := upd h.vlive v false } else h

/-- Copy / move assignment (211-241). -/
def assign (T : Nat → Nat) (n : Nat) (h : H) (v w : Nat) (move : Bool) (out : Out) : H :=
  if v = w then h
  else
    let h := destroyV T h v
    if h.idx w = none then h else visitInto T n h v w move out

/-- `std::swap`: `tmp(move(a)); a = move(b); b = move(tmp);` and destroy `tmp`; `o1 o2 o3` are the outcomes of the moves. -/
def swap (T : Nat → Nat) (n : Nat) (h : H) (v w tmp : Nat) (o1 o2 o3 : Out) : H :=
  let h := ctorFrom T n h tmp v true o1
  if h.vlive tmp = false then h
  else
    let h := assign T n h v w true o2
    if o2 = .throws then drop T h tmp
    else drop T (assign T n h w tmp true o3) tmp

inductive Op
  | make (v : Nat)
  | emplace (v k : Nat) (a : Arg) (out : Out)
  | ctorFrom (v w : Nat) (move : Bool) (out : Out)
  | assign (v w : Nat) (move : Bool) (out : Out)
  | swap (v w tmp : Nat) (o1 o2 o3 : Out)
  | drop (v : Nat)
  deriving DecidableEq, Repr

/-- What the caller must respect: existing variants, alternatives that exist, an argument that refers to another
variant's alternative; copy and move constructors do not destroy the variant. -/
def Op.ok (n : Nat) (h : H) : Op → Bool
  | .make v => !h.vlive v
  | .emplace v k a _ => h.vlive v && k < n && (match a with
    | .val _ => true
    | .copyOf w | .moveOf w => w != v && h.vlive w && h.idx w != none)
  | .ctorFrom v w _ out => !h.vlive v && h.vlive w && v != w && out != .destroysOwner
  | .assign v w _ out => h.vlive v && h.vlive w && out != .destroysOwner
  | .swap v w tmp o1 o2 o3 => h.vlive v && h.vlive w && !h.vlive tmp && o1 != .destroysOwner && o2 != .destroysOwner &&
      o3 != .destroysOwner
  | .drop v => h.vlive v

def run (T : Nat → Nat) (n : Nat) (h : H) : Op → H
  | .make v => make h v
  | .emplace v k a out => emplace T h v k a out
  | .ctorFrom v w m out => ctorFrom T n h v w m out
  | .assign v w m out => assign T n h v w m out
  | .swap v w tmp o1 o2 o3 => swap T n h v w tmp o1 o2 o3
  | .drop v => drop T h v

def step (T : Nat → Nat) (n : Nat) (h : H) (op : Op) : Option H :=
  if op.ok n h then some (run T n h op) else none

def init : H := {}
abbrev Reachable (T : Nat → Nat) (n : Nat) (h : H) : Prop := Reach init (step T n) h

end Verif.Variant
