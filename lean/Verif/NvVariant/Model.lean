import Verif.Common
/-!
# The variant of the GPU back end: `nv::execution::variant_t` (`nvexec/detail/variant.cuh`)

The untagged storage and the index beside it, in which the GPU back end keeps the results of a sender: `emplace`, `construct`, `destroy`,
`visit`, the destructor, and the copy constructor that the compiler declares because no other is declared.

Models `visit_impl` (:55-83), `visit` (:88-106), `variant_t` (:108-196) of `nvexec/detail/variant.cuh`, `__umax`
(:164-175) of `stdexec/__detail/__utility.hpp`, and `__mfind_i` (:930-936) of `stdexec/__detail/__meta.hpp`.

Simplifications: a type is a number; `ep` is the number of `cuda::std::tuple<set_error_t, std::exception_ptr>`. An object is a number, of
its own for every time a constructor is run. A visitor only records what it is called with. Constructors and visitors do not get at the
variant they are called from.
-/
namespace Verif.NvVariant

/-- What can be observed from the outside: a constructor has finished, a destructor has been run, a visitor has been called. -/
inductive Ev where
  | made (obj ty : Nat)
  | ended (obj ty : Nat)
  /-- The visitor has been called with the bytes of `obj`, taken as an object of type `ty`. -/
  | seen (obj ty : Nat)
  /-- The visitor has been called with bytes in which there is no object, taken as an object of type `ty`. -/
  | seenNothing (ty : Nat)
  /-- A destructor has been run on bytes in which there is no object. -/
  | endedNothing (ty : Nat)
deriving DecidableEq, Repr

/-- `npos<unsigned int>()`, `~IndexT(0)` (:37-41 with `using index_t = unsigned int`, :116). -/
def npos : Nat := 2 ^ 32 - 1

/-- The members of a `variant_t` (:194-195): what is in `storage_`, as far as it is anything, and `index_`. -/
structure Var where
  stor  : Option Nat
  index : Nat
deriving DecidableEq, Repr

/-- The number of the first of the types that is `t` (`__mfind_i`, `__meta.hpp`:930-936: the number of types less the number of those from the
first that is `t` on). -/
def findI (t : Nat) (ts : List Nat) : Nat := ts.length - (ts.dropWhile (· != t)).length

/-- `get<I>()` (:128-133 by :120-126) and the call of the visitor with what it gives: the storage, whatever is in it, as a `Ts...[I]`. -/
def call (v : Var) (t : Nat) : List Ev :=
  match v.stor with
  | some o => [.seen o t]
  | none   => [.seenNothing t]

/-- `visit_impl` (:55-66 for zero, :68-83 for the others): the indices from `I` down to zero are compared with the one that is asked for. -/
def visitImpl (ts : List Nat) (v : Var) (index : Nat) : Nat → List Ev
  | 0     => if index = 0 then call v (ts.getD 0 0) else []
  | i + 1 => if index = i + 1 then call v (ts.getD (i + 1) 0) else visitImpl ts v index i

/-- `visit` with an index (:98-106): from the last type down. -/
def visitAt (ts : List Nat) (v : Var) (index : Nat) : List Ev := visitImpl ts v index (ts.length - 1)

/-- `visit` (:88-95): with the index of the variant itself. -/
def visit (ts : List Nat) (v : Var) : List Ev := visitAt ts v v.index

/-- `holds_alternative` (:148-151). -/
def Var.holds (v : Var) : Bool := v.index != npos

/-- The visitor of `destroy` (:174-188), called in place of one that records: nothing for the tuple with an `exception_ptr`, the destructor
for all others. -/
def destroyer (ep : Nat) : Ev → List Ev
  | .seen o t      => if t = ep then [] else [.ended o t]
  | .seenNothing t => if t = ep then [] else [.endedNothing t]
  | _              => []

/-- `destroy` (:169-192). -/
def destroy (ep : Nat) (ts : List Nat) (v : Var) : Var × List Ev :=
  let evs := if v.holds then (visit ts v).flatMap (destroyer ep) else []
  ({ stor := none, index := npos }, evs)

/-- `construct` (:161-167): a new object in the storage, whatever was in it, and then the index; no index if the constructor throws. -/
def construct (ts : List Nat) (v : Var) (t o : Nat) (throws : Bool) : Var × List Ev :=
  if throws then ({ v with stor := none }, [])
  else ({ stor := some o, index := findI t ts }, [.made o t])

/-- `emplace` (:153-159). -/
def emplace (ep : Nat) (ts : List Nat) (v : Var) (t o : Nat) (throws : Bool) : Var × List Ev :=
  let (v1, e1) := destroy ep ts v
  let (v2, e2) := construct ts v1 t o throws
  (v2, e1 ++ e2)

/-- What a user of a variant does with it. -/
inductive Op where
  | emplace (t : Nat) (throws : Bool)
  | construct (t : Nat) (throws : Bool)
  | destroy
  | visit
deriving DecidableEq, Repr

/-- One of these; the object, if there is one, gets the number `o`. -/
def step (ep : Nat) (ts : List Nat) (v : Var) (o : Nat) : Op → Var × List Ev
  | .emplace t th   => emplace ep ts v t o th
  | .construct t th => construct ts v t o th
  | .destroy        => destroy ep ts v
  | .visit          => (v, visit ts v)

/-- All of them, one after the other; and the number of the next object. -/
def run (ep : Nat) (ts : List Nat) : Var → Nat → List Op → Var × Nat × List Ev
  | v, o, []      => (v, o, [])
  | v, o, p :: ps =>
    let (v1, e1) := step ep ts v o p
    let (v2, o2, e2) := run ep ts v1 (o + 1) ps
    (v2, o2, e1 ++ e2)

/-- The default member initialiser of `index_` (:195), before the constructor is run. -/
def raw : Var := { stor := none, index := npos }

/-- The life of a variant: the default constructor (:135-140) makes an object of the first type; then the operations; then the
destructor (:142-146). -/
def life (ep : Nat) (ts : List Nat) (ps : List Op) : List Ev :=
  let (v0, e0) := emplace ep ts raw (ts.getD 0 0) 0 false
  let (v1, _, e1) := run ep ts v0 1 ps
  e0 ++ e1 ++ (destroy ep ts v1).2

/-- The copy constructor, which is declared implicitly: `storage_` is an array of bytes and is copied as one. -/
def copy (v : Var) : Var := v

/-- `__umax` (`__utility.hpp`:164-175), for `max_size` (:113) and `max_alignment` (:114). -/
def umax (l : List Nat) : Nat := l.foldl (fun m i => if m < i then i else m) 0

end Verif.NvVariant
