import Verif.Common
/-!
# `connect` (`stdexec/__detail/__connect.hpp`)

How `connect` finds out how to connect a sender: twice, once to declare its return type and exception specification (a variable template
whose partial specializations the compiler chooses among by their constraints) and once to do it (a chain of `if constexpr`).

Models the concepts `__with_*` (:43-65), `__connect_declfn_v` and its eight partial specializations (:74-134), `__connect_declfn_t`
(:136-141), `__connectable_to` (:228-231) and `connect_t::operator()` (:327-359) of `stdexec/__detail/__connect.hpp`.

Simplifications: types are numbers; whether a way of connecting is well formed and whether it is `noexcept` are given. Of the C++ rules
for choosing a partial specialization, those that apply are modelled: a specialization is viable if its constraint is satisfied and its
`bool` argument is the one asked for; of the viable ones that one is chosen whose constraint subsumes those of all others and is subsumed
by none. All constraints are disjunctions of atomic ones, of which one subsumes another if every atom of it is an atom of the other. The
branch for MSVC (:145-222) is a chain of `if constexpr` in the order of `dispatch`.
-/
namespace Verif.ConnectCpo

/-- The ways of connecting. -/
inductive Way
  | staticMember | member | coAwait | tagInvoke
  deriving DecidableEq, Repr

/-- The sender after the transformation, with its receiver: for each way whether it is well formed, whether it is `noexcept`, and the type
    of what it returns. -/
structure Pair where
  offers : Way → Bool
  nothrow : Way → Bool
  ret : Way → Nat

/-- A partial specialization of `__connect_declfn_v`: the atoms of its constraint, its argument `_NothrowTransform`, the way whose
    expression it names, and whether its `noexcept` is that of the expression (`STDEXEC_CONNECT_DECLFN_FOR`, :70) or `false`. -/
structure Special where
  atoms : List Way
  nothrowTransform : Bool
  way : Way
  exact : Bool
  deriving DecidableEq, Repr

open Way in
/-- The eight partial specializations (:77-134). -/
def specials : List Special :=
  [⟨[staticMember], true, staticMember, true⟩,
   ⟨[staticMember, member], true, member, true⟩,
   ⟨[staticMember, member, coAwait], true, coAwait, false⟩,
   ⟨[staticMember, member, coAwait, tagInvoke], true, tagInvoke, true⟩,
   ⟨[staticMember], false, staticMember, false⟩,
   ⟨[staticMember, member], false, member, false⟩,
   ⟨[staticMember, member, coAwait], false, coAwait, false⟩,
   ⟨[staticMember, member, coAwait, tagInvoke], false, tagInvoke, false⟩]

/-- The specialization can be used for this pair. -/
def viable (p : Pair) (nt : Bool) (s : Special) : Bool := s.atoms.any p.offers && s.nothrowTransform == nt

/-- The constraint of `s` subsumes that of `t`. -/
def subsumes (s t : Special) : Bool := s.atoms.all fun a => t.atoms.contains a

/-- `s` is more specialized than `t`. -/
def better (s t : Special) : Bool := subsumes s t && !subsumes t s

/-- What the compiler makes of the variable template: one specialization, the primary template, or an ambiguity. -/
inductive Choice
  | one (s : Special)
  | primary
  | ambiguous
  deriving DecidableEq, Repr

/-- The choice among the partial specializations. -/
def choose (p : Pair) (nt : Bool) : Choice :=
  let v := specials.filter (viable p nt)
  match v with
  | [] => .primary
  | _  => match v.filter (fun s => v.all fun t => t == s || better s t) with
          | [s] => .one s
          | _   => .ambiguous

/-- What `connect` declares: the type it returns and whether it is `noexcept` (`__connect_declfn_t`, :136-141; :332-333). -/
def declared (p : Pair) (nt : Bool) : Option (Nat × Bool) :=
  match choose p nt with
  | .one s => some (p.ret s.way, s.exact && p.nothrow s.way)
  | _      => none

/-- `__with_any_connect` (:61-65), which `connect` requires of the transformed sender (`__connectable_to`, :228-231, :331). -/
def connectable (p : Pair) : Bool :=
  p.offers .staticMember || p.offers .member || p.offers .coAwait || p.offers .tagInvoke

/-- The chain of `if constexpr` in `operator()` (:337-359). -/
def dispatch (p : Pair) : Way :=
  if p.offers .staticMember then .staticMember
  else if p.offers .member then .member
  else if p.offers .coAwait then .coAwait
  else .tagInvoke

/-- What a call of `connect` does. -/
inductive Ev
  | transform
  | connect (w : Way)
  deriving DecidableEq, Repr

/-- A call (:335-359), given whether the transformation throws and whether connecting does: what is done, and the type of the operation
    state, or nothing if it throws. -/
def call (p : Pair) (transformThrows connectThrows : Bool) : List Ev × Option Nat :=
  if transformThrows then ([.transform], none)
  else ([.transform, .connect (dispatch p)], if connectThrows then none else some (p.ret (dispatch p)))

end Verif.ConnectCpo
