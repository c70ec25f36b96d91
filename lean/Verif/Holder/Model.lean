import Verif.Common
/-!
# `__optional` and `__static_vector`: where an object lives in storage that outlives it

`stdexec/__detail/__optional.hpp` keeps an object in raw storage and a flag beside it; `stdexec/__detail/__static_vector.hpp`
keeps an array of which a prefix counts. Both are modelled at the level of the storage: what is alive in it, what the flag
says, and every step that would be undefined behaviour (destroying what is not alive, constructing over what is, touching the
holder after it has been destroyed) is recorded as such.

Models `__optional<_Tp>` (`__optional.hpp:62-214`), `__optional<void>` (:217-262), `__mk_has_value_guard` (:55-59),
`__scope_guard` (`__scope.hpp:41-58`), `__manual_lifetime::__construct` / `__destroy` (`__manual_lifetime.hpp:55-83`) and
`__static_vector` (`__static_vector.hpp:62-175`).

Simplifications: objects are values of a type `α`; `__emplace_from` (:126-137) is `emplace` with a function in place of a
constructor and has the same body, so one definition stands for both; the four `value()` and `operator*` overloads differ
in their reference qualifiers only. The specialization of `__static_vector` for capacity zero (:180-252) is the general one
with an empty array.
-/
namespace Verif.Holder

/-- What happens to objects: one comes to life in the storage, or one there is destroyed. -/
inductive Ev (α : Type)
  | born (v : α)
  | died (v : α)
  deriving DecidableEq, Repr

/-- An `__optional` in memory: `stored` is the object whose lifetime has begun in `__value_` (:212), `flag` is `__has_value_`
    (:213), `alive` says whether the `__optional` itself still exists, `bad` that something undefined was done. -/
structure Opt (α : Type) where
  stored : Option α
  flag : Bool
  alive : Bool
  bad : Bool
  log : List (Ev α)
  deriving DecidableEq, Repr

/-- What constructing an object does: it yields the object; it throws; or it yields the object and, before returning (it
    started an operation that completed inline), destroys the owner of the `__optional` and so the `__optional`
    (the comment at :98-114). -/
inductive Ctor (α : Type)
  | yields (v : α)
  | throws
  | yieldsAndKillsOwner (v : α)
  deriving DecidableEq, Repr

variable {α : Type}

/-- `__optional() noexcept {}` (:67-69): nothing in the storage, the flag's initialiser is `false` (:213). -/
def Opt.mk0 : Opt α := { stored := none, flag := false, alive := true, bad := false, log := [] }

/-- Reading or writing a member of the `__optional`: undefined once it has been destroyed. -/
def touch (o : Opt α) : Opt α := if o.alive then o else { o with bad := true }

/-- A write to `__has_value_`. -/
def setFlag (b : Bool) (o : Opt α) : Opt α := { touch o with flag := b }

/-- `__manual_lifetime::__construct` (`__manual_lifetime.hpp:55-66`): "no safeties guarding against the case that there's
    already one there", whose end would never be seen. -/
def construct (v : α) (o : Opt α) : Opt α :=
  let o := touch o
  { o with stored := some v, bad := o.bad || o.stored.isSome, log := o.log ++ [.born v] }

/-- `__manual_lifetime::__destroy` (`__manual_lifetime.hpp:78-83`): undefined if there is nothing to destroy. -/
def destroyValue (o : Opt α) : Opt α :=
  let o := touch o
  match o.stored with
  | some v => { o with stored := none, log := o.log ++ [.died v] }
  | none   => { o with bad := true }

/-- `reset()` (`__optional.hpp:202-209`). -/
def reset (o : Opt α) : Opt α :=
  let o := touch o
  if o.flag then setFlag false (destroyValue o) else o

/-- `~__optional()` (:93-99); afterwards the `__optional` is gone. -/
def dtor (o : Opt α) : Opt α :=
  let o := touch o
  let o := if o.flag then destroyValue o else o
  { o with alive := false }

/-- `emplace` (:115-124): `reset()`, raise the flag and set the guard (:55-59), construct, dismiss the guard. When the
    construction throws, the guard's destructor takes the flag back (`__scope.hpp:47-51`). The `Bool` is "it threw". -/
def emplace (c : Ctor α) (o : Opt α) : Opt α × Bool :=
  let o := setFlag true (reset o)
  match c with
  | .yields v => (construct v o, false)
  | .throws   => (setFlag false o, true)
  | .yieldsAndKillsOwner v => (dtor (construct v o), false)

/-- What a call of `value()` (:139-164) gives: the object, or `__bad_optional_access`. -/
def value (o : Opt α) : Except Unit (Option α) :=
  if o.flag then .ok o.stored else .error ()

/-- `has_value()` (:197-200). -/
def hasValue (o : Opt α) : Bool := o.flag

/-- The member functions that change an `__optional`. -/
inductive Op (α : Type)
  | emplace (c : Ctor α)
  | reset
  deriving DecidableEq, Repr

/-- One call. -/
def step (o : Opt α) : Op α → Opt α
  | .emplace c => (emplace c o).1
  | .reset     => reset o

/-- Any number of calls, one after the other; a program that learns that the owner is gone makes no further call. -/
def runOps : Opt α → List (Op α) → Opt α
  | o, []        => o
  | o, op :: ops => if o.alive then runOps (step o op) ops else o

/-- The `__optional` goes out of scope, unless it is gone already. -/
def leave (o : Opt α) : Opt α := if o.alive then dtor o else o

/-- `__optional<void>` (:216-262): the flag and nothing else. -/
structure OptVoid where
  flag : Bool
  deriving DecidableEq, Repr

/-- `emplace` of `__optional<void>` (:224-228): whatever it is given. -/
def OptVoid.emplace (_ : OptVoid) : OptVoid := ⟨true⟩

/-- `reset` of `__optional<void>` (:255-258). -/
def OptVoid.reset (_ : OptVoid) : OptVoid := ⟨false⟩

/-! ## `reset()` called again by the destructor of the object it destroys -/

/-- `reset()` (:202-209) when the destructor of the object calls `reset()` on the same `__optional`, `n` levels deep. The
    object's life ends when its destructor is entered, and the flag is lowered only after `__destroy()` has returned
    (:206-207), so an inner call still finds it raised. -/
def resetReentered : Nat → Opt α → Opt α
  | 0,     o => reset o
  | n + 1, o =>
      let o := touch o
      if o.flag then setFlag false (resetReentered n (destroyValue o)) else o

/-! ## `__static_vector` -/

/-- A `__static_vector<_Tp, N>` (`__static_vector.hpp:91-175`): `__data_` (:174), with `none` for an element that has been moved
    from or never given a value, and `__size_` (:173). -/
structure SVec (α : Type) where
  data : List (Option α)
  size : Nat
  deriving DecidableEq, Repr

/-- The elements from `begin()` to `end()` (:126-148). -/
def SVec.elems (s : SVec α) : List (Option α) := s.data.take s.size

/-- Writing `xs` over the array from position `k` on: `std::copy` / `std::ranges::copy_n`. -/
def writeAt (d : List (Option α)) (k : Nat) : List (Option α) → List (Option α)
  | []      => d
  | x :: xs => writeAt (d.set k x) (k + 1) xs

/-- The constructor from an `initializer_list` (:101-107): as many elements as there is room for. -/
def SVec.ofList (cap : Nat) (init : List α) : SVec α :=
  let count := min init.length cap
  { data := writeAt (List.replicate cap none) 0 ((init.take count).map some), size := count }

/-- `resize` (:157-161); the assertion is the caller's to meet. -/
def SVec.resize (s : SVec α) (n : Nat) : SVec α := { s with size := n }

/-- `std::move(first, last, out)` (:169) with `n` elements from position `src` to `dst`: each is moved, and what it was moved from
    is left without a value. -/
def moveDown : Nat → Nat → Nat → List (Option α) → List (Option α)
  | 0,     _,   _,   d => d
  | n + 1, src, dst, d => moveDown n (src + 1) (dst + 1) ((d.set dst (d[src]?.join)).set src none)

/-- `erase(first, last)` (:163-173): returns the position `end()` of the shortened sequence. -/
def SVec.erase (s : SVec α) (first last : Nat) : SVec α × Nat :=
  let s' := if first ≠ last then
      ({ s with data := moveDown (s.size - last) last first s.data } : SVec α).resize (s.size - (last - first))
    else s
  (s', s'.size)

/-- `operator+` (:66-88), with the two cases in which one side can hold nothing. -/
def SVec.append (a b : SVec α) : SVec α :=
  if a.data.length = 0 then b
  else if b.data.length = 0 then a
  else
    ({ data := writeAt (writeAt (List.replicate (a.data.length + b.data.length) none) 0 a.elems) a.size b.elems,
       size := 0 } : SVec α).resize (a.size + b.size)

end Verif.Holder
