import Verif.Common

/-!
# Which algorithm is used: `transform_sender` (`stdexec/__detail/__transform_sender.hpp`, `__domain.hpp`)

Before a sender is connected it is transformed twice: by the domains on which it completes, until the type no longer changes, and then by the
domain on which it is started, until the type no longer changes.

Senders are values of some type `S`, each with a (C++) type in `T`; what a domain does is given by functions on them. `none` is a program that
does not compile: a failed `static_assert`, or an instantiation deeper than the limit. Simplifications: the environment is fixed; senders are
handled by value (no value categories); a transformation whose result type is an error type is one that does not compile.
-/
namespace Verif.Domain

/-- The two operation tags: `set_value_t`, `start_t`. -/
inductive Op
  | value
  | start
  deriving DecidableEq, Repr

/-- Domains: `default_domain`, a user's, `indeterminate_domain` of some. -/
inductive Dom
  | dflt
  | user (n : Nat)
  | indet (ns : List Nat)
  deriving DecidableEq, Repr

/-- Result of a call. -/
inductive Ex (S : Type)
  | ok (s : S)
  | thrown (e : Nat)
  deriving DecidableEq, Repr

/-- What the types and functions of a program say. -/
structure World (T S : Type) where
  /-- type of a sender -/
  ty : S → T
  /-- `__has_transform_sender` for a user's domain (__domain.hpp:45-50) -/
  has : Nat → Op → T → Bool
  /-- `__transform_sender_result_t` for a user's domain (:59-62) -/
  urty : Nat → Op → T → T
  /-- its `transform_sender` -/
  uapp : Nat → Op → S → Ex S
  /-- `__has_nothrow_transform_sender` (:52-57) -/
  unt : Nat → Op → T → Bool
  /-- the same for `default_domain` (:74-94): the algorithm's own transformation, or the sender itself -/
  drty : Op → T → T
  dapp : Op → S → Ex S
  dnt : Op → T → Bool
  /-- `__completing_domain_t` (:201-202) -/
  cd : T → Dom
  /-- `__starting_domain_t` (:198) -/
  sd : Dom

variable {T S : Type} [DecidableEq T]

/-- The declarations say the truth about the functions. -/
structure World.Ok (w : World T S) : Prop where
  urt : ∀ n op s r, w.has n op (w.ty s) = true → w.uapp n op s = .ok r → w.ty r = w.urty n op (w.ty s)
  unx : ∀ n op s e, w.has n op (w.ty s) = true → w.uapp n op s = .thrown e → w.unt n op (w.ty s) = false
  drt : ∀ op s r, w.dapp op s = .ok r → w.ty r = w.drty op (w.ty s)
  dnx : ∀ op s e, w.dapp op s = .thrown e → w.dnt op (w.ty s) = false

/-- `__default_domain_like` (__domain.hpp:108-111). -/
def dflike (w : World T S) (op : Op) (t : T) (n : Nat) : Bool := !w.has n op t || decide (w.urty n op t = w.drty op t)

/-- Result type of one transformation (`__domain_for_t`, __transform_sender.hpp:47-49; `indeterminate_domain`, __domain.hpp:114-143). -/
def rty (w : World T S) (d : Dom) (op : Op) (t : T) : Option T :=
  match d with
  | .dflt => some (w.drty op t)
  | .user n => some (if w.has n op t then w.urty n op t else w.drty op t)
  | .indet ns => if ns.all (dflike w op t) then some (w.drty op t) else none

/-- One transformation. -/
def app (w : World T S) (d : Dom) (op : Op) (s : S) : Ex S :=
  match d with
  | .dflt => w.dapp op s
  | .user n => if w.has n op (w.ty s) then w.uapp n op s else w.dapp op s
  | .indet _ => w.dapp op s

/-- Whether it is `noexcept`. -/
def nt (w : World T S) (d : Dom) (op : Op) (t : T) : Bool :=
  match d with
  | .dflt => w.dnt op t
  | .user n => if w.has n op t then w.unt n op t else w.dnt op t
  | .indet _ => w.dnt op t

/-- Domain of the next round (:69-80): the starting domain stays, the completing domain is that of the new sender. -/
def next (w : World T S) (d : Dom) (op : Op) (t : T) : Dom := if op = .start then d else w.cd t

/-- `__get_declfn` (:52-82): result type and `noexcept` of the whole transformation. The parameter `_Nothrow` is handed on, and not used in the
end. -/
def decl (w : World T S) (op : Op) : Nat → Dom → T → Bool → Option (T × Bool)
  | 0, _, _, _ => none
  | n + 1, d, t, nothrow =>
    match rty w d op t with
    | none => none
    | some r => if r = t then some (r, nt w d op t) else decl w op n (next w d op r) r (nothrow && nt w d op t)

/-- Outcome of a call of a function that may be `noexcept`. -/
inductive Out (S : Type)
  | value (s : S)
  | thrown (e : Nat)
  | terminate
  deriving DecidableEq, Repr

/-- An exception that leaves a `noexcept` function. -/
def guard (nx : Bool) (o : Out S) : Out S :=
  match o with
  | .thrown e => if nx then .terminate else .thrown e
  | o => o

/-- `operator()` (:92-121). -/
def run (w : World T S) (op : Op) : Nat → Dom → S → Option (Out S)
  | 0, _, _ => none
  | n + 1, d, s =>
    match decl w op (n + 1) d (w.ty s) true with
    | none => none
    | some (_, nx) =>
      match app w d op s with
      | .thrown e => some (guard nx (.thrown e))
      | .ok r => if w.ty r = w.ty s then some (guard nx (.value r)) else (run w op n (next w d op (w.ty r)) r).map (guard nx)

/-- `transform_sender` (:124-166) with `n` as the limit on the depth: first the completing domain, then the starting domain. -/
def transform (w : World T S) (n : Nat) (s : S) : Option (Out S) :=
  match decl w .value n (w.cd (w.ty s)) (w.ty s) true with
  | none => none
  | some (t, nx2) =>
    match decl w .start n w.sd t true with
    | none => none
    | some (_, nx1) =>
      match run w .value n (w.cd (w.ty s)) s with
      | none => none
      | some (.value m) => (run w .start n w.sd m).map (guard (nx1 && nx2))
      | some o => some (guard (nx1 && nx2) o)

end Verif.Domain
