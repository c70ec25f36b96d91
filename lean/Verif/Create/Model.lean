import Verif.Common
/-!
# `create` (`exec/create.hpp`) and `just_from` (`exec/just_from.hpp`)

A sender made from a function: starting it calls the function with the receiver and the arguments, and keeps what the function
returns until the operation is destroyed. The model is the list of what is done, for any function and any owner.

Models `__void::emplace` (:27-34), `__context` (:36-41), `__opstate::start` (:50-54) and its members (:56-61), and
`__sender::connect` (:74-84) of `exec/create.hpp`; and of `std::optional`, which `__state_t` is when the function returns something
(:48), what its contract says: `emplace` constructs the object in the storage of the optional and it is then engaged, and its
destructor destroys the object of an engaged one. `__emplace_from` makes the construction the call of the function.

Simplifications: arguments, results and completions are numbers and channels with numbers. The function must be `noexcept`
(:77), so it returns. What the function does besides completing the receiver is not modelled.
-/
namespace Verif.Create

/-- The channels. -/
inductive Tag
  | value | error | stopped
  deriving DecidableEq, Repr

/-- A completion. -/
structure Sig where
  tag : Tag
  arg : Nat
  deriving DecidableEq, Repr

/-- What can be seen of an operation. -/
inductive Ev
  /-- The function is called with these arguments. -/
  | call (args : List Nat)
  /-- The receiver is completed. -/
  | complete (s : Sig)
  /-- What the function returned is put into the operation state. -/
  | keep (v : Nat)
  /-- `std::optional` notes that it holds something: a write into the operation state. -/
  | engage
  /-- What the function returned is destroyed. -/
  | drop (v : Nat)
  /-- The memory of the operation state is gone. -/
  | gone
  deriving DecidableEq, Repr

/-- The function and the owner: the arguments given to `create`; what the function completes the receiver with before it returns, if
    it does; what it returns (`none` for `void`); what the receiver is completed with after it has returned, if it is; and whether the
    owner destroys the operation as soon as the receiver is completed, as one may (otherwise it does so at the end). -/
structure World where
  args : List Nat
  inline : Option Sig
  returns : Option Nat
  later : Option Sig
  eager : Bool
  deriving DecidableEq, Repr

/-- `connect` (:74-84) of a sender with these arguments, `k` times: an lvalue's are copied, so each operation has its own. -/
def connect (args : List Nat) (k : Nat) : List (List Nat) := List.replicate k args

/-- `~__opstate`: `__state_` is destroyed first (declared last, :60-61); it holds something if it is engaged. -/
def destroy (held : Option Nat) : List Ev :=
  (match held with | some v => [.drop v] | none => []) ++ [.gone]

/-- The function's body: it may complete the receiver, whose owner may destroy the operation, in which `__state_` holds nothing yet. -/
def body (w : World) : List Ev :=
  [.call w.args] ++
  (match w.inline with
   | some s => [.complete s] ++ (if w.eager = true then destroy none else [])
   | none   => [])

/-- `start()` (:50-54): `__state_.emplace(__emplace_from{...})`. If the function returns nothing, `__void::emplace` (:29-33) calls it and that
    is all; otherwise what it returns is constructed in `__state_` and the optional becomes engaged. -/
def start (w : World) : List Ev :=
  body w ++ (match w.returns with | some v => [.keep v, .engage] | none => [])

/-- The operation from `start` to its end. -/
def run (w : World) : List Ev :=
  start w ++
  (if w.inline.isSome = true ∧ w.eager = true then []
   else (match w.later with | some s => [.complete s] | none => []) ++ destroy w.returns)

/-! ## `just_from` (`exec/just_from.hpp`) -/

/-- A function given to `just_from`, `just_error_from` or `just_stopped_from` (`just_from.hpp:216-280`): the channel of the algorithm,
    the arguments of its calls of the sink, in order; the exception it ends with, if it does; and whether it is declared `noexcept`. -/
structure Sink where
  tag : Tag
  sinks : List (List Nat)
  throws : Option Nat
  nothrow : Bool
  deriving DecidableEq, Repr

/-- A completion with any number of arguments. -/
structure Done where
  tag : Tag
  args : List Nat
  deriving DecidableEq, Repr

/-- What `start` comes to. -/
inductive Outcome
  | done (l : List Done)
  | terminated
  deriving DecidableEq, Repr

/-- `_complete_fn` (:67-78): each call of the sink completes the receiver. -/
def sunk (w : Sink) : List Done := w.sinks.map fun a => ⟨w.tag, a⟩

/-- `_opstate::start` (:88-106): a `noexcept` function is called as it is, so that an exception ends the program (`start` is
    `noexcept`); for any other an exception is caught and delivered as an error. -/
def startFrom (w : Sink) : Outcome :=
  match w.throws with
  | none   => .done (sunk w)
  | some e => if w.nothrow = true then .terminated else .done (sunk w ++ [⟨.error, [e]⟩])

/-- The channels of the declared completion signatures (`_completions`, :108-125): the algorithm's, and the error channel unless the
    function is `noexcept`. -/
def declared (w : Sink) : List Tag := if w.nothrow = true then [w.tag] else [w.tag, .error]

end Verif.Create
