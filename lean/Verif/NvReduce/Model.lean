import Verif.Common
/-!
# `reduce` on a GPU stream (`nvexec/stream/reduce.cuh`)

What the receiver of `reduce` does with the completion of its sender, as the list of events, for any range, any function and any failure
of the CUDA runtime.

Models `reduce_::receiver::set_value_impl` (:52-122) of `nvexec/stream/reduce.cuh`, `__algo_range_init_fun::receiver` (:38-91) of
`nvexec/stream/algorithm_base.cuh`, and `opstate_base::propagate_completion_signal` and `defer_temp_storage_destruction` (:694-732, :742-772) of
`nvexec/stream/common.cuh`.

Simplifications: elements and the result are of one type; `cub::DeviceReduce::Reduce` is taken at its word, that is for an associative
function it puts the sum of the range and the initial value where it is told, on the stream; errors are numbers, 0 is success. The two
kinds of receiver differ in who completes them (the host or a kernel, which gets references and comes after the reduction in stream
order); neither reads the result before it is there.
-/
namespace Verif.NvReduce
variable {α : Type}

/-- How the sender completes. -/
inductive Input (α : Type)
  | range (l : List α)
  | error (e : Nat)
  | stopped
  deriving DecidableEq, Repr

/-- How the receiver is completed: with the result, with an error of the sender, with an error of the runtime, or stopped. -/
inductive Output (α : Type)
  | value (v : α)
  | error (e : Nat)
  | cuda (status : Nat)
  | stopped
  deriving DecidableEq, Repr

/-- What can be seen. -/
inductive Ev (α : Type)
  | wait
  | query
  | allocTemp
  | freeTemp
  /-- The reduction puts its result into the storage of the operation. -/
  | result (v : α)
  | complete (o : Output α)
  /-- The result is destroyed. -/
  | destroy
  /-- The storage of the operation is given back. -/
  | dealloc
  deriving DecidableEq, Repr

/-- The initial value and the function, the completion of the sender, whether the result's type has a trivial destructor, and what the
    five calls of the runtime return. -/
structure World (α : Type) where
  init : α
  f : α → α → α
  input : Input α
  trivial : Bool
  sync : Nat
  size : Nat
  alloc : Nat
  reduce : Nat
  free : Nat

/-- What the reduction is to compute. -/
def World.total (w : World α) (l : List α) : α := l.foldl w.f w.init

/-- `set_value_impl` (`reduce.cuh:52-122`): wait until the range is there; ask for the size of the temporary storage; allocate it;
    reduce; free it; complete. -/
def setValue (w : World α) (l : List α) : List (Ev α) :=
  if w.sync ≠ 0 then [.wait, .complete (.cuda w.sync)]
  else if w.size ≠ 0 then [.wait, .query, .complete (.cuda w.size)]
  else if w.alloc ≠ 0 then [.wait, .query, .complete (.cuda w.alloc)]
  else if w.reduce ≠ 0 then [.wait, .query, .allocTemp, .complete (.cuda w.reduce)]
  else if w.free = 0 then [.wait, .query, .allocTemp, .result (w.total l), .freeTemp, .complete (.value (w.total l))]
  else [.wait, .query, .allocTemp, .result (w.total l), .complete (.cuda w.free)]

/-- The receiver (`algorithm_base.cuh:62-77`): an error and stopped are passed on. -/
def receive (w : World α) : List (Ev α) :=
  match w.input with
  | .range l => setValue w l
  | .error e => [.complete (.error e)]
  | .stopped => [.complete .stopped]

/-- Whether the reduction has been run, so that `defer_temp_storage_destruction` (`reduce.cuh:112`, `common.cuh:694-729`) has been called. -/
def reduced (w : World α) : Bool :=
  match w.input with
  | .range _ => decide (w.sync = 0 ∧ w.size = 0 ∧ w.alloc = 0 ∧ w.reduce = 0)
  | _ => false

/-- The operation to its end: a result that is not trivial is destroyed before its storage is given back. -/
def run (w : World α) : List (Ev α) :=
  receive w ++ (if reduced w = true ∧ w.trivial = false then [.destroy] else []) ++ [.dealloc]

end Verif.NvReduce
