import Verif.Common
/-!
# `bulk` on `parallel_scheduler` and on `task_scheduler`

Front ends: `stdexec/__detail/__parallel_scheduler.hpp:340-646` and `__task_scheduler.hpp:366-590`; back ends:
`__parallel_scheduler_default_impl.hpp:166-327` and `task_scheduler::__backend_for`, `__task_scheduler.hpp:738-836`.

A front end stores the predecessor's values and asks its back end to run `count` items; the back end calls
`execute(begin, end)` for ranges of items, possibly concurrently and in any order, and completes when all have returned; `execute`
invokes the user's function. A range of indices is a pair `(begin, end)`.

Simplifications: values are not represented; the pool's `bulk` invokes its function once per item and completes afterwards (C36, C37);
an invocation is one step.
-/
namespace Verif.ParSched

/-- The scheduler: `parallel_scheduler` or `task_scheduler`. -/
inductive Front | par | task
  deriving DecidableEq, Repr

/-- The algorithm: `bulk_chunked` (and `bulk`, which is lowered to it) or `bulk_unchunked`. -/
inductive Kind | chunked | unchunked
  deriving DecidableEq, Repr

/-- One bulk operation. -/
structure Cfg where
  front : Front
  kind : Kind
  par : Bool    -- `__parallelize`: the policy is `par` or `par_unseq` (`__parallel_scheduler.hpp:755-757`, `__task_scheduler.hpp:526-529`)
  n : Nat       -- the shape
  deriving DecidableEq, Repr

/-- The number of items the front end asks its back end for: `__parallelize ? __size : 1` (`__parallel_scheduler.hpp:534-545`), but
`__shape_` in any case on a `task_scheduler` (`__task_scheduler.hpp:383-395`). -/
def items (c : Cfg) : Nat :=
  match c.front with
  | .par => if c.par then c.n else 1
  | .task => c.n

/-- The invocations of the user's function made by one `execute(b, e)`, in order (`__parallel_scheduler.hpp:400-430`;
`__task_scheduler.hpp:425-491, 521-535`): an invocation covers the indices `[b, e)` (chunked) or one index (unchunked). -/
def work (c : Cfg) (r : Nat × Nat) : List (Nat × Nat) :=
  match c.kind with
  | .chunked => if c.par then [r] else [(0, c.n)]
  | .unchunked => (List.range (if c.par then 1 else c.n)).map (fun j => (r.1 + j, r.1 + j + 1))

/-! ## The default back end -/

/-- `size_t` arithmetic is modulo `2^64`. -/
def W : Nat := 2 ^ 64

/-- `__chunk_size` (`__parallel_scheduler_default_impl.hpp:282-285`), for a pool of `a` threads. -/
def chunkSize (a size : Nat) : Nat :=
  if 0 < a ∧ size > (3 * a) % W then size / a / 2 else 1

/-- `__num_chunks` (`:286`). -/
def numChunks (a size : Nat) : Nat := ((size + chunkSize a size - 1) % W) / chunkSize a size

/-- `__chunker::__begin` (`:205-209`). -/
def chunkBegin (cs i : Nat) : Nat := (i * cs) % W

/-- `__chunker::__end` (`:211-215`). -/
def chunkEnd (cs size i : Nat) : Nat := min (chunkBegin cs (i + 1)) size

/-- The `execute` calls made by the default back end: `__bulk_chunked_functor`, `__bulk_unchunked_functor` (`:218-239`), for the items of
`schedule_bulk_chunked`, `schedule_bulk_unchunked` (`:274-326`). -/
def defaultExecs (a : Nat) (k : Kind) (size : Nat) : List (Nat × Nat) :=
  match k with
  | .chunked => (List.range (numChunks a size)).map (fun i => (chunkBegin (chunkSize a size) i, chunkEnd (chunkSize a size) size i))
  | .unchunked => (List.range size).map (fun i => (i, i + 1))

/-- The `execute` calls made by the back end of a `task_scheduler` (`__bulk_chunked_fn`, `__bulk_unchunked_fn`,
`__task_scheduler.hpp:635-655`, passed to `bulk_chunked` / `bulk_unchunked` with `par`, `:800-822`): the ranges for which the
underlying scheduler's algorithm calls its function. -/
def taskExecs (chunks : Nat → List (Nat × Nat)) (k : Kind) (size : Nat) : List (Nat × Nat) :=
  match k with
  | .chunked => chunks size
  | .unchunked => (List.range size).map (fun i => (i, i + 1))

/-! ## The run -/

/-- What the receiver is sent. -/
inductive Sig | value | error | stopped
  deriving DecidableEq, Repr

structure St where
  todo : List (Nat × Nat)                  -- `execute` calls not made yet
  run : List (List (Nat × Nat)) := []      -- running `execute` calls: the invocations they still have to make
  calls : List (Nat × Nat) := []           -- ghost: invocations of the user's function so far
  sigs : List Sig := []                    -- ghost: completions sent to the receiver
  fresh : Bool := true                     -- nothing has happened
  fin : Bool := false                      -- the back end has sent its completion
  refused : Bool := false                  -- …without running anything
  throws : Nat := 0                        -- ghost: invocations that threw
  term : Bool := false                     -- `std::terminate` or `std::unreachable` was called
  deriving Repr

inductive Act
  | refuse (stop : Bool)
  | begin (k : Nat)
  | call (k : Nat) (thr : Bool)
  | ret (k : Nat)
  | complete
  deriving DecidableEq, Repr

/-- One step. -/
def step (c : Cfg) (s : St) (a : Act) : Option St :=
  if s.term then none else
  match a with
  -- the operation cannot be set up (`__rcvr.set_error(std::current_exception())`, `__parallel_scheduler_default_impl.hpp:300-303`; on a
  -- `task_scheduler`, `__task_scheduler.hpp:761-771`, that call is `unreachable`, `__parallel_scheduler_backend.hpp:236-242` with
  -- `_Infallible`), or the pool's operation is stopped (`__proxy_receiver::set_stopped`)
  | .refuse stop =>
    if s.fresh then
      if c.front = .task ∧ stop = false then some { s with fresh := false, term := true }
      else some { s with todo := [], fresh := false, fin := true, refused := true, sigs := s.sigs ++ [if stop then .stopped else .error] }
    else none
  -- some thread calls `execute`
  | .begin k =>
    match s.todo[k]? with
    | some r => some { s with fresh := false, todo := s.todo.eraseIdx k, run := s.run ++ [work c r] }
    | none => none
  -- a running `execute` invokes the user's function; an exception: `execute` of `parallel_scheduler` is `noexcept` without a handler
  -- (`__parallel_scheduler.hpp:401`), that of `task_scheduler` sends it to the receiver (`__task_scheduler.hpp:537-540`) and returns
  | .call k thr =>
    match s.run[k]? with
    | some (r :: rs) =>
      if thr then
        match c.front with
        | .par => some { s with calls := s.calls ++ [r], throws := s.throws + 1, term := true }
        | .task => some { s with calls := s.calls ++ [r], throws := s.throws + 1, run := s.run.eraseIdx k, sigs := s.sigs ++ [.error] }
      else some { s with calls := s.calls ++ [r], run := s.run.set k rs }
    | _ => none
  -- `execute` returns
  | .ret k =>
    match s.run[k]? with
    | some [] => some { s with run := s.run.eraseIdx k }
    | _ => none
  -- all `execute` calls have returned: the back end sends `set_value` (`__proxy_receiver::set_value`, `__parallel_scheduler_backend.hpp:393-398`),
  -- which sends the stored values to the receiver (`__parallel_scheduler.hpp:370-380`, `__task_scheduler.hpp:512-519`)
  | .complete =>
    if s.todo = [] ∧ s.run = [] ∧ s.fin = false then some { s with fresh := false, fin := true, sigs := s.sigs ++ [.value] } else none

/-- The initial state, for a back end that makes the given `execute` calls. -/
def init (execs : List (Nat × Nat)) : St := { todo := execs }

end Verif.ParSched
