import Verif.Common
/-!
# `start_detached` and `submit`

`exec/start_detached.hpp` and `stdexec/__detail/__submit.hpp`: a heap-allocated operation that is constructed, started and deletes itself when it
completes. `submit_result` holds either the connected operation state or what the sender's own `submit` returned. One step per call that
can fail or complete the operation; the operation may complete at any moment after it was started, inside the starting call or on another thread.
`start_detached`'s path without an operation state (`:272-279`) is `Kind.direct`.
-/
namespace Verif.Detached

/-- What `submit_result` holds (`__submit.hpp:119-156`), or no operation at all. -/
inductive Kind
  | connect      -- the connected operation state (`:163-178`)
  | submit       -- an optional result of a `submit` that may throw (`:181-195`)
  | submitVoid   -- nothing (`:198-209`)
  | submitNothrow -- the result of a `submit` that does not throw (`:212-231`)
  | direct       -- `start_detached.hpp:276`: `submit` is called without an operation
  deriving DecidableEq, Repr

inductive Sig | value | stopped | error
  deriving DecidableEq, Repr

inductive PC
  | idle
  | alloc        -- `allocate` (`start_detached.hpp:289`)
  | env          -- `__op_base`'s environment is constructed (`:63`, `:112`)
  | conn         -- `__op_data_`'s constructor (`:113`): `connect` for `Kind.connect`
  | submit       -- the call of `start` / `submit` (`:122`, `:276`)
  | inside       -- inside that call, after the work was started
  | store        -- the call returns its result, which is stored in `__result_` (`__submit.hpp:189`, `:220`)
  | ret          -- `start_detached` has returned
  | threw        -- `start_detached` has thrown
  deriving DecidableEq, Repr

structure St where
  kind : Kind
  pc : PC := .idle
  allocs : Nat := 0         -- ghost: allocations
  frees : Nat := 0          -- ghost: deallocations
  envs : Nat := 0           -- ghost: environments constructed / destroyed
  envd : Nat := 0
  data : Nat := 0           -- ghost: connected operation states or stored results constructed / destroyed
  datad : Nat := 0
  alive : Bool := false     -- the operation is fully constructed and not destroyed
  flag : Bool := false      -- `__optional`'s `__has_value_`
  started : Bool := false   -- the work was started
  sigs : List Sig := []     -- ghost: the work's completions
  terminated : Bool := false
  bad : Bool := false       -- ghost: use after destruction, or destruction of something not constructed
  deriving DecidableEq, Repr

def init (k : Kind) : St := { kind := k }

inductive Act
  | call                 -- the user calls `start_detached`
  | ok                   -- the next call succeeds
  | throw                -- the next call throws
  | complete (g : Sig)   -- the work completes (any thread)
  deriving DecidableEq, Repr

/-- Does the destructor of `submit_result` destroy a member? (`__submit.hpp:177`, `:194`, `:225-228`) -/
def St.holds (x : St) : Bool :=
  match x.kind with
  | .connect => true
  | .submit => x.flag
  | .submitNothrow => true
  | _ => false

/-- Destructor of the operation and deallocation (`start_detached.hpp:125-134`): reads the environment, destroys `__op_data_` and the environment. -/
def St.delete (x : St) : St :=
  { x with
      alive := false, frees := x.frees + 1, envd := x.envd + 1, datad := if x.holds then x.datad + 1 else x.datad,
      bad := x.bad || !x.alive || (x.holds && decide (x.data ≠ x.datad + 1)) }

/-- One step. `late`: the work completes only when the call that starts it has returned. -/
def step (late : Bool) (x : St) : Act → Option St
  | .call => if x.pc = .idle then some { x with pc := if x.kind = .direct then .submit else .alloc } else none
  | .ok =>
    match x.pc with
    | .alloc => some { x with pc := .env, allocs := x.allocs + 1 }
    | .env => some { x with pc := .conn, envs := x.envs + 1 }
    | .conn => some { x with pc := .submit, data := if x.kind = .connect then x.data + 1 else x.data, alive := true }
    | .submit => some { x with pc := .inside, started := true, flag := decide (x.kind = .submit),
                               bad := x.bad || (decide (x.kind ≠ .direct) && !x.alive) }
    | .inside => some { x with pc := if x.kind = .submit ∨ x.kind = .submitNothrow then .store else .ret }
    | .store => some { x with pc := .ret, data := x.data + 1, bad := x.bad || !x.alive }
    | _ => none
  | .throw =>
    match x.pc with
    | .alloc => some { x with pc := .threw }
    | .env => some { x with pc := .threw, frees := x.frees + 1 }
    | .conn => if x.kind = .connect then some { x with pc := .threw, envd := x.envd + 1, frees := x.frees + 1 } else none
    | .submit =>
      match x.kind with
      | .submit => some { { x with flag := false }.delete with pc := .threw }
      | .submitVoid => some { x.delete with pc := .threw }
      | .direct => some { x with pc := .threw }
      | _ => none
    | _ => none
  | .complete g =>
    if x.started ∧ x.sigs = [] ∧ (late → x.pc = .ret) then
      let y := { x with sigs := x.sigs ++ [g] }
      match g with
      | .error => some { y with terminated := true }
      | _ => if x.kind = .direct then some y else some y.delete
    else none

end Verif.Detached
