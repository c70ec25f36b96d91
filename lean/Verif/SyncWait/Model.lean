import Verif.RunLoop.Props
/-!
# `sync_wait` — model (C34)

Models `/repo/include/stdexec/__detail/__sync_wait.hpp`: `__state` 92-96, `__receiver` 98-163 (`set_value` 104-116,
`set_error` 118-147, `set_stopped` 149-152), `sync_wait_t::apply_sender` 389-416, on top of the `run_loop` of
`Verif.RunLoop` (its state is the component `rl`). The sender is any operation that completes once, on any thread and
at any time after `start` (inline included, before `run()` is called); anybody may schedule work on the loop
(`get_scheduler` / `get_delegation_scheduler`) at any time.
Simplifications: values are numbers; the completing thread's stores into `__eptr_` / `__result` are one step
before `finish()`.
-/
namespace Verif.SyncWait

/-- A thrown object. -/
inductive Exn
  /-- the exception a `std::exception_ptr` refers to -/
  | ref (e : Nat)
  /-- `std::system_error(code)` -/
  | systemError (code : Nat)
  /-- an error object of any other type, thrown as it is -/
  | obj (e : Nat)
  /-- thrown while storing the values -/
  | store (e : Nat)
  deriving DecidableEq, Repr

inductive Err
  /-- `std::exception_ptr`; `none`: null -/
  | ptr (e : Option Nat)
  | code (c : Nat)
  | other (e : Nat)
  deriving DecidableEq, Repr

/-- The sender's completion. -/
inductive Compl
  /-- `throws`: constructing the result tuple throws this -/
  | value (vs : List Nat) (throws : Option Nat)
  | error (e : Err)
  | stopped
  deriving DecidableEq, Repr

/-- What the call of `sync_wait` does: return an optional tuple, or throw. -/
inductive Out
  | ret (v : Option (List Nat))
  | throws (e : Exn)
  deriving DecidableEq, Repr

structure St where
  rl : RunLoop.St := {}
  eptr : Option Exn := none
  result : Option (List Nat) := none
  /-- the operation was started -/
  started : Bool := false
  out : Option Out := none
  -- ghost
  compl : Option Compl := none
  uaf : Bool := false

inductive Act
  /-- the waiting thread connects and starts (396-404) -/
  | start
  /-- the sender completes: the receiver's stores (106-114, 131-144, 151) -/
  | complete (c : Compl)
  /-- the completing thread inside `finish()` -/
  | finish
  /-- the waiting thread inside `run()` (407) -/
  | run
  /-- somebody schedules on the loop -/
  | sched (n : Nat)
  | requestStop (n : Nat)
  /-- the waiting thread returns or throws (409-414) -/
  | ret
  /-- the local state goes out of scope -/
  | destroy

/-- The stores made by the receiver. -/
def store (s : St) : Compl → St
  | .value vs none => { s with result := some vs }
  | .value _ (some x) => { s with eptr := some (.store x) }
  | .error (.ptr e) => { s with eptr := e.map .ref }
  | .error (.code c) => { s with eptr := some (.systemError c) }
  | .error (.other e) => { s with eptr := some (.obj e) }
  | .stopped => s

/-- A step of the run loop. -/
def onLoop (st : Nat → Bool) (s : St) (a : RunLoop.Act) : Option St :=
  (RunLoop.step st s.rl a).map fun r => { s with rl := r }

def step (st : Nat → Bool) (s : St) : Act → Option St
  | .start => if s.started = false then some { s with started := true } else none
  | .complete c =>
    if s.started = true ∧ s.compl = none then
      some { store s c with compl := some c, uaf := s.uaf || s.rl.dead }
    else none
  | .finish => if s.compl ≠ none then onLoop st s (.finish 0) else none
  | .run => if s.started = true then onLoop st s .run else none
  | .sched n => onLoop st s (.start n)
  | .requestStop n => onLoop st s (.requestStop n)
  | .ret =>
    if s.rl.rp = .returned ∧ s.out = none then
      some { s with out := some (match s.eptr with
        | some e => .throws e
        | none => .ret s.result) }
    else none
  | .destroy => if s.out ≠ none then onLoop st s .destroy else none

def init : St := {}
abbrev Reachable (st : Nat → Bool) (s : St) : Prop := Reach init (step st) s

end Verif.SyncWait
