import Verif.SyncWait.Props
/-!
# The stream scheduler's `sync_wait` — model (C85)

Models `/repo/include/nvexec/stream/sync_wait.cuh`: `receiver` 56-169 (`_set_error` 60-72, `set_value` 92-131, `set_error`
134-145, `set_stopped` 147-159), `state` 172-178, `sync_wait_t::operator()` 184-220, on top of the `run_loop` of
`Verif.RunLoop` (its state is the component `rl`). The operation completes once, on any thread and at any time after
`start` (inline included); the sender may use the loop's scheduler (162-165) until `run()` has returned.
Simplifications: values and error codes are numbers (0: `cudaSuccess`); `cudaStreamSynchronize` and the store of its
outcome into `data_` are one step; the prefetches (101-113) only give hints to the driver and are left out; the failed
host allocation (202-205) is before the operation exists and is left out. The loop's destructor is modelled by `gone`,
so that a use of the loop after its destruction is recorded whatever the loop would have done.
-/
namespace Verif.NvSyncWait

/-- `cudaErrorUnknown`. -/
def unknown : Nat := 999

/-- The sender's completion. -/
inductive Compl
  /-- `throws`: storing the values into `data_` throws this (118) -/
  | value (vs : List Nat) (throws : Option Nat)
  /-- an error of type `cudaError_t` -/
  | cuda (e : Nat)
  /-- an error of any other type (an `exception_ptr`, ...) -/
  | other (e : Nat)
  | stopped
  deriving DecidableEq, Repr

/-- `state::data_` (177); index 0 is `none`. -/
inductive Data
  | value (vs : List Nat)
  | err (e : Nat)
  | stopped
  deriving DecidableEq, Repr

/-- What the call of `sync_wait` does (213-219). -/
inductive Out
  /-- returns an optional tuple -/
  | ret (v : Option (List Nat))
  /-- throws a `cudaError_t` -/
  | throws (e : Nat)
  /-- `std::get<1>` of a variant that holds nothing -/
  | badAccess
  deriving DecidableEq, Repr

structure St where
  rl : RunLoop.St := {}
  data : Option Data := none
  started : Bool := false
  out : Option Out := none
  /-- the local variables of `sync_wait` (`state`, `loop`, the operation state) are destroyed -/
  gone : Bool := false
  -- ghost
  /-- the sender's completion, and what `cudaStreamSynchronize` returned then -/
  compl : Option (Compl × Nat) := none
  /-- the completing thread used the local variables after their destruction -/
  uaf : Bool := false

inductive Act
  /-- the waiting thread connects and starts (191-208) -/
  | start
  /-- the sender completes; `cudaStreamSynchronize` returns `status`; the outcome is stored -/
  | complete (c : Compl) (status : Nat)
  /-- the completing thread inside the first call of `finish()` (71, 125 or 158) -/
  | finish
  /-- the completing thread inside the second call of `finish()` (125 or 158 after 71) -/
  | finish2
  /-- the waiting thread inside `run()` (211) -/
  | run
  | sched (n : Nat)
  | requestStop (n : Nat)
  /-- the waiting thread reads `data_` and returns or throws (213-219) -/
  | ret
  /-- the end of the scope of the local variables (220) -/
  | destroy

/-- What is stored in `data_` (62-70, 115-123, 129, 136-144, 149-157). -/
def store (c : Compl) (status : Nat) : Data :=
  if status = 0 then
    match c with
    | .value vs none => .value vs
    | .value _ (some _) => .err unknown
    | .cuda e => .err e
    | .other _ => .err unknown
    | .stopped => .stopped
  else .err status

/-- `finish()` is called a second time: `_set_error` was called from `set_value` (122, then 125) or `set_stopped` (156,
then 158). -/
def again (c : Compl) (status : Nat) : Bool :=
  match c with
  | .value _ _ => status != 0
  | .cuda _ => false
  | .other _ => false
  | .stopped => status != 0

/-- A step of the run loop. -/
def onLoop (st : Nat → Bool) (s : St) (a : RunLoop.Act) : Option St :=
  (RunLoop.step st s.rl a).map fun r => { s with rl := r }

/-- A step of `finish()` by the completing thread: through the receiver's `loop_`, both inside the local variables. -/
def onFinish (st : Nat → Bool) (s : St) (f : Nat) : Option St :=
  onLoop st { s with uaf := s.uaf || s.gone } (.finish f)

def step (st : Nat → Bool) (s : St) : Act → Option St
  | .start => if s.started = false then some { s with started := true } else none
  | .complete c status =>
    if s.started = true ∧ s.compl = none then
      some { s with data := some (store c status), compl := some (c, status), uaf := s.uaf || s.gone }
    else none
  | .finish => if s.compl ≠ none then onFinish st s 0 else none
  | .finish2 =>
    if s.rl.fp 0 = .done ∧ s.compl.any (fun p => again p.1 p.2) = true then onFinish st s 1 else none
  | .run => if s.started = true then onLoop st s .run else none
  | .sched n => if s.rl.sp n = .idle ∧ s.rl.rp = .returned then none else onLoop st s (.start n)
  | .requestStop n => onLoop st s (.requestStop n)
  | .ret =>
    if s.rl.rp = .returned ∧ s.out = none then
      some { s with out := some (match s.data with
        | some (.err e) => .throws e
        | some .stopped => .ret none
        | some (.value vs) => .ret (some vs)
        | none => .badAccess) }
    else none
  | .destroy => if s.out ≠ none ∧ s.gone = false then some { s with gone := true } else none

def init : St := {}
abbrev Reachable (st : Nat → Bool) (s : St) : Prop := Reach init (step st) s

end Verif.NvSyncWait
