import Verif.Run
/-!
# The stream scheduler's `repeat_n` — model (C86)

Models `/repo/include/nvexec/stream/repeat_n.cuh`: `receiver` 34-65, `opstate` 67-150 (constructor 75-85, `_connect` 87-92,
`_complete` 95-126, `start` 128-144), and the delivery of the result by `propagate_completion_signal`
(`/repo/include/nvexec/stream/common.cuh` 742-772): directly when the outer receiver is a stream receiver, otherwise by a
kernel which gets a CUDA error code by value and any other argument by reference.

The environment is arbitrary: how each run of the child completes, whether it does so inside its `start()` (as stream
senders do: they enqueue and complete, `/repo/include/nvexec/stream_context.cuh` 96-99) or later on another stack, whether
connecting it throws, whether copying its error throws.
Simplifications: one step per call of `_complete`; errors are numbers; the stack is represented by the number of nested
calls of `_complete` on it.
-/
namespace Verif.NvRepeat

/-- How a run of the child completes. -/
inductive Compl
  | value
  /-- an error of type `cudaError_t` -/
  | cuda (e : Nat)
  /-- an error of any other type -/
  | other (e : Nat)
  | stopped
  deriving DecidableEq, Repr

/-- What the outer receiver gets. -/
inductive Out
  | value
  | cuda (e : Nat)
  | other (e : Nat)
  /-- an exception caught at 122-125 -/
  | exn
  | stopped
  deriving DecidableEq, Repr

/-- The environment. -/
structure Cfg where
  /-- number of repetitions asked for -/
  n : Nat
  /-- `stream_provider_.status_` (0: `cudaSuccess`) -/
  status : Nat
  /-- the outer receiver is a stream receiver -/
  stream : Bool
  /-- completion of run `i` -/
  child : Nat → Compl
  /-- run `i` completes inside its `start()` -/
  inl : Nat → Bool
  /-- connecting run `i` (`i > 0`) throws -/
  connThrows : Nat → Bool
  /-- copying the error of run `i` throws (103) -/
  copyThrows : Nat → Bool

structure St where
  /-- `count_` -/
  count : Nat
  /-- `inner_opstate_`: the run connected, if any -/
  inner : Option Nat
  started : Bool := false
  /-- a run has been started and has not completed -/
  running : Bool := false
  /-- a kernel enqueued to deliver the result -/
  kernel : Option Out := none
  /-- the kernel's argument refers to a local variable of `_complete` -/
  localRef : Bool := false
  /-- the calls of `_complete` on the stack of the thread that executes them -/
  depth : Nat := 0
  -- ghost
  /-- what the outer receiver got -/
  out : List Out := []
  /-- runs started, in order -/
  runs : List Nat := []
  /-- runs connected / op states destroyed -/
  conns : List Nat
  dtors : List Nat := []
  /-- deepest stack so far -/
  peak : Nat := 0
  /-- a kernel read a local variable of a function that had returned -/
  dangling : Bool := false
  deriving DecidableEq, Repr

/-- The constructor (75-85). -/
def init (c : Cfg) : St :=
  { count := c.n, inner := if c.n = 0 then none else some 0, conns := if c.n = 0 then [] else [0] }

inductive Act
  | start
  /-- the run in progress completes -/
  | complete
  /-- the functions on the stack return -/
  | unwind
  /-- the kernel executes -/
  | kernel
  deriving DecidableEq, Repr

/-- `propagate_completion_signal` (common.cuh 742-772). `loc`: the argument is a local variable. -/
def propagate (c : Cfg) (s : St) (o : Out) (loc : Bool) : St :=
  if c.stream then { s with out := s.out ++ [o] } else { s with kernel := some o, localRef := loc }

/-- `start(_connect())` (87-92, 114), for run `i`; the exception of `_connect` is caught at 122-125. -/
def next (c : Cfg) (s : St) (i : Nat) : St :=
  if c.connThrows i then propagate c s .exn true
  else { s with inner := some i, conns := s.conns ++ [i], runs := s.runs ++ [i], running := true }

/-- `inner_opstate_.reset()` (104). -/
def reset (s : St) (i : Nat) : St := { s with inner := none, dtors := s.dtors ++ [i] }

/-- `_complete` (95-126), called by run `i`. -/
def complete (c : Cfg) (s : St) (i : Nat) : St :=
  match c.child i with
  | .value =>
    if s.count - 1 = 0 then propagate c { reset s i with count := s.count - 1 } .value false
    else next c { reset s i with count := s.count - 1 } (i + 1)
  | .cuda e => propagate c (reset s i) (.cuda e) false
  | .other e => if c.copyThrows i then propagate c s .exn true else propagate c (reset s i) (.other e) true
  | .stopped => propagate c (reset s i) .stopped false

def step (c : Cfg) (s : St) : Act → Option St
  | .start =>
    if s.started then none
    else if c.status ≠ 0 then some (propagate c { s with started := true } (.cuda c.status) false)
    else if s.count = 0 then some (propagate c { s with started := true } .value false)
    else match s.inner with
      | none => none
      | some i => some { s with started := true, running := true, runs := s.runs ++ [i] }
  | .complete =>
    match s.inner with
    | none => none
    | some i =>
      if s.running then
        let d := (if c.inl i then s.depth else 0) + 1
        some (complete c { s with running := false, depth := d, peak := max s.peak d } i)
      else none
  | .unwind => if s.running ∧ s.inner.any c.inl then none else if s.depth = 0 then none else some { s with depth := 0 }
  | .kernel =>
    match s.kernel with
    | none => none
    | some o => some { s with kernel := none, out := s.out ++ [o]
                              dangling := s.dangling || (s.localRef && s.depth == 0) }

abbrev Reachable (c : Cfg) (s : St) : Prop := Reach (init c) (step c) s

end Verif.NvRepeat
