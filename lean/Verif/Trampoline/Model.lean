import Verif.Common
/-!
# `trampoline_scheduler` — model (C42)

Models `/repo/include/exec/trampoline_scheduler.hpp`: `__state` 48-78, `__opstate_base::start` 152-195,
`__opstate::__execute_impl` 215-234, `__state::__drain` 294-331. One thread (the state is `thread_local`).

The user's code is whatever runs inside the completions: it may start any number of further operations, each a fresh
one, and then return (`start` / `ret`). The stack-size test (167-171) compares addresses of local variables: its outcome
is an arbitrary Boolean (`big`) given with each `start`. `stack` are the operations whose completion is on the C++ call
stack, innermost first. Stop requests may come at any time.
-/
namespace Verif.Trampoline

structure St where
  /-- `__current_ != nullptr` -/
  active : Bool := false
  /-- `__max_recursion_depth_` of the origin frame -/
  maxDepth : Nat := 0
  /-- `__recursion_depth_` -/
  depth : Nat := 1
  head : Option Nat := none
  tail : Option Nat := none
  next : Nat → Option Nat := fun _ => none
  prev : Nat → Option Nat := fun _ => none
  /-- stop requested on the token of an operation's receiver -/
  stop : Nat → Bool := fun _ => false
  /-- the operations being executed, innermost first -/
  stack : List Nat := []
  -- ghost
  /-- operations started, in order -/
  started : List Nat := []
  /-- completions, in order; `true`: stopped -/
  log : List (Nat × Bool) := []
  /-- operations that were deferred, in order -/
  deferred : List Nat := []
  /-- the deferred operations not yet run -/
  queue : List Nat := []

inductive Act
  /-- `start` of operation `i` -/
  | start (i : Nat) (big : Bool)
  /-- the innermost completion returns -/
  | ret
  /-- an iteration of `__drain` -/
  | drain
  | requestStop (i : Nat)

/-- `__execute_impl` (215-234). -/
def execute (s : St) (i : Nat) : St :=
  { s with stack := i :: s.stack, log := s.log ++ [(i, s.stop i)] }

/-- Push to the list tail (183-193). -/
def push (s : St) (i : Nat) : St :=
  match s.tail with
  | some p => { s with prev := upd s.prev i s.tail, tail := some i, next := upd s.next p (some i) }
  | none => { s with prev := upd s.prev i none, tail := some i, head := some i }

/-- Pop the list head (305-320). -/
def pop (s : St) (o : Nat) : St :=
  match s.next o with
  | some h => { s with head := some h, next := upd s.next o none, prev := upd (upd s.prev o none) h none }
  | none => { s with head := none, tail := none, next := upd s.next o none, prev := upd s.prev o none }

/-- `mx`: the limit each operation's scheduler was made with. -/
def step (mx : Nat → Nat) (s : St) : Act → Option St
  | .start i big =>
    if i ∈ s.started then none
    else if s.active = false then -- 156-162
      some (execute { s with active := true, maxDepth := mx i, depth := 1, head := none, tail := none,
                             started := s.started ++ [i] } i)
    else if s.stack = [] then none -- between two operations `__drain` runs no user code
    else if big = false ∧ s.depth < s.maxDepth then -- 170-176
      some (execute { s with depth := s.depth + 1, started := s.started ++ [i] } i)
    else
      some { push s i with started := s.started ++ [i], deferred := s.deferred ++ [i], queue := s.queue ++ [i] }
  | .ret =>
    match s.stack with
    | [] => none
    | _ :: l => some { s with stack := l }
  | .drain =>
    if s.active = true ∧ s.stack = [] then
      match s.head with
      | none => some { s with active := false } -- `start` of the origin frame returns
      | some o => some (execute { pop s o with depth := 1, queue := s.queue.tail } o)
    else none
  | .requestStop i => some { s with stop := upd s.stop i true }

def init : St := {}
abbrev Reachable (mx : Nat → Nat) (s : St) : Prop := Reach init (step mx) s

end Verif.Trampoline
