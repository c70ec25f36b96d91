import Verif.Common
/-!
# nvexec's task queue — model

Models `/repo/include/nvexec/detail/queue.cuh` lines 31-157: GPU threads hand results to the host by
appending tasks to a linked list (`producer`, 45-75); a host thread (`poller`, 95-137) follows the list,
executes every task (which completes a receiver) and frees it when it moves on to its successor. The tasks
and their release are those of `stream/common.cuh` 591-648 (`continuation_task`).

Any number of GPU threads; task `i` (`i ≥ 1`) is pushed by thread `i`, once; task `0` is the `root_task`
(77-93). One step per access to shared memory. `compare_exchange_weak` may fail without reason (`spur`).
Simplified: memory is sequentially consistent, the two fields `next_` and `*atom_next_` (host and device
memory) are coherent; addresses are not reused, and an execution ends with the first access to a task that
was freed (`uaf`). `serial` restricts executions to those in which no push begins while another is in
progress.
-/
namespace Verif.NvQueue

/-- A push (`producer::operator()`, 51-74) of one thread. -/
inductive PPc
  | idle
  | load                -- 53 / 70: `tail_ref.load`
  | cas (old : Nat)     -- 57-63
  | store (old : Nat)   -- 65-66
  | upd (old : Nat)     -- 73
  | done
  deriving DecidableEq, Repr

/-- The poller thread (106-129). -/
inductive HPc
  | loop            -- 115: load `next_`
  | test            -- 117: it was null
  | take (n : Nat)  -- 124-126: `free_(current)`, `current = next`
  | exec            -- 127
  | exit            -- 119-120
  deriving DecidableEq, Repr

structure St where
  next : Nat → Option Nat      -- `next_`
  anext : Nat → Option Nat     -- `*atom_next_`
  tail : Nat                   -- `*tail_`
  pc : Nat → PPc
  cur : Nat                    -- `current`
  hpc : HPc
  stopped : Bool               -- `stopped_`
  freed : Nat → Nat            -- how often `free_` was called
  executed : List Nat          -- ghost: tasks executed, in order
  linked : List Nat            -- ghost: tasks appended to the list, in order
  active : List Nat            -- ghost: pushes in progress
  finished : List Nat          -- ghost: pushes that have returned
  before : Nat → List Nat      -- ghost: pushes that had returned when this one began
  drained : Bool               -- ghost: when `stop` was called, all tasks had been executed
  uaf : Bool                   -- ghost: a task was accessed after `free_`

/-- `task_hub`'s constructor, 139-157. -/
def init : St :=
  { next := fun _ => none, anext := fun _ => none, tail := 0, pc := fun _ => .idle, cur := 0, hpc := .loop
    stopped := false, freed := fun _ => 0, executed := [], linked := [], active := [], finished := []
    before := fun _ => [], drained := false, uaf := false }

inductive Act
  | begin (i : Nat)
  | prod (i : Nat) (spur : Bool)
  | poll
  | stop                          -- `~poller` (132-136): `test_and_set`
  deriving DecidableEq, Repr

def step (serial : Bool) (s : St) : Act → Option St
  | .begin i =>
    if s.uaf = false ∧ s.pc i = .idle ∧ 0 < i ∧ s.stopped = false ∧ (serial = true → s.active = []) then
      some { s with pc := upd s.pc i .load, active := i :: s.active, before := upd s.before i s.finished }
    else none
  | .prod i spur =>
    if s.uaf then none else
    match s.pc i with
    | .load => some { s with pc := upd s.pc i (.cas s.tail) }
    | .cas old =>
      if 0 < s.freed old then some { s with uaf := true }
      else if s.anext old = none ∧ spur = false then
        some { s with anext := upd s.anext old (some i), pc := upd s.pc i (.store old)
                      linked := s.linked ++ [i] }
      else some { s with pc := upd s.pc i .load }
    | .store old =>
      if 0 < s.freed old then some { s with uaf := true }
      else some { s with next := upd s.next old (some i), pc := upd s.pc i (.upd old) }
    | .upd old =>
      some { s with tail := if s.tail = old then i else s.tail, pc := upd s.pc i .done
                    active := s.active.erase i, finished := s.finished ++ [i] }
    | _ => none
  | .poll =>
    if s.uaf then none else
    match s.hpc with
    | .loop =>
      if 0 < s.freed s.cur then some { s with uaf := true }
      else match s.next s.cur with
        | none => some { s with hpc := .test }
        | some n => some { s with hpc := .take n }
    | .test =>
      if s.stopped then some { s with hpc := .exit, freed := upd s.freed s.cur (s.freed s.cur + 1) }
      else some { s with hpc := .loop }
    | .take n => some { s with hpc := .exec, freed := upd s.freed s.cur (s.freed s.cur + 1), cur := n }
    | .exec =>
      if 0 < s.freed s.cur then some { s with uaf := true }
      else some { s with hpc := .loop, executed := s.executed ++ [s.cur] }
    | .exit => none
  | .stop => if s.uaf = false ∧ s.active = [] then 
    some { s with stopped := true, drained := decide (s.stopped = true ∧ s.drained = true ∨ s.stopped = false ∧ s.executed = s.linked) }
  else none

end Verif.NvQueue
