import Verif.Common
import Verif.ListSum
/-!
# `exec::async_scope`: nest / when_empty — model (C24)

Models `/repo/include/exec/async_scope.hpp`: `__impl` 62-75, `__when_empty_opstate` 80-117 (`start` 91-106),
`__nest_receiver` 158-220 (`__complete` 163-180, `set_value` 182-190), `__nest_opstate::start` 236-242,
`async_scope::spawn` (whose receiver destroys the operation state when the nested operation completes).

Any number of nested operations and of `when_empty` waiters, one step per access to the scope's mutex, counter or
list of waiters. A nested operation completes at any time on any thread. The user destroys the scope only when all
started `when_empty` operations have been released and no nested operation was started since some waiter was
released (the documented use: destroy after `on_empty()` completed), and starts nothing on the scope afterwards.
Simplification: the intrusive queue of waiters is a list (C10 treats the pointers).
-/
namespace Verif.AsyncScope

/-- A nested operation. -/
inductive OPc
  | idle
  /-- started (239), its child runs -/
  | running
  /-- its receiver was completed (185); about to lock the mutex (167) -/
  | wantLock
  /-- about to decrement the counter (168) -/
  | locked
  /-- about to unlock (171, or the guard's destructor) -/
  | unlock (last : Bool)
  /-- starting the operations of the moved-out waiters (174-179) -/
  | notifying
  | done
  deriving DecidableEq, Repr

/-- A `when_empty` operation. -/
inductive WPc
  | idle
  /-- about to lock the mutex (95) -/
  | wantLock
  /-- about to test the counter (98) -/
  | locked
  /-- queued itself (100), about to unlock -/
  | unlockQ
  | queued
  /-- found the scope empty, about to unlock (103) -/
  | unlockE
  /-- about to start the wrapped operation (104) -/
  | startOp
  /-- the wrapped operation was started -/
  | started
  deriving DecidableEq, Repr

inductive Tid
  | op (i : Nat)
  | w (j : Nat)
  deriving DecidableEq, Repr

structure St where
  lock : Option Tid := none
  active : Nat := 0
  waiters : List Nat := []
  opc : Nat → OPc := fun _ => .idle
  wpc : Nat → WPc := fun _ => .idle
  /-- `__local_waiters` of a nested operation -/
  loc : Nat → List Nat := fun _ => []
  -- ghost
  /-- nested operations started so far -/
  ops : List Nat := []
  /-- `when_empty` operations started so far -/
  ws : List Nat := []
  /-- nested operations started before this `when_empty` operation was -/
  before : Nat → List Nat := fun _ => []
  /-- how often the wrapped operation was started -/
  opStarts : Nat → Nat := fun _ => 0
  /-- this waiter was released and no nested operation was started since -/
  clean : Nat → Bool := fun _ => false
  destroyed : Bool := false
  uaf : Bool := false
  /-- an assertion in `~__impl` failed -/
  assertFail : Bool := false

inductive Act
  /-- the user starts a nested operation -/
  | nest (i : Nat)
  /-- its child completes, and so does its receiver -/
  | complete (i : Nat)
  /-- the rest of the nested operation's completion -/
  | op (i : Nat)
  /-- the user starts a `when_empty` operation -/
  | whenEmpty (j : Nat)
  | w (j : Nat)
  | destroy
  deriving DecidableEq, Repr

def touch (s : St) : St := { s with uaf := s.uaf || s.destroyed }

def stepOp (s : St) (i : Nat) : Option St :=
  match s.opc i with
  | .wantLock =>
    if s.lock = none then some { touch s with lock := some (.op i), opc := upd s.opc i .locked } else none
  | .locked =>
    if s.active = 1 then
      some { touch s with active := s.active - 1, opc := upd s.opc i (.unlock true), loc := upd s.loc i s.waiters,
                          waiters := [], clean := fun j => s.clean j || s.waiters.contains j }
    else some { touch s with active := s.active - 1, opc := upd s.opc i (.unlock false) }
  | .unlock last =>
    some { touch s with lock := none, opc := upd s.opc i (if last then .notifying else .done) }
  | .notifying =>
    match s.loc i with
    | j :: l => some { s with loc := upd s.loc i l, wpc := upd s.wpc j .started, opStarts := upd s.opStarts j (s.opStarts j + 1) }
    | [] => some { s with opc := upd s.opc i .done }
  | _ => none

def stepW (s : St) (j : Nat) : Option St :=
  match s.wpc j with
  | .wantLock =>
    if s.lock = none then some { touch s with lock := some (.w j), wpc := upd s.wpc j .locked } else none
  | .locked =>
    if s.active = 0 then some { touch s with wpc := upd s.wpc j .unlockE, clean := upd s.clean j true }
    else some { touch s with wpc := upd s.wpc j .unlockQ, waiters := s.waiters ++ [j] }
  | .unlockQ => some { touch s with lock := none, wpc := upd s.wpc j .queued }
  | .unlockE => some { touch s with lock := none, wpc := upd s.wpc j .startOp }
  | .startOp => some { s with wpc := upd s.wpc j .started, opStarts := upd s.opStarts j (s.opStarts j + 1) }
  | _ => none

def step (s : St) : Act → Option St
  | .nest i =>
    if s.opc i = .idle ∧ s.destroyed = false then
      some { s with active := s.active + 1, opc := upd s.opc i .running, ops := s.ops ++ [i], clean := fun _ => false }
    else none
  | .complete i => if s.opc i = .running then some { s with opc := upd s.opc i .wantLock } else none
  | .op i => stepOp s i
  | .whenEmpty j =>
    if s.wpc j = .idle ∧ s.destroyed = false then
      some { s with wpc := upd s.wpc j .wantLock, ws := s.ws ++ [j], before := upd s.before j s.ops }
    else none
  | .w j => stepW s j
  | .destroy =>
    if s.destroyed = false ∧ s.lock = none ∧ (∀ j ∈ s.ws, s.wpc j = .started) ∧ (∃ j ∈ s.ws, s.clean j = true) then
      some { s with destroyed := true, assertFail := s.active ≠ 0 || s.waiters ≠ [] }
    else none

def init : St := {}
abbrev Reachable (s : St) : Prop := Reach init step s

end Verif.AsyncScope
