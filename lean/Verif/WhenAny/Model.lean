import Verif.Common
import Verif.ListSum
/-!
# `exec::when_any` — model (C19)

Models `/repo/include/exec/when_any.hpp`: `__forward_stop_request` 87-103, `notify` 118-147, `__arrive` 149-165,
`__opstate::start` 224-236; `n ≥ 1` children (`when_any()` is deleted, 292).

Agents: `some i` is child `i` reporting its completion (on any thread), `none` is the stop callback registered with
the receiver's stop token. One step per atomic access, `request_stop()`, result store or completion. The receiver's
stop token is modelled by the contract of its callbacks, as in `Verif.WhenAll.Model`. Atomics sequentially
consistent.
-/
namespace Verif.WhenAny

/-- A completion, of a child or of `when_any`. `garbage` = an empty result is visited. -/
inductive Res
  | value (vs : List Nat)
  | error (e : Nat)
  | stopped
  | garbage
  deriving DecidableEq, Repr

/-- What a child does: complete with `r`, and the decay-copy of its results throws or not (125-143). -/
structure Outcome where
  res : Res
  throws : Option Nat
  deriving DecidableEq, Repr

/-- What is stored for a child's completion (127-143). -/
def Outcome.stored (o : Outcome) : Res := match o.throws with
  | some e => .error e
  | none => o.res

inductive Pc
  /-- child: has not reported -/
  | wait
  /-- callback: not running -/
  | off
  /-- callback: invoked, about to `__count_.fetch_add(1)` (93) -/
  | enter
  /-- about to CAS `__emplaced_` (122) -/
  | cas (r : Res)
  /-- about to emplace the result (128-142) -/
  | save (r : Res)
  /-- about to `__stop_source_.request_stop()` (95, 145) -/
  | reqStop
  /-- about to `__count_.fetch_sub(1)` (153) -/
  | arrive
  /-- about to `__on_stop_.reset()` (155) -/
  | reset
  /-- about to test the receiver's stop token and complete the receiver (156-162) -/
  | deliver
  | done
  deriving DecidableEq, Repr

/-- The thread inside `start()` (224-236). -/
inductive Starter
  | idle
  /-- the stop callback runs inside the `emplace` -/
  | inl
  /-- about to test `__stop_source_.stop_requested()` (228) -/
  | check
  /-- stop was requested: completed with stopped without starting the children (230) -/
  | refused
  /-- about to start child `k` -/
  | at (k : Nat)
  deriving DecidableEq, Repr

structure St where
  starter : Starter := .idle
  pc : Option Nat → Pc
  count : Nat
  emplaced : Bool := false
  result : Option Res := none
  srcStopped : Bool := false
  reg : Bool := false
  parentStopped : Bool := false
  /-- completions of the receiver, oldest first, and whether stop had been requested on the children by then -/
  results : List (Res × Bool) := []
  -- ghost
  outcome : Nat → Option Outcome := fun _ => none
  /-- children in the order in which they claimed to be first (122) -/
  claims : List Nat := []
  /-- the stop callback was entered after the count had reached zero -/
  late : Bool := false
  /-- the operation state was used after the receiver was completed (not counting the callback of a refused
  operation, which the operation state's destructor waits for) -/
  uaf : Bool := false

/-- The stop callback is running. -/
@[grind] def Pc.running : Pc → Bool
  | .off | .done | .wait => false
  | _ => true

/-- 157-162. -/
def delivered (s : St) : Res :=
  if s.parentStopped then .stopped else s.result.getD .garbage

inductive Act
  | start
  | complete (i : Nat) (o : Outcome)
  | step (a : Option Nat)
  | parentStop
  deriving DecidableEq, Repr

def stepAgent (s : St) (a : Option Nat) : Option St :=
  let s := { s with uaf := s.uaf || (!s.results.isEmpty && s.starter != Starter.refused) }
  match s.pc a with
  | .enter => some { s with pc := upd s.pc a .reqStop, count := s.count + 1
                            late := s.late || s.count == 0 }
  | .cas r => match a with
    | some i => some { s with pc := upd s.pc a (if s.emplaced then .arrive else .save r)
                              emplaced := true, claims := s.claims ++ [i] }
    | none => none
  | .save r => some { s with pc := upd s.pc a .reqStop, result := some r }
  | .reqStop => some { s with pc := upd s.pc a .arrive, srcStopped := true }
  | .arrive =>
    if s.count = 1 then some { s with pc := upd s.pc a .reset, count := 0 }
    else some { s with pc := upd s.pc a .done, count := s.count - 1 }
  | .reset =>
    if a ≠ none ∧ (s.pc none).running then none
    else some { s with pc := upd s.pc a .deliver, reg := false }
  | .deliver => some { s with pc := upd s.pc a .done, results := s.results ++ [(delivered s, s.srcStopped)] }
  | _ => none

def step (n : Nat) (s : St) : Act → Option St
  | .start => match s.starter with
    | .idle =>
      if s.parentStopped then some { s with starter := .inl, pc := upd s.pc none .enter }
      else some { s with starter := .check, reg := true }
    | .inl => if s.pc none = .done then some { s with starter := .check } else none
    | .check =>
      if s.srcStopped then some { s with starter := .refused, results := s.results ++ [(.stopped, true)] }
      else some { s with starter := .at 0 }
    | .refused => none
    | .at k => if k < n then some { s with starter := .at (k + 1), uaf := s.uaf || !s.results.isEmpty }
               else none
  | .complete i o => match s.starter with
    | .at k =>
      if i < k ∧ s.pc (some i) = .wait ∧ o.res ≠ .garbage then
        some { s with pc := upd s.pc (some i) (.cas o.stored), outcome := upd s.outcome i (some o) }
      else none
    | _ => none
  | .step a => stepAgent s a
  | .parentStop =>
    if s.parentStopped then none
    else if s.reg then some { s with parentStopped := true, reg := false, pc := upd s.pc none .enter }
    else some { s with parentStopped := true }

def init (n : Nat) : St :=
  { pc := fun a => match a with
      | some _ => .wait
      | none => .off
    count := n }

abbrev Reachable (n : Nat) (s : St) : Prop := Reach (init n) (step n) s

end Verif.WhenAny
