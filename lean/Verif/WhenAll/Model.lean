import Verif.Common
import Verif.ListSum
/-!
# `when_all` — model (C16, C17, C18)

Models `/repo/include/stdexec/__detail/__when_all.hpp`: `__forward_stop_request` 562-587, `__state::__arrive` and
`__complete` 602-650, `__start` 784-796, `__set_error` 798-833, the completion function 835-885, the factory
182-203 (`n ≥ 2` children; one child is returned as it is, none is `just()`).

Agents: `some i` is child `i` reporting its completion (on any thread), `none` is the stop callback registered
with the receiver's stop token. Each step is one atomic access, one call to the inner stop source, one result
store, or the completion of the receiver. A child that completes inside another agent's `request_stop()` is a
particular interleaving. The receiver's stop token is modelled by the contract of its callbacks (C02-C04): a
callback constructed after the stop request runs inside the constructor; its destructor waits for an
invocation running elsewhere, and not when called from inside the invocation.
Simplifications: atomics sequentially consistent; `request_stop()` on the inner source is one step.
-/
namespace Verif.WhenAll

abbrev Val := Nat
abbrev Err := Nat

/-- What a child does: complete with values, with values whose decay-copy throws, with an error, with an error
whose decay-copy throws another, or with stopped. -/
inductive Outcome
  | value (vs : List Val)
  | valueThrows (e : Err)
  | error (e : Err)
  | errorThrows (e thrown : Err)
  | stopped
  deriving DecidableEq, Repr

/-- The error a child's completion counts as. -/
def Outcome.err? : Outcome → Option Err
  | .valueThrows e => some e
  | .error e => some e
  | .errorThrows _ e => some e
  | _ => none

/-- Static properties of the children (`__can_fail` 442-449, `sends_stopped`, `__uses_stop_source`). -/
structure Cfg where
  n : Nat
  sendsStopped : Bool
  usesStopSource : Bool

/-- A child may only do what its completion signatures say. -/
def Outcome.allowed (c : Cfg) : Outcome → Bool
  | .value _ => true
  | .stopped => c.sendsStopped && c.usesStopSource
  | _ => c.usesStopSource

inductive Pc
  /-- child: has not reported (843) -/
  | wait
  /-- callback: not running -/
  | off
  /-- callback: invoked, about to `__count_.fetch_add(1)` (569) -/
  | enter
  /-- about to store the values (863-880) -/
  | saveVals (vs : List Val)
  /-- about to `__state_.exchange(__error)` (804) -/
  | setErr (e : Err)
  /-- about to `request_stop()` after that (809) -/
  | reqStopErr (e : Err)
  /-- about to emplace the error (812-830) -/
  | saveErr (e : Err)
  /-- about to CAS `__started → __stopped` (575, 857) -/
  | casStop
  /-- about to `request_stop()` after that (579, 859) -/
  | reqStop
  /-- about to `__count_.fetch_sub(1)` (604) -/
  | arrive
  /-- saw the count reach zero, about to `__on_stop_.reset()` (615) -/
  | reset
  /-- about to load `__state_` and complete the receiver (618-649) -/
  | deliver
  | done
  deriving DecidableEq, Repr

/-- `__state_t` (406-411). -/
inductive Phase
  | started | error | stopped
  deriving DecidableEq, Repr

/-- Completions of the receiver. `garbage` = an empty optional / valueless variant is read. -/
inductive Res
  | value (vs : List Val)
  | error (e : Err)
  | stopped
  | garbage
  deriving DecidableEq, Repr

/-- The thread inside `start()` (784-796). -/
inductive Starter
  | idle
  /-- the stop callback runs inside the `emplace` -/
  | inl
  /-- about to start child `k` -/
  | at (k : Nat)
  deriving DecidableEq, Repr

structure St where
  starter : Starter := .idle
  pc : Option Nat → Pc
  count : Nat
  phase : Phase := .started
  vals : Nat → Option (List Val) := fun _ => none
  err : Option Err := none
  srcStopped : Bool := false
  /-- the stop callback is registered -/
  reg : Bool := false
  /-- the receiver's stop token -/
  parentStopped : Bool := false
  /-- completions of the receiver, oldest first, and whether stop had been requested on the children by then -/
  results : List (Res × Bool) := []
  -- ghost
  outcome : Nat → Option Outcome := fun _ => none
  /-- children in the order in which their error reports took effect (804) -/
  errLog : List Nat := []
  /-- the stop callback was entered after the count had reached zero -/
  late : Bool := false
  /-- the operation state was used after the receiver was completed -/
  uaf : Bool := false

/-- The stop callback is running. -/
def Pc.running : Pc → Bool
  | .off | .done | .wait => false
  | _ => true

/-- What `__complete` delivers (618-649; `__set_values` 497-507). -/
def result (c : Cfg) (s : St) : Res :=
  let values : Res := match (List.range c.n).mapM s.vals with
    | some vss => .value vss.flatten
    | none => .garbage
  match s.phase with
  | .stopped => if c.sendsStopped then .stopped else values
  | .started => values
  | .error => match s.err with
    | some e => .error e
    | none => .garbage

/-- Where a child's completion function starts (835-885). -/
def Outcome.pc : Outcome → Pc
  | .value vs => .saveVals vs
  | .valueThrows e => .setErr e
  | .error e => .setErr e
  | .errorThrows _ e => .setErr e
  | .stopped => .casStop

inductive Act
  | start
  /-- child `i` completes -/
  | complete (i : Nat) (o : Outcome)
  /-- agent goes on -/
  | step (a : Option Nat)
  /-- stop is requested on the receiver's token -/
  | parentStop
  deriving DecidableEq, Repr

def stepAgent (c : Cfg) (s : St) (a : Option Nat) : Option St :=
  let s := { s with uaf := s.uaf || !s.results.isEmpty }
  match s.pc a with
  | .enter => some { s with pc := upd s.pc a .casStop, count := s.count + 1
                            late := s.late || s.count == 0 }
  | .saveVals vs => match a with
    | some i => some { s with pc := upd s.pc a .arrive, vals := upd s.vals i (some vs) }
    | none => none
  | .setErr e => match a with
    | some i => some { s with
        pc := upd s.pc a (match s.phase with
          | .started => .reqStopErr e
          | .stopped => .saveErr e
          | .error => .arrive)
        phase := .error, errLog := s.errLog ++ [i] }
    | none => none
  | .reqStopErr e => some { s with pc := upd s.pc a (.saveErr e), srcStopped := true }
  | .saveErr e => some { s with pc := upd s.pc a .arrive, err := some e }
  | .casStop =>
    if s.phase = .started then some { s with pc := upd s.pc a .reqStop, phase := .stopped }
    else some { s with pc := upd s.pc a .arrive }
  | .reqStop => some { s with pc := upd s.pc a .arrive, srcStopped := true }
  | .arrive =>
    if s.count = 1 then some { s with pc := upd s.pc a .reset, count := 0 }
    else some { s with pc := upd s.pc a .done, count := s.count - 1 }
  | .reset =>
    -- the destructor of the callback waits for an invocation on another thread
    if a ≠ none ∧ (s.pc none).running then none
    else some { s with pc := upd s.pc a .deliver, reg := false }
  | .deliver => some { s with pc := upd s.pc a .done, results := s.results ++ [(result c s, s.srcStopped)] }
  | _ => none

def step (c : Cfg) (s : St) : Act → Option St
  | .start => match s.starter with
    | .idle =>
      if c.usesStopSource then
        if s.parentStopped then some { s with starter := .inl, pc := upd s.pc none .enter }
        else some { s with starter := .at 0, reg := true }
      else some { s with starter := .at 0 }
    | .inl => if s.pc none = .done then some { s with starter := .at 0 } else none
    | .at k => if k < c.n then some { s with starter := .at (k + 1), uaf := s.uaf || !s.results.isEmpty }
               else none
  | .complete i o => match s.starter with
    | .at k =>
      if i < k ∧ s.pc (some i) = .wait ∧ o.allowed c then
        some { s with pc := upd s.pc (some i) o.pc, outcome := upd s.outcome i (some o) }
      else none
    | _ => none
  | .step a => stepAgent c s a
  | .parentStop =>
    if s.parentStopped then none
    else if s.reg then some { s with parentStopped := true, reg := false, pc := upd s.pc none .enter }
    else some { s with parentStopped := true }

/-- 728: the count starts at the number of children. -/
def init (c : Cfg) : St :=
  { pc := fun a => match a with
      | some _ => .wait
      | none => .off
    count := c.n }

abbrev Reachable (c : Cfg) (s : St) : Prop := Reach (init c) (step c) s

end Verif.WhenAll
