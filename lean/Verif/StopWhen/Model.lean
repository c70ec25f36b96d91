import Verif.Common
/-!
# `stop_when`: fused stop token and callback (C05)

Models `/repo/include/stdexec/__detail/__stop_when.hpp` 90-200. The two underlying stop sources are
modelled by the contract of their callbacks (proved for `inplace_stop_source` in `Verif.StopSource`,
C02-C04): a callback constructed after the stop request is invoked in its constructor; a registered one is
invoked by the requesting thread; its destructor waits for an invocation running on another thread and
does not wait when called from inside its own invocation.
Source `false` is the sender's token (`__tkn1_`), source `true` the receiver's (`__tkn2_`).
-/
namespace Verif.StopWhen

/-- What the net token of `stop_when` is (`__make_token_fn`, 166-190): the receiver's token may be
unstoppable. -/
inductive Token
  | unstoppable
  | src (stopped : Bool)
  | fused (a b : Token)
  deriving DecidableEq, Repr

/-- `stop_requested()` (101-104 for fused tokens). -/
def Token.stopRequested : Token → Bool
  | .unstoppable => false
  | .src b => b
  | .fused a b => a.stopRequested || b.stopRequested

/-- `stop_possible()` (107-110). -/
def Token.stopPossible : Token → Bool
  | .unstoppable => false
  | .src _ => true
  | .fused a b => a.stopPossible || b.stopPossible

/-- `__make_token_fn` (174-188). -/
def makeToken (sender receiver : Token) : Token :=
  match receiver with
  | .unstoppable => sender
  | r => .fused sender r

/-- The invocation of one of the two inner callbacks (`operator()`, 149-155). -/
inductive Inv
  | idle
  /-- entered, about to `__called_.exchange(true)` (151) -/
  | entered
  /-- inside `__fn_()` (153) -/
  | inFn
  | done
  deriving DecidableEq, Repr

/-- The life of the fused callback object. -/
inductive Life
  /-- about to construct `__cb1_` (`false`) / `__cb2_` (`true`) (120-134) -/
  | ctor (i : Bool)
  /-- inside the constructor of that inner callback, which invokes it inline -/
  | ctorRun (i : Bool)
  | alive
  /-- in the destructor, about to destroy `__cb2_` / `__cb1_` (members in reverse order, 157-160); `self` =
  called from inside `__fn_` invoked by that source -/
  | dtor (i : Bool) (self : Option Bool)
  | dead
  deriving DecidableEq, Repr

structure St where
  stopped : Bool → Bool := fun _ => false
  registered : Bool → Bool := fun _ => false
  inv : Bool → Inv := fun _ => .idle
  called : Bool := false
  life : Life := .ctor false
  /-- how often `__fn_` was entered -/
  calls : Nat := 0
  /-- `__called_` or `__fn_` was touched after the object's destruction -/
  uaf : Bool := false

inductive Act
  | requestStop (i : Bool)
  | invoke (i : Bool)        -- the invocation by source `i` goes on
  | owner                    -- construction / destruction goes on
  | destroy (self : Option Bool)

/-- An invocation is in progress. -/
def Inv.busy : Inv → Bool
  | .entered | .inFn => true
  | _ => false

def step (s : St) (a : Act) : Option St :=
  match a with
  | .requestStop i =>
    if s.stopped i then none
    else if s.registered i then
      some { s with stopped := upd s.stopped i true, registered := upd s.registered i false
                    inv := upd s.inv i .entered }
    else some { s with stopped := upd s.stopped i true }
  | .invoke i => match s.inv i with
    | .entered =>
      if s.called then some { s with inv := upd s.inv i .done, uaf := s.uaf || s.life == .dead }
      else some { s with inv := upd s.inv i .inFn, called := true, calls := s.calls + 1
                         uaf := s.uaf || s.life == .dead }
    | .inFn =>
      -- `__fn_` that called the destructor returns only after it
      match s.life with
      | .dtor _ (some j) => if i = j then none else some { s with inv := upd s.inv i .done }
      | _ => some { s with inv := upd s.inv i .done }
    | _ => none
  | .owner => match s.life with
    | .ctor i =>
      if s.stopped i then some { s with life := .ctorRun i, inv := upd s.inv i .entered }
      else some { s with life := if i then .alive else .ctor true, registered := upd s.registered i true }
    | .ctorRun i =>
      if s.inv i = .done then some { s with life := if i then .alive else .ctor true } else none
    | .dtor i self =>
      if (s.inv i).busy ∧ self ≠ some i then none    -- the inner destructor waits
      else some { s with registered := upd s.registered i false
                         life := if i then .dtor false self else .dead }
    | _ => none
  | .destroy self =>
    if s.life = .alive ∧ (∀ i, self = some i → s.inv i = .inFn) then some { s with life := .dtor true self }
    else none

def init : St := {}
abbrev Reachable (s : St) : Prop := Reach init step s

end Verif.StopWhen
