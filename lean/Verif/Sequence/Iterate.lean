import Verif.Common
/-!
# `iterate` and `transform_each` — model (C44)

Models `/repo/include/exec/sequence/iterate.hpp`: `__item_operation::start` 77-80, `__next_receiver` 104-128,
`__operation::__start_next` 145-167, `start` 169-172; `__set_value_unless_stopped` of `exec/sequence_senders.hpp`
965-981; `/repo/include/exec/sequence/transform_each.hpp` `__receiver` 64-101 (the item handed on is `adaptor(item)`;
the sequence's completion is passed on unchanged).

The receiver is arbitrary: the next sender it makes of an item may start the item or not, take as long as it wants, and
complete with a value or stopped (`item`, `next`); connecting it may throw. The item is a trampoline schedule followed by
the element; whether the schedule reports stopped depends on the environment the next sender gives it, so that is part
of the action. The range must outlive the operation.
-/
namespace Verif.Sequence

inductive Compl
  | value | error | stopped
  deriving DecidableEq, Repr

inductive Phase
  | idle
  /-- the next sender of the current element runs, the item has not been started -/
  | offered
  /-- the next sender runs, the item was started and completed -/
  | itemDone
  | done
  deriving DecidableEq, Repr

structure St where
  /-- position of `__iterator_` -/
  it : Nat := 0
  phase : Phase := .idle
  /-- stop requested on the receiver's token -/
  stop : Bool := false
  -- ghost
  /-- `set_next` was called with the item at this position -/
  offers : List Nat := []
  /-- elements delivered, in order -/
  delivered : List Nat := []
  compl : List Compl := []
  /-- a next sender completed with stopped -/
  nextStopped : Bool := false
  /-- connecting a next sender threw -/
  threw : Bool := false
  /-- dereferenced the end of the range -/
  fault : Bool := false
  deriving DecidableEq, Repr

inductive Act
  | start (throws : Bool)
  /-- the item is started; `stopped`: the trampoline schedule reports stopped -/
  | item (stopped : Bool)
  /-- the next sender completes; `throws`: connecting the following one throws -/
  | nextValue (throws : Bool)
  | nextStopped
  | requestStop
  deriving DecidableEq, Repr

/-- `__start_next` (145-167). -/
def startNext (xs : List Nat) (s : St) (throws : Bool) : St :=
  if s.it = xs.length then { s with phase := .done, compl := s.compl ++ [.value] }
  else if throws then { s with phase := .done, compl := s.compl ++ [.error], threw := true, offers := s.offers ++ [s.it] }
  else { s with phase := .offered, offers := s.offers ++ [s.it] }

/-- `f` is what `transform_each` makes of an element (`id` without it). -/
def step (xs : List Nat) (f : Nat → Nat) (s : St) : Act → Option St
  | .start throws => if s.phase = .idle then some (startNext xs s throws) else none
  | .item stopped =>
    if s.phase = .offered then
      if stopped then some { s with phase := .itemDone }
      else match xs[s.it]? with -- 79
        | some x => some { s with phase := .itemDone, delivered := s.delivered ++ [f x], it := s.it + 1 }
        | none => some { s with phase := .itemDone, fault := true, it := s.it + 1 }
    else none
  | .nextValue throws => -- 109-112
    if s.phase = .offered ∨ s.phase = .itemDone then some (startNext xs s throws) else none
  | .nextStopped => -- 114-117
    if s.phase = .offered ∨ s.phase = .itemDone then
      some { s with phase := .done, nextStopped := true, compl := s.compl ++ [if s.stop then .stopped else .value] }
    else none
  | .requestStop => some { s with stop := true }

def init : St := {}
abbrev Reachable (xs : List Nat) (f : Nat → Nat) (s : St) : Prop := Reach init (step xs f) s

end Verif.Sequence
