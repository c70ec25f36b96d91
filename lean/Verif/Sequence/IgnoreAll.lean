import Verif.Common
/-!
# `ignore_all_values` — model (C44)

Models `/repo/include/exec/sequence/ignore_all_values.hpp`: `__result_type` 62-95 (`__emplace` 65-74, `__visit_result`
81-91), `__item_receiver` 104-146, `__receiver` 206-251.

Any number of items may be in flight at once (the sequence decides), each completing on any thread. The compare-exchange,
the store of the result and the final store to `__emplaced_` are separate steps. The sequence obeys its contract: it
completes only when every item it started has completed (`seqDone`).
-/
namespace Verif.Sequence.Ignore

/-- A non-value completion of an item. -/
inductive Res
  | error (e : Nat)
  | stopped
  deriving DecidableEq, Repr

/-- How the sequence, and the resulting operation, complete. -/
inductive Compl
  | value
  | error (e : Nat)
  | stopped
  deriving DecidableEq, Repr

def Res.toCompl : Res → Compl
  | .error e => .error e
  | .stopped => .stopped

inductive IPc
  | idle
  | running
  /-- won the compare-exchange -/
  | won (r : Res)
  /-- the result is stored -/
  | stored
  /-- about to complete the item's receiver with stopped -/
  | leaving
  | finished
  deriving DecidableEq, Repr

structure St where
  /-- `__emplaced_` -/
  emplaced : Nat := 0
  /-- `__result_` -/
  slot : Option Res := none
  pc : Nat → IPc := fun _ => .idle
  items : List Nat := []
  seq : Option Compl := none
  -- ghost
  /-- non-value completions of items, in the order of their compare-exchange -/
  produced : List Res := []
  out : List Compl := []
  /-- the stored result was read before it was written, or stored twice -/
  fault : Bool := false

inductive Act
  | itemStart (i : Nat)
  | itemValue (i : Nat)
  | itemFail (i : Nat) (r : Res)
  | item (i : Nat)
  | seqDone (c : Compl)

def step (s : St) : Act → Option St
  | .itemStart i =>
    if s.pc i = .idle ∧ s.seq = none then some { s with pc := upd s.pc i .running, items := i :: s.items } else none
  | .itemValue i => if s.pc i = .running then some { s with pc := upd s.pc i .finished } else none -- 110-115
  | .itemFail i r => -- 122-143, 67-69
    if s.pc i = .running then
      if s.emplaced = 0 then some { s with emplaced := 1, pc := upd s.pc i (.won r), produced := s.produced ++ [r] }
      else some { s with pc := upd s.pc i .leaving, produced := s.produced ++ [r] }
    else none
  | .item i =>
    match s.pc i with
    | .won r => some { s with slot := some r, pc := upd s.pc i .stored, fault := s.fault || s.slot != none } -- 70-71
    | .stored => some { s with emplaced := 2, pc := upd s.pc i .leaving } -- 72
    | .leaving => some { s with pc := upd s.pc i .finished }
    | _ => none
  | .seqDone c =>
    if s.seq = none ∧ ∀ i ∈ s.items, s.pc i = .finished then
      match c with
      | .value => -- 227-230, 81-91
        if s.emplaced = 0 then some { s with seq := some c, out := s.out ++ [.value] }
        else match s.slot with
          | some r => some { s with seq := some c, out := s.out ++ [r.toCompl], fault := s.fault || s.emplaced != 2 }
          | none => some { s with seq := some c, fault := true }
      | _ => some { s with seq := some c, out := s.out ++ [c] } -- 232-241
    else none

def init : St := {}
abbrev Reachable (s : St) : Prop := Reach init step s

/-! ### The whole pipeline `ignore_all_values(iterate(range))`, items running one after the other -/

/-- What the item at a position does: the trampoline schedule (or the user's adaptor) sees stop requested or not, then the
item completes. -/
inductive Item
  | value | error (e : Nat) | stopped
  deriving DecidableEq, Repr

/-- `__start_next` in a loop: `out i` how item `i` completes; `stop i` whether stop had been requested when the next
receiver of item `i` was completed (`iterate.hpp` 114-117, 145-167; `__emplace`, `__visit_result` above). `st`: the stored
result. Structural in the number of elements left. -/
def pipeline (out : Nat → Item) (stop : Nat → Bool) : Nat → Nat → Compl
  | _, 0 => .value
  | i, left + 1 =>
    match out i with
    | .value => pipeline out stop (i + 1) left
    | .error e => if stop i then .stopped else .error e
    | .stopped => .stopped

end Verif.Sequence.Ignore
