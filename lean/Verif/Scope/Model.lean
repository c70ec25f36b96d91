import Verif.Common
import Verif.ListSum
/-!
# Counting scopes — model (C13, C14, C15)

Models `/repo/include/stdexec/__detail/__counting_scopes.hpp`: `__base_scope` 262-735 (`simple_counting_scope` and
`counting_scope` are thin wrappers, 743-885), `__scope_join_impl::__start` 195-201.
Any number of threads call `try_associate` (agent `a`, which then holds the association and later disassociates),
`join` (agent `j`) and `close`. One step per atomic access; the compare-exchange loops are modelled with their
loaded value and spurious failures. `__complete()` of a registered join operation starts its `schedule` operation,
and inline completion calls `set_value` (modelled as: the join operation completes).
Simplifications: sequentially consistent atomics; the intrusive stack of registered joins is a list, its head
pointer comparison is list comparison (nodes are only pushed, or all removed at once, so the head determines the
list).
-/
namespace Verif.Scope

/-- The word `__bits_`, unpacked. `Verif.Scope.Bits` relates it to the packed machine word (533-547, 595-616). -/
structure Bits where
  count : Nat
  closed : Bool
  needed : Bool
  running : Bool
  deriving DecidableEq, Repr

/-- 573-576 -/
def Bits.isJoined (b : Bits) : Bool := b == ⟨0, true, false, false⟩
/-- 591-597 -/
def Bits.destructible (b : Bits) : Bool := b.count == 0 && !b.needed && !b.running

/-- 326-341, the new bits of `__try_associate`. -/
def Bits.assoc (b : Bits) : Bits := { b with count := b.count + 1, needed := true }
/-- 410-430, the new bits of `__disassociate`. -/
def Bits.dis (b : Bits) : Bits :=
  if b.count - 1 = 0 ∧ b.running then ⟨0, true, false, false⟩ else { b with count := b.count - 1 }
/-- 364: `__try_associate` gives up. -/
def Bits.refuses (max : Nat) (b : Bits) : Bool := b.closed || b.count == max

/-- An agent that associates. -/
inductive APc
  | idle
  /-- in the loop of `__try_associate` with the loaded bits (346-383) -/
  | tryLoop (old : Bits)
  | refused
  /-- holds an association -/
  | granted
  /-- in the loop of `__disassociate` (434-455) -/
  | disLoop (old : Bits)
  /-- about to exchange `__registered_join_ops_` (709) -/
  | deq
  /-- completing the dequeued join operations (722-732) -/
  | completing
  | gone
  deriving DecidableEq, Repr

/-- A join operation. -/
inductive JPc
  | idle
  /-- in the loop of `__start_join_sender` (473-531) -/
  | loop (old : Bits)
  /-- about to load `__registered_join_ops_` (656) -/
  | regLoad
  /-- in the loop of `__register` with the loaded list (659-687) -/
  | regCas (old : List Nat)
  /-- registered -/
  | waiting
  /-- `__start_join_sender` returned true, about to complete inline (197-200) -/
  | inl
  | completed
  deriving DecidableEq, Repr

structure St where
  bits : Bits := ⟨0, false, false, false⟩
  /-- `__registered_join_ops_`; `none` = the sentinel -/
  reg : Option (List Nat) := some []
  ap : Nat → APc := fun _ => .idle
  jp : Nat → JPc := fun _ => .idle
  /-- the dequeued join operations still to be completed -/
  todo : List Nat := []
  -- ghost
  agents : List Nat := []
  joins : List Nat := []
  grants : Nat := 0
  closeCalled : Bool := false
  compl : Nat → Nat := fun _ => 0
  /-- a join operation was completed while an association was held -/
  early : Bool := false
  /-- the agent whose disassociation made the scope joined -/
  dq : Option Nat := none
  /-- destroyed; `some true` = after all started join operations had completed -/
  dead : Option Bool := none
  terminated : Bool := false
  uaf : Bool := false

inductive Act
  | tryAssoc (a : Nat)
  | disassoc (a : Nat)
  | close
  | join (j : Nat)
  | stepA (a : Nat) (spurious : Bool)
  | stepJ (j : Nat) (spurious : Bool)
  /-- the destructor; `all`: only after all started join operations have completed -/
  | destroy (all : Bool)
  deriving DecidableEq, Repr

/-- The agent holds an association. -/
def holds : APc → Bool
  | .granted | .disLoop _ => true
  | _ => false

/-- Complete join operation `j`. -/
def complete (s : St) (j : Nat) : St :=
  { s with jp := upd s.jp j .completed, compl := upd s.compl j (s.compl j + 1)
           early := s.early || s.agents.any (fun a => holds (s.ap a)) }

/-- Load `__bits_` in `__try_associate` and decide (346, 355-369). -/
def tryLoad (max : Nat) (s : St) (a : Nat) : St :=
  if s.bits.refuses max then { s with ap := upd s.ap a .refused }
  else { s with ap := upd s.ap a (.tryLoop s.bits) }

/-- Load `__registered_join_ops_` in `__register` and decide (656-665). -/
def regLoad (s : St) (j : Nat) : St :=
  match s.reg with
  | none => { s with jp := upd s.jp j .inl }
  | some l => { s with jp := upd s.jp j (.regCas l) }

def touch (s : St) : St := { s with uaf := s.uaf || s.dead.isSome }

def step (max : Nat) (s : St) : Act → Option St
  | .tryAssoc a =>
    if s.ap a = .idle ∧ s.dead = none then some (tryLoad max { s with agents := s.agents ++ [a] } a) else none
  | .disassoc a =>
    if s.ap a = .granted then some (touch { s with ap := upd s.ap a (.disLoop s.bits) }) else none
  | .close =>
    if s.dead = none then some { s with bits := { s.bits with closed := true }, closeCalled := true } else none
  | .join j =>
    if s.jp j = .idle ∧ s.dead = none then
      some { s with joins := s.joins ++ [j], jp := upd s.jp j (.loop s.bits) }
    else none
  | .stepA a spurious => match s.ap a with
    | .tryLoop old =>
      let s := touch s
      if s.bits = old ∧ spurious = false then
        some { s with bits := old.assoc, ap := upd s.ap a .granted, grants := s.grants + 1 }
      else some (tryLoad max s a)
    | .disLoop old =>
      let s := touch s
      if s.bits = old ∧ spurious = false then
        if old.dis.isJoined then some { s with bits := old.dis, ap := upd s.ap a .deq, dq := some a }
        else some { s with bits := old.dis, ap := upd s.ap a .gone }
      else some { s with ap := upd s.ap a (.disLoop s.bits) }
    | .deq =>
      let s := touch s
      some { s with reg := none, ap := upd s.ap a .completing, todo := s.reg.getD [] }
    | .completing => match s.todo with
      | [] => some { s with ap := upd s.ap a .gone }
      | j :: l => some (complete { s with todo := l } j)
    | _ => none
  | .stepJ j spurious => match s.jp j with
    | .loop old =>
      let s := touch s
      if s.bits = old ∧ spurious = false then
        if old.count = 0 then some { s with bits := ⟨0, true, false, false⟩, jp := upd s.jp j .inl }
        else some { s with bits := { old with running := true }, jp := upd s.jp j .regLoad }
      else some { s with jp := upd s.jp j (.loop s.bits) }
    | .regLoad => some (regLoad (touch s) j)
    | .regCas old =>
      let s := touch s
      if s.reg = some old ∧ spurious = false then
        some { s with reg := some (j :: old), jp := upd s.jp j .waiting }
      else some (regLoad s j)
    | .inl => some (complete s j)
    | _ => none
  | .destroy all =>
    if s.dead = none ∧
        -- a join operation has completed, or the scope was never used
        (s.joins.any (fun j => s.jp j == .completed) ∨ (s.grants = 0 ∧ s.joins = [])) ∧
        -- nobody is inside try_associate
        s.agents.all (fun a => match s.ap a with | .tryLoop _ => false | _ => true) ∧
        -- no join operation is being started; if `all`, all started ones have completed
        s.joins.all (fun j => s.jp j == .completed || (!all && s.jp j == .waiting)) then
      some { s with dead := some all, terminated := s.terminated || !s.bits.destructible }
    else none

def init : St := {}
abbrev Reachable (max : Nat) (s : St) : Prop := Reach init (step max) s

end Verif.Scope
