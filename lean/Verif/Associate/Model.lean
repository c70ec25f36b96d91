import Verif.Common
import Verif.ListSum
/-!
# `associate` and `spawn`: work tied to an async scope

`stdexec/__detail/__associate.hpp` and `__spawn.hpp`. A program creates, copies, moves, connects, starts and destroys
associate-senders, and spawns work; any constructor may throw. Every call is the list of its effects on the scope
(try to associate, release) and on the objects it protects (wrapped senders and the operations made from them), in the
order of the C++ object lifetime rules; a ghost flag records whether the scope could be seen with fewer associations than
protected objects. The scope itself (its bits, closing, joining) is C13-C15: here it is a count and a closed flag.

Simplifications: calls are atomic except for the ghost flag; allocators are stateless.
-/
namespace Verif.Associate

/-- An operation made by connecting an associate-sender (`__op_state`, `__associate.hpp:186-248`). -/
structure OpC where
  a : Bool       -- `__assoc_`
  o : Nat        -- the object `__op_` (if `a`)
  st : Bool      -- was started
  kids : Nat     -- how often `__op_` was started
  kd : Bool      -- `__op_` has completed
  dn : Nat       -- how often the receiver was completed
  sp : Bool      -- … by `__run` itself, with `set_stopped`
  deriving DecidableEq, Repr

/-- A variable of the program, or a spawned operation. -/
inductive Cell
  | absent
  | data (a : Bool) (o : Nat)   -- an associate-sender (`__associate_data`, `:54-146`): `__assoc_`, and `__sndr_` if `a`
  | op (c : OpC)
  | spawn (o : Nat)             -- a running `__spawn_state` (`__spawn.hpp:87-131`)
  deriving DecidableEq, Repr

/-- What throws during one call. -/
structure Orc where
  first : Bool    -- `wrap` / copying the sender / allocating
  second : Bool   -- connecting, or moving the sender
  assoc : Bool    -- `try_associate`
  deny : Bool     -- `try_associate` finds the maximal number of associations
  deriving DecidableEq, Repr

structure St where
  closed : Bool
  count : Nat             -- associations of the scope
  nobj : Nat
  dead : Nat → Nat        -- how often object `o` was destroyed
  cell : Nat → Cell
  blks : Nat              -- allocated blocks
  -- ghost
  ncov : Nat              -- live objects protected by an association
  gap : Bool              -- at some moment there were fewer associations than protected objects
  bad : Bool              -- something was destroyed or released that was not there

/-- An empty, open scope. -/
def init : St :=
  { closed := false, count := 0, nobj := 0, dead := fun _ => 0, cell := fun _ => .absent, blks := 0
    ncov := 0, gap := false, bad := false }

/-! Effects -/

/-- A wrapped sender or operation is constructed. -/
def build (s : St) : St := { s with nobj := s.nobj + 1 }

/-- Object `o` is destroyed; `c`: it was protected. -/
def kill (s : St) (o : Nat) (c : Bool) : St :=
  { s with
      dead := upd s.dead o (s.dead o + 1)
      ncov := if c then s.ncov - 1 else s.ncov
      bad := s.bad || decide (s.nobj ≤ o) || decide (0 < s.dead o) || (c && decide (s.ncov = 0)) }

/-- `try_associate` succeeds. -/
def grant (s : St) : St := { s with count := s.count + 1 }

/-- An object becomes protected. -/
def cover (s : St) : St := { s with ncov := s.ncov + 1 }

/-- An association is destroyed (`__disassociater`, `__counting_scopes.hpp:244-250`). -/
def release (s : St) : St :=
  { s with
      count := s.count - 1
      gap := s.gap || decide (s.count - 1 < s.ncov)
      bad := s.bad || decide (s.count = 0) }

/-- Assign to a variable. -/
def put (s : St) (i : Nat) (c : Cell) : St := { s with cell := upd s.cell i c }

/-- Memory is allocated / freed. -/
def alloc (s : St) : St := { s with blks := s.blks + 1 }
def free (s : St) : St := { s with blks := s.blks - 1, bad := s.bad || decide (s.blks = 0) }

/-- Does `try_associate` succeed? (`__counting_scopes.hpp:325-370`) -/
def grants (s : St) (e : Orc) : Bool := !s.closed && !e.deny

/-! Calls. Each returns the new state and whether it threw. -/

/-- `associate(sndr, token)` (`__associate.hpp:84-103`): wrap, then associate; without an association the guard destroys
    the wrapped sender. -/
def make (s : St) (i : Nat) (e : Orc) : St × Bool :=
  if e.first then (s, true)
  else if e.assoc then (kill (build s) s.nobj false, true)
  else if grants s e then (put (cover (grant (build s))) i (.data true s.nobj), false)
  else (put (kill (build s) s.nobj false) i (.data false 0), false)

/-- The copy constructor (`:105-115`); an exception destroys the member `__assoc_`. -/
def copyD (s : St) (i : Nat) (a : Bool) (e : Orc) : St × Bool :=
  if a && e.assoc then (s, true)
  else if a && grants s e then
    if e.first then (release (grant s), true)
    else (put (cover (build (grant s))) i (.data true s.nobj), false)
  else (put s i (.data false 0), false)

/-- The move constructor (`:117-120` and `:135-142`): `release()` empties the source `j`; if moving the sender throws, the
    member `__assoc_` is destroyed first and the parameter, with the old sender, last. -/
def moveD (s : St) (i j : Nat) (a : Bool) (o : Nat) (e : Orc) : St × Bool :=
  if a then
    if e.second then (put (kill (release s) o true) j (.data false 0), true)
    else (put (put (kill (cover (build s)) o true) j (.data false 0)) i (.data true s.nobj), false)
  else (put s i (.data false 0), false)

/-- The destructor of an associate-sender (`:122-128`): the sender first, then the association. -/
def delD (s : St) (i : Nat) (a : Bool) (o : Nat) : St :=
  if a then put (release (kill s o true)) i .absent else put s i .absent

/-- `connect` of an rvalue (`:201-219`): the association is moved into the operation, the operation is connected from the
    wrapped sender, which is destroyed at the end. If connecting throws, the member `__assoc_` is destroyed before it. -/
def conn (s : St) (i j : Nat) (a : Bool) (o : Nat) (e : Orc) : St × Bool :=
  if a then
    if e.second then (put (kill (release s) o true) j (.data false 0), true)
    else (put (put (kill (cover (build s)) o true) j (.data false 0)) i (.op ⟨true, s.nobj, false, 0, false, 0, false⟩), false)
  else (put s i (.op ⟨false, 0, false, 0, false, 0, false⟩), false)

/-- `connect` of an lvalue (`:221-224`): a copy is made, and the above is done with the copy. -/
def connC (s : St) (i : Nat) (a : Bool) (e : Orc) : St × Bool :=
  if a && e.assoc then (s, true)
  else if a && grants s e then
    if e.first then (release (grant s), true)
    else if e.second then (kill (release (cover (build (grant s)))) s.nobj true, true)
    else
      (put (kill (cover (build (cover (build (grant s))))) s.nobj true) i
        (.op ⟨true, s.nobj + 1, false, 0, false, 0, false⟩), false)
  else (put s i (.op ⟨false, 0, false, 0, false, 0, false⟩), false)

/-- `start` (`:238-248`). -/
def startO (c : OpC) : OpC :=
  if c.a then { c with st := true, kids := c.kids + 1 }
  else { c with st := true, dn := c.dn + 1, sp := true }

/-- The destructor of the operation (`:226-236`). -/
def delO (s : St) (i : Nat) (c : OpC) : St :=
  if c.a then put (release (kill s c.o true)) i .absent else put s i .absent

/-- `spawn` (`__spawn.hpp:276-306`) with the constructor and `__run` (`:92-110`): allocate, connect, associate, and start
    or complete at once. -/
def spawn (s : St) (i : Nat) (e : Orc) : St × Bool :=
  if e.first then (s, true)
  else if e.second then (free (alloc s), true)
  else if e.assoc then (free (kill (build (alloc s)) s.nobj false), true)
  else if grants s e then (put (cover (grant (build (alloc s)))) i (.spawn s.nobj), false)
  else (free (kill (build (alloc s)) s.nobj false), false)

/-- `__do_complete` (`__spawn.hpp:119-131`): the state is destroyed and freed, the association released last. -/
def spawnDone (s : St) (i o : Nat) : St := put (release (free (kill s o true))) i .absent

inductive Act
  | make (i : Nat) (e : Orc)
  | copy (i j : Nat) (e : Orc)
  | move (i j : Nat) (e : Orc)
  | conn (i j : Nat) (e : Orc)
  | connC (i j : Nat) (e : Orc)
  | start (i : Nat)
  | child (i : Nat)          -- the operation `__op_` completes, which completes the receiver
  | del (i : Nat)            -- end of lifetime; an operation only if it was not started or has completed
  | spawn (i : Nat) (e : Orc)
  | spawned (i : Nat)        -- the spawned operation completes
  | close
  deriving DecidableEq, Repr

/-- May an operation be destroyed? -/
def OpC.idle (c : OpC) : Bool := !c.st || decide (0 < c.dn)

/-- One call; at most `N` variables. -/
def step (N : Nat) (s : St) : Act → Option St
  | .make i e => if i < N ∧ s.cell i = .absent then some (Associate.make s i e).1 else none
  | .copy i j e =>
    if i < N ∧ j < N ∧ s.cell i = .absent then
      match s.cell j with
      | .data a _ => some (copyD s i a e).1
      | _ => none
    else none
  | .move i j e =>
    if i < N ∧ j < N ∧ s.cell i = .absent then
      match s.cell j with
      | .data a o => some (moveD s i j a o e).1
      | _ => none
    else none
  | .conn i j e =>
    if i < N ∧ j < N ∧ s.cell i = .absent then
      match s.cell j with
      | .data a o => some (Associate.conn s i j a o e).1
      | _ => none
    else none
  | .connC i j e =>
    if i < N ∧ j < N ∧ s.cell i = .absent then
      match s.cell j with
      | .data a _ => some (Associate.connC s i a e).1
      | _ => none
    else none
  | .start i =>
    if i < N then
      match s.cell i with
      | .op c => if c.st then none else some (put s i (.op (startO c)))
      | _ => none
    else none
  | .child i =>
    if i < N then
      match s.cell i with
      | .op c => if c.kids = 1 ∧ c.kd = false then some (put s i (.op { c with kd := true, dn := c.dn + 1 })) else none
      | _ => none
    else none
  | .del i =>
    if i < N then
      match s.cell i with
      | .data a o => some (delD s i a o)
      | .op c => if c.idle then some (delO s i c) else none
      | _ => none
    else none
  | .spawn i e => if i < N ∧ s.cell i = .absent then some (Associate.spawn s i e).1 else none
  | .spawned i =>
    if i < N then
      match s.cell i with
      | .spawn o => some (spawnDone s i o)
      | _ => none
    else none
  | .close => some { s with closed := true }

end Verif.Associate
