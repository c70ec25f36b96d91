import Verif.Common
/-!
# `__intrusive_queue` — model

Models `/repo/include/stdexec/__detail/__intrusive_queue.hpp`. Nodes are addresses (`Nat`), a pointer
is `Option Nat` (`none` = null), the memory maps a node to its `_Next` member. Dereferencing a null
pointer is undefined behaviour and makes the operation return `none`.
-/
namespace Verif.IQueue

abbrev Node := Nat
abbrev Ptr := Option Node
abbrev Mem := Node → Ptr

/-- Lines 292-294: `__head_`, `__tail_`. -/
structure Q where
  head : Ptr
  tail : Ptr
  deriving DecidableEq, Repr

/-- Line 47. -/
def Q.empty : Q := ⟨none, none⟩

/-- Lines 107-111. -/
def Q.isEmpty (q : Q) : Bool := q.head.isNone

/-- Lines 119-131 `pop_front`; null head is dereferenced when empty. -/
def popFront (m : Mem) (q : Q) : Option (Mem × Q × Node) :=
  match q.head with
  | none => none
  | some item =>
      let q' : Q := { q with head := m item }
      some (m, if m item = none then { q' with tail := none } else q', item)

/-- Lines 133-142 `push_front`. -/
def pushFront (m : Mem) (q : Q) (item : Node) : Mem × Q :=
  let m' := upd m item q.head
  (m', { head := some item, tail := if q.tail = none then some item else q.tail })

/-- Lines 144-157 `push_back`. -/
def pushBack (m : Mem) (q : Q) (item : Node) : Mem × Q :=
  let m1 := upd m item none
  match q.tail with
  | none => (m1, { head := some item, tail := some item })
  | some t => (upd m1 t (some item), { q with tail := some item })

/-- Lines 159-173 `append`; result: memory, `*this`, `__other`. `none` when `__tail_` is null though
    the queue is not empty. -/
def append (m : Mem) (q o : Q) : Option (Mem × Q × Q) :=
  if o.isEmpty then some (m, q, o)
  else if q.isEmpty then some (m, { head := o.head, tail := o.tail }, Q.empty)
  else match q.tail with
    | none => none
    | some t => some (upd m t o.head, { q with tail := o.tail }, Q.empty)

/-- Lines 175-190 `prepend`. -/
def prepend (m : Mem) (q o : Q) : Option (Mem × Q × Q) :=
  if o.isEmpty then some (m, q, o)
  else match o.tail with
    | none => none
    | some t =>
        let m' := upd m t q.head
        some (m', { head := o.head, tail := if q.tail = none then o.tail else q.tail }, Q.empty)

/-- Lines 72-80: the loop of `make_reversed`; `fuel` bounds the number of iterations (running out of
    fuel is `none`, i.e. non-termination). -/
def revLoop : Nat → Mem → Ptr → Ptr → Option (Mem × Ptr)
  | _, m, none, newHead => some (m, newHead)
  | 0, _, some _, _ => none
  | fuel + 1, m, some x, newHead => revLoop fuel (upd m x newHead) (m x) (some x)

/-- Lines 70-87 `make_reversed`. -/
def makeReversed (fuel : Nat) (m : Mem) (list : Ptr) : Option (Mem × Q) :=
  (revLoop fuel m list none).map fun r => (r.1, { head := r.2, tail := list })

/-- Lines 97-101: the loop of `make`, starting at the non-null node `x`. -/
def lastLoop : Nat → Mem → Node → Option Node
  | 0, _, _ => none
  | fuel + 1, m, x => match m x with
    | none => some x
    | some y => lastLoop fuel m y

/-- Lines 89-103 `make`. -/
def make (fuel : Nat) (m : Mem) (list : Ptr) : Option Q :=
  match list with
  | none => some Q.empty
  | some x => (lastLoop fuel m x).map fun t => { head := list, tail := some t }

/-- Lines 192-231: `iterator`. -/
structure Iter where
  pred : Ptr
  item : Ptr
  deriving DecidableEq, Repr

/-- Lines 218-226 `operator++`. -/
def Iter.incr (m : Mem) (i : Iter) : Iter :=
  { pred := i.item, item := match i.item with | some x => m x | none => none }

/-- Lines 239-249 `begin`, `end`. -/
def begin_ (q : Q) : Iter := ⟨none, q.head⟩
def end_ (q : Q) : Iter := ⟨q.tail, none⟩

/-- Store through a possibly-null node pointer. -/
def store (m : Mem) (p : Ptr) (v : Ptr) : Option Mem := p.map fun x => upd m x v

/-- Lines 251-284 `splice`; result: memory, `*this`, `other`. -/
def splice (m : Mem) (q : Q) (pos : Iter) (o : Q) (first last : Iter) : Option (Mem × Q × Q) :=
  if first = last then some (m, q, o)
  else
    -- lines 261-274
    let r : Option (Mem × Q) :=
      if o.head = first.item then
        some (m, if last.item = none then { head := none, tail := none }
                 else { o with head := last.item })
      else do
        let m1 ← store m first.pred last.item
        let m2 ← store m1 last.pred pos.item
        some (m2, o)
    match r with
    | none => none
    | some (m, o) =>
      -- lines 275-283
      if q.isEmpty then some (m, { head := first.item, tail := last.pred }, o)
      else match store m pos.pred first.item with
        | none => none
        | some m => some (m, if pos.item = none then { q with tail := last.pred } else q, o)

/-! ## Many queues sharing one memory -/

/-- Concrete state: memory and a family of queue objects. -/
structure Sys where
  mem : Mem
  qs : Nat → Q

/-- Operations on the family of queues. -/
inductive Op
  | pushFront (k : Nat) (x : Node)
  | pushBack (k : Nat) (x : Node)
  | popFront (k : Nat)
  | append (k j : Nat)              -- `qs[k].append(std::move(qs[j]))`
  | prepend (k j : Nat)
  | clear (k : Nat)
  | reverse (k : Nat)               -- `qs[k] = make_reversed(<the chain of qs[k]>)`
  | moveAssign (k j : Nat)          -- `qs[k] = std::move(qs[j])`
  deriving DecidableEq, Repr

/-- Concrete execution of one operation; also returns the popped node. `reverse` is given `fuel`
    loop iterations. -/
def Sys.run (fuel : Nat) (s : Sys) : Op → Option (Sys × Option Node)
  | .pushFront k x =>
      let r := Verif.IQueue.pushFront s.mem (s.qs k) x
      some (⟨r.1, upd s.qs k r.2⟩, none)
  | .pushBack k x =>
      let r := Verif.IQueue.pushBack s.mem (s.qs k) x
      some (⟨r.1, upd s.qs k r.2⟩, none)
  | .popFront k =>
      (Verif.IQueue.popFront s.mem (s.qs k)).map fun r => (⟨r.1, upd s.qs k r.2.1⟩, some r.2.2)
  | .append k j =>
      -- the parameter is move-constructed from `qs[j]` (lines 49-52), which becomes empty
      (Verif.IQueue.append s.mem (s.qs k) (s.qs j)).map fun r =>
        (⟨r.1, upd (upd s.qs j Q.empty) k r.2.1⟩, none)
  | .prepend k j =>
      (Verif.IQueue.prepend s.mem (s.qs k) (s.qs j)).map fun r =>
        (⟨r.1, upd (upd s.qs j Q.empty) k r.2.1⟩, none)
  | .clear k => some (⟨s.mem, upd s.qs k Q.empty⟩, none)
  | .reverse k =>
      (makeReversed fuel s.mem (s.qs k).head).map fun r => (⟨r.1, upd s.qs k r.2⟩, none)
  | .moveAssign k j =>
      -- lines 59-64: swap with the by-value parameter; the parameter then dies (must be empty)
      if (s.qs k).isEmpty then some (⟨s.mem, upd (upd s.qs j Q.empty) k (s.qs j)⟩, none) else none

end Verif.IQueue
