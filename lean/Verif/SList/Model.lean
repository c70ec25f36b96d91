import Verif.IQueue.Model
/-!
# `__intrusive_slist` — pointer-level model (C46)

Models `/repo/include/stdexec/__detail/__intrusive_slist.hpp` 42-191. Memory maps a node to its `_Next` pointer
(`Verif.IQueue.Mem`); the list object is its head pointer. `none` as a result: the operation dereferences a null
pointer or its traversal does not end within the given number of iterations.
-/
namespace Verif.SList
open Verif.IQueue (Mem Ptr Node)

/-- `push_front` (92-96). -/
def pushFront (m : Mem) (h : Ptr) (x : Node) : Mem × Ptr := (upd m x h, some x)

/-- `pop_front` (85-90): null dereference on an empty list. -/
def popFront (m : Mem) (h : Ptr) : Option (Ptr × Node) :=
  match h with
  | none => none
  | some x => some (m x, x)

/-- The loop of `remove` (107-114): look for the predecessor of `x`. -/
def removeLoop : Nat → Mem → Ptr → Node → Option (Mem × Bool)
  | _, m, none, _ => some (m, false)
  | 0, _, some _, _ => none
  | n + 1, m, some c, x => if m c = some x then some (upd m c (m x), true) else removeLoop n m (m c) x

/-- `remove` (98-117): new memory, new head, and whether the node was found. -/
def remove (fuel : Nat) (m : Mem) (h : Ptr) (x : Node) : Option (Mem × Ptr × Bool) :=
  if h = some x then some (m, m x, true)
  else (removeLoop fuel m h x).map fun r => (r.1, h, r.2)

/-- `swap` / move construction / move assignment (50-70): the heads are exchanged. -/
def swap (h h' : Ptr) : Ptr × Ptr := (h', h)

end Verif.SList
