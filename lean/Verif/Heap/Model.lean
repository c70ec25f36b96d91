import Mathlib.Order.Defs.LinearOrder
import Verif.Common
/-!
# `intrusive_heap` — model

Models `/repo/include/exec/detail/intrusive_heap.hpp`. Nodes are addresses. The `Left`/`Right` links
of the nodes in the heap are represented by the binary tree they form (so a write to a child link is
a change of the tree); the `Prev` (parent) link of every node, in or out of the heap, is an explicit
memory `prev` and every write the code makes to it is modelled, because `erase` decides from it
whether a node is in the heap. Dereferencing a null link is undefined behaviour (`none`).
Keys are compared with `<` only, in an arbitrary linear order.
-/
namespace Verif.Heap

abbrev Node := Nat
abbrev Prev := Node → Option Node

/-- The tree formed by `Left`/`Right`. -/
inductive T
  | nil
  | node (l : T) (x : Node) (r : T)
  deriving DecidableEq, Repr

def T.root : T → Option Node
  | .nil => none
  | .node _ x _ => some x

/-- `p->Prev = v` for a pointer that may be the sentinel (`none`: the write goes to a dummy). -/
def setP (prev : Prev) (p : Option Node) (v : Option Node) : Prev :=
  match p with
  | none => prev
  | some x => upd prev x v

/-- Lines 22-66 `bit_ceil` (all three variants compute the least power of two `≥ n`). -/
def bitCeil (n : Nat) : Nat := if n ≤ 1 then 1 else 2 ^ (Nat.log2 (n - 1) + 1)

/-- Lines 70-73 `path_bit_mask`. -/
def pathMask (n : Nat) : Nat := bitCeil (n + 1) >>> 2

/-- The branch decisions of the loops `while (path_mask) { … path_mask & path …; path_mask >>= 1; }`
    (lines 95, 333): `true` = right. The first argument only makes the recursion structural; the mask
    itself bounds the number of rounds, so it is never exhausted (`pathLoop_pos`). -/
def pathLoopAux : Nat → Nat → Nat → List Bool
  | 0, _, _ => []
  | fuel + 1, mask, n =>
      if mask = 0 then [] else decide (mask &&& n ≠ 0) :: pathLoopAux fuel (mask >>> 1) n

def pathLoop (mask n : Nat) : List Bool := pathLoopAux mask mask n

def path (n : Nat) : List Bool := pathLoop (pathMask n) n

section
variable {K : Type} [LinearOrder K] (key : Node → K)

/-- Lines 102-128: the inner loop of `insert`. `x` has just taken the place of `cur`'s root, which is
    pushed down along the rest of the path; `xr` is the (stale) `Right` link of `x`. -/
def pushDown : List Bool → T → Node → T → Prev → Option (T × Prev)
  | [], _, x, xr, prev => some (.node .nil x xr, prev)          -- 127: `node->Left = nullptr`
  | _ :: _, .nil, _, _, _ => none
  | true :: p, .node l y r, x, _, prev =>                       -- 104-111
      match l.root with
      | none => none
      | some lx =>
          (pushDown p r y r (upd prev lx (some x))).map fun res => (.node l x res.1, res.2)
  | false :: p, .node l y r, x, _, prev =>                      -- 113-121
      (pushDown p l y r (setP prev r.root (some x))).map fun res => (.node res.1 x r, res.2)

/-- Lines 89-148 `insert` from the current position (`par` = `parent`). -/
def insertAt : List Bool → T → Node → Option Node → Prev → Option (T × Prev)
  | [], _, x, par, prev => some (.node .nil x .nil, upd prev x par)
  | _ :: _, .nil, _, _, _ => none
  | b :: p, .node l y r, x, par, prev =>
      if key x < key y then
        pushDown (b :: p) (.node l y r) x .nil (upd (upd prev x par) y (some x))
      else if b then
        (insertAt p r x (some y) prev).map fun res => (.node l y res.1, res.2)
      else (insertAt p l x (some y) prev).map fun res => (.node res.1 y r, res.2)

/-- Lines 330-349 `remove_last_leaf`: cut the node at the given path; returns it. -/
def removeLast : List Bool → T → Option (T × Node)
  | [], .node _ x _ => some (.nil, x)
  | true :: p, .node l y r => (removeLast p r).map fun res => (.node l y res.1, res.2)
  | false :: p, .node l y r => (removeLast p l).map fun res => (.node res.1 y r, res.2)
  | _, .nil => none

/-- Lines 269-328 `sift_down`; the tree's root value is the hole being filled by `x`. -/
def siftDown : T → Node → Option Node → Prev → T × Prev
  | .nil, _, _, prev => (.nil, prev)
  | .node .nil _ r, x, par, prev => (.node .nil x r, upd prev x par)
  | .node (.node ll lx lr) _ (.node rl rx rr), x, par, prev =>
      if key rx < key lx then
        if key rx < key x then
          let res := siftDown (.node rl rx rr) x (some rx) (upd prev lx (some rx))
          (.node (.node ll lx lr) rx res.1, res.2)
        else (.node (.node ll lx lr) x (.node rl rx rr),
              upd (upd (upd prev rx (some x)) lx (some x)) x par)
      else if key lx < key x then
        let res := siftDown (.node ll lx lr) x (some lx) (upd prev rx (some lx))
        (.node res.1 lx (.node rl rx rr), res.2)
      else (.node (.node ll lx lr) x (.node rl rx rr),
            upd (upd (upd prev rx (some x)) lx (some x)) x par)
  | .node (.node ll lx lr) _ .nil, x, par, prev =>
      if key lx < key x then
        let res := siftDown (.node ll lx lr) x (some lx) prev
        (.node res.1 lx .nil, res.2)
      else (.node (.node ll lx lr) x .nil, upd (upd prev lx (some x)) x par)

/-- One step of the way from a node to the root: `right?`, the ancestor, its other subtree. -/
structure Frame where
  right : Bool
  y : Node
  sib : T

def Frame.fill (f : Frame) (t : T) : T :=
  if f.right then .node f.sib f.y t else .node t f.y f.sib

/-- Rebuild the tree around a position; the nearest ancestor is first. -/
def plug : List Frame → T → T
  | [], t => t
  | f :: ctx, t => plug ctx (f.fill t)

/-- The position of node `x` (what its address, `Left`, `Right` and chain of `Prev` links denote):
    ancestors (nearest first), left and right subtree. -/
def focusIn (x : Node) : List Frame → T → Option (List Frame × T × T)
  | _, .nil => none
  | ctx, .node l y r =>
      if y = x then some (ctx, l, r)
      else match focusIn x (⟨false, y, r⟩ :: ctx) l with
        | some res => some res
        | none => focusIn x (⟨true, y, l⟩ :: ctx) r

/-- Lines 224-267 `sift_up`: the loop. `c` with subtrees `l`, `r` is the current node, the first frame
    its parent; `child0` is the node whose `Prev` field `child0_parent_ptr` denotes. -/
def siftUp (c : Node) : List Frame → T → T → Option Node → Prev → Option (T × Prev)
  | [], _, _, _, _ => none
  | f :: ctx, l, r, child0, prev =>
      let prev1 := setP prev child0 (some f.y)                   -- 236
      match f.sib.root with                                      -- 239, 244: sibling dereferenced
      | none => none
      | some z =>
          let cur : T := if f.right then .node f.sib c (.node l f.y r)
                         else .node (.node l f.y r) c f.sib
          match ctx with
          | [] => none                                           -- 249: `grand_parent` is null
          | g :: _ =>
              if key c < key g.y then                            -- 261
                match cur with
                | .node l' _ r' => siftUp c ctx l' r' (some z) prev1
                | .nil => none
              else
                some (plug ctx cur,                              -- 262-264
                  upd (upd (upd prev1 z (some c)) f.y (some c)) c (some g.y))

/-- The heap object together with the nodes' `Prev` fields. -/
structure H where
  t : T
  size : Nat
  prev : Prev

/-- Lines 85-149. -/
def insert (h : H) (x : Node) : Option H :=
  (insertAt key (path (h.size + 1)) h.t x none h.prev).map fun r => ⟨r.1, h.size + 1, r.2⟩

/-- Lines 171-174. -/
def front (h : H) : Option Node := h.t.root

/-- Lines 151-169. -/
def popFront (h : H) : Option H :=
  if h.size ≤ 1 then some ⟨.nil, 0, h.prev⟩
  else
    match removeLast (path h.size) h.t with
    | none => none
    | some (t1, cur) =>
        match t1 with
        | .nil => none
        | .node l top r =>
            let res := siftDown key (.node l top r) cur none h.prev
            some ⟨res.1, h.size - 1, setP res.2 res.1.root none⟩

/-- Lines 176-220. -/
def erase (h : H) (x : Node) : Option (H × Bool) :=
  if h.prev x = none ∧ h.t.root ≠ some x then some (h, false)
  else
    match removeLast (path h.size) h.t with
    | none => none
    | some (t1, cur) =>
        if cur = x then some (⟨t1, h.size - 1, upd h.prev x none⟩, true)
        else
          match focusIn x [] t1 with
          | none => none
          | some ([], l, r) =>                                     -- 211-216
              let res := siftDown key (.node l x r) cur none h.prev
              some (⟨res.1, h.size - 1, upd (setP res.2 res.1.root none) x none⟩, true)
          | some (f :: ctx, l, r) =>
              if key cur < key f.y then                            -- 203-208
                let prev1 := setP h.prev r.root (some f.y)
                (siftUp key cur (f :: ctx) l r l.root prev1).map fun res =>
                  (⟨res.1, h.size - 1, upd res.2 x none⟩, true)
              else                                                 -- 217-219
                let res := siftDown key (.node l x r) cur (some f.y) h.prev
                some (⟨plug (f :: ctx) res.1, h.size - 1,
                  upd (setP res.2 res.1.root (some f.y)) x none⟩, true)

end
end Verif.Heap
