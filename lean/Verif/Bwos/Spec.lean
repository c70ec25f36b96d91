import Verif.Bwos.Model
/-!
# `bwos::lifo_queue` — specification

`Spec log xs`: the history `log` is a legal history of a deque whose contents are now `xs`, oldest value
first, where the owner pushes and pops at the back and a thief may take any one element.
-/
namespace Verif.Bwos

/-- Legal histories. -/
inductive Spec : List Ev → List Val → Prop
  | nil : Spec [] []
  | push {l xs} (v) : Spec l xs → Spec (l ++ [.push v]) (xs ++ [v])
  | pushRet {l xs} (rest) : Spec l xs → (rest ≠ [] → xs ≠ []) → Spec (l ++ [.pushRet rest]) xs
  | pop {l xs} (v) : Spec l (xs ++ [v]) → Spec (l ++ [.pop v]) xs
  | popNull {l} : Spec l [] → Spec (l ++ [.popNull]) []
  | steal {l xs ys} (t v) : Spec l (xs ++ v :: ys) → Spec (l ++ [.steal t v]) (xs ++ ys)

/-- The values in slots `lo … hi-1` of a block. -/
def seg (b : Blk) (lo hi : Nat) : List Val := (List.range' lo (hi - lo)).map b.buf

/-- The values in the owner's own block. -/
def St.ownSeg (c : Cfg) (s : St) : List Val :=
  match s.opc with
  | .put _ b => seg (s.at c s.own) (s.at c s.own).head.2 b
  | .spin _ | .rTail _ | .rSteal _ | .rCount _ | .take => []
  | _ => seg (s.at c s.own) (s.at c s.own).head.2 (s.at c s.own).tail

/-- The values in the blocks open to thieves. -/
def St.granted (c : Cfg) (s : St) : List Val :=
  (List.range' s.start (s.own - s.start)).flatMap
    (fun k => seg (s.at c k) (s.at c k).stealTail.2 c.bs)

/-- The contents of the queue, oldest first. -/
def St.content (c : Cfg) (s : St) : List Val := s.granted c ++ s.ownSeg c

/-- The values thief `t` takes in a history. -/
def stolenBy (t : Nat) : Ev → Option Val
  | .steal t' v => if t' = t then some v else none
  | _ => none

def pushed : Ev → Option Val
  | .push v => some v
  | _ => none

/-- The values that leave the queue in a history. -/
def removed : Ev → Option Val
  | .pop v => some v
  | .steal _ v => some v
  | _ => none

end Verif.Bwos
