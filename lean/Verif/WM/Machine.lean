import Verif.Run
/-!
# A machine for the C++ memory model: views, messages, data races

The other modules interleave atomic accesses as if they were sequentially consistent. This machine does not: it is the
view machine for release/acquire and relaxed atomics (the promise-free fragment: everything the C++ memory model,
[intro.races] and [atomics.order], allows but load buffering). Every atomic object has a *history* of messages in
modification order; every thread has a *view*: the newest message it knows of each object, and which accesses happened
before. A load may read any message that is not older than the thread's view; a read-modify-write reads a message and puts its
own directly behind it; a store goes anywhere behind the thread's view. A release writes the thread's view into the message, an
acquire adopts the view of the message read; a read-modify-write continues the release sequence of the message it read, a
relaxed store begins none (C++20). `seq_cst` accesses are treated as acquire-release, which allows more.
Timestamps are natural numbers with gaps; a store picks any unused one, so every finite execution has its timestamps.
Every access is logged; an access races if the log has a conflicting access that did not happen before it.
-/
namespace Verif.WM

/-- `std::memory_order`; `ar` is `acq_rel` (and a lower bound of `seq_cst`). -/
inductive Ord
  | rlx
  | acq
  | rel
  | ar
  deriving DecidableEq, Repr

/-- The order includes an acquire. -/
def Ord.isAcq : Ord → Bool
  | .acq => true
  | .ar => true
  | _ => false

/-- The order includes a release. -/
def Ord.isRel : Ord → Bool
  | .rel => true
  | .ar => true
  | _ => false

/-- What a thread knows: the newest message of each atomic object, and the accesses (numbered as in the log) that happened
before. -/
structure View (L : Type) where
  seen : L → Nat
  know : Nat → Bool

/-- Knowing nothing. -/
def View.bot {L : Type} : View L := ⟨fun _ => 0, fun _ => false⟩

/-- Knowing both. -/
def View.join {L : Type} (a b : View L) : View L := ⟨fun l => max (a.seen l) (b.seen l), fun k => a.know k || b.know k⟩

/-- Having seen message `ts` of `l`. -/
def View.see {L : Type} [DecidableEq L] (a : View L) (l : L) (ts : Nat) : View L := { a with seen := upd a.seen l ts }

structure Msg (L : Type) where
  val : Nat
  view : View L

structure Mem (L A : Type) where
  hist : L → Nat → Option (Msg L)
  cur : Nat → View L
  log : List A
  race : Bool

variable {L A : Type} [DecidableEq L]

/-- Every object holds its initial value, known to everyone; nothing was accessed. -/
def Mem.init (v : L → Nat) : Mem L A :=
  { hist := fun l ts => if ts = 0 then some ⟨v l, .bot⟩ else none, cur := fun _ => .bot, log := [], race := false }

/-- Access `a` by thread `t` conflicts with one in the log that did not happen before. -/
def Mem.racy (conf : A → A → Bool) (m : Mem L A) (t : Nat) (a : A) : Bool :=
  (List.range m.log.length).any fun k => (m.log[k]?).any fun b => conf b a && !(m.cur t).know k

/-- Thread `t` performs access `a`: it is logged, and in the thread's past from now on. -/
def Mem.touch (conf : A → A → Bool) (m : Mem L A) (t : Nat) (a : A) : Mem L A :=
  { m with
    log := m.log ++ [a], race := m.race || m.racy conf t a
    cur := upd m.cur t { m.cur t with know := upd (m.cur t).know m.log.length true } }

/-- Thread `t` adopts a view. -/
def Mem.adopt (m : Mem L A) (t : Nat) (w : View L) : Mem L A := { m with cur := upd m.cur t ((m.cur t).join w) }

/-- Thread `t` has now seen message `ts` of `l`. -/
def Mem.advance (m : Mem L A) (t : Nat) (l : L) (ts : Nat) : Mem L A := { m with cur := upd m.cur t ((m.cur t).see l ts) }

/-- A message is added. -/
def Mem.put (m : Mem L A) (l : L) (ts : Nat) (g : Msg L) : Mem L A := { m with hist := upd m.hist l (upd (m.hist l) ts (some g)) }

/-- Load by `t` of `l`, reading message `ts`; gives the value. -/
def Mem.load (conf : A → A → Bool) (m : Mem L A) (o : Ord) (t : Nat) (l : L) (ts : Nat) (a : A) : Option (Nat × Mem L A) :=
  match m.hist l ts with
  | some g =>
    if (m.cur t).seen l ≤ ts then
      some (g.val, ((m.touch conf t a).advance t l ts).adopt t (if o.isAcq then g.view else .bot))
    else none
  | none => none

/-- Store by `t` of `v` to `l`, at `ts` in the modification order. -/
def Mem.store (conf : A → A → Bool) (m : Mem L A) (o : Ord) (t : Nat) (l : L) (ts : Nat) (v : Nat) (a : A) : Option (Mem L A) :=
  if (m.cur t).seen l < ts ∧ m.hist l ts = none then
    let m' := (m.touch conf t a).advance t l ts
    some (m'.put l ts ⟨v, if o.isRel then m'.cur t else View.bot.see l ts⟩)
  else none

/-- Read-modify-write by `t` of `l`, reading message `ts`: `f` gives the new value. -/
def Mem.rmw (conf : A → A → Bool) (m : Mem L A) (o : Ord) (t : Nat) (l : L) (ts : Nat) (f : Nat → Nat) (a : A) :
    Option (Nat × Mem L A) :=
  match m.hist l ts with
  | some g =>
    if (m.cur t).seen l ≤ ts ∧ m.hist l (ts + 1) = none then
      let m' := ((m.touch conf t a).advance t l (ts + 1)).adopt t (if o.isAcq then g.view else .bot)
      some (g.val, m'.put l (ts + 1) ⟨f g.val, g.view.join (if o.isRel then m'.cur t else View.bot.see l (ts + 1))⟩)
    else none
  | none => none

end Verif.WM
