import Verif.Common
import Verif.Count
/-!
# `bwos::lifo_queue` — model

Models `/repo/include/exec/detail/bwos_lifo_queue.hpp`: the block-based work-stealing deque of
`static_thread_pool`. One owner thread calls `push_back` / `pop_back`; any number `N` of thieves call
`steal_front` concurrently. Every load, store, exchange and compare-exchange of an atomic that another
thread can write is a step of its own; the owner's accesses to memory no thief touches (`head_`) and
its reads of atomics only it writes (`tail_`, `start_block_`, `last_block_`) are merged with the
neighbouring step. Interleavings are sequentially consistent (the memory orders are not modelled).

Simplification: a block counter `(round << 32) | index` is the absolute block number
`k = round * n + index`, so `increase_block_counter` (317-325) is `k + 1`, `decrease_block_counter`
(328-338) is `k - 1`, `counter & mask_` is `k % n`, `counter >> 32` is `k / n` and `<` on counters is `<`
on numbers; the wrap-around of the 32-bit round after 2^32 rounds is not modelled. A round is an `Int`
because the constructor's round is −1 (`0xFFFF'FFFF`). `n` need not be a power of two.
-/
namespace Verif.Bwos

abbrev Val := Nat

/-- Number of blocks, size of a block, number of thief threads. -/
structure Cfg where
  n : Nat
  bs : Nat
  N : Nat
  hn : 0 < n
  hbs : 0 < bs

/-- Lines 160-181 `block_type`: `head_` and `steal_tail_` are (round, index) pairs. -/
structure Blk where
  head : Int × Nat
  tail : Nat
  stealCount : Nat
  stealTail : Int × Nat
  buf : Nat → Val

/-- What the owner is about to do. `vs` are the values `push_back` has still to store. -/
inductive OPc
  | idle
  /-- `bulk_put` 496-503, with its local `back_idx` -/
  | put (vs : List Val) (b : Nat)
  /-- `advance_put_index` 375: `is_writable` -/
  | wr (vs : List Val)
  /-- 380-386: move `start_block_` -/
  | stS (vs : List Val)
  /-- `grant` 643: load `steal_tail_` -/
  | grant1 (vs : List Val)
  /-- `grant` 644-646 -/
  | grant2 (vs : List Val) (e : Int × Nat)
  /-- `reclaim` 617-620: the spin loop -/
  | spin (vs : List Val)
  /-- `reclaim` 624 -/
  | rTail (vs : List Val)
  /-- `reclaim` 625 -/
  | rSteal (vs : List Val)
  /-- `reclaim` 626 -/
  | rCount (vs : List Val)
  /-- 391: store `last_block_` -/
  | lastP (vs : List Val)
  /-- `get` 508-527 -/
  | get
  /-- `advance_get_index` 345-350 -/
  | ldS
  /-- `reduce_round` 575 -/
  | red1
  /-- `reduce_round` 576-579 -/
  | red2 (e : Int × Nat)
  /-- `takeover` 583-591 -/
  | take
  /-- 358: store `last_block_` -/
  | lastG
  deriving DecidableEq

/-- What a thief is about to do; `k` is its block counter. -/
inductive TPc
  | idle
  /-- `steal_front` 245 -/
  | ldStart
  /-- `steal` 533-547 -/
  | ldSteal (k : Nat)
  /-- `steal` 549-555 -/
  | ldTail (k : Nat) (r : Int) (i : Nat)
  /-- `steal` 557-562 -/
  | cas (k : Nat) (r : Int) (i : Nat)
  /-- `steal` 564: read the claimed slot -/
  | rd (j : Nat) (i : Nat)
  /-- `steal` 566-568: report the read and return the value -/
  | inc (j : Nat) (v : Val)
  /-- `advance_steal_index` 397-401 -/
  | adv (k : Nat)
  deriving DecidableEq

/-- Ghost: what the calls do to the abstract contents, in order. -/
inductive Ev
  /-- `push_back` accepted `v` -/
  | push (v : Val)
  /-- `push_back` returned, rejecting `rest` -/
  | pushRet (rest : List Val)
  /-- `pop_back` returned `v` -/
  | pop (v : Val)
  /-- `pop_back` returned a null value -/
  | popNull
  /-- thief `t` claimed `v` -/
  | steal (t : Nat) (v : Val)
  deriving DecidableEq

structure St where
  blk : Nat → Blk
  start : Nat
  last : Nat
  /-- the owner's local copy of `last_block_` -/
  own : Nat
  opc : OPc
  tpc : Nat → TPc
  /-- ghost -/
  log : List Ev
  /-- ghost: the non-null values each thief's `steal_front` calls have returned -/
  ret : Nat → List Val

/-- 412-417 `block_type(block_size)`. -/
def Blk.fresh (bs : Nat) : Blk :=
  { head := (-1, bs), tail := bs, stealCount := bs, stealTail := (-1, bs), buf := fun _ => 0 }

/-- 608-627 `reclaim`, run without concurrency by the constructor. -/
def Blk.reclaimed (bs : Nat) (r : Int) (b : Blk) : Blk :=
  { b with head := (r, 0), tail := 0, stealTail := (r, bs), stealCount := 0 }

/-- 207-216: the constructor. -/
def init (c : Cfg) : St :=
  { blk := upd (fun _ => Blk.fresh c.bs) 0 ((Blk.fresh c.bs).reclaimed c.bs 0)
    start := 0, last := 0, own := 0, opc := .idle, tpc := fun _ => .idle
    log := [], ret := fun _ => [] }

inductive Act
  /-- the owner calls `push_back(first, last)`; `push_back(v)` is the call with one value -/
  | push (vs : List Val)
  /-- the owner calls `pop_back()` -/
  | pop
  /-- the owner's next step -/
  | owner
  /-- thief `t` calls `steal_front()` -/
  | steal (t : Nat)
  /-- thief `t`'s next step -/
  | thief (t : Nat)

/-- The physical block of a block counter. -/
def St.at (c : Cfg) (s : St) (k : Nat) : Blk := s.blk (k % c.n)

/-- Change the physical block of a block counter. -/
def St.setB (c : Cfg) (s : St) (k : Nat) (b : Blk) : St := { s with blk := upd s.blk (k % c.n) b }

/-- The owner's next step. -/
def ownerStep (c : Cfg) (s : St) : Option St :=
  match s.opc with
  | .idle => none
  -- 496-503 `bulk_put`: write the next value, or publish the new tail
  | .put [] b => some { s.setB c s.own { s.at c s.own with tail := b } with
                        opc := .idle, log := s.log ++ [.pushRet []] }
  | .put (v :: vs) b =>
      if b < c.bs then
        some { s.setB c s.own { s.at c s.own with buf := upd (s.at c s.own).buf b v } with
               opc := .put vs (b + 1), log := s.log ++ [.push v] }
      else
        some { s.setB c s.own { s.at c s.own with tail := b } with opc := .wr (v :: vs) }
  -- 364-379: the ring has a single block, or `is_writable` fails: `push_back` returns
  | .wr vs =>
      if (s.own + 1) % c.n = s.own % c.n then
        some { s with opc := .idle, log := s.log ++ [.pushRet vs] }
      else if (s.at c (s.own + 1)).stealTail = ((((s.own + 1) / c.n : Nat) : Int) - 1, c.bs) then
        some { s with opc := .stS vs }
      else some { s with opc := .idle, log := s.log ++ [.pushRet vs] }
  -- 380-386
  | .stS vs =>
      some { s with start := if (s.own + 1) % c.n = s.start % c.n then s.start + 1 else s.start
                    opc := .grant1 vs }
  -- 637-647 `grant`
  | .grant1 vs => some { s with opc := .grant2 vs (s.at c s.own).stealTail }
  | .grant2 vs e =>
      some { s.setB c s.own { s.at c s.own with head := e, stealTail := (s.at c s.own).head } with
             own := s.own + 1, opc := .spin vs }
  -- 608-627 `reclaim`
  | .spin vs =>
      if (s.at c s.own).stealCount = (s.at c s.own).head.2 then
        some { s.setB c s.own { s.at c s.own with head := (((s.own / c.n : Nat) : Int), 0) } with
               opc := .rTail vs }
      else some s
  | .rTail vs =>
      some { s.setB c s.own { s.at c s.own with tail := 0 } with opc := .rSteal vs }
  | .rSteal vs =>
      some { s.setB c s.own { s.at c s.own with stealTail := (((s.own / c.n : Nat) : Int), c.bs) } with
             opc := .rCount vs }
  | .rCount vs =>
      some { s.setB c s.own { s.at c s.own with stealCount := 0 } with opc := .lastP vs }
  -- 391, then 299-300: `bulk_put` into the new block
  | .lastP vs => some { s with last := s.own, opc := .put vs (s.at c s.own).tail }
  -- 508-527 `get`
  | .get =>
      if (s.at c s.own).tail = 0 ∨ (s.at c s.own).head.2 = (s.at c s.own).tail then
        some { s with opc := .ldS }
      else
        some { s.setB c s.own { s.at c s.own with tail := (s.at c s.own).tail - 1 } with
               opc := .idle
               log := s.log ++ [.pop ((s.at c s.own).buf ((s.at c s.own).tail - 1))] }
  -- 345-350
  | .ldS =>
      if s.start = s.own then some { s with opc := .idle, log := s.log ++ [.popNull] }
      else some { s with opc := .red1 }
  -- 571-580 `reduce_round`
  | .red1 => some { s with opc := .red2 (s.at c s.own).stealTail }
  | .red2 e =>
      some { s.setB c s.own { s.at c s.own with stealTail := (e.1 - 1, e.2) } with opc := .take }
  -- 583-591 `takeover` of the predecessor
  | .take =>
      some { s.setB c (s.own - 1) { s.at c (s.own - 1) with
                                    head := (s.at c (s.own - 1)).stealTail
                                    stealTail := (s.at c (s.own - 1)).head } with
             own := s.own - 1, opc := .lastG }
  | .lastG => some { s with last := s.own, opc := .get }

/-- Thief `t`'s next step. -/
def thiefStep (c : Cfg) (s : St) (t : Nat) : Option St :=
  match s.tpc t with
  | .idle => none
  | .ldStart => some { s with tpc := upd s.tpc t (.ldSteal s.start) }
  -- 533-547: a block whose index is `block_size` is done (right round) or empty (other round)
  | .ldSteal k =>
      if (s.at c k).stealTail.2 = c.bs then
        if (s.at c k).stealTail.1 = ((k / c.n : Nat) : Int) then
          some { s with tpc := upd s.tpc t (.adv k) }
        else some { s with tpc := upd s.tpc t .idle }
      else some { s with tpc := upd s.tpc t (.ldTail k (s.at c k).stealTail.1 (s.at c k).stealTail.2) }
  | .ldTail k r i =>
      if i = (s.at c k).tail then some { s with tpc := upd s.tpc t .idle }
      else some { s with tpc := upd s.tpc t (.cas k r i) }
  | .cas k r i =>
      if (s.at c k).stealTail = (r, i) then
        some { s.setB c k { s.at c k with stealTail := (r, i + 1) } with
               tpc := upd s.tpc t (.rd (k % c.n) i)
               log := s.log ++ [.steal t ((s.at c k).buf i)] }
      else some { s with tpc := upd s.tpc t (.ldSteal k) }
  | .rd j i => some { s with tpc := upd s.tpc t (.inc j ((s.blk j).buf i)) }
  | .inc j v =>
      some { s with blk := upd s.blk j { s.blk j with stealCount := (s.blk j).stealCount + 1 }
                    tpc := upd s.tpc t .idle
                    ret := upd s.ret t (s.ret t ++ [v]) }
  | .adv k =>
      if k + 1 < s.last then some { s with tpc := upd s.tpc t (.ldSteal (k + 1)) }
      else some { s with tpc := upd s.tpc t .idle }

def step (c : Cfg) (s : St) : Act → Option St
  | .push vs => match s.opc with
    | .idle => some { s with opc := .put vs (s.at c s.own).tail }
    | _ => none
  | .pop => match s.opc with
    | .idle => some { s with opc := .get }
    | _ => none
  | .owner => ownerStep c s
  | .steal t => match s.tpc t with
    | .idle => if t < c.N then some { s with tpc := upd s.tpc t .ldStart } else none
    | _ => none
  | .thief t => thiefStep c s t

end Verif.Bwos
