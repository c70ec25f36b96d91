import Verif.WM.Machine
import Verif.Count
/-!
# Counting scopes under the C++ memory model — model (C99)

`/repo/include/stdexec/__detail/__counting_scopes.hpp` 281-705 on the machine of `Verif.WM.Machine`. Thread `2 * i + 1` makes association `i`
(`i < n`), uses it and gives it up; thread `2 * j + 2` starts join operation `j`; thread 0 closes the scope and, when it knows that all join
operations that were started have completed, destroys it.
Simplifications: an attempt to associate that fails is not modelled (it changes nothing, and its caller has to order it before the
destruction), nor is the maximal number of associations; a compare-exchange that fails is a load, and loads whose result is not used
are left out, except those that find the list of join operations closed; the `__next_` pointers are a ghost list, each being written before the operation is
registered and read when it is completed; a join operation completes at once where it is told to (C14 is about the scheduler it completes on).
-/
namespace Verif.WmScope

open Verif.WM

/-- The atomic objects. -/
inductive Loc
  /-- `__bits_`: eight times the count, plus the state: 1 closed, 2 join needed, 4 joining (:536-560) -/
  | bits
  /-- `__registered_join_ops_`: 0 null, 1 the scope itself, `j + 2` join operation `j` -/
  | head
  deriving DecidableEq, Repr

inductive What
  /-- `__bits_` is accessed -/
  | bits
  /-- `__registered_join_ops_` is accessed -/
  | head
  /-- an associated operation does something -/
  | work
  /-- join operation `j` is accessed -/
  | op (j : Nat)
  /-- the scope, and everything that was to live as long as its associations, is destroyed -/
  | destroy
  deriving DecidableEq, Repr

structure Acc where
  who : Nat
  what : What
  deriving DecidableEq, Repr

/-- The destruction conflicts with everything, accesses to a join operation with each other. -/
def conf (a b : Acc) : Bool :=
  match a.what, b.what with
  | .destroy, _ => true
  | _, .destroy => true
  | .op j, .op k => j == k
  | _, _ => false

structure Cfg where
  /-- associations -/
  n : Nat
  /-- join operations -/
  k : Nat
  /-- `close` (:322, release) -/
  ordC : Ord
  /-- `__try_associate` (:372-380, acquire) -/
  ordA : Ord
  /-- `__disassociate` (:441-452, acq_rel) -/
  ordD : Ord
  /-- `__start_join_sender`, count zero (:487-498, acq_rel) -/
  ordZ : Ord
  /-- `__start_join_sender`, else (:514-528, relaxed) -/
  ordJ : Ord
  /-- `__register`: load, failed compare-exchange (:652, :680, acquire) -/
  ordL : Ord
  /-- `__register`: compare-exchange (:677, acq_rel) -/
  ordR : Ord
  /-- `__dequeue_registered_join_operations` (:697, acq_rel) -/
  ordQ : Ord
  /-- the destructor (:298, acquire) -/
  ordX : Ord

/-- An association. -/
inductive AC
  | idle
  /-- associated -/
  | act
  /-- to dequeue the join operations (:461, :697) -/
  | deq
  /-- completing them (:705-714) -/
  | comp
  | fin
  deriving DecidableEq, Repr

/-- A join operation. -/
inductive JC
  | idle
  /-- constructed -/
  | made
  /-- to register (:531) -/
  | reg
  /-- registered -/
  | wait
  /-- to complete at once -/
  | inl
  | done
  deriving DecidableEq, Repr

/-- Destruction. -/
inductive DC
  | live
  /-- the destructor has loaded the bits -/
  | load
  | gone
  deriving DecidableEq, Repr

structure St where
  m : Mem Loc Acc
  st : Nat → AC
  jc : Nat → JC
  d : DC
  /-- the destructor called `std::terminate` (:301) -/
  term : Bool
  /-- registered join operations -/
  lst : List Nat
  /-- dequeued join operations, to be completed -/
  todo : List Nat
  /-- what is known when join operation `j` completes -/
  cv : Nat → View Loc
  /-- thread 0 knows that join operation `j` has completed -/
  met : Nat → Bool
  /-- ghost: newest messages -/
  kb : Nat
  kh : Nat
  /-- ghost: the newest value of the bits -/
  cnt : Nat
  jng : Bool
  need : Bool
  cls : Bool
  /-- ghost: the scope is joined -/
  jd : Bool
  /-- ghost: the message that made it joined -/
  pJ : Nat
  /-- ghost: the list of join operations is closed -/
  hc : Bool
  /-- ghost: join operation that set the joining bit last -/
  jw : Nat
  /-- ghost: join operation `j` has set the joining bit -/
  via : Nat → Bool

def init : St :=
  { m := .init fun _ => 0, st := fun _ => .idle, jc := fun _ => .idle, d := .live, term := false, lst := [], todo := [], cv := fun _ => .bot,
    met := fun _ => false, kb := 0, kh := 0, cnt := 0, jng := false, need := false, cls := false, jd := false, pJ := 0, hc := false, jw := 0, via := fun _ => false }

/-- `__make_bits` (:629-639). -/
def enc (c : Nat) (j n x : Bool) : Nat := 8 * c + 4 * j.toNat + 2 * n.toNat + x.toNat

/-- New bits of `__try_associate` (:348): one more, join needed. -/
def fInc (v : Nat) : Nat := 8 * (v / 8 + 1) + (4 * (v / 4 % 2) + 2 + v % 2)

/-- New bits of `__disassociate` (:411-427): one less; joined if it was the last and a join is running. -/
def fDec (v : Nat) : Nat := if v / 8 = 1 ∧ v / 4 % 2 = 1 then 1 else 8 * (v / 8 - 1) + v % 8

/-- Set the joining bit (:514). -/
def fJng (v : Nat) : Nat := 8 * (v / 8) + (4 + v % 4)

/-- Set the closed bit (:322). -/
def fCls (v : Nat) : Nat := 2 * (v / 2) + 1

inductive Act
  /-- thread 0 closes the scope -/
  | close (ts : Nat)
  | assoc (i ts : Nat)
  | work (i : Nat)
  | dis (i ts : Nat)
  /-- the last one dequeues -/
  | deq (i ts : Nat)
  /-- and completes -/
  | comp (i : Nat)
  | make (j : Nat)
  /-- start of the join operation, count zero -/
  | join0 (j ts : Nat)
  /-- start of the join operation, count not zero -/
  | join1 (j ts : Nat)
  /-- the join operation writes its link -/
  | link (j : Nat)
  /-- it finds the list closed -/
  | closed (j ts : Nat)
  /-- it registers -/
  | reg (j ts : Nat)
  /-- it completes at once -/
  | inl (j : Nat)
  /-- thread 0 learns of the completion of `j` -/
  | meet (j : Nat)
  /-- the destructor loads the bits -/
  | load (ts : Nat)
  | destroy
  deriving DecidableEq, Repr

/-- Thread of association `i`. -/
abbrev ta (i : Nat) : Nat := 2 * i + 1
/-- Thread of join operation `j`. -/
abbrev tj (j : Nat) : Nat := 2 * j + 2

/-- Join operation `j` completes on thread `t`. -/
def complete (s : St) (t j : Nat) : St :=
  let m := s.m.touch conf t ⟨t, .op j⟩
  { s with m := m, jc := upd s.jc j .done, cv := upd s.cv j (m.cur t) }

/-- All join operations that were started have completed, as thread 0 knows, and at least one was. -/
def over (c : Cfg) (s : St) : Bool :=
  ((List.range c.k).all fun j => s.jc j == .idle || s.met j) && (List.range c.k).any fun j => s.jc j != .idle

/-- One step. -/
def step (c : Cfg) (s : St) : Act → Option St
  | .close ts =>  -- :305-323
    if s.d = .live then
      (s.m.rmw conf c.ordC 0 .bits ts fCls ⟨0, .bits⟩).map fun r => { s with m := r.2, kb := ts + 1, cls := true }
    else none
  | .assoc i ts =>  -- :325-390
    if i < c.n ∧ s.st i = .idle ∧ s.d = .live then
      (s.m.rmw conf c.ordA (ta i) .bits ts fInc ⟨ta i, .bits⟩).bind fun r =>
        if r.1 % 2 = 0 then some { s with m := r.2, kb := ts + 1, cnt := s.cnt + 1, need := true, st := upd s.st i .act } else none
    else none
  | .work i => if s.st i = .act then some { s with m := s.m.touch conf (ta i) ⟨ta i, .work⟩ } else none
  | .dis i ts =>  -- :392-466
    if s.st i = .act then
      (s.m.rmw conf c.ordD (ta i) .bits ts fDec ⟨ta i, .bits⟩).map fun r =>
        if fDec r.1 = 1 then
          { s with m := r.2, kb := ts + 1, cnt := 0, jng := false, need := false, cls := true, jd := true, pJ := ts + 1, st := upd s.st i .deq }
        else { s with m := r.2, kb := ts + 1, cnt := s.cnt - 1, st := upd s.st i .fin }
    else none
  | .deq i ts =>  -- :688-703
    if s.st i = .deq then
      (s.m.rmw conf c.ordQ (ta i) .head ts (fun _ => 1) ⟨ta i, .head⟩).map fun r =>
        { s with m := r.2, kh := ts + 1, hc := true, lst := [], todo := s.lst, st := upd s.st i .comp }
    else none
  | .comp i =>  -- :705-714
    if s.st i = .comp then
      match s.todo with
      | [] => some { s with st := upd s.st i .fin }
      | j :: r => some { complete s (ta i) j with todo := r }
    else none
  | .make j =>
    if j < c.k ∧ s.jc j = .idle ∧ s.d = .live then some { s with m := s.m.touch conf (tj j) ⟨tj j, .op j⟩, jc := upd s.jc j .made } else none
  | .join0 j ts =>  -- :473-502
    if s.jc j = .made then
      (s.m.rmw conf c.ordZ (tj j) .bits ts (fun _ => 1) ⟨tj j, .bits⟩).bind fun r =>
        if r.1 / 8 = 0 then
          some { s with m := r.2, kb := ts + 1, cnt := 0, jng := false, need := false, cls := true, jd := true,
                        pJ := if s.jd then s.pJ else ts + 1, jc := upd s.jc j .inl }
        else none
    else none
  | .join1 j ts =>  -- :503-532
    if s.jc j = .made then
      (s.m.rmw conf c.ordJ (tj j) .bits ts fJng ⟨tj j, .bits⟩).bind fun r =>
        if r.1 / 8 ≠ 0 then some { s with m := r.2, kb := ts + 1, jng := true, jw := j, via := upd s.via j true, jc := upd s.jc j .reg } else none
    else none
  | .link j => if s.jc j = .reg then some { s with m := s.m.touch conf (tj j) ⟨tj j, .op j⟩ } else none  -- :665
  | .closed j ts =>  -- :652-660
    if s.jc j = .reg then
      (s.m.load conf c.ordL (tj j) .head ts ⟨tj j, .head⟩).bind fun r => if r.1 = 1 then some { s with m := r.2, jc := upd s.jc j .inl } else none
    else none
  | .reg j ts =>  -- :667-683
    if s.jc j = .reg then
      (s.m.rmw conf c.ordR (tj j) .head ts (fun _ => j + 2) ⟨tj j, .head⟩).bind fun r =>
        if r.1 ≠ 1 then some { s with m := r.2, kh := ts + 1, lst := j :: s.lst, jc := upd s.jc j .wait } else none
    else none
  | .inl j => if s.jc j = .inl then some (complete s (tj j) j) else none
  | .meet j => if s.jc j = .done then some { s with m := s.m.adopt 0 (s.cv j), met := upd s.met j true } else none
  | .load ts =>  -- :281-303
    if s.d = .live ∧ over c s then
      (s.m.load conf c.ordX 0 .bits ts ⟨0, .bits⟩).map fun r => { s with m := r.2, d := .load, term := s.term || decide (r.1 - r.1 % 2 ≠ 0) }
    else none
  | .destroy => if s.d = .load then some { s with m := s.m.touch conf 0 ⟨0, .destroy⟩, d := .gone } else none

abbrev Reachable (c : Cfg) (s : St) : Prop := Reach init (step c) s

/-- The orders in the code. -/
def code (n k : Nat) : Cfg := ⟨n, k, .rel, .acq, .ar, .ar, .rlx, .acq, .ar, .ar, .acq⟩

/-- The orders that matter are at least as strong as in the code. -/
def Cfg.good (c : Cfg) : Prop :=
  c.ordD.isAcq = true ∧ c.ordD.isRel = true ∧ c.ordZ.isAcq = true ∧ c.ordL.isAcq = true ∧ c.ordR.isRel = true ∧ c.ordQ.isAcq = true ∧
  c.ordQ.isRel = true

end Verif.WmScope
