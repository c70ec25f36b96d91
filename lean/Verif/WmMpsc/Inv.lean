import Verif.WmMpsc.Model
import Verif.WM.Lemmas
/-!
# The intrusive MPSC queue under the C++ memory model — invariant (C96)
-/
namespace Verif.WmMpsc

open Verif.WM

/-- Has exchanged the head. -/
def exd : PC → Bool
  | .lk _ => true
  | .done => true
  | _ => false

/-- Consumer is where the tail is not the stub. -/
def inner : CPC → Bool
  | .c1 => true
  | .c3 => true
  | .c4 => true
  | .c5 => true
  | .c6 _ => true
  | .c7 => true
  | _ => false

/-- Consumer has a node to use. -/
def isRet : CPC → Bool
  | .ret _ => true
  | _ => false

/-- Messages and positions. -/
structure A (s : St) : Prop where
  h1 : ∀ j, j ≤ s.kh → s.m.hist .head j ≠ none
  h2 : ∀ j g, s.m.hist .head j = some g → j ≤ s.kh ∧ g.val = s.seq j + 1
  seqP : ∀ j, j ≤ s.kh → s.seq j ≠ 0 → s.idx (s.seq j) = j ∧ exd (s.pc (s.seq j)) = true
  idxP : ∀ n, n ≠ 0 → exd (s.pc n) = true → s.seq (s.idx n) = n ∧ s.idx n ≤ s.kh ∧ 0 < s.idx n
  pc0 : s.pc 0 = .idle
  stubP : ∀ j, s.p ≤ j → j ≤ s.kh → s.seq j = 0 → j = s.sp
  spP : s.sp ≤ s.kh ∧ s.seq s.sp = 0
  pP : s.p ≤ s.kh ∧ s.tail = s.seq s.p
  lkI : ∀ n x, s.pc n = .lk x → x = s.seq (s.idx n - 1) ∧ s.lkd (s.idx n - 1) = false
  c6I : ∀ x, s.c = .c6 x → x = s.seq (s.sp - 1) ∧ s.p < s.sp ∧ s.lkd (s.sp - 1) = false
  lkBy : ∀ j, j < s.kh → s.lkd j = false → (s.seq (j + 1) ≠ 0 ∧ s.pc (s.seq (j + 1)) = .lk (s.seq j)) ∨
    (s.seq (j + 1) = 0 ∧ s.c = .c6 (s.seq j) ∧ s.sp = j + 1)
  lkEnd : ∀ j, s.kh ≤ j → s.lkd j = false
  passed : ∀ j, j < s.p → s.lkd j = true
  inn : inner s.c = true → s.tail ≠ 0
  spLt : s.c = .c4 ∨ s.c = .c5 → s.sp < s.p
  ret : ∀ x, s.c = .ret x → 0 < s.p ∧ x = s.seq (s.p - 1) ∧ x ≠ 0

/-- Links. -/
structure B (s : St) : Prop where
  above : ∀ x j, s.kn x < j → s.m.hist (.next x) j = none
  null : ∀ j g, s.p ≤ j → j ≤ s.kh → s.lkd j = false → s.m.hist (.next (s.seq j)) (s.kn (s.seq j)) = some g → g.val = 0
  link : ∀ j g, s.p ≤ j → s.lkd j = true → s.m.hist (.next (s.seq j)) (s.kn (s.seq j)) = some g → g.val = s.seq (j + 1) + 1
  older : ∀ j ts g, s.p ≤ j → j ≤ s.kh → s.m.hist (.next (s.seq j)) ts = some g → ts ≠ s.kn (s.seq j) →
    (s.m.cur 0).seen (.next (s.seq j)) ≤ ts → g.val = 0
  seenStub : s.sp < s.p → s.kn 0 ≤ (s.m.cur 0).seen (.next 0)
  seenHead : s.sp ≤ (s.m.cur 0).seen .head
  msgSeen : ∀ g, s.m.hist .head s.kh = some g → s.kn (s.seq s.kh) ≤ g.view.seen (.next (s.seq s.kh))
  lkSeen : ∀ n x, s.pc n = .lk x → s.kn x ≤ (s.m.cur n).seen (.next x)
  c6Seen : ∀ x, s.c = .c6 x → s.kn x ≤ (s.m.cur 0).seen (.next x)
  exSeen : ∀ n, s.pc n = .ex → s.kn n ≤ (s.m.cur n).seen (.next n)
  fresh : ∀ n j g, n ≠ 0 → exd (s.pc n) = false → s.m.hist (.next n) j = some g → g.val = 0
  fresh0 : ∀ n, n ≠ 0 → s.pc n = .idle ∨ s.pc n = .st → s.kn n = 0
  c5Null : ∀ g, s.c = .c5 → s.m.hist (.next 0) (s.kn 0) = some g → g.val = 0
  top : ∀ x, s.m.hist (.next x) (s.kn x) ≠ none

/-- Knowledge. -/
structure K (s : St) : Prop where
  own : ∀ k b, s.m.logged k b → (s.m.cur b.who).know k = true
  putW : ∀ k b n, s.m.logged k b → b.what = .put n → b.who = n ∧ n ≠ 0
  putPc : ∀ k b n, s.m.logged k b → b.what.on n = true → n ≠ 0 → s.pc n ≠ .idle
  freshW : ∀ n k b, n ≠ 0 → exd (s.pc n) = false → s.m.logged k b → b.what.on n = true → b.who = n
  msgK : ∀ g k b, s.m.hist .head s.kh = some g → s.seq s.kh ≠ 0 → s.m.logged k b → b.what.on (s.seq s.kh) = true → b.who ≠ 0 →
    g.view.know k = true
  lkK : ∀ n x k b, s.pc n = .lk x → x ≠ 0 → s.m.logged k b → b.what.on x = true → b.who ≠ 0 → (s.m.cur n).know k = true
  c6K : ∀ x k b, s.c = .c6 x → x ≠ 0 → s.m.logged k b → b.what.on x = true → b.who ≠ 0 → (s.m.cur 0).know k = true
  linkK : ∀ j g k b, s.p ≤ j → s.lkd j = true → s.seq j ≠ 0 → s.m.hist (.next (s.seq j)) (s.kn (s.seq j)) = some g → s.m.logged k b →
    b.what.on (s.seq j) = true → b.who ≠ 0 → g.view.know k = true
  linkPut : ∀ j g k b, s.p ≤ j → s.lkd j = true → s.m.hist (.next (s.seq j)) (s.kn (s.seq j)) = some g → s.m.logged k b →
    b.what = .put (s.seq (j + 1)) → g.view.know k = true
  tailPut : ∀ k b, s.m.logged k b → b.what = .put (s.seq s.p) → (s.m.cur 0).know k = true
  retK : ∀ x k b, s.c = .ret x → s.m.logged k b → b.what.on x = true → (s.m.cur 0).know k = true
  useI : ∀ k b n, s.m.logged k b → b.what = .use n → n ≠ 0 ∧ exd (s.pc n) = true ∧ s.idx n < s.p ∧ s.c ≠ .ret n
  freeLast : ∀ j k a b n, s.m.logged j a → s.m.logged k b → a.what = .use n → b.what.on n = true → k ≤ j

@[grind =] theorem exd1 : exd .idle = false := rfl
@[grind =] theorem exd2 : exd .st = false := rfl
@[grind =] theorem exd3 : exd .ex = false := rfl
@[grind =] theorem exd4 (x : Nat) : exd (.lk x) = true := rfl
@[grind =] theorem exd5 : exd .done = true := rfl
@[grind =] theorem inn1 : inner .c0 = false := rfl
@[grind =] theorem inn2 : inner .c1 = true := rfl
@[grind =] theorem inn3 : inner .c3 = true := rfl
@[grind =] theorem inn4 : inner .c4 = true := rfl
@[grind =] theorem inn5 : inner .c5 = true := rfl
@[grind =] theorem inn6 (x : Nat) : inner (.c6 x) = true := rfl
@[grind =] theorem inn7 : inner .c7 = true := rfl
@[grind =] theorem inn8 (x : Nat) : inner (.ret x) = false := rfl
@[grind =] theorem on_put (n j : Nat) : (What.put j).on n = (j == n) := rfl
@[grind =] theorem on_lnk (n j : Nat) : (What.lnk j).on n = (j == n) := rfl
@[grind =] theorem on_use (n j : Nat) : (What.use j).on n = (j == n) := rfl
@[grind =] theorem on_atom (n : Nat) : (What.atom).on n = false := rfl

end Verif.WmMpsc
