import Verif.WmStop.Model
import Verif.WM.Lemmas
/-!
# Stop callbacks under the C++ memory model — invariant (C94)
-/
namespace Verif.WmStop

open Verif.WM

/-- Owner holds the lock. -/
def holdsO : PC → Bool
  | .crit => true
  | .unl0 => true
  | .critR _ => true
  | .unlF _ => true
  | .unlW _ => true
  | _ => false

/-- Requester holds the lock. -/
def holdsR : RPC → Bool
  | .note => true
  | .loop => true
  | .rel _ => true
  | .sc _ => true
  | .su _ => true
  | .relF => true
  | _ => false

/-- State before locking. -/
def old : PC → Nat
  | .critR o => o
  | .unlF o => o
  | .unlW o => o
  | _ => 0

/-- Requester deals with callback `i`. -/
def hand (i : Nat) : RPC → Bool
  | .rel j => j == i
  | .call j => j == i
  | .dn j => j == i
  | .sl j => j == i
  | .sc j => j == i
  | .su j => j == i
  | .sf j => j == i
  | _ => false

/-- Not called yet. -/
def before : RPC → Bool
  | .rel _ => true
  | .call _ => true
  | _ => false

/-- Callback may be in the list. -/
def listed : PC → Bool
  | .unl0 => true
  | .regd => true
  | .critR _ => true
  | _ => false

/-- Callback was registered and may be handled by the requester. -/
def open' : PC → Bool
  | .regd => true
  | .critR _ => true
  | .unlW _ => true
  | .wait => true
  | _ => false

/-- Only the owner has been here. -/
def fresh : PC → Bool
  | .idle => true
  | .reg => true
  | .crit => true
  | .inl => true
  | .inl2 => true
  | .saw => true
  | _ => false

/-- The owner knows everything. -/
def knows : PC → Bool
  | .unlF _ => true
  | .fr => true
  | .fin => true
  | _ => false

/-- The owner destroys the callback itself. -/
def pers : PC → Bool
  | .critR _ => true
  | .unlF _ => true
  | .unlW _ => true
  | .wait => true
  | _ => false

/-- The callback is destroyed by its function. -/
def selfR (i : Nat) : RPC → Bool
  | .sl j => j == i
  | .sc j => j == i
  | .su j => j == i
  | .sf j => j == i
  | _ => false

def What.isCrit : What → Bool
  | .crit _ => true
  | _ => false

/-- Control state. -/
structure Ctl where
  pc : Nat → PC
  r : RPC
  list : List Nat
  holder : Option Nat

def St.ctl (s : St) : Ctl := ⟨s.pc, s.r, s.list, s.holder⟩

/-- What a step does to the memory. -/
inductive Kind
  | plain
  | lock (o : Ord) (v v' : Nat)
  | unlock (v : Nat)
  | dn (i : Nat)
  | dl (i v : Nat)
  | ld (o : Ord) (v : Nat)

/-- The steps, without memory. -/
inductive Tr (c : Cfg) (x : Ctl) : Ctl → Nat → What → Kind → Prop
  | uw : x.r = .idle → Tr c x { x with r := .req } 0 .uw .plain
  | req : x.r = .req → x.holder = none → Tr c x { x with r := .note, holder := some 0 } 0 .atom (.lock c.ordT 0 3)
  | note : x.r = .note → Tr c x { x with r := .loop } 0 (.crit []) .plain
  | loop0 : x.r = .loop → x.list = [] → Tr c x { x with r := .relF } 0 (.crit []) .plain
  | pop (i : Nat) (l : List Nat) : x.r = .loop → x.list = i :: l → Tr c x { x with r := .rel i, list := l } 0 (.crit (i :: l)) .plain
  | rel (i : Nat) : x.r = .rel i → Tr c x { x with r := .call i, holder := none } 0 .atom (.unlock 1)
  | callS (i : Nat) : x.r = .call i → c.self i = true → Tr c x { x with r := .sl i } 0 (.run i) .plain
  | callD (i : Nat) : x.r = .call i → c.self i = false → Tr c x { x with r := .dn i } 0 (.run i) .plain
  | dn (i : Nat) : x.r = .dn i → Tr c x { x with r := .relock } 0 (.flag i) (.dn i)
  | sl (i v : Nat) : x.r = .sl i → x.holder = none → v < 2 → Tr c x { x with r := .sc i, holder := some 0 } 0 .atom (.lock c.ordK v (v + 2))
  | sc (i : Nat) : x.r = .sc i → Tr c x { x with r := .su i } 0 (.crit (i :: x.list)) .plain
  | su (i : Nat) : x.r = .su i → Tr c x { x with r := .sf i, holder := none } 0 .atom (.unlock 1)
  | sf (i : Nat) : x.r = .sf i → Tr c x { x with r := .relock } 0 (.free i) .plain
  | relock (v : Nat) : x.r = .relock → x.holder = none → v < 2 →
      Tr c x { x with r := .loop, holder := some 0 } 0 .atom (.lock c.ordK v (v + 2))
  | relF : x.r = .relF → Tr c x { x with r := .fin, holder := none } 0 .atom (.unlock 1)
  | make (i : Nat) : i ≠ 0 → x.pc i = .idle → Tr c x { x with pc := upd x.pc i .reg } i (.make i) .plain
  | reg (i : Nat) : i ≠ 0 → x.pc i = .reg → x.holder = none →
      Tr c x { x with pc := upd x.pc i .crit, holder := some i } i .atom (.lock c.ordT 0 2)
  | push (i : Nat) : i ≠ 0 → x.pc i = .crit →
      Tr c x { x with pc := upd x.pc i .unl0, list := i :: x.list } i (.crit (i :: x.list)) .plain
  | unl0 (i : Nat) : i ≠ 0 → x.pc i = .unl0 → Tr c x { x with pc := upd x.pc i .regd, holder := none } i .atom (.unlock 0)
  | regd (i v : Nat) : i ≠ 0 → x.pc i = .regd → x.holder = none → v < 2 → c.self i = false →
      Tr c x { x with pc := upd x.pc i (.critR v), holder := some i } i .atom (.lock c.ordK v (v + 2))
  | remF (i v : Nat) : i ≠ 0 → x.pc i = .critR v → i ∈ x.list →
      Tr c x { x with pc := upd x.pc i (.unlF v), list := x.list.erase i } i (.crit (i :: x.list)) .plain
  | remW (i v : Nat) : i ≠ 0 → x.pc i = .critR v → i ∉ x.list →
      Tr c x { x with pc := upd x.pc i (.unlW v) } i (.crit (i :: x.list)) .plain
  | unlF (i v : Nat) : i ≠ 0 → x.pc i = .unlF v → Tr c x { x with pc := upd x.pc i .fr, holder := none } i .atom (.unlock v)
  | unlW (i v : Nat) : i ≠ 0 → x.pc i = .unlW v → Tr c x { x with pc := upd x.pc i .wait, holder := none } i .atom (.unlock v)
  | wait0 (i : Nat) : i ≠ 0 → x.pc i = .wait → Tr c x x i (.flag i) (.dl i 0)
  | wait1 (i v : Nat) : i ≠ 0 → x.pc i = .wait → v ≠ 0 → i ∉ x.list → hand i x.r = false →
      Tr c x { x with pc := upd x.pc i .fr } i (.flag i) (.dl i v)
  | inlN (i : Nat) : i ≠ 0 → x.pc i = .inl → c.reads i = false → Tr c x { x with pc := upd x.pc i .fr } i (.run i) .plain
  | inl (i : Nat) : i ≠ 0 → x.pc i = .inl → c.reads i = true → Tr c x { x with pc := upd x.pc i .inl2 } i (.run i) .plain
  | inl2 (i : Nat) : i ≠ 0 → x.pc i = .inl2 → Tr c x { x with pc := upd x.pc i .fr } i .ur .plain
  | fr (i : Nat) : i ≠ 0 → x.pc i = .fr → Tr c x { x with pc := upd x.pc i .fin } i (.free i) .plain
  | saw (i : Nat) : i ≠ 0 → x.pc i = .saw → Tr c x { x with pc := upd x.pc i .fin } i .ur .plain
  | see (i v : Nat) : i ≠ 0 → x.pc i = .idle → v % 2 = 1 → x.r ≠ .idle →
      Tr c x { x with pc := upd x.pc i .saw } i .atom (.ld c.ordO v)
  | give (i v : Nat) : i ≠ 0 → x.pc i = .reg → v % 2 = 1 → x.r ≠ .idle →
      Tr c x { x with pc := upd x.pc i .inl } i .atom (.ld c.ordP v)
  | spin (i v : Nat) (o : Ord) : Tr c x x i .atom (.ld o v)

/-- Facts about the control state. -/
structure P (c : Cfg) (x : Ctl) : Prop where
  holdO : ∀ t, holdsO (x.pc t) = true → x.holder = some t
  holdR : holdsR x.r = true → x.holder = some 0
  holder0 : x.holder = some 0 → holdsR x.r = true
  holderO : ∀ t, x.holder = some t → t ≠ 0 → holdsO (x.pc t) = true
  zero : x.pc 0 = .idle
  old2 : ∀ t, old (x.pc t) < 2
  nd : x.list.Nodup
  inList : ∀ i, i ∈ x.list → listed (x.pc i) = true ∧ hand i x.r = false
  handO : ∀ i, hand i x.r = true → open' (x.pc i) = true
  selfO : ∀ i, c.self i = true → pers (x.pc i) = false
  handSelf2 : ∀ i, selfR i x.r = true → c.self i = true
  handSelf3 : ∀ i, x.r = .dn i → c.self i = false
  knowL : ∀ i, knows (x.pc i) = true → i ∉ x.list ∧ hand i x.r = false
  inl2R : ∀ i, x.pc i = .inl2 → c.reads i = true
  rIdle : x.r = .idle → ∀ t, x.pc t ≠ .saw ∧ x.pc t ≠ .inl ∧ x.pc t ≠ .inl2

/-- What a step does to the log and to what threads know. -/
structure Com (m m' : Mem Loc Acc) (t : Nat) (w : What) : Prop where
  log : ∀ k b, m'.logged k b ↔ m.logged k b ∨ (k = m.log.length ∧ b = ⟨t, w⟩)
  lt : ∀ k b, m.logged k b → k < m.log.length
  mono : ∀ u k, (m.cur u).know k = true → (m'.cur u).know k = true
  self : (m'.cur t).know m.log.length = true
  seen : ∀ u l, (m.cur u).seen l ≤ (m'.cur u).seen l
  race : m'.race = (m.race || m.racy conf t ⟨t, w⟩)

/-- What a step does to the histories. -/
def MemK (c : Cfg) (m m' : Mem Loc Acc) (ks ks' t : Nat) : Kind → Prop
  | .plain => ks' = ks ∧ ∀ l j, m'.hist l j = m.hist l j
  | .lock o v v' => ks' = ks + 1 ∧ (∀ l j, ¬(l = .state ∧ j = ks + 1) → m'.hist l j = m.hist l j) ∧ m.hist .state (ks + 1) = none ∧
      ks + 1 ≤ (m'.cur t).seen .state ∧
      ∃ g g', m.hist .state ks = some g ∧ m'.hist .state (ks + 1) = some g' ∧ g.val = v ∧ g'.val = v' ∧
        (o.isAcq = true → ∀ k, g.view.know k = true → (m'.cur t).know k = true) ∧
        (∀ k, g.view.know k = true → g'.view.know k = true) ∧
        (o.isRel = true → ∀ k, (m'.cur t).know k = true → g'.view.know k = true)
  | .unlock v => ks < ks' ∧ (∀ l j, ¬(l = .state ∧ j = ks') → m'.hist l j = m.hist l j) ∧
      ∃ g', m'.hist .state ks' = some g' ∧ g'.val = v ∧ (c.ordU.isRel = true → ∀ k, (m'.cur t).know k = true → g'.view.know k = true)
  | .dn i => ks' = ks ∧ ∃ ts g', (∀ l j, ¬(l = .done i ∧ j = ts) → m'.hist l j = m.hist l j) ∧
      m'.hist (.done i) ts = some g' ∧ g'.val = 1 ∧ (c.ordD.isRel = true → ∀ k, (m'.cur t).know k = true → g'.view.know k = true)
  | .dl i v => ks' = ks ∧ (∀ l j, m'.hist l j = m.hist l j) ∧
      ∃ ts g, m.hist (.done i) ts = some g ∧ g.val = v ∧ (c.ordW.isAcq = true → ∀ k, g.view.know k = true → (m'.cur t).know k = true)
  | .ld o v => ks' = ks ∧ (∀ l j, m'.hist l j = m.hist l j) ∧
      ∃ ts g, m.hist .state ts = some g ∧ g.val = v ∧ (o.isAcq = true → ∀ k, g.view.know k = true → (m'.cur t).know k = true)

/-- The state and its messages. -/
structure M (x : Ctl) (m : Mem Loc Acc) (ks : Nat) : Prop where
  top : m.hist .state ks ≠ none
  above : ∀ j, ks < j → m.hist .state j = none
  gap : ∀ j g, j < ks → m.hist .state j = some g → g.val < 2 → m.hist .state (j + 1) ≠ none
  seen : ∀ t, x.holder = some t → ks ≤ (m.cur t).seen .state
  val0 : ∀ g, m.hist .state ks = some g → x.holder = none → g.val < 2
  valO : ∀ t g, m.hist .state ks = some g → holdsO (x.pc t) = true → g.val = 2 + old (x.pc t)
  valR : ∀ g, m.hist .state ks = some g → holdsR x.r = true → 2 ≤ g.val
  uwE : x.r = .idle ∨ x.r = .req → ∀ j g, m.hist .state j = some g → g.val % 2 = 0

/-- What is in the log. -/
structure E (c : Cfg) (x : Ctl) (L : Nat → Acc → Prop) : Prop where
  makeW : ∀ k b i, L k b → b.what = .make i → b.who = i
  noFreeL : ∀ i k b, i ∈ x.list → L k b → b.what ≠ .free i
  noFreeH : ∀ i k b, hand i x.r = true → L k b → b.what ≠ .free i
  noFreeO : ∀ i k b, c.self i = false → x.pc i ≠ .fin → L k b → b.what ≠ .free i
  noFreeF : ∀ i k b, fresh (x.pc i) = true ∨ x.pc i = .unl0 ∨ x.pc i = .fr → L k b → b.what ≠ .free i
  noRunL : ∀ i k b, i ∈ x.list → L k b → b.what ≠ .run i
  noRunH : ∀ i k b, hand i x.r = true → before x.r = true → L k b → b.what ≠ .run i
  noRunO : ∀ i k b, fresh (x.pc i) = true → x.pc i ≠ .inl2 → L k b → b.what ≠ .run i
  freshW : ∀ i k b, fresh (x.pc i) = true → L k b → b.what.on i = true → b.who = i
  idleO : ∀ i k b, x.pc i = .idle ∨ x.pc i = .saw → L k b → b.what.on i = false
  uwO : ∀ k b, L k b → b.what = .uw → b.who = 0
  uwI : x.r = .idle → ∀ k b, L k b → b.what ≠ .uw ∧ b.what ≠ .ur
  freeLast : ∀ j k a b i, L j a → L k b → a.what = .free i → b.what.on i = true → k ≤ j
  run1 : ∀ j k a b i, L j a → L k b → a.what = .run i → b.what = .run i → j = k

/-- What lies under the lock is known to its holder, or to who will lock next. -/
structure K (x : Ctl) (m : Mem Loc Acc) (ks : Nat) : Prop where
  own : ∀ k b, m.logged k b → (m.cur b.who).know k = true
  critH : ∀ t k b, x.holder = some t → m.logged k b → b.what.isCrit = true → (m.cur t).know k = true
  critF : ∀ g k b, m.hist .state ks = some g → x.holder = none → m.logged k b → b.what.isCrit = true → g.view.know k = true
  makeH : ∀ t k b i, x.holder = some t → m.logged k b → b.what = .make i → i ∈ x.list → (m.cur t).know k = true
  makeF : ∀ g k b i, m.hist .state ks = some g → x.holder = none → m.logged k b → b.what = .make i → i ∈ x.list →
    g.view.know k = true
  handMake : ∀ i k b, hand i x.r = true → m.logged k b → b.what = .make i → (m.cur 0).know k = true

/-- Who destroys a callback knows all accesses to it. -/
structure D (c : Cfg) (x : Ctl) (m : Mem Loc Acc) : Prop where
  handCrit : ∀ i k b, x.r = .su i ∨ x.r = .sf i → m.logged k b → b.what.on i = true → (m.cur 0).know k = true
  noFlag : ∀ i k b, c.self i = true → m.logged k b → b.what ≠ .flag i
  knowO : ∀ i k b, knows (x.pc i) = true → m.logged k b → b.what.on i = true → (m.cur i).know k = true
  done1 : ∀ i j g, m.hist (.done i) j = some g → g.val ≠ 0 → open' (x.pc i) = true ∨ x.pc i = .fr ∨ x.pc i = .fin
  done2 : ∀ i j g, m.hist (.done i) j = some g → g.val ≠ 0 → i ∉ x.list
  done2h : ∀ i j g, m.hist (.done i) j = some g → g.val ≠ 0 → hand i x.r = false
  done3 : ∀ i j g k b, m.hist (.done i) j = some g → g.val ≠ 0 → m.logged k b → b.what.on i = true → b.who ≠ i →
    g.view.know k = true
  doneS : ∀ i j g, m.hist (.done i) j = some g → g.val ≠ 0 → c.self i = false
  handKnow : ∀ i k b, hand i x.r = true → m.logged k b → b.what.on i = true → b.who ≠ i → (m.cur 0).know k = true
  handW : ∀ i k b, hand i x.r = true → m.logged k b → b.what.on i = true → b.who = i → b.what = .make i ∨ b.what.isCrit = true ∨ b.what = .flag i
  critM : ∀ i k b, x.pc i = .reg ∨ x.pc i = .crit → m.logged k b → b.what.on i = true → b.what = .make i
  listF : ∀ i k b, i ∈ x.list → m.logged k b → b.what.on i = true → b.what = .make i ∨ b.what.isCrit = true

/-- The user's data. -/
structure U (c : Cfg) (x : Ctl) (m : Mem Loc Acc) : Prop where
  uwM : ∀ j g k b, m.hist .state j = some g → g.val % 2 = 1 → m.logged k b → b.what = .uw → g.view.know k = true
  uwH : ∀ t k b, holdsO (x.pc t) = true → old (x.pc t) = 1 → m.logged k b → b.what = .uw → (m.cur t).know k = true
  uwS : ∀ t k b, x.pc t = .saw → m.logged k b → b.what = .uw → (m.cur t).know k = true
  uwP : ∀ t k b, x.pc t = .inl ∨ x.pc t = .inl2 → c.reads t = true → m.logged k b → b.what = .uw → (m.cur t).know k = true

end Verif.WmStop
