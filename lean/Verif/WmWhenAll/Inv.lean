import Verif.WmWhenAll.Model
import Verif.WM.Lemmas
import Verif.Count
/-!
# `when_all` under the C++ memory model — invariant
-/
namespace Verif.WmWhenAll

open Verif.WM

/-- The thread has yet to decrement the count. -/
def pend (n : Nat) (pc : Nat → PC) (t : Nat) : Bool :=
  match pc t with
  | .run => t < n
  | .save => true
  | .cas => true
  | .arrive => true
  | _ => false

/-- The thread was the last to arrive. -/
def last : PC → Bool
  | .load => true
  | .values _ => true
  | .error => true
  | .free => true
  | .fin => true
  | _ => false

/-- The operation was or is being completed. -/
def over : PC → Bool
  | .free => true
  | .fin => true
  | _ => false

/-- What holds of the memory and the control flow. -/
structure Inv (c : Cfg) (s : St) : Prop where
  hc1 : ∀ j, j ≤ s.kc → s.m.hist .count j ≠ none
  hc2 : ∀ j, s.kc < j → s.m.hist .count j = none
  hs1 : ∀ j, j ≤ s.ks → s.m.hist .state j ≠ none
  hs2 : ∀ j, s.ks < j → s.m.hist .state j = none
  cval : ∀ g, s.m.hist .count s.kc = some g → g.val = cnt (pend c.n s.pc) (c.n + 1)
  far : ∀ t, c.n < t → s.pc t = .run
  own : ∀ k a, s.m.logged k a → (s.m.cur a.who).know k = true
  rel : ∀ g k a, s.m.hist .count s.kc = some g → s.m.logged k a → s.pc a.who = .gone → g.view.know k = true
  ran : ∀ k a, s.m.logged k a → s.pc a.who ≠ .run
  lastAll : ∀ t u, last (s.pc t) = true → pend c.n s.pc u = false
  lastOne : ∀ t u, last (s.pc t) = true → last (s.pc u) = true → t = u
  lastKnow : ∀ t k a, last (s.pc t) = true → s.m.logged k a → (s.m.cur t).know k = true
  sw1 : s.ks ≤ (s.m.cur s.sw).seen .state
  sw2 : s.ks ≠ 0 → s.pc s.sw ≠ .run
  sw3 : ∀ g, s.ks ≠ 0 → s.m.hist .count s.kc = some g → s.pc s.sw = .gone → s.ks ≤ g.view.seen .state
  lastSeen : ∀ t, last (s.pc t) = true → s.ks ≤ (s.m.cur t).seen .state
  noRace : s.m.race = false
  late : ∀ k a, s.m.logged k a → a.how = .free ∨ a.how = .read ∧ a.obj ≠ .atom → last (s.pc a.who) = true
  wval : ∀ k a i, s.m.logged k a → a.obj = .value i → a.how = .write → a.who = i
  werr : ∀ k a, s.m.logged k a → a.obj = .errors → a.how = .write → s.win = some a.who
  watom : ∀ k a, s.m.logged k a → a.obj = .atom → a.how = .read
  freeFin : ∀ k a, s.m.logged k a → a.how = .free → s.pc a.who = .fin
  freeLast : ∀ j k a b, s.m.logged j a → s.m.logged k b → a.how = .free → k ≤ j
  save1 : ∀ t, s.pc t = .save → s.win = some t

/-- What holds of the results. -/
structure Res (c : Cfg) (s : St) : Prop where
  sv : ∀ j g, s.m.hist .state j = some g → g.val = 0 ∨ g.val = 1 ∨ g.val = 2
  sv1 : ∀ g, s.m.hist .state s.ks = some g → (g.val = 1 ↔ s.win ≠ none)
  sv2 : ∀ g, s.m.hist .state s.ks = some g → g.val = 2 → s.stp ≠ none
  sv0 : ∀ j g g', s.m.hist .state j = some g → g.val ≠ 0 → s.m.hist .state s.ks = some g' → g'.val ≠ 0
  win1 : ∀ w, s.win = some w → w < c.n ∧ s.pc w ≠ .run ∧ (errOf (c.kind w)).isSome = true
  win2 : ∀ w, s.win = some w → s.pc w ≠ .save → s.err = errOf (c.kind w)
  win3 : ∀ t, t < c.n → s.pc t ≠ .run → (errOf (c.kind t)).isSome = true → s.win ≠ none
  stp1 : ∀ u, s.stp = some u → (u < c.n ∧ c.kind u = .stopped) ∨ u = c.n
  stp2 : ∀ t g, t < c.n → s.pc t ≠ .run → c.kind t = .stopped → s.m.hist .state s.ks = some g → g.val ≠ 0
  stp3 : ∀ g, s.pc c.n ≠ .run → s.pc c.n ≠ .cas → s.m.hist .state s.ks = some g → g.val ≠ 0
  stp4 : s.stp = some c.n → s.pc c.n ≠ .run
  val1 : ∀ t v, t < c.n → s.pc t ≠ .run → c.kind t = .value v → s.vals t = some v
  cas1 : ∀ t, s.pc t = .cas → t = c.n
  out0 : (∀ t, over (s.pc t) = false) → s.out = []
  out1 : ∀ t g, over (s.pc t) = true → s.m.hist .state s.ks = some g →
    s.out = [if g.val = 1 then .error s.err else if g.val = 0 then .values ((List.range c.n).map s.vals) else .stopped]
  pcE : ∀ t g, s.pc t = .error → s.m.hist .state s.ks = some g → g.val = 1
  pcV : ∀ t i g, s.pc t = .values i → s.m.hist .state s.ks = some g → g.val = 0

theorem cnt_run (n : Nat) : cnt (pend n fun _ => .run) (n + 1) = n := by
  have h : cnt (pend n fun _ => PC.run) n = n := cnt_eq_iff.2 (fun i hi => by simp [pend, hi])
  simp only [cnt, h]; simp [pend]

theorem inv_init (c : Cfg) : Inv c (init c) := by
  constructor <;> simp (config := { contextual := true }) [init, Mem.init, last, cnt_run, Mem.logged]
  · intro j hj; omega
  · intro j hj; omega

theorem res_init (c : Cfg) : Res c (init c) := by
  constructor <;> simp (config := { contextual := true }) [init, Mem.init, over]
  intro j g g' _ h1 h2 h3; subst h3; exact h2

theorem pend_other {n : Nat} {pc : Nat → PC} {t u : Nat} {p : PC} (h : u ≠ t) : pend n (upd pc t p) u = pend n pc u := by
  simp only [pend, upd_other _ _ h]

theorem cnt_same {n t : Nat} {pc : Nat → PC} {p : PC} (h : pend n (upd pc t p) t = pend n pc t) :
    cnt (pend n (upd pc t p)) (n + 1) = cnt (pend n pc) (n + 1) := by
  apply cnt_congr
  intro i _
  by_cases hi : i = t
  · subst hi; exact h
  · exact pend_other hi

theorem cnt_down {n t : Nat} {pc : Nat → PC} {p : PC} (ht : t ≤ n) (h : pend n (upd pc t p) t = false)
    (h1 : pend n pc t = true) : cnt (pend n pc) (n + 1) = cnt (pend n (upd pc t p)) (n + 1) + 1 :=
  cnt_flip (a := t) (by omega) h h1 (fun i hi => (pend_other hi).symm)

theorem cnt_up {n t : Nat} {pc : Nat → PC} {p : PC} (ht : t ≤ n) (h : pend n (upd pc t p) t = true)
    (h1 : pend n pc t = false) : cnt (pend n (upd pc t p)) (n + 1) = cnt (pend n pc) (n + 1) + 1 :=
  cnt_flip (a := t) (by omega) h1 h (fun i hi => pend_other hi)

/-- A thread that has yet to arrive does not race when it accesses an atomic object, its own value, or the error it won. -/
theorem quiet {c : Cfg} {s : St} {t : Nat} {a : Acc} (h : Inv c s) (hp : pend c.n s.pc t = true)
    (ha : a.how ≠ .free ∧ (a.obj = .atom ∧ a.how = .read ∨ a.obj = .value t ∨ a.obj = .errors ∧ s.win = some t)) :
    s.m.racy conf t a = false := by
  rw [racy_false]
  intro k b hk hc
  have nl : last (s.pc b.who) = false := by
    cases hl : last (s.pc b.who) with
    | false => rfl
    | true => have := h.lastAll b.who t hl; rw [this] at hp; cases hp
  have h1 := h.late k b hk
  have h2 := h.watom k b hk
  have h3 := h.wval k b t hk
  have h4 := h.werr k b hk
  have h5 := h.own k b hk
  simp only [conf, Bool.or_eq_true, Bool.and_eq_true, decide_eq_true_eq] at hc
  have hb : b.how ≠ .free := fun hf => by rw [h1 (.inl hf)] at nl; cases nl
  have hr : b.how = .read → b.obj ≠ .atom → False := fun hr ho => by rw [h1 (.inr ⟨hr, ho⟩)] at nl; cases nl
  cases hh : b.how <;> grind

/-- The last to arrive races with nothing. -/
theorem quietLast {c : Cfg} {s : St} {t : Nat} {a : Acc} (h : Inv c s) (hl : last (s.pc t) = true) : s.m.racy conf t a = false := by
  rw [racy_false]; intro k b hk _; exact h.lastKnow t k b hl hk

end Verif.WmWhenAll
