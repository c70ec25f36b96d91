import Verif.RunLoop.Model
import Verif.ListSum
/-! # `run_loop`: the inductive invariant -/
namespace Verif.RunLoop

/-- What an unfinished `finish()` call still owes to the task count (the noop itself is counted
separately once pushed). -/
def fw : FPc → Nat
  | .idle => 0
  | .counted => 2
  | .first => 2
  | .second => 2
  | .notify => 1
  | .pushed => 1
  | .done => 0

/-- 1 for a `start()` that has counted itself but not pushed its task. -/
def sw : SPc → Nat
  | .counted => 1
  | _ => 0

def todo : RPc → List Item
  | .batch _ l _ => l
  | _ => []

def pend : RPc → Nat
  | .batch _ _ k => k
  | _ => 0

@[grind =] theorem todo_batch (d l k) : todo (.batch d l k) = l := rfl
@[grind =] theorem pend_batch (d l k) : pend (.batch d l k) = k := rfl

/-- In the first loop, before the next test of `__finishing_`, and not executing a batch. -/
def inFirst : RPc → Prop
  | .check => True
  | .asleep => True
  | .pop false => True
  | _ => False

structure Inv (st : Nat → Bool) (s : St) : Prop where
  snd : s.started.Nodup
  smem : ∀ n, n ∈ s.started ↔ s.sp n ≠ .idle
  fnd : s.fins.Nodup
  fmem : ∀ f, f ∈ s.fins ↔ s.fp f ≠ .idle
  pnd : s.pushed.Nodup
  pmem : ∀ n, .task n ∈ s.pushed ↔ s.sp n = .notify ∨ s.sp n = .done
  order : s.pushed = s.executed ++ todo s.rp ++ s.q.reverse
  comp : s.compl.map Prod.fst = s.executed.filterMap (fun | .task n => some n | .noop => none)
  first : ∀ f, s.fp f = .first → .noop ∉ s.pushed ∧ s.finishing = true
  firstU : ∀ f g, s.fp f = .first → s.fp g = .first → f = g
  fin0 : s.finishing = false → .noop ∉ s.pushed ∧ ∀ f, s.fp f = .idle ∨ s.fp f = .counted
  fin1 : s.finishing = true → .noop ∈ s.pushed ∨ ∃ f, s.fp f = .first
  drain : (∃ d, s.rp = .pop d ∧ d = true) ∨ (∃ d l k, s.rp = .batch d l k ∧ d = true) ∨ s.rp = .load ∨ s.rp = .returned →
    s.finishing = true
  cnt : s.count + s.executed.length = s.started.length + s.pushed.count .noop + lsum fw s.fp s.fins + pend s.rp
  plen : s.pushed.length + lsum sw s.sp s.started = s.started.length + s.pushed.count .noop
  pendle : pend s.rp ≤ s.executed.length
  sleep : s.rp = .asleep → s.q = [] ∨ (∃ n, s.sp n = .notify) ∨ ∃ f, s.fp f = .notify
  noopF : inFirst s.rp → .noop ∉ s.executed
  quiet : s.rp = .returned → s.late = false →
    s.q = [] ∧ (∀ n, s.sp n ≠ .counted) ∧ ∀ f, s.fp f = .idle ∨ s.fp f = .done
  deadR : s.dead = true → s.rp = .returned ∧ s.late = false
  noUaf : s.uafFinish = false

theorem inv_init (st) : Inv st init := by
  constructor <;> simp [init, todo, pend, lsum, inFirst]

/-- Split the goal into the invariant's fields and close those that are unaffected. -/
macro "std" h:ident : tactic => `(tactic| (
  constructor
  case' snd => (first | exact Inv.snd $h | (have hkp := Inv.snd $h; clear $h; grind) | skip)
  case' smem => (first | exact Inv.smem $h | (have hkp := Inv.smem $h; clear $h; grind) | skip)
  case' fnd => (first | exact Inv.fnd $h | (have hkp := Inv.fnd $h; clear $h; grind) | skip)
  case' fmem => (first | exact Inv.fmem $h | (have hkp := Inv.fmem $h; clear $h; grind) | skip)
  case' pnd => (first | exact Inv.pnd $h | (have hkp := Inv.pnd $h; clear $h; grind) | skip)
  case' pmem => (first | exact Inv.pmem $h | (have hkp := Inv.pmem $h; clear $h; grind) | skip)
  case' order => (first | exact Inv.order $h | (have hkp := Inv.order $h; clear $h; grind [todo]) | skip)
  case' comp => (first | exact Inv.comp $h | (have hkp := Inv.comp $h; clear $h; grind) | skip)
  case' first => (first | exact Inv.first $h | (have hkp := Inv.first $h; clear $h; grind) | skip)
  case' firstU => (first | exact Inv.firstU $h | (have hkp := Inv.firstU $h; clear $h; grind) | skip)
  case' fin0 => (first | exact Inv.fin0 $h | (have hkp := Inv.fin0 $h; clear $h; grind) | skip)
  case' fin1 => (first | exact Inv.fin1 $h | (have hkp := Inv.fin1 $h; clear $h; grind) | skip)
  case' drain => (first | exact Inv.drain $h | (have hkp := Inv.drain $h; clear $h; grind) | skip)
  case' cnt => (first | exact Inv.cnt $h | (have hkp := Inv.cnt $h; clear $h; grind [pend]) | skip)
  case' plen => (first | exact Inv.plen $h | (have hkp := Inv.plen $h; clear $h; grind) | skip)
  case' pendle => (first | exact Inv.pendle $h | (have hkp := Inv.pendle $h; clear $h; grind [pend]) | skip)
  case' sleep => (first | exact Inv.sleep $h | (have hkp := Inv.sleep $h; clear $h; grind) | skip)
  case' noopF => (first | exact Inv.noopF $h | (have hkp := Inv.noopF $h; clear $h; grind [inFirst]) | skip)
  case' quiet => (first | exact Inv.quiet $h | (have hkp := Inv.quiet $h; clear $h; grind) | skip)
  case' deadR => (first | exact Inv.deadR $h | (have hkp := Inv.deadR $h; clear $h; grind) | skip)
  case' noUaf => (first | exact Inv.noUaf $h | (have hkp := Inv.noUaf $h; clear $h; grind) | skip)))

theorem todo_wake (p) : todo (wake p) = todo p := by cases p <;> rfl
theorem pend_wake (p) : pend (wake p) = pend p := by cases p <;> rfl
theorem wake_ne (p) : wake p ≠ .asleep := by cases p <;> simp [wake]
theorem wake_ret {p} : wake p = .returned ↔ p = .returned := by cases p <;> simp [wake]
theorem wake_load {p} : wake p = .load ↔ p = .load := by cases p <;> simp [wake]
theorem wake_pop {p d} : wake p = .pop d ↔ p = .pop d := by cases p <;> simp [wake]
theorem wake_batch {p d l k} : wake p = .batch d l k ↔ p = .batch d l k := by cases p <;> simp [wake]
theorem inFirst_wake (p) : inFirst (wake p) → inFirst p := by cases p <;> simp [wake, inFirst]

theorem inv_wake {st s} (h : Inv st s) : Inv st { s with rp := wake s.rp } := by
  std h
  case order => simp only [todo_wake]; exact h.order
  case drain => simp only [wake_pop, wake_batch, wake_load, wake_ret]; exact h.drain
  case cnt => simp only [pend_wake]; exact h.cnt
  case pendle => simp only [pend_wake]; exact h.pendle
  case sleep => intro hh; exact absurd hh (wake_ne _)
  case noopF => intro hh; exact h.noopF (inFirst_wake _ hh)
  case quiet => simp only [wake_ret]; exact h.quiet
  case deadR => simp only [wake_ret]; exact h.deadR

theorem ex_upd {α : Type} {f : Nat → α} {n : Nat} {v w : α} (hv : f n ≠ w) (h : ∃ m, f m = w) :
    ∃ m, upd f n v m = w := by
  obtain ⟨m, hm⟩ := h
  exact ⟨m, by rw [upd_other _ _ (by rintro rfl; exact hv hm)]; exact hm⟩

theorem inv_start {st s s' n} (h : Inv st s) (hs : stepStart s n = some s') : Inv st s' := by
  unfold stepStart at hs
  cases hp : s.sp n with
  | done => rw [hp] at hs; cases hs
  | idle =>
      rw [hp] at hs; simp only at hs
      split at hs
      · cases hs
      · rename_i hd; cases hs
        have hn : n ∉ s.started := fun hm => (h.smem n).1 hm hp
        std h
        case sleep =>
          intro hh
          exact (h.sleep hh).imp id (Or.imp (ex_upd (by simp [hp])) id)
        case plen =>
          have := h.plen
          simp only [lsum_append, lsum, lsum_upd_notin _ _ hn, upd_same, sw, List.length_append, List.length_singleton]
          omega
  | counted =>
      rw [hp] at hs; cases hs
      have hn : n ∈ s.started := (h.smem n).2 (by simp [hp])
      have hnp : Item.task n ∉ s.pushed := fun hm => by have := (h.pmem n).1 hm; simp [hp] at this
      std h
      case sleep =>
        intro hh
        right
        by_cases hq : s.q = []
        · exact .inl ⟨n, by simp [hq]⟩
        · exact ((h.sleep hh).resolve_left hq).imp (ex_upd (by simp [hp])) id
      case plen =>
        have h1 := h.plen
        have h2 := lsum_upd_in sw s.sp (b := if s.q = [] then .notify else .done) h.snd hn
        have h3 : sw (if s.q = [] then SPc.notify else SPc.done) = 0 := by split <;> rfl
        rw [hp, h3] at h2
        simp only [sw] at h2
        simp only [List.length_append, List.length_singleton, List.count_append]
        simp
        omega
  | notify =>
      rw [hp] at hs; cases hs
      have hn : n ∈ s.started := (h.smem n).2 (by simp [hp])
      have hw := inv_wake h
      have hwn := wake_ne s.rp
      clear h
      generalize wake s.rp = r at *
      std hw
      case plen =>
        have h1 := hw.plen
        have h2 := lsum_upd_in sw s.sp (b := .done) hw.snd hn
        rw [hp] at h2
        simp only [sw] at h2
        simp only at h1 ⊢
        omega

theorem exec_le {st s} (h : Inv st s) : s.executed.length + (todo s.rp).length + s.q.length + lsum sw s.sp s.started =
    s.started.length + s.pushed.count .noop := by
  have h1 := h.plen
  have h2 := congrArg List.length h.order
  simp only [List.length_append, List.length_reverse] at h2
  omega

theorem inv_finish {st s s' f} (h : Inv st s) (hs : stepFinish s f = some s') : Inv st s' := by
  unfold stepFinish at hs
  have hl : s.fp f ≠ .idle → s.dead = false := by
    intro hne
    cases hd : s.dead with
    | false => rfl
    | true =>
      have := h.deadR hd
      rcases (h.quiet this.1 this.2).2.2 f with h1 | h1
      · exact absurd h1 hne
      · rw [h1] at hs; cases hs
  cases hp : s.fp f with
  | done => rw [hp] at hs; cases hs
  | idle =>
      rw [hp] at hs; simp only at hs
      split at hs
      · cases hs
      · rename_i hd; cases hs
        have hn : f ∉ s.fins := fun hm => (h.fmem f).1 hm hp
        std h
        case sleep =>
          intro hh
          exact (h.sleep hh).imp id (Or.imp id (ex_upd (by simp [hp])))
        case fin1 => intro hh; exact (h.fin1 hh).imp id (ex_upd (by simp [hp]))
        case cnt =>
          have := h.cnt
          simp only [lsum_append, lsum, lsum_upd_notin _ _ hn, upd_same, fw]
          omega
  | counted =>
      rw [hp] at hs; cases hs
      have hn : f ∈ s.fins := (h.fmem f).2 (by simp [hp])
      have hdd := hl (by simp [hp])
      std h
      case first =>
        have h0 := h.fin0; have h1 := h.first; clear h; grind
      case firstU =>
        have h0 := h.fin0; have h1 := h.firstU; clear h; grind
      case fin1 =>
        intro _
        cases hf : s.finishing with
        | false => exact .inr ⟨f, by simp⟩
        | true => exact (h.fin1 hf).imp id (ex_upd (by simp [hp]))
      case cnt =>
        have h1 := h.cnt
        have h2 := lsum_upd_in fw s.fp (b := if s.finishing then .second else .first) h.fnd hn
        have h3 : fw (if s.finishing then FPc.second else FPc.first) = 2 := by split <;> rfl
        rw [hp, h3] at h2
        simp only [fw] at h2
        simp only; omega
      case sleep =>
        intro hh
        exact (h.sleep hh).imp id (Or.imp id (ex_upd (by simp [hp])))
  | first =>
      rw [hp] at hs; cases hs
      have hn : f ∈ s.fins := (h.fmem f).2 (by simp [hp])
      have hdd := hl (by simp [hp])
      std h
      case first =>
        have h0 := h.firstU; have h1 := h.first; clear h; grind
      case pnd =>
        have h0 := h.pnd; have h1 := h.first; clear h; grind
      case cnt =>
        have h1 := h.cnt
        have h2 := lsum_upd_in fw s.fp (b := if s.q = [] then .notify else .pushed) h.fnd hn
        have h3 : fw (if s.q = [] then FPc.notify else FPc.pushed) = 1 := by split <;> rfl
        rw [hp, h3] at h2
        simp only [fw] at h2
        simp only [List.count_append]; simp; omega
      case sleep =>
        intro hh
        right
        by_cases hq : s.q = []
        · exact .inr ⟨f, by simp [hq]⟩
        · exact ((h.sleep hh).resolve_left hq).imp id (ex_upd (by simp [hp]))
  | notify =>
      rw [hp] at hs; cases hs
      have hn : f ∈ s.fins := (h.fmem f).2 (by simp [hp])
      have hdd := hl (by simp [hp])
      have hw := inv_wake h
      have hwn := wake_ne s.rp
      clear h
      generalize wake s.rp = r at *
      std hw
      case fin1 => intro hh; exact (hw.fin1 hh).imp id (ex_upd (by simp [hp]))
      case cnt =>
        have h1 := hw.cnt
        have h2 := lsum_upd_in fw s.fp (b := .pushed) hw.fnd hn
        rw [hp] at h2
        simp only [fw] at h2
        simp only at h1 ⊢; omega
  | pushed =>
      rw [hp] at hs; cases hs
      have hn : f ∈ s.fins := (h.fmem f).2 (by simp [hp])
      have hdd := hl (by simp [hp])
      std h
      case fin1 => intro hh; exact (h.fin1 hh).imp id (ex_upd (by simp [hp]))
      case cnt =>
        have h1 := h.cnt
        have h0 := exec_le h
        have h2 := lsum_upd_in fw s.fp (b := .done) h.fnd hn
        rw [hp] at h2
        simp only [fw] at h2
        simp only; omega
      case sleep =>
        intro hh
        exact (h.sleep hh).imp id (Or.imp id (ex_upd (by simp [hp])))
  | second =>
      rw [hp] at hs; cases hs
      have hn : f ∈ s.fins := (h.fmem f).2 (by simp [hp])
      have hdd := hl (by simp [hp])
      std h
      case fin1 => intro hh; exact (h.fin1 hh).imp id (ex_upd (by simp [hp]))
      case cnt =>
        have h1 := h.cnt
        have h0 := exec_le h
        have h2 := lsum_upd_in fw s.fp (b := .done) h.fnd hn
        rw [hp] at h2
        simp only [fw] at h2
        simp only; omega
      case sleep =>
        intro hh
        exact (h.sleep hh).imp id (Or.imp id (ex_upd (by simp [hp])))

theorem inv_run {st s s'} (h : Inv st s) (hs : stepRun st s = some s') : Inv st s' := by
  unfold stepRun at hs
  split at hs
  · rename_i hp; cases hs; std h
  · rename_i hp; cases hs; std h
    case noopF =>
      intro hh hm
      cases hf : s.finishing with
      | true => simp [hf, inFirst] at hh
      | false => exact (h.fin0 hf).1 (by rw [h.order]; simp [hm])
  · rename_i hp; cases hs; std h
  · cases hs
  · rename_i d hp; cases hs; std h
  · rename_i d i l k hp; cases hs; cases i <;> simp only [execItem] <;> std h
  · rename_i d k hp; cases hs; std h
    case cnt =>
      have h1 := h.cnt
      have h0 := exec_le h
      have h2 := h.pendle
      rw [hp] at h1 h0 h2
      simp only [pend, todo, List.length_nil] at h1 h0 h2
      simp only [show pend (if d then RPc.pop true else RPc.test) = 0 by split <;> rfl]
      omega
  · rename_i hp; cases hs; std h
    case quiet =>
      intro hr _
      have hc : s.count = 0 := by
        by_cases hc : s.count = 0
        · exact hc
        · simp [hc] at hr
      have h1 := h.cnt
      have h0 := exec_le h
      rw [hp] at h1 h0
      simp only [pend, todo, List.length_nil] at h1 h0
      have hq : s.q.length = 0 := by omega
      refine ⟨List.length_eq_zero_iff.1 hq, fun n (hn : s.sp n = .counted) => ?_, fun f => ?_⟩
      · have := le_lsum sw s.sp ((h.smem n).2 (by simp [hn]))
        rw [hn] at this; simp only [sw] at this; omega
      · by_cases hf : s.fp f = .idle
        · exact .inl hf
        · have := le_lsum fw s.fp ((h.fmem f).2 hf)
          right
          cases hff : s.fp f <;> rw [hff] at this <;> simp only [fw] at this <;>
            first | exact hff | exact absurd hff hf | (exfalso; omega)
  · cases hs

theorem inv_reach {st s} (h : Reachable st s) : Inv st s := by
  refine Reach.inv (Inv st) (inv_init st) (fun s a s' h hs => ?_) s h
  cases a with
  | start n => exact inv_start h hs
  | finish f => exact inv_finish h hs
  | run => exact inv_run h hs
  | requestStop n => simp only [step, Option.some.injEq] at hs; subst hs; std h
  | destroy =>
      simp only [step] at hs
      split at hs
      · cases hs; std h
      · cases hs
end Verif.RunLoop
