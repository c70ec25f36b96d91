import Verif.UringOp.Step
import Verif.Run
/-!
# C56: a stoppable I/O operation of `io_uring_context` completes exactly once, and its stop operation is not submitted
while it is already queued
-/
namespace Verif.UringOp
set_option maxHeartbeats 4000000

theorem reach {s : St} (h : Reach (init false) step s) : Inv s :=
  Reach.inv Inv inv_init (fun _ _ _ hi he => inv_step hi he) s h

/-- The receiver is completed at most once; then neither the operation nor its stop operation is in a queue or in the
    kernel, and no stop callback runs. -/
theorem C56_at_most_once {s : St} (h : Reach (init false) step s) :
    s.done ≤ 1 ∧ (1 ≤ s.done → s.main = .gone ∧ s.linked = 0 ∧ s.ringS = 0 ∧ ∀ x, s.cb x = .off) := by
  have hi := reach h
  have h1 := hi.once
  refine ⟨by omega, fun hd => ?_⟩
  obtain ⟨h2, h3⟩ := hi.zero (by omega)
  have h4 := hi.tok
  refine ⟨h2, by omega, by omega, fun x => ?_⟩
  cases x
  · exact hi.offC (Or.inr hd)
  · exact hi.offR (Or.inr hd)

/-- No stop callback touches the operation after its receiver was completed (and the operation may be destroyed). -/
theorem C56_no_use_after_completion {s : St} (h : Reach (init false) step s) : s.uaf = false := (reach h).uaf

/-- The receiver is completed as stopped only if stop was requested or the kernel reported a cancellation. -/
theorem C56_stopped_only_if_asked {s : St} (h : Reach (init false) step s) (hs : s.stopd = true) :
    s.flag .ctx = true ∨ s.flag .rcv = true ∨ s.canc = true := (reach h).st hs

/-- A stop request that arrives while the operation is in the kernel results in a stop operation being submitted. -/
theorem C56_stop_is_submitted {s : St} (h : Reach (init false) step s) (x : Src) (hm : s.main = .ring)
    (hx : s.cb x = .fin) (hn : ∀ y, (s.cb y).running = false) : 1 ≤ s.pushes := by
  have hi := reach h
  have hp : ∀ y, pN (s.cb y) ≠ 1 := by
    intro y hy
    have := hn y
    cases hc : s.cb y with
    | run p b => simp [hc, Cb.running] at this
    | _ => simp [hc, pN] at hy
  cases x
  · rcases hi.pshC hx with h1 | h1 | h1
    · exact h1
    · exact absurd h1 (hp _)
    · rw [hm] at h1; cases h1
  · rcases hi.pshR hx with h1 | h1 | h1
    · exact h1
    · exact absurd h1 (hp _)
    · rw [hm] at h1; cases h1

/-- The stop operation is linked into a queue at most once at a time, unless stop was requested on both tokens. -/
theorem C56_stop_op_linked_once_partial {s : St} (h : Reach (init false) step s)
    (hf : ¬ (s.flag .ctx = true ∧ s.flag .rcv = true)) : s.dbl = false := by
  cases hd : s.dbl with
  | false => rfl
  | true => exact absurd ((reach h).dbl hd) hf

/-- Decisions of the user; everything else happens by itself (the kernel completes what it was given). -/
def internal : Act → Bool
  | .start => false
  | .req _ => false
  | _ => true

/-- If nothing more happens by itself, a started operation has been completed. -/
theorem C56_completes_partial {s : St} (h : Reach (init false) step s) (hm : s.main ≠ .idle)
    (hs : ∀ a, internal a = true → step s a = none) : s.done = 1 := by
  have hi := reach h
  have hn : ∀ x, (s.cb x).running = false := by
    intro x
    have := hs (.cb x) rfl
    cases hc : s.cb x with
    | run p b => cases p <;> simp [step, stepCb, hc] at this
    | _ => rfl
  have hd : s.dr = .free := by
    have := hs .dr rfl
    cases hd : s.dr with
    | free => rfl
    | _ => simp [step, stepDr, hd, hn] at this
  have hod : ∀ x, (s.cb x).onDrv = false := by
    intro x
    have := hn x
    cases hc : s.cb x with
    | run p b => simp [hc, Cb.running] at this
    | _ => rfl
  cases hmn : s.main with
  | idle => exact absurd hmn hm
  | queued => have := hs .sub0 rfl; simp [step, hmn, hd] at this
  | s1 => have := hs .sub1 rfl; simp [step, hmn] at this
  | s2 => have := hs .sub2 rfl; simp [step, hmn, hod] at this
  | s3 => have := hs (.sub3 false) rfl; simp [step, hmn, hod] at this
  | ring => have := hs (.kmain false) rfl; simp [step, hmn, hd] at this
  | gone =>
    have h1 := hs .take rfl
    have h2 := hs .kstop rfl
    simp [step, hmn, hd] at h1 h2
    have hp : ∀ y, pN (s.cb y) = 0 := by
      intro y
      have := hn y
      cases hc : s.cb y with
      | run p b => simp [hc, Cb.running] at this
      | _ => rfl
    have ht := hi.tok
    rw [hmn, hd, hp, hp] at ht
    simp only [mN, dN] at ht
    rcases hi.all hmn with h3 | h3
    · omega
    · rw [hd] at h3; simpa [fN] using h3

def mW : Mn → Nat
  | .queued => 40
  | .s1 => 30
  | .s2 => 20
  | .s3 => 10
  | .ring => 8
  | _ => 0

def dW : Dr → Nat
  | .dec _ _ => 4
  | .rstC _ _ => 3
  | .rstR _ _ => 2
  | .fire _ _ => 1
  | .free => 0

def cW : Cb → Nat
  | .run .cas _ => 9
  | .run .push _ => 8
  | .run .wake _ => 1
  | _ => 0

/-- Work left. -/
def M (s : St) : Nat := mW s.main + dW s.dr + cW (s.cb .ctx) + cW (s.cb .rcv) + 6 * s.linked + 5 * s.ringS

theorem M_lt {s s' : St} {a : Act} (hi : Inv s) (ha : internal a = true) (hs : step s a = some s') : M s' < M s := by
  have h1 := hi.pre
  have h2 := hi.pre2
  have h3 := hi.pre3
  cases a with
  | start => cases ha
  | req x => cases ha
  | sub0 =>
    simp only [step] at hs
    split at hs <;> cases hs
    rename_i hm
    simp only [M, mW, hm]; omega
  | sub1 =>
    simp only [step] at hs
    split at hs <;> cases hs
    rename_i hm
    have := h1 (by simp [hm])
    simp only [M, emplace, upd_same, upd_other, ne_eq, reduceCtorEq, not_false_eq_true, hm, mW, this, cW]
    cases s.flag .ctx <;> simp [cW] <;> omega
  | sub2 =>
    simp only [step] at hs
    split at hs <;> cases hs
    rename_i hm
    have := h2 hm.1
    simp only [M, emplace, upd_same, upd_other, ne_eq, reduceCtorEq, not_false_eq_true, hm, mW, this, cW]
    cases s.flag .rcv <;> simp [cW] <;> omega
  | sub3 c =>
    cases c with
    | false =>
      simp only [step, Bool.false_eq_true, if_false] at hs
      split at hs <;> cases hs
      rename_i hm
      simp only [M, mW, hm]; omega
    | true =>
      simp only [step, if_true] at hs
      split at hs
      · rename_i hm
        have := h3 (by simp [hm])
        split at hs <;> cases hs
        simp only [M, mW, dW, hm, this]; omega
      · cases hs
  | kmain c =>
    simp only [step] at hs
    split at hs <;> cases hs
    rename_i hm
    simp only [M, mW, dW, hm]; omega
  | take =>
    simp only [step] at hs
    split at hs <;> cases hs
    rename_i hm
    simp only [M]; omega
  | takeC =>
    simp only [step] at hs
    split at hs <;> cases hs
    rename_i hm
    simp only [M, dW, hm]; omega
  | kstop =>
    simp only [step] at hs
    split at hs <;> cases hs
    rename_i hm
    simp only [M, dW, hm]; omega
  | dr =>
    simp only [step, stepDr] at hs
    cases hd : s.dr with
    | free => simp [hd] at hs
    | dec m c =>
      simp only [hd] at hs
      cases hs
      simp only [M, hd]
      split <;> simp only [dW] <;> omega
    | rstC m c =>
      simp only [hd] at hs
      split at hs
      · cases hs
      · cases hs
        simp only [M, hd, dW, upd_same, upd_other, ne_eq, reduceCtorEq, not_false_eq_true, cW]; omega
    | rstR m c =>
      simp only [hd] at hs
      split at hs
      · cases hs
      · cases hs
        simp only [M, hd, dW, upd_same, upd_other, ne_eq, reduceCtorEq, not_false_eq_true, cW]; omega
    | fire m c =>
      simp only [hd] at hs
      cases hs
      simp only [M, hd, dW]; omega
  | cb x =>
    simp only [step, stepCb] at hs
    cases hc : s.cb x with
    | run p b =>
      cases p <;> simp only [hc] at hs <;> cases hs <;> cases x <;>
        simp only [M, hc, upd_same, upd_other, ne_eq, reduceCtorEq, not_false_eq_true]
      all_goals try split
      all_goals simp only [cW]
      all_goals omega
    | _ => simp [hc] at hs

/-- … after finitely many steps. -/
theorem C56_terminates {s s' : St} (h : Reach (init false) step s) (as : List Act)
    (ha : ∀ a ∈ as, internal a = true) (he : exec step s as = some s') : as.length ≤ M s :=
  run_bound internal Inv M (fun _ _ _ hi ha hs => ⟨inv_step hi hs, M_lt hi ha hs⟩) as s s' (reach h) ha he

/-! ## Non-vacuity -/

/-- Stop is requested on the receiver's token while the operation is in the kernel: it is cancelled, and the receiver
    completed as stopped, once. -/
example : ∃ s, Reach (init false) step s ∧ (decide (s.done = 1) && s.stopd && decide (s.pushes = 1) && !s.dbl) = true :=
  Reach.witness [.start, .sub0, .sub1, .sub2, .sub3 false, .req .rcv, .cb .rcv, .cb .rcv, .cb .rcv, .take, .kstop, .dr,
    .kmain true, .dr, .dr, .dr, .dr] _ (by rfl)

/-- Without stop requests it completes with the kernel's result. -/
example : ∃ s, Reach (init false) step s ∧ (decide (s.done = 1) && !s.stopd) = true :=
  Reach.witness [.start, .sub0, .sub1, .sub2, .sub3 false, .kmain false, .dr, .dr, .dr, .dr] _ (by rfl)

example : ∃ s, Reach (init false) step s ∧ (decide (s.main = .ring) && decide (s.cb .ctx = .fin)) = true :=
  Reach.witness [.req .ctx, .start, .sub0, .sub1, .cb .ctx, .cb .ctx, .cb .ctx, .sub2, .sub3 false] _ (by rfl)

/-! ## Where the code departs from the property -/

/-- Stop requested on both tokens: after the operation has completed, but before its stop operation has, the second
    callback finds `__n_ops_ = 1` again and pushes the stop operation, which is still in the queue. -/
theorem C56_stop_op_linked_twice : ∃ s, Reach (init false) step s ∧ s.dbl = true ∧ s.linked = 2 := by
  obtain ⟨s, h1, h2⟩ := Reach.witness (init := init false) (step := step)
    [.start, .sub0, .sub1, .sub2, .sub3 false, .req .ctx, .cb .ctx, .cb .ctx, .cb .ctx, .kmain false, .dr,
      .req .rcv, .cb .rcv, .cb .rcv]
    (fun s : St => s.dbl && decide (s.linked = 2)) (by rfl)
  simp only [Bool.and_eq_true, decide_eq_true_eq] at h2
  exact ⟨s, h1, h2⟩

/-- On a context that has been stopped and closed, `start()` calls `complete` without a preceding `submit`: the
    counter goes from 0 to -1 and the receiver is never completed. -/
theorem C56_never_completes_when_closed {s : St} (h : Reach (init true) step s) : s.done = 0 := by
  have key : s.closed = true ∧ s.done = 0 ∧ (∀ x, s.cb x = .off) ∧ s.linked = 0 ∧ s.ringS = 0 ∧
      ((s.main = .idle ∧ s.dr = .free ∧ s.nops = 0) ∨ (s.main = .gone ∧ s.dr = .dec true true ∧ s.nops = 0) ∨
       (s.main = .gone ∧ s.dr = .free ∧ s.nops = -1)) := by
    refine Reach.inv (fun s : St => s.closed = true ∧ s.done = 0 ∧ (∀ x, s.cb x = .off) ∧ s.linked = 0 ∧ s.ringS = 0 ∧
      ((s.main = .idle ∧ s.dr = .free ∧ s.nops = 0) ∨ (s.main = .gone ∧ s.dr = .dec true true ∧ s.nops = 0) ∨
       (s.main = .gone ∧ s.dr = .free ∧ s.nops = -1)))
      ⟨rfl, rfl, fun _ => rfl, rfl, rfl, Or.inl ⟨rfl, rfl, rfl⟩⟩ ?_ s h
    rintro t a t' ⟨h1, h2, h3, h4, h5, h6⟩ hs
    cases a with
    | req x =>
      simp only [step] at hs
      split at hs
      · cases hs
      · cases hs
        refine ⟨h1, h2, fun y => ?_, h4, h5, h6⟩
        by_cases hy : y = x <;> simp [upd, hy, h3]
    | cb x => simp [step, stepCb, h3] at hs
    | dr =>
      rcases h6 with ⟨q1, q2, q3⟩ | ⟨q1, q2, q3⟩ | ⟨q1, q2, q3⟩
      · simp [step, stepDr, q2] at hs
      · simp [step, stepDr, q2, q3] at hs
        cases hs
        exact ⟨h1, h2, h3, h4, h5, Or.inr (Or.inr ⟨q1, rfl, rfl⟩)⟩
      · simp [step, stepDr, q2] at hs
    | start =>
      rcases h6 with ⟨q1, q2, q3⟩ | ⟨q1, q2, q3⟩ | ⟨q1, q2, q3⟩ <;> simp [step, q1, h1] at hs
      cases hs
      exact ⟨by first | rfl | exact h1, h2, h3, h4, h5, Or.inr (Or.inl ⟨rfl, rfl, q3⟩)⟩
    | _ =>
      exfalso
      rcases h6 with ⟨q1, q2, q3⟩ | ⟨q1, q2, q3⟩ | ⟨q1, q2, q3⟩ <;> simp [step, q1, q2, h4, h5] at hs
  exact key.2.1

example : ∃ s, Reach (init true) step s ∧ (decide (s.main = .gone) && decide (s.dr = .free) && decide (s.nops = -1)) = true :=
  Reach.witness [.start, .dr] _ (by rfl)

/-! ## `schedule_after` (`__duration_to_timespec`, `:1108-1118`) -/

/-- The conversion of a duration in nanoseconds; `Int.tdiv` truncates like `duration_cast`. -/
def toTimespec (d : Int) : Int × Int :=
  (max (d.tdiv 1000000000) 0, min (max (d - d.tdiv 1000000000 * 1000000000) 0) 999999999)

/-- The kernel accepts the result, and it is the duration (0 if negative). -/
theorem C56_timespec (d : Int) :
    0 ≤ (toTimespec d).1 ∧ 0 ≤ (toTimespec d).2 ∧ (toTimespec d).2 < 1000000000 ∧
    (toTimespec d).1 * 1000000000 + (toTimespec d).2 = max d 0 := by
  simp only [toTimespec]
  rcases Int.le_total 0 d with h | h
  · have h1 : d.tdiv 1000000000 = d / 1000000000 := Int.tdiv_eq_ediv_of_nonneg h
    rw [h1]; omega
  · have h1 : d.tdiv 1000000000 = -((-d) / 1000000000) := by
      rw [← Int.tdiv_eq_ediv_of_nonneg (by omega : (0:Int) ≤ -d), Int.neg_tdiv, Int.neg_neg]
    rw [h1]; omega

end Verif.UringOp
