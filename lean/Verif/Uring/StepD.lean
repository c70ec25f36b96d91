import Verif.Uring.StepD1
import Verif.Uring.StepD2
import Verif.Uring.StepD3
import Verif.Uring.StepD4
import Verif.Uring.StepD5
namespace Verif.Uring
set_option maxHeartbeats 4000000

theorem invD_drv {s s' : St} (h : InvD s) (hs : drv s = some s') (hl : s'.leak = 0) : InvD s' := by
  cases hpc : s.pc with
  | idle => simp [drv, hpc] at hs
  | start => exact invD_start h hpc hs
  | pop k =>
    cases k
    · exact invD_pop_init h hpc hs
    · exact invD_pop_some h hpc hs
    · exact invD_pop_after h hpc hs
    · exact invD_pop_last h hpc hs
  | test => exact invD_test h hpc hs
  | cq k =>
    cases k
    · exact invD_cq_first h hpc hs
    · exact invD_cq_again h hpc hs
    · exact invD_cq_after h hpc hs
    · exact invD_cq_last h hpc hs
  | rdy k =>
    cases k
    · exact invD_rdy_first h hpc hs
    · exact invD_rdy_again h hpc hs
    · exact invD_rdy_after h hpc hs
    · exact invD_rdy_last h hpc hs
  | rd => exact invD_rd h hpc hs
  | sub f =>
    cases f
    · exact invD_sub_false h hpc hs
    · exact invD_sub_true h hpc hs
  | sub2 f =>
    cases f
    · exact invD_sub2_false h hpc hs
    · exact invD_sub2_true h hpc hs hl
  | chk => exact invD_chk h hpc hs
  | enter => simp [drv, hpc] at hs
  | wait => exact invD_wait h hpc hs
  | ex => exact invD_ex h hpc hs
  | cls => exact invD_cls h hpc hs
  | ret => exact invD_ret h hpc hs

theorem invD_step {s s' : St} {a : Act} (h : InvD s) (hs : stepD s a = some s') (hl : s'.leak = 0) : InvD s' := by
  cases a with
  | run e =>
    simp only [stepD] at hs
    split at hs
    · rename_i hf; exact invD_run h hf hs
    · cases hs
  | drv => exact invD_drv h hs hl
  | enter k => exact invD_enter h hs
  | intr => exact invD_intr h hs
  | kop i => exact invD_kop h hs
  | kwake => exact invD_kwake h hs
  | start i => exact invD_startOp h hs
  | push i => exact invD_push h hs
  | dec i => exact invD_dec h hs
  | wakeOp i => exact invD_wakeOp h hs
  | reqStop => exact invD_reqStop h hs
  | wakeStop => exact invD_wakeStop h hs
  | finish => exact invD_finish h hs
  | wakeFin => exact invD_wakeFin h hs
  | reset => exact invD_reset h hs

theorem stepD_step {s s' : St} {a : Act} (h : stepD s a = some s') : step s a = some s' := by
  cases a with
  | run e =>
    simp only [stepD] at h
    split at h
    · exact h
    · cases h
  | _ => exact h

@[simp] theorem wakeStart_leak (s : St) : (wakeStart s).leak = s.leak := by unfold wakeStart; split <;> rfl
@[simp] theorem comp_leak (s : St) (t : T) (c : Bool) : (comp s t c).leak = s.leak := by
  cases t <;> simp [comp, finOp]
@[simp] theorem subOne_leak (s : St) (t : T) (r : List T) : (subOne s t r).leak = s.leak := by
  unfold subOne; split <;> (try split) <;> simp
@[simp] theorem afterPop_leak (s : St) (k : PAt) : (afterPop s k).leak = s.leak := by cases k <;> rfl
@[simp] theorem afterComplete_leak (s : St) (k : CAt) : (afterComplete s k).leak = s.leak := by cases k <;> rfl

/-- Only the final call of `submit` adds to `leak`. -/
theorem leak_drv {s s' : St} (hs : drv s = some s') : s'.leak = s.leak ∨
    (s.pc = .sub2 true ∧ s'.leak = s.leak + s.nsub) := by
  unfold drv at hs
  split at hs
  all_goals repeat' (split at hs)
  all_goals first
    | (cases hs; done)
    | (cases hs; left; first | rfl | (simp [finOp]; done))
    | skip
  rename_i hpc _ _ hf
  cases hs
  subst hf
  exact Or.inr ⟨hpc, rfl⟩

theorem leak_step {s s' : St} {a : Act} (hs : step s a = some s') : s'.leak = s.leak ∨
    (s.pc = .sub2 true ∧ s'.leak = s.leak + s.nsub) := by
  cases a with
  | drv => exact leak_drv hs
  | _ =>
    left
    simp only [step] at hs
    repeat' (split at hs)
    all_goals first
      | (cases hs; done)
      | (cases hs; rfl)

theorem leak_le {s s' : St} {a : Act} (hs : step s a = some s') : s.leak ≤ s'.leak := by
  rcases leak_step hs with h | h <;> omega

end Verif.Uring
