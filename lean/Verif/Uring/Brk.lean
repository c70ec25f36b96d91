import Verif.Uring.Cons
namespace Verif.Uring
set_option maxHeartbeats 4000000

/-- A `finish()` that the driving thread has not seen is announced. -/
def InvB (s : St) : Prop :=
  s.pc = .enter ∨ s.pc = .wait → s.brk = true → s.oweF = 0 → s.efd = true ∨ .wake ∈ s.cq ∨ 2 ≤ s.total

theorem invB_step {s s' : St} {a : Act} (h : InvB s) (hs : step s a = some s') : InvB s' := by
  cases a with
  | drv =>
    simp only [step] at hs
    intro hp hb hf
    cases hpc : s.pc with
    | chk =>
      simp only [drv, hpc] at hs
      split at hs
      · cases hs; simp at hp
      · rename_i hn
        cases hs
        simp only at hb
        right; right
        simp only [hb, and_true, not_or] at hn
        show 2 ≤ s.total
        omega
    | cq k =>
      simp only [drv, hpc] at hs
      split at hs <;> cases hs <;> simp [hpc] at hp
    | rdy k =>
      simp only [drv, hpc] at hs
      split at hs
      · cases hs; cases k <;> simp [afterComplete] at hp
      · cases hs; simp [finOp, hpc] at hp
    | pop k =>
      simp only [drv, hpc] at hs
      cases hs; cases k <;> simp [afterPop] at hp
    | sub f =>
      simp only [drv, hpc] at hs
      repeat' (split at hs)
      all_goals cases hs
      all_goals first
        | (simp at hp; done)
        | skip
      exfalso
      rename_i t r _ _
      have : (subOne s t r).pc = s.pc := by
        unfold subOne
        repeat' split
        all_goals first
          | rfl
          | (rw [comp_pc])
      rw [this, hpc] at hp; simp at hp
    | sub2 f =>
      simp only [drv, hpc] at hs
      repeat' (split at hs)
      all_goals cases hs
      all_goals first
        | (simp at hp; done)
        | (simp only at hp; split at hp <;> simp at hp; done)
        | (simp [hpc] at hp; done)
    | _ =>
      exfalso
      simp only [drv, hpc] at hs
      repeat' (split at hs)
      all_goals first
        | (cases hs; done)
        | (cases hs; simp [wakeStart] at hp; done)
        | (cases hs; simp only [] at hp; split at hp <;> simp at hp; done)
        | skip
  | enter k =>
    simp only [step] at hs
    split at hs
    · rename_i hc
      cases hs
      intro _ hb hf
      exact h (Or.inl hc.1) hb hf
    · cases hs
  | kop i =>
    simp only [step] at hs
    split at hs
    · cases hs
      intro hp hb hf
      rcases h hp hb hf with h1 | h1 | h1
      · exact Or.inl h1
      · exact Or.inr (Or.inl (List.mem_append_left _ h1))
      · exact Or.inr (Or.inr h1)
    · cases hs
  | kwake =>
    simp only [step] at hs
    split at hs
    · cases hs
      intro hp hb hf
      exact Or.inr (Or.inl (by simp))
    · cases hs
  | finish =>
    simp only [step] at hs
    cases hs
    intro _ _ hf
    simp at hf
  | wakeFin =>
    simp only [step] at hs
    split at hs
    · cases hs; intro _ _ _; exact Or.inl rfl
    · cases hs
  | wakeStop =>
    simp only [step] at hs
    split at hs
    · cases hs; intro _ _ _; exact Or.inl rfl
    · cases hs
  | wakeOp i =>
    simp only [step] at hs
    split at hs
    · cases hs; intro _ _ _; exact Or.inl rfl
    · cases hs
  | run e =>
    simp only [step] at hs
    split at hs
    · cases hs; intro hp; simp at hp
    · cases hs
  | intr =>
    simp only [step] at hs
    split at hs
    · cases hs; intro hp; simp at hp
    · cases hs
  | _ =>
    simp only [step] at hs
    repeat' (split at hs)
    all_goals first
      | (cases hs; done)
      | (cases hs; exact h)

end Verif.Uring
