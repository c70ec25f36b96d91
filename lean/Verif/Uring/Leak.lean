import Verif.Uring.StepD
namespace Verif.Uring
set_option maxHeartbeats 4000000

/-- The constants stay. -/
def sameC (s t : St) : Prop := t.n = s.n ∧ t.kind = s.kind ∧ t.cap = s.cap ∧ t.slots = s.slots

theorem sameC_refl (s : St) : sameC s s := ⟨rfl, rfl, rfl, rfl⟩

theorem sameC_trans {s t u : St} (h1 : sameC s t) (h2 : sameC t u) : sameC s u :=
  ⟨h2.1.trans h1.1, h2.2.1.trans h1.2.1, h2.2.2.1.trans h1.2.2.1, h2.2.2.2.trans h1.2.2.2⟩

theorem sameC_wakeStart (s : St) : sameC s (wakeStart s) := by
  unfold wakeStart; split <;> exact ⟨rfl, rfl, rfl, rfl⟩

theorem sameC_comp (s : St) (t : T) (c : Bool) : sameC s (comp s t c) := by
  cases t
  · exact sameC_wakeStart s
  · exact ⟨rfl, rfl, rfl, rfl⟩

theorem sameC_subOne (s : St) (t : T) (r : List T) : sameC s (subOne s t r) := by
  unfold subOne
  split
  · exact ⟨rfl, rfl, rfl, rfl⟩
  · split
    · exact sameC_trans ⟨rfl, rfl, rfl, rfl⟩ (sameC_comp _ t true)
    · exact ⟨rfl, rfl, rfl, rfl⟩

theorem sameC_afterPop (s : St) (k : PAt) : sameC s (afterPop s k) := by cases k <;> exact ⟨rfl, rfl, rfl, rfl⟩

theorem sameC_afterComplete (s : St) (k : CAt) : sameC s (afterComplete s k) := by
  cases k <;> exact ⟨rfl, rfl, rfl, rfl⟩

@[simp] theorem comp_pc (s : St) (t : T) (c : Bool) : (comp s t c).pc = s.pc := by
  cases t
  · simp only [comp, wakeStart]; split <;> rfl
  · rfl

theorem sameC_drv {s s' : St} (hs : drv s = some s') : sameC s s' := by
  unfold drv at hs
  split at hs
  all_goals repeat' (split at hs)
  all_goals try (cases hs; done)
  all_goals cases hs
  all_goals first
    | exact ⟨rfl, rfl, rfl, rfl⟩
    | exact sameC_trans (sameC_wakeStart s) ⟨rfl, rfl, rfl, rfl⟩
    | (refine sameC_trans ?_ (sameC_comp _ _ _); exact ⟨rfl, rfl, rfl, rfl⟩)
    | exact sameC_subOne _ _ _
    | exact sameC_afterComplete _ _
    | (refine sameC_trans ?_ (sameC_afterPop _ _); exact ⟨rfl, rfl, rfl, rfl⟩)

theorem sameC_step {s s' : St} {a : Act} (hs : step s a = some s') : sameC s s' := by
  cases a with
  | drv => exact sameC_drv hs
  | _ =>
    simp only [step] at hs
    repeat' (split at hs)
    all_goals first
      | (cases hs; done)
      | (cases hs; exact ⟨rfl, rfl, rfl, rfl⟩)

@[simp] theorem wakeStart_ever (s : St) : (wakeStart s).everStop = s.everStop := by unfold wakeStart; split <;> rfl
@[simp] theorem comp_ever (s : St) (t : T) (c : Bool) : (comp s t c).everStop = s.everStop := by
  cases t <;> simp [comp, finOp]
@[simp] theorem subOne_ever (s : St) (t : T) (r : List T) : (subOne s t r).everStop = s.everStop := by
  unfold subOne; split <;> (try split) <;> simp
@[simp] theorem afterPop_ever (s : St) (k : PAt) : (afterPop s k).everStop = s.everStop := by cases k <;> rfl
@[simp] theorem afterComplete_ever (s : St) (k : CAt) : (afterComplete s k).everStop = s.everStop := by cases k <;> rfl

theorem ever_step {s s' : St} {a : Act} (hs : step s a = some s') (hu : s.everStop = true) : s'.everStop = true := by
  cases a with
  | drv =>
    simp only [step] at hs
    unfold drv at hs
    split at hs
    all_goals repeat' (split at hs)
    all_goals first
      | (cases hs; done)
      | (cases hs; first | exact hu | (simp [finOp, hu]; done))
  | _ =>
    simp only [step] at hs
    repeat' (split at hs)
    all_goals first
      | (cases hs; done)
      | (cases hs; exact hu)
      | (cases hs; rfl)

/-- Without cancellation operations the final `submit` submits nothing. -/
def InvL (s : St) : Prop :=
  InvD s ∧ s.leak = 0 ∧ (final s.pc = true → inSub s.pc = true → s.nsub = 0)

theorem invL_step {s s' : St} {a : Act} (hk : ∀ i, s.kind i ≠ .cancel) (h : InvL s) (hs : stepD s a = some s') :
    InvL s' := by
  obtain ⟨hd, hl, hn⟩ := h
  have hl' : s'.leak = 0 := by
    rcases leak_step (stepD_step hs) with he | ⟨hp, he⟩
    · omega
    · have := hn (by rw [hp]; rfl) (by rw [hp]; rfl); omega
  have hd' := invD_step hd hs hl'
  refine ⟨hd', hl', ?_⟩
  have hs := stepD_step hs
  cases a with
  | drv =>
    intro hf hi
    cases hpc : s.pc with
    | sub f =>
      cases f with
      | false =>
        exfalso
        simp only [step, drv, hpc] at hs
        rcases htk : s.tasks with _ | ⟨t, r⟩ <;> simp only [htk] at hs
        · cases hs; simp [final] at hf
        · split at hs
          · cases hs
            have : (subOne s t r).pc = s.pc := by
              unfold subOne
              repeat' split
              all_goals first
                | rfl
                | (cases t <;> simp [comp, wakeStart, finOp] <;> split <;> rfl)
            rw [this, hpc] at hf; simp [final] at hf
          · cases hs; simp [final] at hf
      | true =>
        have hn0 := hn (by rw [hpc]; rfl) (by rw [hpc]; rfl)
        have hst := (hd.fsub (by rw [hpc]; rfl) (by rw [hpc]; rfl) hn0).1
        simp only [step, drv, hpc] at hs
        rcases htk : s.tasks with _ | ⟨t, r⟩ <;> simp only [htk] at hs
        · cases hs; exact hn0
        · split at hs
          · cases hs
            unfold subOne
            have hcn : isCancel s t = false := by
              cases t with
              | wake => rfl
              | op i => simp [isCancel, hk i]
            split
            · exact hn0
            · simp only [hst, hcn, Bool.not_false, Bool.and_self, if_true]
              cases t with
              | wake => simp only [comp, wakeStart]; split <;> exact hn0
              | op i => exact hn0
          · cases hs; exact hn0
    | sub2 f =>
      simp only [step, drv, hpc] at hs
      rcases htk : s.tasks with _ | ⟨t, r⟩ <;> simp only [htk] at hs
      · split at hs
        · cases hs; simp [inSub] at hi
        · cases hs
          simp only at hi
          split at hi <;> simp [inSub] at hi
      · cases f with
        | false =>
          split at hs <;> cases hs <;> simp [hpc, final] at hf
        | true =>
          have hn0 := hn (by rw [hpc]; rfl) (by rw [hpc]; rfl)
          split at hs <;> cases hs <;> exact hn0
    | pop k =>
      simp only [step, drv, hpc] at hs
      cases hs
      cases k <;> simp [afterPop, inSub] at hi ⊢
    | rd =>
      simp only [step, drv, hpc] at hs
      cases hs
      simp [final] at hf
    | cq k =>
      exfalso
      simp only [step, drv, hpc] at hs
      split at hs
      · cases hs; simp [inSub] at hi
      · cases hs; simp [inSub, hpc] at hi
    | rdy k =>
      exfalso
      simp only [step, drv, hpc] at hs
      split at hs
      · cases hs; cases k <;> simp [inSub, afterComplete] at hi
      · cases hs; simp [inSub, finOp, hpc] at hi
    | _ =>
      exfalso
      simp only [step, drv, hpc] at hs
      repeat' (split at hs)
      all_goals first
        | (cases hs; done)
        | (cases hs; simp_all [inSub, wakeStart, comp, finOp]; done)
        | (cases hs; simp only [] at hi; split at hi <;> simp [inSub] at hi; done)
        | skip
  | _ =>
    simp only [step] at hs
    repeat' (split at hs)
    all_goals first
      | (cases hs; done)
      | (cases hs; exact hn)
      | (cases hs; simp_all [inSub]; done)
      | skip

end Verif.Uring
