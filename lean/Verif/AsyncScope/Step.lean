import Verif.AsyncScope.Inv
/-! # `exec::async_scope`: the invariant is preserved -/
namespace Verif.AsyncScope

set_option maxHeartbeats 4000000 in
theorem inv_nest {s s' : St} {i : Nat} (h : Inv s) (hs : step s (.nest i) = some s') : Inv s' := by
  simp only [step] at hs
  split at hs <;> cases hs
  rename_i hc
  have hna : i ∉ s.ops := by rw [h.om]; simp [hc.1]
  have hl : lsum OPc.w (upd s.opc i .running) (s.ops ++ [i]) = lsum OPc.w s.opc s.ops + 1 := by
    rw [lsum_append, lsum_upd_notin OPc.w s.opc hna]; simp [lsum, OPc.w]
  have hnd : (s.ops ++ [i]).Nodup := by
    rw [List.nodup_append]; exact ⟨h.ond, by simp, by grind⟩
  have hb := h.bsub
  have hlo := h.lko i
  std h i

set_option maxHeartbeats 4000000 in
theorem inv_complete {s s' : St} {i : Nat} (h : Inv s) (hs : step s (.complete i) = some s') : Inv s' := by
  simp only [step] at hs
  split at hs <;> cases hs
  rename_i hc
  have hW := sumO h (i := i) (by simp [hc]) .wantLock
  simp only [hc, OPc.w] at hW
  have hd := h.dst
  have hlo := h.lko i
  have hlop := h.lop i
  have hbf := h.bef
  std h i

set_option maxHeartbeats 4000000 in
theorem inv_whenEmpty {s s' : St} {j : Nat} (h : Inv s) (hs : step s (.whenEmpty j) = some s') : Inv s' := by
  simp only [step] at hs
  split at hs <;> cases hs
  rename_i hc
  have hst := h.st j
  have hwp := h.wpc j
  have hlp := fun i => h.lpc i j
  have hlk := h.lkw j
  have hom := h.om
  have hbf := h.bef
  std h j

set_option maxHeartbeats 4000000 in
theorem inv_destroy {s s' : St} (h : Inv s) (hs : step s .destroy = some s') : Inv s' := by
  simp only [step] at hs
  split at hs <;> cases hs
  rename_i hc
  obtain ⟨h1, h2, h3, j, h4, h5⟩ := hc
  have hle := h.le
  have hc0 := h.cl0 j h5
  have hlo := h.lko
  have hwl := h.wl
  have hwm := h.wm
  std h 0

set_option maxHeartbeats 8000000 in
theorem inv_op {s s' : St} {i : Nat} (h : Inv s) (hs : step s (.op i) = some s') : Inv s' := by
  simp only [step, stepOp] at hs
  have hd := h.dst
  have hu := h.uaf
  have hlo := h.lko
  have hlw := h.lkw
  have hlop := h.lop i
  cases hp : s.opc i <;> simp only [hp] at hs
  case wantLock =>
    have hW := sumO h (i := i) (by simp [hp]) .locked
    simp only [hp, OPc.w] at hW
    split at hs <;> cases hs
    simp only [touch]
    std h i
  case locked =>
    have hle2 := fun j => h.le2 (i := i) (j := j)
    have hle := h.le
    have hlk := (h.lko i).2 (by simp [hp, OPc.holds])
    have hwl := h.wl
    split at hs <;> cases hs <;> simp only [touch]
    · have hW := sumO h (i := i) (by simp [hp]) (.unlock true)
      simp only [hp, OPc.w] at hW
      have hulq := h.ulq
      have hcov := h.cov
      have hlpc := h.lpc
      have hwpc := h.wpc
      have hbs := h.bsub
      have hwnd := h.wnd
      have hli : s.loc i = [] := by
        by_contra hne
        rcases hlop hne with h' | h' <;> simp [hp] at h'
      have hcl := h.cl0
      std h i
      case cov =>
        intro j hj
        right
        rcases hcov j hj with hm | ⟨k, hk⟩
        · exact ⟨i, by simpa using hm⟩
        · refine ⟨k, ?_⟩
          have hki : k ≠ i := by rintro rfl; simp [hli] at hk
          simpa only [upd_other _ _ hki] using hk
    · have hW := sumO h (i := i) (by simp [hp]) (.unlock false)
      simp only [hp, OPc.w] at hW
      std h i
  case unlock b =>
    cases hs
    have hW := sumO h (i := i) (by simp [hp]) (if b then .notifying else .done)
    have hlk := (h.lko i).2 (by simp [hp, OPc.holds])
    have hclu := h.clU i
    cases b <;> simp only [hp, OPc.w, Bool.false_eq_true, if_true, if_false] at hW ⊢ <;> simp only [touch] <;> std h i
  case notifying =>
    cases hl : s.loc i with
    | nil =>
      simp only [hl] at hs; cases hs
      have hW := sumO h (i := i) (by simp [hp]) .done
      simp only [hp, OPc.w] at hW
      std h i
    | cons j l =>
      simp only [hl] at hs; cases hs
      have hlp := h.lpc i j (by simp [hl])
      have hldj := fun k => h.ldj i k j (by simp [hl])
      have hlnd := h.lnd i
      have hbj := h.bef j (.inr ⟨i, by simp [hl]⟩)
      have hq : s.wpc j = .queued := by
        have := h.ulq j
        cases hw : s.wpc j <;> simp_all [WPc.inList]
      std h i
      case cov =>
        intro k hk
        by_cases hkj : k = j
        · subst hkj; simp [WPc.inList] at hk
        · simp only [upd_other _ _ hkj] at hk
          rcases h.cov k hk with hm | ⟨a, ha⟩
          · exact .inl hm
          · refine .inr ⟨a, ?_⟩
            by_cases hai : a = i
            · subst hai; rw [hl] at ha; simp only [upd_same]
              simpa [hkj] using ha
            · simpa only [upd_other _ _ hai] using ha
  all_goals cases hs

set_option maxHeartbeats 8000000 in
theorem inv_w {s s' : St} {j : Nat} (h : Inv s) (hs : step s (.w j) = some s') : Inv s' := by
  simp only [step, stepW] at hs
  have hd := h.dst
  have hu := h.uaf
  have hlo := h.lko
  have hlw := h.lkw
  cases hp : s.wpc j <;> simp only [hp] at hs
  case wantLock =>
    split at hs <;> cases hs
    simp only [touch]
    std h j
  case locked =>
    have hlk := (h.lkw j).2 (by simp [hp, WPc.holds])
    split at hs <;> cases hs <;> simp only [touch]
    · have hle := h.le
      std h j
    · have hwp := h.wpc j
      have hlp := fun i => h.lpc i j
      std h j
  case unlockQ =>
    have hlk := (h.lkw j).2 (by simp [hp, WPc.holds])
    cases hs
    simp only [touch]
    std h j
  case unlockE =>
    have hlk := (h.lkw j).2 (by simp [hp, WPc.holds])
    cases hs
    simp only [touch]
    std h j
  case startOp =>
    cases hs
    std h j
  all_goals cases hs

theorem inv_step {s s' : St} (a : Act) (h : Inv s) (hs : step s a = some s') : Inv s' := by
  cases a with
  | nest i => exact inv_nest h hs
  | complete i => exact inv_complete h hs
  | op i => exact inv_op h hs
  | whenEmpty j => exact inv_whenEmpty h hs
  | w j => exact inv_w h hs
  | destroy => exact inv_destroy h hs

theorem inv_reach {s : St} (h : Reachable s) : Inv s :=
  Reach.inv Inv inv_init (fun _ a _ h hs => inv_step a h hs) s h

end Verif.AsyncScope
