import Verif.Shared.Inv
/-! # `split` / `ensure_started`: the invariant is preserved -/
namespace Verif.Shared

set_option maxHeartbeats 4000000 in
theorem inv_copy {s s' : St} {i j : Nat} (h : Inv s) (hs : step s (.copy i j) = some s') : Inv s' := by
  simp only [step] at hs
  split at hs <;> cases hs
  rename_i hc
  have hna : j ∉ s.agents := by rw [h.amem]; simp [hc.2]
  have hl : lsum Pc.w (upd s.pc j .holder) (s.agents ++ [j]) = lsum Pc.w s.pc s.agents + 1 := by
    rw [lsum_append, lsum_upd_notin Pc.w s.pc hna]; simp [lsum, Pc.w]
  have hnd : (s.agents ++ [j]).Nodup := by
    rw [List.nodup_append]; exact ⟨h.andp, by simp, by grind⟩
  have hx1 := fun hh => ex_upd (f := Pc.launching) (pc := s.pc) (i := j) (p := .holder) hh (by simp [hc.2, Pc.launching])
  have hx2 := ex_new (f := Pc.pre) (pc := s.pc) (i := j) (p := .holder) rfl
  have hal := h.alive (i := i) (by simp [hc.1, Pc.w])
  have hle := h.le i
  std h j
  case gs => pw (Inv.gs h) j
  case ac => pw (Inv.ac h) j

set_option maxHeartbeats 4000000 in
theorem inv_eager {s s' : St} {i : Nat} (h : Inv s) (hs : step s (.eager i) = some s') : Inv s' := by
  simp only [step, setPc] at hs
  split at hs <;> cases hs
  rename_i hc
  have hW := sumW h (i := i) (by simp [hc]) (.tryStart true)
  have hov := fun h0 => ovl_upd (h.ovl h0) (i := i) (p := (.tryStart true)) (by simp [hc, Pc.detaching])
  simp only [hc, Pc.w] at hW
  have hx1 := fun hh => ex_upd (f := Pc.launching) (pc := s.pc) (i := i) (p := .tryStart true) hh (by simp [hc, Pc.launching])
  have hx2 := ex_new (f := Pc.pre) (pc := s.pc) (i := i) (p := .tryStart true) rfl
  std h i
  case gs => pw (Inv.gs h) i
  case ac => pw (Inv.ac h) i

set_option maxHeartbeats 4000000 in
theorem inv_start {s s' : St} {i : Nat} (h : Inv s) (hs : step s (.start i) = some s') : Inv s' := by
  simp only [step] at hs
  split at hs <;> cases hs
  rename_i hc
  have hW := sumW h (i := i) (by simp [hc]) .check
  have hov := fun h0 => ovl_upd (h.ovl h0) (i := i) (p := .check) (by simp [hc, Pc.detaching])
  simp only [hc, Pc.w] at hW
  have hx1 := fun hh => ex_upd (f := Pc.launching) (pc := s.pc) (i := i) (p := .check) hh (by simp [hc, Pc.launching])
  have hx2 := ex_new (f := Pc.pre) (pc := s.pc) (i := i) (p := .check) rfl
  have hal := h.alive (i := i) (by simp [hc, Pc.w])
  have hcbb := h.cbB i
  have hres := h.res i
  have hfr := h.fr i (by simp [hc, Pc.fresh])
  have hu := h.uaf
  split <;> (try simp only [touch]) <;> std h i
  case gs => pw (Inv.gs h) i

set_option maxHeartbeats 4000000 in
theorem inv_destroy {s s' : St} {i : Nat} (h : Inv s) (hs : step s (.destroy i) = some s') : Inv s' := by
  simp only [step, setPc, beginDet] at hs
  (repeat' split at hs) <;> cases hs
  · rename_i hc
    have hW := sumW h (i := i) (by rcases hc with hc | hc <;> simp [hc]) (.det .dtor)
    have hov := ovl_new (s := s) (i := i) (p := .det .dtor) h.amem
    have hwi : (s.pc i).w = 1 := by rcases hc with hc | hc <;> simp [hc, Pc.w]
    simp only [hwi, Pc.w] at hW
    have hcbB := h.cbB i
    have hx1 := fun hh => ex_upd (f := Pc.launching) (pc := s.pc) (i := i) (p := .det .dtor) hh (by rcases hc with hc | hc <;> simp [hc, Pc.launching])
    have hx2 := ex_new (f := Pc.pre) (pc := s.pc) (i := i) (p := .det .dtor) rfl
    have hfr := h.fr i
    have hac := h.ac i
    have hres := h.res i
    std h i
    case lau1 => have hkp := h.lau1; intro a b; have := hkp a b; by_cases ha : a = i <;> by_cases hb : b = i <;>
                   simp [upd_apply, ha, hb, Pc.launching] <;> grind
  · rename_i hc
    have hW := sumW h (i := i) (by simp [hc]) .gone
    have hov := fun h0 => ovl_upd (h.ovl h0) (i := i) (p := .gone) (by simp [hc, Pc.detaching])
    simp only [hc, Pc.w] at hW
    have hx1 := fun hh => ex_upd (f := Pc.launching) (pc := s.pc) (i := i) (p := .gone) hh (by simp [hc, Pc.launching])
    have hx2 := fun hh => ex_upd (f := Pc.pre) (pc := s.pc) (i := i) (p := .gone) hh (by simp [hc, Pc.pre])
    have hres := h.res i
    std h i

set_option maxHeartbeats 4000000 in
theorem inv_stop {s s' : St} {i : Nat} (h : Inv s) (hs : step s (.stop i) = some s') : Inv s' := by
  simp only [step] at hs
  split at hs <;> cases hs
  have hfr := h.fr i
  have hcbb := h.cbB i
  have hcbn := h.cbN i
  have hcba := h.cbAr i
  have hgs := h.gs
  split <;> std h i


set_option maxHeartbeats 8000000 in
theorem inv_stepC {s s' : St} {i : Nat} (h : Inv s) (hs : stepC s i = some s') : Inv s' := by
  have hale := h.le i
  have hal := h.alive (i := i)
  have huaf := h.uaf
  have hdest := h.dest
  simp only [stepC] at hs
  cases hp : s.pc i <;> simp only [hp] at hs hale hal
  case check =>
    split at hs <;> cases hs <;> simp only [setPc]
    ·
      have hW := sumW h (i := i) (by simp [hp]) (.rst)
      have hov := fun h0 => ovl_upd (h.ovl h0) (i := i) (p := (.rst)) (by simp [hp, Pc.detaching])
      simp only [hp, Pc.w] at hW
      have hx1 := fun hh => ex_upd (f := Pc.launching) (pc := s.pc) (i := i) (p := .rst) hh (by simp [hp, Pc.launching])
      have hx2 := fun hh => ex_upd (f := Pc.pre) (pc := s.pc) (i := i) (p := .rst) hh (by simp [hp, Pc.pre])
      std h i
    ·
      have hW := sumW h (i := i) (by simp [hp]) (.tryStart false)
      have hov := fun h0 => ovl_upd (h.ovl h0) (i := i) (p := (.tryStart false)) (by simp [hp, Pc.detaching])
      simp only [hp, Pc.w] at hW
      have hx1 := fun hh => ex_upd (f := Pc.launching) (pc := s.pc) (i := i) (p := .tryStart false) hh (by simp [hp, Pc.launching])
      have hx2 := fun hh => ex_upd (f := Pc.pre) (pc := s.pc) (i := i) (p := .tryStart false) hh (by simp [hp, Pc.pre])
      std h i
      case gs => pw (Inv.gs h) i
  case tryStart e =>
    have hal := hal (by simp [Pc.w])
    split at hs <;> cases hs
    · rename_i hf
      simp only [touch] at hf
      cases e <;> simp only [setPc, touch] <;> simp only [Bool.false_eq_true, if_true, if_false]
      ·
        have hW := sumW h (i := i) (by simp [hp]) (.addWaiter)
        have hov := fun h0 => ovl_upd (h.ovl h0) (i := i) (p := (.addWaiter)) (by simp [hp, Pc.detaching])
        simp only [hp, Pc.w] at hW
        have hx1 := fun hh => ex_upd (f := Pc.launching) (pc := s.pc) (i := i) (p := .addWaiter) hh (by simp [hp, Pc.launching])
        have hx2 := fun hh => ex_upd (f := Pc.pre) (pc := s.pc) (i := i) (p := .addWaiter) hh (by simp [hp, Pc.pre])
        std h i
      ·
        have hW := sumW h (i := i) (by simp [hp]) (.holder)
        have hov := fun h0 => ovl_upd (h.ovl h0) (i := i) (p := (.holder)) (by simp [hp, Pc.detaching])
        simp only [hp, Pc.w] at hW
        have hx1 := fun hh => ex_upd (f := Pc.launching) (pc := s.pc) (i := i) (p := .holder) hh (by simp [hp, Pc.launching])
        have hx2 := fun hh => ex_upd (f := Pc.pre) (pc := s.pc) (i := i) (p := .holder) hh (by simp [hp, Pc.pre])
        std h i
    · rename_i hf
      simp only [setPc, touch] at hf ⊢
      have hl := h.lau
      have hfl := h.flag
      have hx3 := ex_new (f := Pc.launching) (pc := s.pc) (i := i) (p := .setRef e) rfl
      have hW := sumW h (i := i) (by simp [hp]) (.setRef e)
      have hov := fun h0 => ovl_upd (h.ovl h0) (i := i) (p := (.setRef e)) (by simp [hp, Pc.detaching])
      simp only [hp, Pc.w] at hW
      have hx1_ := fun hh => ex_upd (f := Pc.launching) (pc := s.pc) (i := i) (p := .setRef e) hh (by simp [Pc.launching])
      have hx2 := fun hh => ex_upd (f := Pc.pre) (pc := s.pc) (i := i) (p := .setRef e) hh (by simp [hp, Pc.pre])
      std h i
  case setRef e =>
    have hal := hal (by simp [Pc.w])
    cases hs
    simp only [setPc, touch]
    have hx3 := ex_new (f := Pc.pre) (pc := s.pc) (i := i) (p := .startOp e) rfl
    have hl := h.lau i (by simp [hp, Pc.launching])
    have hl1 := h.lau1 i
    have hsr := h.sref i (by simp [hp, Pc.isSetRef])
    have hW := sumW h (i := i) (by simp [hp]) (.startOp e)
    have hov := fun h0 => ovl_upd (h.ovl h0) (i := i) (p := (.startOp e)) (by simp [hp, Pc.detaching])
    simp only [hp, Pc.w] at hW
    have hx1 := fun hh => ex_upd (f := Pc.launching) (pc := s.pc) (i := i) (p := .startOp e) hh (by simp [hp, Pc.launching])
    have hx2 := fun hh => ex_upd (f := Pc.pre) (pc := s.pc) (i := i) (p := .startOp e) hh (by simp [hp, Pc.pre])
    std h i
    case sref =>
      intro k hk; exfalso
      by_cases hki : k = i
      · subst hki; simp [Pc.isSetRef] at hk
      · simp only [upd_other _ _ hki] at hk
        have := hl1 k (by simp [hp, Pc.launching]) (by cases hpk : s.pc k <;> simp_all [Pc.isSetRef, Pc.launching])
        exact hki this.symm
  case startOp e =>
    have hal := hal (by simp [Pc.w])
    have hl := h.lau i (by simp [hp, Pc.launching])
    have hl1 := h.lau1 i
    have hsr := h.sop i (by simp [hp, Pc.isStartOp])
    have hst := h.starts
    have hwt := h.wtr
    have hfr := h.fr i
    have hac := h.ac i
    have hcb := h.cbB i
    simp only [hl.2, if_true] at hst
    have hx4 := ex_new (f := Pc.pre) (pc := s.pc) (i := i) (p := if e then .holder else .addWaiter) (by cases e <;> rfl)
    have hW := sumW h (i := i) (by simp [hp]) (if e then .holder else .addWaiter)
    have hov := fun h0 => ovl_upd (h.ovl h0) (i := i) (p := (if e then .holder else .addWaiter)) (by cases e <;> simp [hp, Pc.detaching])
    simp only [hp, Pc.w] at hW
    by_cases hw : s.workStop = true <;> simp only [setPc, touch, hw, if_true, if_false, Bool.false_eq_true] at hs <;> cases hs <;> cases e <;> simp only [Bool.false_eq_true, if_true, if_false, Pc.w] at hx4 hW hov ⊢ <;> std h i
  case addWaiter =>
    have hal := hal (by simp [Pc.w])
    cases hw : s.waiters with
    | none =>
      simp only [touch, hw] at hs
      cases hs
      simp only [setPc]
      have hW := sumW h (i := i) (by simp [hp]) (.notifySelf)
      have hov := fun h0 => ovl_upd (h.ovl h0) (i := i) (p := (.notifySelf)) (by simp [hp, Pc.detaching])
      simp only [hp, Pc.w] at hW
      have hx1 := fun hh => ex_upd (f := Pc.launching) (pc := s.pc) (i := i) (p := .notifySelf) hh (by simp [hp, Pc.launching])
      have hx2 := fun hh => ex_upd (f := Pc.pre) (pc := s.pc) (i := i) (p := .notifySelf) hh (by simp [hp, Pc.pre])
      std h i
    | some l =>
      simp only [touch, hw] at hs
      have hmem := h.mem
      have hnd := h.nd
      rw [hw] at hmem hnd
      split at hs <;> cases hs <;> simp only [setPc]
      ·
        have hW := sumW h (i := i) (by simp [hp]) (.rst)
        have hov := fun h0 => ovl_upd (h.ovl h0) (i := i) (p := (.rst)) (by simp [hp, Pc.detaching])
        simp only [hp, Pc.w] at hW
        have hx1 := fun hh => ex_upd (f := Pc.launching) (pc := s.pc) (i := i) (p := .rst) hh (by simp [hp, Pc.launching])
        have hx2 := fun hh => ex_upd (f := Pc.pre) (pc := s.pc) (i := i) (p := .rst) hh (by simp [hp, Pc.pre])
        std h i
      ·
        have hW := sumW h (i := i) (by simp [hp]) (.waiting)
        have hov := fun h0 => ovl_upd (h.ovl h0) (i := i) (p := (.waiting)) (by simp [hp, Pc.detaching])
        simp only [hp, Pc.w] at hW
        have hx1 := fun hh => ex_upd (f := Pc.launching) (pc := s.pc) (i := i) (p := .waiting) hh (by simp [hp, Pc.launching])
        have hx2 := fun hh => ex_upd (f := Pc.pre) (pc := s.pc) (i := i) (p := .waiting) hh (by simp [hp, Pc.pre])
        have haw := h.addw
        have hwt := h.wtr
        std h i
  case notifySelf =>
    have hal := hal (by simp [Pc.w])
    split at hs <;> cases hs
    simp only [setPc, deliver, touch]
    have hsf := h.self i hp
    have hwt := h.wtr
    have hres := h.res i
    have hbg := h.ac i (by simp [hp, Pc.active])
    have hcn := h.cbN i
    have hcb := h.cbB i
    have hW := sumW h (i := i) (by simp [hp]) (.doneHeld)
    have hov := fun h0 => ovl_upd (h.ovl h0) (i := i) (p := (.doneHeld)) (by simp [hp, Pc.detaching])
    simp only [hp, Pc.w] at hW
    have hx1 := fun hh => ex_upd (f := Pc.launching) (pc := s.pc) (i := i) (p := .doneHeld) hh (by simp [hp, Pc.launching])
    have hx2 := fun hh => ex_upd (f := Pc.pre) (pc := s.pc) (i := i) (p := .doneHeld) hh (by simp [hp, Pc.pre])
    std h i
  case rst =>
    split at hs <;> cases hs
    simp only [beginDet]
    have hbg := h.ac i (by simp [hp, Pc.active])
    have hcn := h.cbN i
    have hcb := h.cbB i
    have hW := sumW h (i := i) (by simp [hp]) (.det .start)
    have hov := ovl_new (s := s) (i := i) (p := .det .start) h.amem
    simp only [hp, Pc.w] at hW
    have hx1 := fun hh => ex_upd (f := Pc.launching) (pc := s.pc) (i := i) (p := .det .start) hh (by simp [hp, Pc.launching])
    have hx2 := fun hh => ex_upd (f := Pc.pre) (pc := s.pc) (i := i) (p := .det .start) hh (by simp [hp, Pc.pre])
    std h i
  case det w =>
    have hfr := h.fr i
    have hac := h.ac i
    have hres := h.res i
    have hal := hal (by simp [Pc.w])
    split at hs <;> cases hs <;> simp only [setPc, touch]
    ·
      have hW := sumW h (i := i) (by simp [hp]) (.use w true)
      have hov := fun h0 => ovl_upd (h.ovl h0) (i := i) (p := (.use w true)) (by simp [hp, Pc.detaching])
      simp only [hp, Pc.w] at hW
      have hx1 := fun hh => ex_upd (f := Pc.launching) (pc := s.pc) (i := i) (p := .use w true) hh (by simp [hp, Pc.launching])
      have hx2 := fun hh => ex_upd (f := Pc.pre) (pc := s.pc) (i := i) (p := .use w true) hh (by simp [hp, Pc.pre])
      std h i
    ·
      have hW := sumW h (i := i) (by simp [hp]) (.use w false)
      have hov := fun h0 => ovl_upd (h.ovl h0) (i := i) (p := (.use w false)) (by simp [hp, Pc.detaching])
      simp only [hp, Pc.w] at hW
      have hx1 := fun hh => ex_upd (f := Pc.launching) (pc := s.pc) (i := i) (p := .use w false) hh (by simp [hp, Pc.launching])
      have hx2 := fun hh => ex_upd (f := Pc.pre) (pc := s.pc) (i := i) (p := .use w false) hh
      std h i
  case use w ptr =>
    have hfr := h.fr i
    have hac := h.ac i
    have hres := h.res i
    cases ptr <;> simp only [Bool.false_eq_true, if_true, if_false] at hs
    · cases hs
      simp only [setPc]
      have hW := sumW h (i := i) (by simp [hp]) (.drop w)
      have hov := fun h0 => ovl_upd (h.ovl h0) (i := i) (p := (.drop w)) (by simp [hp, Pc.detaching])
      simp only [hp, Pc.w] at hW
      have hx1 := fun hh => ex_upd (f := Pc.launching) (pc := s.pc) (i := i) (p := .drop w) hh (by simp [hp, Pc.launching])
      have hx2 := fun hh => ex_upd (f := Pc.pre) (pc := s.pc) (i := i) (p := .drop w) hh (by simp [hp, Pc.pre])
      std h i
    · have hal := hal (by simp [Pc.w])
      split at hs <;> cases hs <;> simp only [setPc, touch]
      ·
        have hW := sumW h (i := i) (by simp [hp]) (.dropP w)
        have hov := fun h0 => ovl_upd (h.ovl h0) (i := i) (p := (.dropP w)) (by simp [hp, Pc.detaching])
        simp only [hp, Pc.w] at hW
        have hx1 := fun hh => ex_upd (f := Pc.launching) (pc := s.pc) (i := i) (p := .dropP w) hh (by simp [hp, Pc.launching])
        have hx2 := fun hh => ex_upd (f := Pc.pre) (pc := s.pc) (i := i) (p := .dropP w) hh
        std h i
      ·
        have hW := sumW h (i := i) (by simp [hp]) (.dropP w)
        have hov := fun h0 => ovl_upd (h.ovl h0) (i := i) (p := (.dropP w)) (by simp [hp, Pc.detaching])
        simp only [hp, Pc.w] at hW
        have hx1 := fun hh => ex_upd (f := Pc.launching) (pc := s.pc) (i := i) (p := .dropP w) hh (by simp [hp, Pc.launching])
        have hx2 := fun hh => ex_upd (f := Pc.pre) (pc := s.pc) (i := i) (p := .dropP w) hh
        have hot := h.other (i := i)
        std h i
        case canc =>
          intro hr ho hw
          simp only at hr ho hw
          obtain ⟨j, hj, hjw⟩ := hot (by have := hale; simp [hp, hr, Pc.w] at this ⊢; omega)
          refine ⟨j, ?_⟩
          simp only [upd_other _ _ hj]
          have hnd := h.ovl ho i j (by simp [hp, Pc.detaching])
          cases hpj : s.pc j <;> simp_all [Pc.pre, Pc.w, Pc.detaching]
  case dropP w =>
    have hres := h.res i
    have hal := hal (by simp [Pc.w])
    cases hs
    simp only [setPc, release]
    have hW := sumW h (i := i) (by simp [hp]) (.drop w)
    have hov := fun h0 => ovl_upd (h.ovl h0) (i := i) (p := (.drop w)) (by simp [hp, Pc.detaching])
    simp only [hp, Pc.w] at hW
    have hx1 := fun hh => ex_upd (f := Pc.launching) (pc := s.pc) (i := i) (p := .drop w) hh (by simp [hp, Pc.launching])
    have hx2 := fun hh => ex_upd (f := Pc.pre) (pc := s.pc) (i := i) (p := .drop w) hh (by simp [hp, Pc.pre])
    std h i
  case drop w =>
    have hal := hal (by simp [Pc.w])
    cases hs
    have hcb := h.cbB i
    have hcr := h.cbR i
    have hgs := h.gs i
    have hres := h.res i
    simp only [setPc, release]
    have hx1 := fun hh => ex_upd (f := Pc.launching) (pc := s.pc) (i := i) (p := afterDrop w) hh (by simp [hp, Pc.launching])
    have hx2 := fun hh => ex_upd (f := Pc.pre) (pc := s.pc) (i := i) (p := afterDrop w) hh (by simp [hp, Pc.pre])
    have hW := sumW h (i := i) (by simp [hp]) (afterDrop w)
    have hov := fun h0 => ovl_upd (h.ovl h0) (i := i) (p := (afterDrop w)) (by simp [hp, Pc.detaching])
    simp only [hp, Pc.w] at hW
    cases w <;> simp only [afterDrop] at * <;> std h i
  case fin w =>
    have hfw := h.finW i
    have hcb := h.cbB i
    have hcr := h.cbR i
    have hgs := h.gs i
    have hres := h.res i
    have hac := h.ac i
    have hcn := h.cbN i
    simp only [setPc, deliver] at hs
    have hW := sumW h (i := i) (by simp [hp]) (.done)
    have hov := fun h0 => ovl_upd (h.ovl h0) (i := i) (p := (.done)) (by simp [hp, Pc.detaching])
    simp only [hp, Pc.w] at hW
    have hx1 := fun hh => ex_upd (f := Pc.launching) (pc := s.pc) (i := i) (p := .done) hh (by simp [hp, Pc.launching])
    have hx2 := fun hh => ex_upd (f := Pc.pre) (pc := s.pc) (i := i) (p := .done) hh (by simp [hp, Pc.pre])
    cases w <;> simp only at hs <;> cases hs
    · std h i
    · std h i
    · exact absurd hp hfw
  all_goals cases hs

theorem Inv.waiting_of_mem {s : St} (h : Inv s) {i : Nat} {l : List Nat} (hw : s.waiters = some l) (hi : i ∈ l) :
    s.pc i = .waiting := by
  rw [← h.mem i, hw]; simp [hi]

set_option maxHeartbeats 4000000 in
theorem inv_cb {s s' : St} {i : Nat} (h : Inv s) (hs : step s (.cb i) = some s') : Inv s' := by
  simp only [step] at hs
  have hcbS := h.cbS i
  have hcbB := h.cbB i
  have hcbN := h.cbN i
  have hcbL := h.cbL i
  have hcbR := h.cbR i
  have hac := h.ac i
  have huaf := h.uaf
  have hal := h.alive (i := i)
  cases hc : s.cb i <;> simp only [hc] at hs
  case lock =>
    have hact := h.cbL i hc
    have hal := h.alive (i := i) (by cases hp : s.pc i <;> simp_all [Pc.active, Pc.w])
    cases hw : s.waiters with
    | none =>
      simp only [touch, hw] at hs
      cases hs
      std h i
    | some l =>
      simp only [touch, hw] at hs
      split at hs
      · rename_i hil
        cases hs
        have hp := h.waiting_of_mem hw hil
        have hmem := h.mem
        have hnd := h.nd
        have hwtr := h.wtr
        have htodo := h.todo
        rw [hw] at hmem hnd
        simp only [beginDet]
        have hW := sumW h (i := i) (by simp [hp]) (.det .cb)
        have hov := ovl_new (s := s) (i := i) (p := .det .cb) h.amem
        simp only [hp, Pc.w] at hW
        have hx1 := fun hh => ex_upd (f := Pc.launching) (pc := s.pc) (i := i) (p := .det .cb) hh (by simp [hp, Pc.launching])
        have hx2 := ex_new (f := Pc.pre) (pc := s.pc) (i := i) (p := .det .cb) rfl
        have hres := h.res i
        std h i
      · cases hs
        std h i
  case ret =>
    cases hs
    std h i
  all_goals cases hs

set_option maxHeartbeats 4000000 in
theorem inv_complete {s s' : St} {r : Res} {th : Bool} (h : Inv s) (hs : step s (.complete r th) = some s') : Inv s' := by
  simp only [step] at hs
  split at hs <;> cases hs
  rename_i hc
  simp only [touch]
  have hr := h.opr (.inl hc)
  have hal := h.aliveR hr
  have huaf := h.uaf
  have hlau := h.lau
  have hst := h.starts
  std h 0

set_option maxHeartbeats 4000000 in
theorem inv_notify {s s' : St} (h : Inv s) (hs : step s .notify = some s') : Inv s' := by
  simp only [step] at hs
  have huaf := h.uaf
  have hlau := h.lau
  have hst := h.starts
  have hmem := h.mem
  have hnd := h.nd
  have htodo := h.todo
  have hdest := h.dest
  have hflag := h.flag
  cases hc : s.op <;> simp only [hc] at hs
  case swap =>
    have hr := h.opr (.inr (.inl hc))
    have hal := h.aliveR hr
    have hresv := h.resv
    cases hs
    simp only [touch]
    std h 0
  case notifying =>
    have hr := h.opr (.inr (.inr hc))
    have hal := h.aliveR hr
    have hwt := h.wtr
    cases ht : s.todo with
    | nil =>
      simp only [ht] at hs
      cases hs
      simp only [touch, release]
      have hrf := h.refs
      std h 0
    | cons i l =>
      simp only [ht] at hs
      split at hs <;> cases hs
      have hp : s.pc i = .waiting := by rw [← h.mem i, ht]; simp
      simp only [setPc, deliver, touch]
      have hres := h.res i
      have hbg := h.ac i (by simp [hp, Pc.active])
      have hcn := h.cbN i
      have hcb := h.cbB i
      rw [ht] at hmem hnd
      have hW := sumW h (i := i) (by simp [hp]) (.doneHeld)
      have hov := fun h0 => ovl_upd (h.ovl h0) (i := i) (p := (.doneHeld)) (by simp [hp, Pc.detaching])
      simp only [hp, Pc.w] at hW
      have hx1 := fun hh => ex_upd (f := Pc.launching) (pc := s.pc) (i := i) (p := .doneHeld) hh (by simp [hp, Pc.launching])
      have hx2 := fun hh => ex_upd (f := Pc.pre) (pc := s.pc) (i := i) (p := .doneHeld) hh (by simp [hp, Pc.pre])
      std h i
      case gs => pw (Inv.gs h) i
  all_goals cases hs

theorem inv_step {s s' : St} (a : Act) (h : Inv s) (hs : step s a = some s') : Inv s' := by
  cases a with
  | copy i j => exact inv_copy h hs
  | eager i => exact inv_eager h hs
  | start i => exact inv_start h hs
  | destroy i => exact inv_destroy h hs
  | stop i => exact inv_stop h hs
  | step i => exact inv_stepC h hs
  | cb i => exact inv_cb h hs
  | complete r th => exact inv_complete h hs
  | notify => exact inv_notify h hs

theorem inv_reach {s : St} (h : Reachable s) : Inv s :=
  Reach.inv Inv inv_init (fun _ a _ h hs => inv_step a h hs) s h

end Verif.Shared
