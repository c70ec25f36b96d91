import Verif.Shared.Step
/-! # `split` / `ensure_started`: further invariants -/
namespace Verif.Shared

/-- Holds a pointer loaded from `__started_ref_`. -/
@[grind] def Pc.ptr : Pc → Bool
  | .use _ true | .dropP _ => true
  | _ => false

structure Inv2 (s : St) : Prop where
  arm : ∀ i, (s.pc i).active = true → s.stopReq i = false → s.cb i = .armed
  lck : ∀ i, s.pc i = .waiting → s.stopReq i = true → s.cb i = .lock ∨ s.waiters = none
  pre : s.startedRef = false → s.op = .notStarted → s.workStop = false ∧ ∀ i, (s.pc i).ptr = false
  only : s.startedRef = true → s.workStop = true → ∀ i, (s.pc i).w = 0 ∨ (s.pc i).detaching = true

theorem inv2_init : Inv2 init := by
  constructor <;> intros <;> simp_all [init] <;> grind

/-- When the use count is three and the started reference is set, nobody else holds a reference. -/
theorem Inv.sole {s : St} (h : Inv s) {i j : Nat} (hr : s.refs = 3) (hs : s.startedRef = true)
    (hi : (s.pc i).w = 2) (hj : j ≠ i) : (s.pc j).w = 0 := by
  by_contra hw
  have h1 : s.pc i ≠ .unborn := by intro h0; simp [h0, Pc.w] at hi
  have h2 : s.pc j ≠ .unborn := by intro h0; simp [h0, Pc.w] at hw
  have := add_le_lsum Pc.w s.pc ((h.amem i).2 h1) ((h.amem j).2 h2) (Ne.symm hj)
  have := h.refs
  simp [hs] at this
  omega

set_option maxHeartbeats 8000000 in
theorem inv2_step {s s' : St} (a : Act) (hi : Inv s) (h : Inv2 s) (hs : step s a = some s') : Inv2 s' := by
  obtain ⟨h1, h2, h3, h4⟩ := h
  cases a with
  | copy i j =>
    have h5 := fun a b => h4 a b i
    have h6 := h1 i
    have h7 := h2 i
    simp only [step] at hs; split at hs <;> cases hs
    constructor <;> grind
  | eager i =>
    have h5 := fun a b => h4 a b i
    have h6 := h1 i
    have h7 := h2 i
    simp only [step, setPc] at hs; split at hs <;> cases hs
    constructor <;> grind
  | start i =>
    have h5 := fun a b => h4 a b i
    have h6 := h1 i
    have h7 := h2 i
    have := hi.lau
    simp only [step, touch] at hs; split at hs <;> cases hs
    split <;> constructor <;> grind
  | destroy i =>
    have h5 := fun a b => h4 a b i
    have h6 := h1 i
    have h7 := h2 i
    simp only [step, setPc, beginDet] at hs
    (repeat' split at hs) <;> cases hs <;> constructor <;> grind
  | stop i =>
    have h5 := fun a b => h4 a b i
    have h6 := h1 i
    have h7 := h2 i
    simp only [step] at hs; split at hs <;> cases hs
    split <;> constructor <;> grind
  | cb i =>
    have h5 := fun a b => h4 a b i
    have h6 := h1 i
    have h7 := h2 i
    simp only [step, touch, beginDet] at hs
    have := hi.cbL i
    have := hi.mem i
    have := hi.cbS i
    have := hi.cbR i
    have := hi.todo
    have := hi.wtr
    (repeat' split at hs) <;> cases hs <;> constructor <;> grind
  | complete r th =>
    simp only [step, touch] at hs; split at hs <;> cases hs
    constructor <;> grind
  | notify =>
    have hm := hi.mem
    have hd := hi.opd
    simp only [step] at hs
    cases hc : s.op <;> simp only [hc] at hs
    case swap => cases hs; simp only [touch]; constructor <;> grind
    case notifying =>
      cases ht : s.todo with
      | nil => simp only [ht] at hs; cases hs; simp only [touch, release]; constructor <;> grind
      | cons i l =>
        simp only [ht] at hs
        have hp : s.pc i = .waiting := by rw [← hi.mem i, ht]; simp
        have h5 := fun a b => h4 a b i
        simp [hp, Pc.w, Pc.detaching] at h5
        split at hs <;> cases hs
        simp only [setPc, deliver, touch]
        constructor <;> grind
    all_goals cases hs
  | step i =>
    have h5 := fun a b => h4 a b i
    have h6 := h1 i
    have h7 := h2 i
    have hl := hi.lau i
    have hso := hi.sop i
    have hsr := hi.sref i
    have hfl := hi.flag
    have hcb := hi.cbS i
    have hcl := hi.cbAr i
    have hsole := fun j => hi.sole (i := i) (j := j)
    simp only [step, stepC] at hs
    cases hp : s.pc i <;> simp only [hp] at hs <;> (try simp [hp, Pc.w, Pc.detaching] at h5)
    case check =>
      split at hs <;> cases hs <;> simp only [setPc] <;> constructor <;> grind
    case tryStart e =>
      by_cases hf : s.startedFlag = true <;> simp only [touch, setPc, hf, if_true, if_false, Bool.false_eq_true] at hs <;>
        cases hs <;> cases e <;> constructor <;> grind
    case setRef e =>
      simp only [touch, setPc] at hs
      cases hs; cases e <;> constructor <;> grind
    case startOp e =>
      simp only [touch, setPc] at hs
      by_cases hw : s.workStop = true <;> simp only [hw, if_true, if_false, Bool.false_eq_true] at hs <;> cases hs <;> cases e <;> constructor <;> grind
    case addWaiter =>
      cases hw : s.waiters <;> simp only [touch, setPc, hw] at hs
      · cases hs; constructor <;> grind
      · by_cases hf : s.stopReq i = true <;> simp only [hf, if_true, if_false, Bool.false_eq_true] at hs <;> cases hs <;>
          constructor <;> grind
    case notifySelf =>
      simp only [touch, setPc, deliver] at hs
      (repeat' split at hs) <;> cases hs <;> constructor <;> grind
    case rst =>
      simp only [beginDet] at hs
      (repeat' split at hs) <;> cases hs <;> constructor <;> grind
    case det w =>
      simp only [touch, setPc] at hs
      (repeat' split at hs) <;> cases hs <;> constructor <;> grind
    case use w ptr =>
      simp only [touch, setPc] at hs
      (repeat' split at hs) <;> cases hs <;> constructor <;> grind
    case dropP w =>
      simp only [setPc, release] at hs
      (repeat' split at hs) <;> cases hs <;> constructor <;> grind
    case drop w =>
      simp only [setPc, release] at hs
      cases hs; cases w <;> simp only [afterDrop] <;> constructor <;> grind
    case fin w =>
      simp only [setPc, deliver] at hs
      cases w <;> simp only at hs <;> cases hs <;> constructor <;> grind
    all_goals cases hs

theorem inv2_reach {s : St} (h : Reachable s) : Inv2 s :=
  Reach.inv' Inv2 inv2_init (fun _ a _ hr h hs => inv2_step a (inv_reach hr) h hs) s h

end Verif.Shared
