import Verif.AsyncScope.Step
/-!
# `exec::async_scope`: property C24

`(opc i).inFlight`: the nested operation `i` was started and has not been taken off the scope's count;
`(wpc j).released`: the scope was found empty for the waiter `j` (its wrapped operation is or will be started);
`opStarts j`: how often the wrapped operation of `j` was started; `before j`: the nested operations started before
`j` was.
-/
namespace Verif.AsyncScope

/-- Started and its receiver not yet completed, or completed but still counted. -/
def OPc.inFlight : OPc → Bool
  | .running | .wantLock | .locked => true
  | _ => false

/-- Released by finding the scope empty itself, or by being moved out of the queue by the last operation. -/
def released (s : St) (j : Nat) : Prop :=
  s.wpc j = .unlockE ∨ s.wpc j = .startOp ∨ s.wpc j = .started ∨ ∃ i, j ∈ s.loc i

theorem inFlight_w {p : OPc} (h : p.w = 0) : p.inFlight = false := by cases p <;> simp_all [OPc.w, OPc.inFlight]

/-- A waiter is released only at an instant at which no nested operation is in flight: every nested operation
started until then has completed its receiver. -/
theorem C24_empty_at_release {s s' : St} (h : Reachable s) {a : Act} (hs : step s a = some s') {j : Nat}
    (h0 : ¬ released s j) (h1 : released s' j) : ∀ i, (s'.opc i).inFlight = false := by
  have hi' := inv_step a (inv_reach h) hs
  suffices s'.active = 0 by
    intro i
    have := hi'.le i
    exact inFlight_w (by omega)
  have hi := inv_reach h
  simp only [released, not_or, not_exists] at h0
  obtain ⟨n1, n2, n3, n4⟩ := h0
  simp only [released] at h1
  cases a with
  | nest i => simp only [step] at hs; split at hs <;> cases hs; simp_all
  | complete i => simp only [step] at hs; split at hs <;> cases hs; simp_all
  | destroy => simp only [step] at hs; split at hs <;> cases hs; simp_all
  | whenEmpty k =>
    simp only [step] at hs; split at hs <;> cases hs
    by_cases hk : j = k
    · subst hk; simp_all
    · simp_all [upd_other _ _ hk]
  | op i =>
    simp only [step, stepOp] at hs
    cases hp : s.opc i <;> simp only [hp] at hs
    case wantLock => split at hs <;> cases hs; simp_all [touch]
    case locked =>
      split at hs <;> cases hs
      · rename_i ha; simp [ha]
      · simp_all [touch]
    case unlock b => cases hs; simp_all [touch]
    case notifying =>
      cases hl : s.loc i with
      | nil => simp only [hl] at hs; cases hs; simp_all
      | cons k l =>
        simp only [hl] at hs; cases hs
        exfalso
        have hk : j ≠ k := by rintro rfl; exact n4 i (by simp [hl])
        simp only [upd_other _ _ hk] at h1
        rcases h1 with h1 | h1 | h1 | ⟨a, ha⟩
        · exact n1 h1
        · exact n2 h1
        · exact n3 h1
        · by_cases hai : a = i
          · subst hai; simp only [upd_same] at ha; exact n4 a (by simp [hl, ha])
          · simp only [upd_other _ _ hai] at ha; exact n4 a ha
    all_goals cases hs
  | w k =>
    simp only [step, stepW] at hs
    have key : ∀ p, p ≠ .unlockE → p ≠ .startOp → p ≠ .started →
        (upd s.wpc k p j = .unlockE ∨ upd s.wpc k p j = .startOp ∨ upd s.wpc k p j = .started ∨ ∃ i, j ∈ s.loc i) → False := by
      intro p p1 p2 p3 hh
      by_cases hk : j = k
      · subst hk; simp_all
      · simp only [upd_other _ _ hk] at hh; simp_all
    cases hp : s.wpc k <;> simp only [hp] at hs
    case wantLock => split at hs <;> cases hs; exact (key _ (by simp) (by simp) (by simp) h1).elim
    case locked =>
      split at hs <;> cases hs
      · rename_i ha; exact ha
      · exact (key _ (by simp) (by simp) (by simp) h1).elim
    case unlockQ => cases hs; exact (key _ (by simp) (by simp) (by simp) h1).elim
    case unlockE =>
      cases hs; exfalso
      by_cases hk : j = k
      · subst hk; exact n1 hp
      · simp_all [touch, upd_other _ _ hk]
    case startOp =>
      cases hs; exfalso
      by_cases hk : j = k
      · subst hk; exact n2 hp
      · simp_all [upd_other _ _ hk]
    all_goals cases hs

/-- Consequence: when the operation wrapped by `when_empty` is started, every nested operation that was started
before the `when_empty` operation has completed. -/
theorem C24_waits {s : St} (h : Reachable s) {j : Nat} (hj : s.opStarts j ≠ 0) :
    ∀ i ∈ s.before j, (s.opc i).inFlight = false := by
  have hi := inv_reach h
  intro i hib
  have hst := hi.st j
  have : s.wpc j = .started := by
    by_contra hne
    rw [if_neg hne] at hst; exact hj hst
  exact inFlight_w (hi.bef j (.inl (by simp [this, WPc.dec])) i hib)

/-- `before j` is what it says: recorded at the start of the `when_empty` operation. -/
theorem C24_before {s s' : St} {j : Nat} (h : Reachable s) (hs : step s (.whenEmpty j) = some s') (i : Nat) :
    i ∈ s'.before j ↔ s.opc i ≠ .idle := by
  simp only [step] at hs
  split at hs <;> cases hs
  simp only [upd_same]
  exact (inv_reach h).om i

/-- Each waiter is started at most once. -/
theorem C24_once {s : St} (h : Reachable s) (j : Nat) : s.opStarts j ≤ 1 := by
  have := (inv_reach h).st j
  split at this <;> omega

/-- No thread is inside the library. -/
def Quiescent (s : St) : Prop := (∀ i, step s (.op i) = none) ∧ (∀ j, step s (.w j) = none)

/-- No waiter is forgotten: when nobody can move, each started waiter has been started, or some nested operation is
still running. -/
theorem C24_released {s : St} (h : Reachable s) (hq : Quiescent s) {j : Nat} (hj : s.wpc j ≠ .idle) :
    s.opStarts j = 1 ∨ ∃ i, s.opc i = .running := by
  have hi := inv_reach h
  obtain ⟨hq1, hq2⟩ := hq
  have ho : ∀ i, s.opc i = .idle ∨ s.opc i = .running ∨ s.opc i = .done ∨ (s.opc i = .wantLock ∧ s.lock ≠ none) := by
    intro i
    have := hq1 i
    simp only [step, stepOp] at this
    cases hp : s.opc i <;> simp only [hp] at this <;> simp
    · intro hl; simp [hl] at this
    · split at this <;> cases this
    · cases this
    · cases hl : s.loc i <;> simp [hl] at this
  have hw : ∀ j, s.wpc j = .idle ∨ s.wpc j = .queued ∨ s.wpc j = .started ∨ (s.wpc j = .wantLock ∧ s.lock ≠ none) := by
    intro j
    have := hq2 j
    simp only [step, stepW] at this
    cases hp : s.wpc j <;> simp only [hp] at this <;> simp
    · intro hl; simp [hl] at this
    · split at this <;> cases this
    all_goals cases this
  have hl : s.lock = none := by
    cases hl : s.lock with
    | none => rfl
    | some t =>
      cases t with
      | op i =>
        have := (hi.lko i).1 hl
        rcases ho i with h | h | h | h <;> simp [h, OPc.holds] at this
      | w j =>
        have := (hi.lkw j).1 hl
        rcases hw j with h | h | h | h <;> simp [h, WPc.holds] at this
  simp only [hl, ne_eq, not_true_eq_false, and_false, or_false] at ho hw
  have hst := hi.st j
  rcases hw j with h' | h' | h'
  · exact absurd h' hj
  · right
    rcases hi.cov j (by simp [h', WPc.inList]) with hm | ⟨i, hm⟩
    · have hact := hi.wl (List.ne_nil_of_mem hm)
      rw [hi.act] at hact
      obtain ⟨i, _, hi'⟩ := lsum_pos OPc.w s.opc hact
      refine ⟨i, ?_⟩
      rcases ho i with h | h | h
      · simp [h, OPc.w] at hi'
      · exact h
      · simp [h, OPc.w] at hi'
    · have := hi.lop i (List.ne_nil_of_mem hm)
      rcases ho i with h | h | h <;> simp [h] at this
  · left; rw [if_pos h'] at hst; exact hst

def OPc.rank : OPc → Nat
  | .wantLock => 4
  | .locked => 3
  | .unlock _ => 2
  | .notifying => 1
  | _ => 0

def WPc.rank : WPc → Nat
  | .wantLock => 4
  | .locked => 3
  | .unlockQ => 2
  | .unlockE => 2
  | .startOp => 1
  | .queued => 1
  | _ => 0

/-- An upper bound on the number of steps the library can still take by itself. -/
def work (s : St) : Nat := lsum OPc.rank s.opc s.ops + lsum WPc.rank s.wpc s.ws

def Act.internal : Act → Bool
  | .op _ | .w _ => true
  | _ => false

theorem wsNd : ∀ s, Reachable s → s.ws.Nodup := by
  apply Reach.inv'
  · simp [init]
  · intro s a s' hr h hs
    have hwm := (inv_reach hr).wm
    cases a <;> simp only [step, stepOp, stepW, touch] at hs
    case whenEmpty j =>
      split at hs <;> cases hs
      rename_i hc
      rw [List.nodup_append]
      refine ⟨h, by simp, ?_⟩
      have := hwm j
      grind
    all_goals ((repeat' split at hs) <;> cases hs <;> exact h)

/-- The library's own steps terminate. -/
theorem C24_terminates {s s' : St} (h : Reachable s) {a : Act} (ha : a.internal = true) (hs : step s a = some s') :
    work s' < work s := by
  have hi := inv_reach h
  have so : ∀ i p, s.opc i ≠ .idle →
      lsum OPc.rank (upd s.opc i p) s.ops + (s.opc i).rank = lsum OPc.rank s.opc s.ops + p.rank :=
    fun i p hp => lsum_upd_in OPc.rank s.opc hi.ond ((hi.om i).2 hp)
  have sw : ∀ i p, s.wpc i ≠ .idle →
      lsum WPc.rank (upd s.wpc i p) s.ws + (s.wpc i).rank = lsum WPc.rank s.wpc s.ws + p.rank :=
    fun i p hp => lsum_upd_in WPc.rank s.wpc (wsNd s h) ((hi.wm i).2 hp)
  cases a with
  | op i =>
    simp only [step, stepOp] at hs
    have so := so i
    cases hp : s.opc i <;> simp only [hp] at hs <;>
      simp only [hp, ne_eq, reduceCtorEq, not_false_eq_true, forall_true_left, OPc.rank] at so
    case wantLock => split at hs <;> cases hs; simp only [work, touch]; grind [OPc.rank]
    case locked => split at hs <;> cases hs <;> simp only [work, touch] <;> grind [OPc.rank]
    case unlock b => cases hs; cases b <;> simp only [work, touch] <;> grind [OPc.rank]
    case notifying =>
      cases hl : s.loc i with
      | nil => simp only [hl] at hs; cases hs; simp only [work]; grind [OPc.rank]
      | cons j l =>
        simp only [hl] at hs; cases hs
        have hlp := (hi.lpc i j (by simp [hl])).1
        have hq : s.wpc j = .queued := by
          have := hi.ulq j
          have := (hi.lpc i j (by simp [hl])).2
          cases hw : s.wpc j <;> simp_all [WPc.inList]
        have := sw j .started (by simp [hq])
        simp only [hq, WPc.rank] at this
        simp only [work]; omega
    all_goals cases hs
  | w j =>
    simp only [step, stepW] at hs
    have sw := sw j
    cases hp : s.wpc j <;> simp only [hp] at hs <;>
      simp only [hp, ne_eq, reduceCtorEq, not_false_eq_true, forall_true_left, WPc.rank] at sw
    case wantLock => split at hs <;> cases hs; simp only [work, touch]; grind [WPc.rank]
    case locked => split at hs <;> cases hs <;> simp only [work, touch] <;> grind [WPc.rank]
    case unlockQ => cases hs; simp only [work, touch]; grind [WPc.rank]
    case unlockE => cases hs; simp only [work, touch]; grind [WPc.rank]
    case startOp => cases hs; simp only [work]; grind [WPc.rank]
    all_goals cases hs
  | _ => cases ha

/-- A scope destroyed after `on_empty()` completed is empty (the destructor's assertions hold) and nobody uses it
afterwards, not even the operation that released the waiters. -/
theorem C24_destroy {s : St} (h : Reachable s) : s.assertFail = false ∧ s.uaf = false :=
  ⟨(inv_reach h).asf, (inv_reach h).uaf⟩

/-! ## The hypotheses are met -/

/-- Two nested operations, one waiter before and one after they complete, then destruction. -/
example : ∃ s, Reachable s ∧ s.opStarts 0 = 1 ∧ s.opStarts 1 = 1 ∧ s.before 0 = [0, 1] ∧ s.destroyed = true := by
  have := Reach.witness (init := init) (step := step)
    [.nest 0, .nest 1, .whenEmpty 0, .w 0, .w 0, .w 0, .complete 1, .op 1, .op 1, .op 1, .complete 0, .op 0, .op 0,
     .op 0, .whenEmpty 1, .w 1, .w 1, .w 1, .w 1, .op 0, .destroy, .op 0]
    (fun s : St => s.opStarts 0 == 1 && s.opStarts 1 == 1 && s.before 0 == [0, 1] && s.destroyed == true)
    (by decide)
  obtain ⟨s, hr, hp⟩ := this
  simp only [Bool.and_eq_true, beq_iff_eq] at hp
  exact ⟨s, hr, hp.1.1.1, hp.1.1.2, hp.1.2, hp.2⟩

end Verif.AsyncScope
