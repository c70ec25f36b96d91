import Verif.Shared.Inv2
/-!
# `split` / `ensure_started`: properties C22 and C23

`begun i`: `start` was called on the operation state of consumer `i`; `results i`: its completions, in order;
`op = running`: the shared operation was started and has not completed; `result`: the completion stored in the
shared state; `workStop`: stop was requested on the shared operation; `overlap`: two consumers were inside
`__detach` at the same time.
-/
namespace Verif.Shared

/-! ## C22 -/

/-- The shared operation is started at most once. -/
theorem C22_start_once {s : St} (h : Reachable s) : s.starts ≤ 1 := by
  have := (inv_reach h).starts
  split at this <;> omega

/-- The completed shared operation. -/
def Op.over (o : Op) : Bool := o == .swap || o == .notifying || o == .done

/-- The shared result is the completion of the shared operation (an exception if storing it throws)... -/
theorem C22_result_is {s s' : St} {r : Res} {throws : Bool} (hs : step s (.complete r throws) = some s') :
    s'.result = (if throws then .exn else r) ∧ s'.op.over = true ∧ s.op = .running := by
  simp only [step] at hs
  split at hs <;> cases hs
  rename_i hc
  exact ⟨rfl, rfl, hc⟩

/-- ... and never changes afterwards. -/
theorem C22_result_stable {s s' : St} (h : Reachable s) {a : Act} (ho : s.op.over = true) (hs : step s a = some s') :
    s'.result = s.result ∧ s'.op.over = true := by
  have hl := (inv_reach h).lau
  cases a <;> simp only [step, stepC, touch, setPc, deliver, beginDet, release] at hs
  all_goals try ((repeat' split at hs) <;> cases hs <;> simp_all [Op.over] <;> done)
  rename_i i
  have hl := hl i
  cases hp : s.pc i <;> simp only [hp] at hs hl
  case startOp e => have := (hl rfl).2; simp [this, Op.over] at ho
  all_goals try (cases hs; done)
  all_goals try (cases hs; exact ⟨rfl, ho⟩)
  case tryStart e =>
    by_cases hf : s.startedFlag = true <;> simp only [hf, if_true, if_false, Bool.false_eq_true] at hs <;> cases hs <;> exact ⟨rfl, ho⟩
  case addWaiter =>
    cases hw : s.waiters <;> simp only [hw] at hs
    · cases hs; exact ⟨rfl, ho⟩
    · by_cases hf : s.stopReq i = true <;> simp only [hf, if_true, if_false, Bool.false_eq_true] at hs <;> cases hs <;> exact ⟨rfl, ho⟩
  case fin w => cases w <;> simp only at hs <;> cases hs <;> exact ⟨rfl, ho⟩
  all_goals ((repeat' split at hs) <;> cases hs <;> exact ⟨rfl, ho⟩)

/-- A consumer is completed at most once, only if it was started, and with the result of the completed shared
operation, or with stopped if stop was requested on it. -/
theorem C22_once {s : St} (h : Reachable s) (i : Nat) :
    (s.results i).length ≤ 1 ∧ (s.begun i = false → s.results i = []) ∧
    (∀ r ∈ s.results i, (r = s.result ∧ s.op.over = true) ∨ (r = .stopped ∧ s.stopReq i = true)) := by
  have hi := inv_reach h
  have hres := hi.res i
  refine ⟨by split at hres <;> omega, ?_, ?_⟩
  · intro hb
    rw [if_neg (by simp [hb])] at hres
    exact List.eq_nil_of_length_eq_zero hres
  · intro r hr
    rcases hi.resv i r hr with ⟨h1, h2 | h2⟩ | h'
    · exact .inl ⟨h1, by simp [h2, Op.over]⟩
    · exact .inl ⟨h1, by simp [h2, Op.over]⟩
    · exact .inr h'

/-- No thread is inside the library: neither a consumer's code, nor a stop callback, nor the completing thread can
move. -/
def Quiescent (s : St) : Prop :=
  (∀ i, step s (.step i) = none) ∧ (∀ i, step s (.cb i) = none) ∧ step s .notify = none

theorem quiet_cb {s : St} {i : Nat} (hq : step s (.cb i) = none) : s.cb i ≠ .lock ∧ s.cb i ≠ .ret := by
  simp only [step] at hq
  constructor <;> intro hc <;> simp only [hc] at hq
  · cases hw : s.waiters <;> simp only [touch, hw] at hq
    · cases hq
    · split at hq <;> cases hq
  · cases hq

theorem quiet_step {s : St} {i : Nat} (hi : Inv s) (hq : step s (.step i) = none) (hc : step s (.cb i) = none) :
    s.pc i = .unborn ∨ s.pc i = .holder ∨ s.pc i = .waiting ∨ s.pc i = .doneHeld ∨ s.pc i = .done ∨ s.pc i = .gone := by
  have hcb := quiet_cb hc
  have hcbB := hi.cbB i
  simp only [step, stepC] at hq
  cases hp : s.pc i <;> simp only [hp] at hq <;> simp
  case check => split at hq <;> cases hq
  case tryStart e =>
    by_cases hf : s.startedFlag = true <;> simp [touch, hf] at hq
  case startOp e =>
    by_cases hf : s.workStop = true <;> simp [setPc, touch, hf] at hq
  case addWaiter =>
    cases hw : s.waiters <;> simp only [touch, hw] at hq
    · cases hq
    · split at hq <;> cases hq
  case notifySelf =>
    have : cbIdle (s.cb i) = true := by
      simp only [hp, Pc.giving] at hcbB
      cases hcc : s.cb i <;> simp_all [cbIdle]
    simp [this] at hq
  case rst =>
    have : cbIdle (s.cb i) = true := by
      simp only [hp, Pc.giving] at hcbB
      cases hcc : s.cb i <;> simp_all [cbIdle]
    simp [this] at hq
  case det w => split at hq <;> cases hq
  case use w p => (repeat' split at hq) <;> cases hq
  case fin w => cases w <;> simp at hq
  all_goals cases hq

/-- Every started consumer is completed: when nobody can move, each has exactly one completion, unless the shared
operation is still running, the consumer waits for it, and stop was not requested on the consumer. It does not
matter whether the consumer subscribed before, during or after the completion. -/
theorem C22_complete {s : St} (h : Reachable s) (hq : Quiescent s) (i : Nat) (hb : s.begun i = true) :
    (∃ r, s.results i = [r]) ∨ (s.op = .running ∧ s.pc i = .waiting ∧ s.stopReq i = false) := by
  have hi := inv_reach h
  have h2 := inv2_reach h
  obtain ⟨hq1, hq2, hq3⟩ := hq
  have hst := quiet_step hi (hq1 i) (hq2 i)
  have hres := hi.res i
  have hfr := hi.fr i
  have one : (s.results i).length = 1 → ∃ r, s.results i = [r] := List.length_eq_one_iff.1
  rcases hst with hp | hp | hp | hp | hp | hp
  · simp [hp, Pc.fresh, hb] at hfr
  · simp [hp, Pc.fresh, hb] at hfr
  · right
    have hcb := quiet_cb (hq2 i)
    -- the shared operation is running
    have hop : s.op = .running := by
      have hfl := hi.addw i (.inr hp)
      cases ho : s.op with
      | running => rfl
      | notStarted =>
        obtain ⟨j, hj⟩ := hi.opn ho hfl
        have := quiet_step hi (hq1 j) (hq2 j)
        rcases this with hpj | hpj | hpj | hpj | hpj | hpj <;> simp [hpj, Pc.launching] at hj
      | swap => simp [step, ho] at hq3
      | notifying =>
        simp only [step, ho] at hq3
        cases ht : s.todo with
        | nil => simp [ht] at hq3
        | cons j l =>
          have hpj : s.pc j = .waiting := by rw [← hi.mem j, ht]; simp
          have hcbj := quiet_cb (hq2 j)
          have hcbB := hi.cbB j
          simp only [hpj, Pc.giving] at hcbB
          have : cbIdle (s.cb j) = true := by cases hcc : s.cb j <;> simp_all [cbIdle]
          simp [ht, this] at hq3
      | done =>
        have hw := hi.wtr.2 (.inr ho)
        have ht : s.todo = [] := by
          by_contra ht
          have := hi.todo ht
          simp [ho] at this
        have := (hi.mem i).2 hp
        simp [hw, ht] at this
    refine ⟨hop, hp, ?_⟩
    by_contra hs
    rcases h2.lck i hp (by simpa using hs) with hl | hl
    · exact hcb.1 hl
    · have := hi.wtr.1 hl
      simp [hop] at this
  all_goals
    left; apply one
    rw [if_pos (by simp [hb, hp, Pc.over, Pc.dying])] at hres
    exact hres

/-! Quiescence is reached: the library's own steps terminate. -/

def Pc.rank : Pc → Nat
  | .check => 24
  | .tryStart _ => 23
  | .setRef _ => 22
  | .startOp _ => 21
  | .addWaiter => 12
  | .waiting => 10
  | .notifySelf => 10
  | .rst => 9
  | .det _ => 8
  | .use _ _ => 7
  | .dropP _ => 6
  | .drop _ => 5
  | .fin _ => 4
  | _ => 0

def Cb.rank : Cb → Nat
  | .lock => 3
  | .busy => 2
  | .ret => 1
  | _ => 0

def Op.rank : Op → Nat
  | .swap => 3
  | .notifying => 2
  | _ => 0

/-- An upper bound on the number of steps the library can still take by itself. -/
def work (s : St) : Nat := lsum Pc.rank s.pc s.agents + lsum Cb.rank s.cb s.agents + s.op.rank

/-- The steps taken inside the library. -/
def Act.internal : Act → Bool
  | .step _ | .cb _ | .notify => true
  | _ => false

theorem idle_rank {c : Cb} (h : cbIdle c = true) : c.rank = 0 := by
  cases c <;> simp_all [cbIdle, Cb.rank]

set_option maxHeartbeats 4000000 in
/-- Each internal step makes progress, so quiescence is reached after at most `work s` of them. -/
theorem C22_terminates {s s' : St} (h : Reachable s) {a : Act} (ha : a.internal = true) (hs : step s a = some s') :
    work s' < work s := by
  have hi := inv_reach h
  have sp : ∀ i p, s.pc i ≠ .unborn →
      lsum Pc.rank (upd s.pc i p) s.agents + (s.pc i).rank = lsum Pc.rank s.pc s.agents + p.rank :=
    fun i p hp => lsum_upd_in Pc.rank s.pc hi.andp ((hi.amem i).2 hp)
  have sc : ∀ i c, s.pc i ≠ .unborn →
      lsum Cb.rank (upd s.cb i c) s.agents + (s.cb i).rank = lsum Cb.rank s.cb s.agents + c.rank :=
    fun i p hp => lsum_upd_in Cb.rank s.cb hi.andp ((hi.amem i).2 hp)
  cases a with
  | step i =>
    simp only [step, stepC] at hs
    have hl := hi.lau i
    have sp := sp i
    have sc := sc i
    have hcbB := hi.cbB i
    cases hp : s.pc i <;> simp only [hp] at hs <;> simp only [hp, ne_eq, reduceCtorEq, not_false_eq_true, forall_true_left, Pc.rank] at sp sc
    case check => split at hs <;> cases hs <;> simp only [work, setPc] <;> grind [Pc.rank]
    case tryStart e =>
      by_cases hf : s.startedFlag = true <;> simp only [touch, setPc, hf, if_true, if_false, Bool.false_eq_true] at hs <;>
        cases hs <;> cases e <;> simp only [work] <;> grind [Pc.rank]
    case setRef e => cases hs; simp only [work, setPc, touch]; grind [Pc.rank]
    case startOp e =>
      have := (hl (by simp [hp, Pc.launching])).2
      by_cases hf : s.workStop = true <;> simp only [touch, setPc, hf, if_true, if_false, Bool.false_eq_true] at hs <;>
        cases hs <;> cases e <;> simp only [work] <;> grind [Pc.rank, Op.rank]
    case addWaiter =>
      cases hw : s.waiters <;> simp only [touch, setPc, hw] at hs
      · cases hs; simp only [work]; grind [Pc.rank]
      · by_cases hf : s.stopReq i = true <;> simp only [hf, if_true, if_false, Bool.false_eq_true] at hs <;> cases hs <;>
          simp only [work] <;> grind [Pc.rank]
    case notifySelf =>
      split at hs <;> cases hs
      rename_i hc
      have := idle_rank hc
      simp only [work, setPc, deliver, touch]; grind [Pc.rank, Cb.rank]
    case rst =>
      split at hs <;> cases hs
      rename_i hc
      have := idle_rank hc
      simp only [work, beginDet]; grind [Pc.rank, Cb.rank]
    case det w => split at hs <;> cases hs <;> simp only [work, setPc, touch] <;> grind [Pc.rank]
    case use w p => (repeat' split at hs) <;> cases hs <;> simp only [work, setPc, touch] <;> grind [Pc.rank]
    case dropP w => cases hs; simp only [work, setPc, release]; grind [Pc.rank]
    case drop w => cases hs; cases w <;> simp only [work, setPc, release, afterDrop] <;> grind [Pc.rank]
    case fin w =>
      simp only [setPc, deliver] at hs
      have hb := hcbB.2
      cases w <;> simp only at hs <;> cases hs <;> simp only [work]
      · grind [Pc.rank]
      · have := hb (by simp [hp, Pc.giving]); grind [Pc.rank, Cb.rank]
      · grind [Pc.rank]
    all_goals cases hs
  | cb i =>
    simp only [step] at hs
    have hact := hi.cbL i
    have hret := hi.cbR i
    cases hc : s.cb i <;> simp only [hc] at hs
    case lock =>
      have hact := hact hc
      have hpu : s.pc i ≠ .unborn := by intro h0; simp [h0, Pc.active] at hact
      have sc := fun c => sc i c hpu
      cases hw : s.waiters with
      | none =>
        simp only [touch, hw] at hs; cases hs
        have := sc .ret; simp only [hc, Cb.rank] at this; simp only [work]; omega
      | some l =>
        simp only [touch, hw] at hs
        split at hs <;> cases hs
        · rename_i hil
          have hp := hi.waiting_of_mem hw hil
          have h1 := sp i (.det .cb) hpu
          have h2 := sc .busy
          simp only [hc, hp, Cb.rank, Pc.rank] at h1 h2; simp only [work, beginDet]; omega
        · have := sc .ret; simp only [hc, Cb.rank] at this; simp only [work]; omega
    case ret =>
      have hret := hret hc
      have hpu : s.pc i ≠ .unborn := by intro h0; simp [h0, Pc.active] at hret
      cases hs
      have := sc i .off hpu; simp only [hc, Cb.rank] at this; simp only [work]; omega
    all_goals cases hs
  | notify =>
    simp only [step] at hs
    cases ho : s.op <;> simp only [ho] at hs
    case swap => cases hs; simp only [work, touch, ho, Op.rank]; omega
    case notifying =>
      cases ht : s.todo with
      | nil => simp only [ht] at hs; cases hs; simp only [work, touch, release, ho, Op.rank]; omega
      | cons i l =>
        simp only [ht] at hs
        have hp : s.pc i = .waiting := by rw [← hi.mem i, ht]; simp
        split at hs <;> cases hs
        rename_i hc
        have hc := idle_rank hc
        have h1 := sp i .doneHeld (by simp [hp])
        have h2 := sc i .off (by simp [hp])
        simp only [hp, hc, Cb.rank, Pc.rank] at h1 h2
        simp only [work, setPc, deliver, touch, ho, Op.rank]; omega
    all_goals cases hs
  | _ => cases ha

/-- The shared state is not accessed after its destruction, and it is destroyed exactly when nobody holds a
reference any more. -/
theorem C22_memory {s : St} (h : Reachable s) :
    s.uaf = false ∧ (s.destroyed = true ↔ s.startedRef = false ∧ ∀ i, (s.pc i).w = 0) := by
  have hi := inv_reach h
  refine ⟨hi.uaf, ?_⟩
  rw [hi.dest, hi.refs]
  constructor
  · intro h0
    refine ⟨by cases hs : s.startedRef <;> simp_all, fun i => ?_⟩
    by_cases hp : s.pc i = .unborn
    · simp [hp, Pc.w]
    · have := le_lsum Pc.w s.pc ((hi.amem i).2 hp); omega
  · rintro ⟨h1, h2⟩
    simp [h1, lsum_eq_zero Pc.w s.pc fun a _ => h2 a]

/-- No leak: when the shared operation is over (or was never started), all consumers are gone and nobody can move,
the shared state is destroyed. -/
theorem C22_no_leak {s : St} (h : Reachable s) (hq : Quiescent s) (ho : s.op ≠ .running)
    (hg : ∀ i, s.pc i = .unborn ∨ s.pc i = .done ∨ s.pc i = .gone) : s.destroyed = true := by
  have hi := inv_reach h
  rw [(C22_memory h).2]
  refine ⟨?_, fun i => by rcases hg i with h | h | h <;> simp [h, Pc.w]⟩
  have hnl : ∀ i, (s.pc i).launching = false := fun i => by rcases hg i with h | h | h <;> simp [h, Pc.launching]
  have hop : s.op = .notStarted ∨ s.op = .done := by
    obtain ⟨_, hq2, hq3⟩ := hq
    cases hoo : s.op with
    | running => exact absurd hoo ho
    | notStarted => exact .inl rfl
    | done => exact .inr rfl
    | swap => simp [step, hoo] at hq3
    | notifying =>
      simp only [step, hoo] at hq3
      cases ht : s.todo with
      | nil => simp [ht] at hq3
      | cons j l =>
        have hpj : s.pc j = .waiting := by rw [← hi.mem j, ht]; simp
        rcases hg j with h | h | h <;> simp [h] at hpj
  rcases hop with hop | hop
  · cases hf : s.startedFlag with
    | false => exact (hi.flag hf).2
    | true => obtain ⟨j, hj⟩ := hi.opn hop hf; simp [hnl j] at hj
  · exact hi.opd hop

/-! ## C23 -/

/-- C23 (what holds): if no two consumers detach at the same time, then when the last consumer has gone away while
the shared operation is running, stop has been requested on it. Missing: overlapping detaches, see `C23_false`. -/
theorem C23_abandoned_partial {s : St} (h : Reachable s) (hov : s.overlap = false) (ho : s.op = .running)
    (hg : ∀ i, s.pc i = .unborn ∨ s.pc i = .done ∨ s.pc i = .gone) : s.workStop = true := by
  have hi := inv_reach h
  by_contra hw
  obtain ⟨i, hp⟩ := hi.canc (hi.opr (.inl ho)) hov (by simpa using hw)
  rcases hg i with h | h | h <;> simp [h, Pc.pre] at hp

/-- Stop is not requested on the shared operation while another consumer still holds it: once it has been requested
(and the operation is still running), nobody but detaching consumers has a reference. In particular no consumer is
waiting for the result, and none can be started. -/
theorem C23_not_premature {s : St} (h : Reachable s) (ho : s.op = .running) (hw : s.workStop = true) (i : Nat) :
    (s.pc i).w = 0 ∨ (s.pc i).detaching = true :=
  (inv2_reach h).only ((inv_reach h).opr (.inl ho)) hw i

/-- The defect in `__detach`: two consumers detach at the same time, each sees the other's reference, and the
operation goes on running with nobody interested and without a stop request. -/
theorem C23_false : ∃ s, Reachable s ∧ s.op = .running ∧ s.workStop = false ∧ (∀ i, s.pc i = .unborn ∨ s.pc i = .gone) := by
  have := Reach.witness (init := init) (step := step)
    [.eager 0, .step 0, .step 0, .step 0, .copy 0 1, .destroy 0, .destroy 1, .step 0, .step 1, .step 0, .step 1,
     .step 0, .step 1, .step 0, .step 1]
    (fun s : St => s.op == .running && s.workStop == false && s.agents == [0, 1] && s.pc 0 == .gone && s.pc 1 == .gone)
    (by decide)
  obtain ⟨s, hr, hp⟩ := this
  simp only [Bool.and_eq_true, beq_iff_eq] at hp
  refine ⟨s, hr, hp.1.1.1.1, hp.1.1.1.2, fun i => ?_⟩
  by_cases hu : s.pc i = .unborn
  · exact .inl hu
  · have := ((inv_reach hr).amem i).2 hu
    rw [hp.1.1.2] at this
    simp only [List.mem_cons, List.not_mem_nil, or_false] at this
    rcases this with rfl | rfl
    · exact .inr hp.1.2
    · exact .inr hp.2

/-! ## The hypotheses are met -/

/-- Three consumers: one subscribes before the completion, one while the waiters are being notified, one is stopped
while waiting. -/
example : ∃ s, Reachable s ∧ s.results 0 = [.value 7] ∧ s.results 1 = [.value 7] ∧ s.results 2 = [.stopped] ∧ s.starts = 1 := by
  have := Reach.witness (init := init) (step := step)
    [.copy 0 1, .copy 0 2, .start 0, .step 0, .step 0, .step 0, .step 0, .step 0, .start 2, .step 2, .step 2, .step 2,
     .stop 2, .cb 2, .step 2, .step 2, .step 2, .step 2, .step 2, .cb 2, .complete (.value 7) false, .notify, .start 1, .step 1,
     .step 1, .step 1, .step 1, .notify, .notify]
    (fun s : St => s.results 0 == [.value 7] && s.results 1 == [.value 7] && s.results 2 == [.stopped] && s.starts == 1)
    (by decide)
  obtain ⟨s, hr, hp⟩ := this
  simp only [Bool.and_eq_true, beq_iff_eq] at hp
  exact ⟨s, hr, hp.1.1.1, hp.1.1.2, hp.1.2, hp.2⟩

/-- A single consumer started eagerly and dropped: stop is requested. -/
example : ∃ s, Reachable s ∧ s.overlap = false ∧ s.op = .running ∧ s.workStop = true ∧ s.pc 0 = .gone := by
  have := Reach.witness (init := init) (step := step)
    [.eager 0, .step 0, .step 0, .step 0, .destroy 0, .step 0, .step 0, .step 0, .step 0]
    (fun s : St => s.overlap == false && s.op == .running && s.workStop == true && s.pc 0 == .gone)
    (by decide)
  obtain ⟨s, hr, hp⟩ := this
  simp only [Bool.and_eq_true, beq_iff_eq] at hp
  exact ⟨s, hr, hp.1.1.1, hp.1.1.2, hp.1.2, hp.2⟩

end Verif.Shared
