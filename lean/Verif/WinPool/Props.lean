import Verif.WinPool.Inv
/-!
# C63: `windows_thread_pool`'s cancellable operations
-/
namespace Verif.WinPool
set_option maxHeartbeats 4000000

theorem inv_step (x : St) (a : Act) (y : St) (h : Inv x) (hs : step x a = some y) : Inv y := by
  cases a with
  | start => exact inv_start x y h hs
  | drop => exact inv_drop x y h hs
  | s => exact inv_s x y h hs
  | fire => exact inv_fire x y h hs
  | w => exact inv_w x y h hs
  | reqStop => exact inv_req x y h hs
  | t => exact inv_t x y h hs

theorem inv_reach (x : St) (hr : Reach (init true) step x) : Inv x := Reach.inv Inv inv_init inv_step x hr

/-- Invariant without a stop token. -/
structure InvF (x : St) : Prop where
  bad : x.bad = false
  ptr : x.ptr = false
  freed : x.freed = 0
  cb : x.cb = .none
  t : x.t = .idle
  st0 : x.s = .idle → x.started = false
  st1 : x.alive = false → x.sigs = [] → x.started = false
  s : x.s = .idle ∨ x.s = .usubmit ∨ x.s = .ret
  w : x.w = .off ∨ x.w = .queued ∨ x.w = .value ∨ x.w = .ret
  pre : x.s ≠ .ret → x.w = .off ∧ x.alive = true
  alive : x.alive = true → x.sigs = [] ∧ (x.s = .ret → x.w = .queued ∨ x.w = .value)
  dead : x.alive = false → x.s = .ret ∧ (x.sigs = [] ∧ x.w = .off ∨ x.sigs = [.value] ∧ x.w = .ret)

theorem invF_step (x : St) (a : Act) (y : St) (h : InvF x) (hs : step x a = some y) : InvF y := by
  obtain ⟨e1, e2, e3, e4, e5, e11, e12, e6, e7, e8, e9, e10⟩ := h
  cases a with
  | start => simp only [step] at hs; split at hs <;> cases hs; constructor <;> grind
  | drop => simp only [step] at hs; split at hs <;> cases hs; constructor <;> grind
  | fire => simp only [step] at hs; split at hs <;> cases hs; constructor <;> grind [St.op]
  | reqStop => simp only [step] at hs; repeat' split at hs
               all_goals cases hs
               all_goals constructor <;> grind
  | t => simp [step, e5] at hs
  | w =>
    rcases e7 with h | h | h | h <;> simp only [step, h] at hs <;> cases hs
    constructor <;> grind [St.op, St.done]
  | s =>
    rcases e6 with h | h | h <;> simp only [step, h] at hs <;> cases hs
    constructor <;> grind [St.op, St.done]

theorem invF_reach (x : St) (hr : Reach (init false) step x) : InvF x :=
  Reach.inv InvF (by constructor <;> simp [init]) invF_step x hr

/-- **C63 (safety)**: the operation state and its flags are never used after their destruction, the flags are freed at most once,
no assertion fails. -/
theorem C63_safe (p : Bool) (x : St) (hr : Reach (init p) step x) : x.bad = false ∧ x.freed ≤ 1 := by
  cases p with
  | true =>
    have h := inv_reach x hr
    refine ⟨h.bad, ?_⟩
    cases ha : x.alive with
    | false => rcases (h.end_ ha).1 with h1 | h1 <;> omega
    | true =>
      have e1 := h.wact; have e2 := h.wq; have e3 := h.pre; have e4 := h.sCompl; have e5 := h.tCompl; have e6 := h.addF; have e7 := h.delF
      have e8 := h.go; have e9 := h.stpWho; have e10 := h.us
      clear h
      cases hstp : x.stp <;> cases hs : x.s <;> grind [SPC.pre, SPC.compl, TPC.compl, WPC.act]
  | false => have h := invF_reach x hr; exact ⟨h.bad, by rw [h.freed]; omega⟩

/-- **C63 (once)**: at most one completion; after it the operation state is never used (`C63_safe`); stopped only if stop was requested. -/
theorem C63_at_most_once (p : Bool) (x : St) (hr : Reach (init p) step x) :
    x.sigs.length ≤ 1 ∧ (x.sigs ≠ [] → x.alive = false) ∧ (Sig.stopped ∈ x.sigs → x.stopReq = true) := by
  cases p with
  | true =>
    have h := inv_reach x hr
    cases ha : x.alive with
    | false => rcases (h.end_ ha).2.1 with h1 | h1 | h1 <;> simp [h1]
    | true => simp [h.alive ha]
  | false =>
    have h := invF_reach x hr
    cases ha : x.alive with
    | false => rcases (h.dead ha).2 with h1 | h1 <;> simp [h1]
    | true => simp [(h.alive ha).1]

/-- The call of `start` has returned, the callback is not running or pending, no stop callback is running. -/
def Finished (x : St) : Prop :=
  x.s = .ret ∧ (x.w = .off ∨ x.w = .ret) ∧ (x.t = .idle ∨ x.t = .ret) ∧ x.alive = false

/-- **C63 (no deadlock)**: an operation that has been started can always make progress, without a stop request, until everything is
finished. -/
theorem C63_no_deadlock (p : Bool) (x : St) (hr : Reach (init p) step x) (hs : x.s ≠ .idle) (hf : ¬ Finished x) :
    ∃ a y, a ≠ .reqStop ∧ step x a = some y := by
  have key : (∃ a, a ≠ .reqStop ∧ (step x a).isSome = true) → ∃ a y, a ≠ .reqStop ∧ step x a = some y := by
    rintro ⟨a, h1, h2⟩; obtain ⟨y, hy⟩ := Option.isSome_iff_exists.1 h2; exact ⟨a, y, h1, hy⟩
  apply key
  cases p with
  | false =>
    have h := invF_reach x hr
    have hc : (x.s = .usubmit) ∨ x.w = .queued ∨ x.w = .value := by
      have := h.s; have := h.w; have := h.alive; have := h.dead; have := h.pre; have := h.t
      cases ha : x.alive <;> grind [Finished]
    rcases hc with hc | hc | hc
    · exact ⟨.s, by simp, by simp [step, hc]⟩
    · exact ⟨.fire, by simp, by simp [step, hc]⟩
    · exact ⟨.w, by simp, by simp [step, hc]⟩
  | true =>
    have h := inv_reach x hr
    cases ht : x.t with
    | load => exact ⟨.t, by simp, by simp only [step, ht]; split <;> rfl⟩
    | cas a b c d => exact ⟨.t, by simp, by simp only [step, ht]; repeat' split
                                            all_goals rfl⟩
    | unreg => exact ⟨.t, by simp, by simp [step, ht]⟩
    | stopped => exact ⟨.t, by simp, by simp [step, ht]⟩
    | _ =>
      have hcb : x.t ≠ .wait → x.cb ≠ .running := by
        intro h1 hcb
        have := h.running hcb
        simp [ht, TPC.early] at this
        try exact h1 (by simp [ht])
      cases hw : x.w with
      | queued => exact ⟨.fire, by simp, by simp [step, hw]⟩
      | start => exact ⟨.w, by simp, by simp [step, hw]⟩
      | unreg =>
        refine ⟨.w, by simp, ?_⟩
        have : x.cb ≠ .running := by
          intro hc
          have h1 := h.running hc
          have h2 := h.wact (by simp [hw, WPC.act])
          have h3 := h.tCompl
          grind [TPC.early, TPC.compl]
        simp [step, hw, this]
      | run => exact ⟨.w, by simp, by simp [step, hw]⟩
      | detach => exact ⟨.w, by simp, by simp [step, hw]⟩
      | value => exact ⟨.w, by simp, by simp [step, hw]⟩
      | _ =>
        by_cases htw : x.t = .wait
        · exact ⟨.t, by simp, by simp [step, htw, hw, WPC.idle]⟩
        · have hcb := hcb htw
          cases hss : x.s with
          | idle => exact absurd hss hs
          | ret =>
            exfalso
            have e1 := h.go; have e2 := h.stpWho; have e3 := h.end_
            apply hf
            cases ha : x.alive <;> grind [Finished, SPC.compl, TPC.compl, WPC.act]
          | inLoad => exact ⟨.s, by simp, by simp only [step, hss]; split <;> rfl⟩
          | inCas a b c d => exact ⟨.s, by simp, by simp only [step, hss]; repeat' split
                                                    all_goals rfl⟩
          | wait => exact ⟨.s, by simp, by simp [step, hss, hw, WPC.idle]⟩
          | unreg => exact ⟨.s, by simp, by simp [step, hss, hcb]⟩
          | _ => exact ⟨.s, by simp, by simp [step, hss]⟩

/-- **C63 (exactly once)**: when everything is finished, a started operation has completed exactly once, and the flags have been
freed exactly once. -/
theorem C63_complete (p : Bool) (x : St) (hr : Reach (init p) step x) (hf : Finished x) :
    (x.started = true → x.sigs.length = 1) ∧ x.freed = (if p then 1 else 0) := by
  cases p with
  | true =>
    have h := inv_reach x hr
    have h1 := h.end_ hf.2.2.2
    refine ⟨fun hst => ?_, ?_⟩
    · rcases h1.2.1 with h3 | h3 | h3
      · have := h.st1 hf.2.2.2 h3.1; rw [hst] at this; cases this
      · simp [h3.1]
      · simp [h3.1]
    · rcases h1.1 with h3 | h3
      · simpa using h3
      · rcases h3.1 with h4 | h4 <;> rw [hf.1] at h4 <;> cases h4
  | false =>
    have h := invF_reach x hr
    refine ⟨fun hst => ?_, by simpa using h.freed⟩
    rcases (h.dead hf.2.2.2).2 with h3 | h3
    · have := h.st1 hf.2.2.2 h3.1; rw [hst] at this; cases this
    · simp [h3.1]

/-- **C63 (stop before start)**: stop requested before the operation is started: it completes with stopped, without being submitted. -/
theorem C63_stop_before_start (x : St) (hr : Reach (init true) step x) (hs : x.s = .idle) (hq : x.stopReq = true) (y : St)
    (hy : Reach x step y) : y.w = .off ∧ (y.sigs = [] ∨ y.sigs = [.stopped]) := by
  have h := inv_reach x hr
  have h1 := h.pre (by simp [hs, SPC.pre])
  have h2 := h.cb0 (.inl hs)
  suffices hmain : y.w = .off ∧ y.cb = .none ∧ y.t = .idle ∧ y.stopReq = true ∧ ((y.s = .idle ∨ y.s = .check ∨ y.s = .early) ∧ y.sigs = [] ∧ y.ptr = true ∨
      y.s = .ret ∧ (y.sigs = [] ∨ y.sigs = [.stopped])) by
    refine ⟨hmain.1, ?_⟩
    rcases hmain.2.2.2.2 with h | h
    · exact .inl h.2.1
    · exact h.2
  refine Reach.inv (fun y => y.w = .off ∧ y.cb = .none ∧ y.t = .idle ∧ y.stopReq = true ∧
    ((y.s = .idle ∨ y.s = .check ∨ y.s = .early) ∧ y.sigs = [] ∧ y.ptr = true ∨ y.s = .ret ∧ (y.sigs = [] ∨ y.sigs = [.stopped])))
    ⟨h1.1, h2.1, h2.2.1, hq, .inl ⟨.inl hs, h1.2.2.2.2.2.2.2, h1.2.2.2.2.1⟩⟩ ?_ y hy
  rintro u a v ⟨g1, g2, g3, g4, g5⟩ hst
  clear h h1 h2 hr hy
  cases a with
  | start => simp only [step] at hst; split at hst <;> cases hst; grind
  | drop => simp only [step] at hst; split at hst <;> cases hst; grind
  | fire => simp [step, g1] at hst
  | w => simp [step, g1] at hst
  | t => simp [step, g3] at hst
  | reqStop => simp [step, g4] at hst
  | s =>
    rcases g5 with ⟨g5 | g5 | g5, g6, g7⟩ | ⟨g5, g6⟩ <;> simp only [step, g5] at hst <;> cases hst
    all_goals grind [St.op, St.done]

/-- **C63 (stop wins)**: when `request_stop` has set its flag, the operation does not complete with a value any more. -/
theorem C63_stop_wins (x : St) (hr : Reach (init true) step x) (hq : x.stp = true) (y : St) (hy : Reach x step y) : Sig.value ∉ y.sigs := by
  have hstable : ∀ y, Reach x step y → Reach (init true) step y ∧ y.stp = true := by
    intro y hy
    refine Reach.inv (fun y => Reach (init true) step y ∧ y.stp = true) ⟨hr, hq⟩ ?_ y hy
    rintro u a v ⟨h1, h2⟩ hst
    refine ⟨.tail a h1 hst, ?_⟩
    cases a <;> simp only [step] at hst <;> (repeat' split at hst) <;> cases hst <;> first | exact h2 | rfl | simpa [St.op, St.fl, St.ld, St.flCopy, St.done] using h2
  have h := hstable y hy
  have hi := inv_reach y h.1
  intro hv
  cases ha : y.alive with
  | true => rw [hi.alive ha] at hv; cases hv
  | false =>
    have h3 := (hi.stpReq h.2).2.2
    rcases (hi.end_ ha).2.1 with h1 | h1 | h1
    · rw [h1.1] at hv; cases hv
    · rw [h1.1] at hv; simp at hv
    · rw [h3] at h1; cases h1.2.1

/-- Steps left. -/
def SPC.rank : SPC → Nat
  | .idle => 40 | .check => 39 | .early => 1 | .reg => 38 | .inLoad => 37 | .inCas .. => 36 | .submit => 30 | .add => 10 | .wait => 4 | .unreg => 3
  | .stopped => 2 | .del => 1 | .usubmit => 10 | .ret => 0
def WPC.rank : WPC → Nat
  | .off => 0 | .queued => 7 | .start => 6 | .unreg => 4 | .run => 3 | .detach => 2 | .value => 1 | .ret => 0
def TPC.rank : TPC → Nat
  | .idle => 8 | .load => 7 | .cas .. => 5 | .wait => 3 | .unreg => 2 | .stopped => 1 | .ret => 0

/-- The expected value of a pending compare-exchange of the requesting thread is out of date. -/
def staleT (x : St) : Nat :=
  match x.t with
  | .cas a b c d => if x.sub = a ∧ x.stp = b ∧ x.stg = c ∧ x.run = d then 0 else 1
  | _ => 0
/-- The expected value of a pending compare-exchange of the starter is out of date. -/
def staleS (x : St) : Nat :=
  match x.s with
  | .inCas a b c d => if x.sub = a ∧ x.stp = b ∧ x.stg = c ∧ x.run = d then 0 else 1
  | _ => 0

theorem staleT_le (x : St) : staleT x ≤ 1 := by unfold staleT; repeat' split
                                                all_goals omega
theorem staleS_le (x : St) : staleS x ≤ 1 := by unfold staleS; repeat' split
                                                all_goals omega

/-- Measure of a run. -/
def ms (x : St) : Nat :=
  1000 * x.s.rank + 1000 * x.w.rank + 1000 * (if x.stopReq then 0 else 1) + 20 * x.t.rank + staleT x + staleS x

theorem ms_lt1 (x y : St) (h : y.s.rank + y.w.rank + (if y.stopReq then 0 else 1) < x.s.rank + x.w.rank + (if x.stopReq then 0 else 1)) :
    ms y < ms x := by
  have b1 := staleT_le y; have b2 := staleS_le y
  have ty : y.t.rank ≤ 8 := by cases y.t <;> simp [TPC.rank]
  simp only [ms]
  omega

theorem ms_lt2 (x y : St) (h : y.s.rank + y.w.rank + (if y.stopReq then 0 else 1) ≤ x.s.rank + x.w.rank + (if x.stopReq then 0 else 1))
    (ht : y.t.rank < x.t.rank) : ms y < ms x := by
  have b1 := staleT_le y; have b2 := staleS_le y
  simp only [ms]
  omega

theorem ms_dec (x : St) (a : Act) (y : St) (hs : step x a = some y) : ms y < ms x := by
  cases a with
  | start =>
    simp only [step] at hs
    split at hs <;> cases hs
    apply ms_lt1; grind [SPC.rank]
  | drop =>
    simp only [step] at hs
    split at hs <;> cases hs
    apply ms_lt1; grind [SPC.rank]
  | fire =>
    simp only [step] at hs
    split at hs <;> cases hs
    apply ms_lt1; grind [WPC.rank, St.op]
  | reqStop =>
    simp only [step] at hs
    split at hs
    · cases hs
    · split at hs <;> cases hs <;> apply ms_lt1 <;> grind
  | w =>
    cases hw : x.w <;> simp only [step, hw] at hs <;> (try (split at hs)) <;> cases hs
    all_goals apply ms_lt1
    all_goals grind [WPC.rank, St.op, St.fl, St.done]
  | s =>
    cases hw : x.s with
    | inCas a b c d =>
      simp only [step, hw] at hs
      split at hs
      · cases hs; apply ms_lt1; grind [SPC.rank, St.fl]
      · split at hs
        · cases hs; apply ms_lt1; grind [SPC.rank, St.fl, St.ld]
        · cases hs
          have h1 : staleS x = 1 := by simp only [staleS, hw]; split <;> simp_all
          have h2 : staleS { x.ld with s := .inCas x.sub x.stp x.stg x.run } = 0 := by simp [staleS, St.ld, St.fl]
          have h3 : staleT { x.ld with s := .inCas x.sub x.stp x.stg x.run } = staleT x := rfl
          simp only [ms, h1, h2, h3]; simp only [hw, SPC.rank, St.ld, St.fl]
          omega
    | _ =>
      simp only [step, hw] at hs
      (repeat' split at hs)
      all_goals cases hs
      all_goals apply ms_lt1
      all_goals grind [SPC.rank, WPC.rank, St.op, St.fl, St.ld, St.flCopy, St.done]
  | t =>
    cases hw : x.t with
    | cas a b c d =>
      simp only [step, hw] at hs
      split at hs
      · split at hs <;> cases hs <;> apply ms_lt2 <;> grind [TPC.rank, St.fl]
      · split at hs
        · cases hs; apply ms_lt2 <;> grind [TPC.rank, St.fl, St.ld]
        · cases hs
          have h1 : staleT x = 1 := by simp only [staleT, hw]; split <;> simp_all
          have h2 : staleT { x.ld with t := .cas x.sub x.stp x.stg x.run } = 0 := by simp [staleT, St.ld, St.fl]
          have h3 : staleS { x.ld with t := .cas x.sub x.stp x.stg x.run } = staleS x := rfl
          simp only [ms, h1, h2, h3]; simp only [hw, TPC.rank, St.ld, St.fl]
          omega
    | _ =>
      simp only [step, hw] at hs
      (repeat' split at hs)
      all_goals cases hs
      all_goals apply ms_lt2
      all_goals grind [TPC.rank, WPC.rank, St.op, St.fl, St.ld, St.flCopy, St.done]

/-- **C63 (termination)**: there is no infinite run (no retry loop can go on for ever, with or without a stop request). -/
theorem C63_terminates (p : Bool) : ¬ ∃ f : Nat → St, f 0 = init p ∧ ∀ i, ∃ a, step (f i) a = some (f (i + 1)) := by
  rintro ⟨f, -, hs⟩
  have hd : ∀ i, ms (f i) + i ≤ ms (f 0) := by
    intro i
    induction i with
    | zero => omega
    | succ i ih => obtain ⟨a, ha⟩ := hs i; have := ms_dec _ _ _ ha; omega
  have := hd (ms (f 0) + 1)
  omega

/-- **C63 (violated)**: an operation that was created with "no stop possible" never completes with stopped, whatever stop requests are
made. The constructors decide this by asking the receiver itself for a stop token (`get_stop_token(rcvr)`, `:439`, `:745`, `:821`) rather than its
environment, so it is the outcome for every receiver that answers queries only through `get_env`. -/
theorem C63_violated_stop_ignored (x : St) (hr : Reach (init false) step x) : Sig.stopped ∉ x.sigs ∧ x.ptr = false := by
  have h := invF_reach x hr
  refine ⟨?_, h.ptr⟩
  cases ha : x.alive with
  | false => rcases (h.dead ha).2 with h1 | h1 <;> simp [h1]
  | true => simp [(h.alive ha).1]

/-- A stop request before the start, and the operation still completes with a value. -/
example : ∃ x, Reach (init false) step x ∧ Finished x ∧ x.stopReq = true ∧ x.sigs = [.value] := by
  obtain ⟨x, h1, h2⟩ := Reach.witness (init := init false) (step := step) [.reqStop, .start, .s, .fire, .w]
    (fun x : St => decide (x.s = .ret ∧ x.w = .ret ∧ x.t = .idle ∧ x.alive = false ∧ x.stopReq = true ∧ x.sigs = [.value])) (by rfl)
  simp only [decide_eq_true_eq] at h2
  exact ⟨x, h1, ⟨h2.1, .inr h2.2.1, .inl h2.2.2.1, h2.2.2.2.1⟩, h2.2.2.2.2.1, h2.2.2.2.2.2⟩

/-- The callback overtakes the starter: it detaches the flags, the starter frees them after the operation state is gone. -/
example : ∃ x, Reach (init true) step x ∧ Finished x ∧ x.freed = 1 ∧ x.sigs = [.value] := by
  obtain ⟨x, h1, h2⟩ := Reach.witness (init := init true) (step := step) [.start, .s, .s, .s, .fire, .w, .w, .w, .w, .w, .s, .s]
    (fun x : St => decide (x.s = .ret ∧ x.w = .ret ∧ x.t = .idle ∧ x.alive = false ∧ x.freed = 1 ∧ x.sigs = [.value])) (by rfl)
  simp only [decide_eq_true_eq] at h2
  exact ⟨x, h1, ⟨h2.1, .inr h2.2.1, .inl h2.2.2.1, h2.2.2.2.1⟩, h2.2.2.2.2.1, h2.2.2.2.2.2⟩

/-- Stop is requested while the starter submits: the starter completes the operation. -/
example : ∃ x, Reach (init true) step x ∧ Finished x ∧ x.stp = true ∧ x.sigs = [.stopped] := by
  obtain ⟨x, h1, h2⟩ := Reach.witness (init := init true) (step := step) [.start, .s, .s, .s, .reqStop, .t, .t, .s, .s, .s, .s]
    (fun x : St => decide (x.s = .ret ∧ x.w = .off ∧ x.t = .ret ∧ x.alive = false ∧ x.stp = true ∧ x.sigs = [.stopped])) (by rfl)
  simp only [decide_eq_true_eq] at h2
  exact ⟨x, h1, ⟨h2.1, .inl h2.2.1, .inr h2.2.2.1, h2.2.2.2.1⟩, h2.2.2.2.2.1, h2.2.2.2.2.2⟩

/-- Stop is requested after the submission: the requesting thread completes the operation; its first compare-exchange fails because the
starter changes the flags in between. -/
example : ∃ x, Reach (init true) step x ∧ Finished x ∧ x.stp = true ∧ x.sigs = [.stopped] := by
  obtain ⟨x, h1, h2⟩ := Reach.witness (init := init true) (step := step) [.start, .s, .s, .s, .reqStop, .t, .s, .t, .t, .t, .t, .t]
    (fun x : St => decide (x.s = .ret ∧ x.w = .off ∧ x.t = .ret ∧ x.alive = false ∧ x.stp = true ∧ x.sigs = [.stopped])) (by rfl)
  simp only [decide_eq_true_eq] at h2
  exact ⟨x, h1, ⟨h2.1, .inl h2.2.1, .inr h2.2.2.1, h2.2.2.2.1⟩, h2.2.2.2.2.1, h2.2.2.2.2.2⟩

/-- `C63_stop_before_start`'s hypotheses hold. -/
example : ∃ x, Reach (init true) step x ∧ x.s = .idle ∧ x.stopReq = true := by
  obtain ⟨x, h1, h2⟩ := Reach.witness (init := init true) (step := step) [.reqStop] (fun x : St => decide (x.s = .idle ∧ x.stopReq = true)) (by rfl)
  simp only [decide_eq_true_eq] at h2
  exact ⟨x, h1, h2⟩

end Verif.WinPool
