import Verif.NvSyncWait.Model
/-!
# The stream scheduler's `sync_wait`: property C85
-/
namespace Verif.NvSyncWait

/-- The specification: what `sync_wait` does for a completion, when synchronising the stream returned `status`. -/
def expected (c : Compl) (status : Nat) : Out :=
  if status ≠ 0 then .throws status
  else match c with
    | .value vs none => .ret (some vs)
    | .value _ (some _) => .throws 999
    | .cuda e => .throws e
    | .other _ => .throws 999
    | .stopped => .ret none

/-- Synchronising the stream failed after a value or a stopped completion. -/
def SyncFailed (s : St) : Prop :=
  ∃ status, status ≠ 0 ∧ ((∃ vs t, s.compl = some (.value vs t, status)) ∨ s.compl = some (.stopped, status))

def dataOf (s : St) : Option Data := s.compl.map fun p => store p.1 p.2

structure Inv (st : Nat → Bool) (s : St) : Prop where
  rl : RunLoop.Reachable st s.rl
  nd : s.rl.dead = false
  one : ∀ f, f ≠ 0 → f ≠ 1 → s.rl.fp f = .idle
  fin : s.rl.fp 0 ≠ .idle → s.compl ≠ none
  fin1 : s.rl.fp 1 ≠ .idle → s.compl.any (fun p => again p.1 p.2) = true ∧ s.rl.fp 0 = .done
  ret : s.rl.rp = .returned → s.rl.fp 0 ≠ .idle
  sto : s.data = dataOf s
  out : ∀ o, s.out = some o → s.rl.rp = .returned ∧ ∃ p, s.compl = some p ∧ o = expected p.1 p.2
  gone : s.gone = true → s.rl.rp = .returned
  late : s.compl.any (fun p => again p.1 p.2) = false → s.rl.late = false
  uaf : s.compl.any (fun p => again p.1 p.2) = false → s.uaf = false

theorem inv_init (st) : Inv st init := by
  constructor <;> simp [init, dataOf]
  exact .refl

theorem dead_step {st : Nat → Bool} {r r' : RunLoop.St} {a : RunLoop.Act} (hs : RunLoop.step st r a = some r')
    (ha : a ≠ .destroy) : r'.dead = r.dead := by
  cases a with
  | destroy => exact absurd rfl ha
  | finish f => simp only [RunLoop.step, RunLoop.stepFinish] at hs; (repeat' split at hs) <;> cases hs <;> simp_all
  | start n => simp only [RunLoop.step, RunLoop.stepStart] at hs; (repeat' split at hs) <;> cases hs <;> simp_all
  | run =>
    simp only [RunLoop.step, RunLoop.stepRun] at hs
    (repeat' split at hs) <;> cases hs <;> try rfl
    rename_i i l k _; cases i <;> rfl
  | requestStop n => simp only [RunLoop.step] at hs; cases hs; rfl

theorem late_start {st : Nat → Bool} {r r' : RunLoop.St} {n : Nat} (hs : RunLoop.step st r (.start n) = some r')
    (h : ¬(r.sp n = .idle ∧ r.rp = .returned)) : r'.late = r.late := by
  simp only [RunLoop.step, RunLoop.stepStart] at hs
  (repeat' split at hs) <;> cases hs <;> simp_all

theorem late_run {st : Nat → Bool} {r r' : RunLoop.St} (hs : RunLoop.step st r .run = some r') :
    r'.late = r.late := by
  simp only [RunLoop.step, RunLoop.stepRun] at hs
  (repeat' split at hs) <;> cases hs <;> try rfl
  rename_i i l k _; cases i <;> rfl

theorem late_finish {st : Nat → Bool} {r r' : RunLoop.St} {f : Nat} (hs : RunLoop.step st r (.finish f) = some r')
    (h : r.rp = .returned → r.fp f ≠ .idle) : r'.late = r.late := by
  simp only [RunLoop.step, RunLoop.stepFinish] at hs
  (repeat' split at hs) <;> cases hs <;> try rfl
  simp_all

theorem inv_loop {st : Nat → Bool} {s s' : St} {a : RunLoop.Act} (h : Inv st s) (ha : ∀ f, a ≠ .finish f)
    (hd : a ≠ .destroy) (hl : ∀ r, RunLoop.step st s.rl a = some r → r.late = s.rl.late)
    (hs : onLoop st s a = some s') : Inv st s' := by
  simp only [onLoop] at hs
  cases hr : RunLoop.step st s.rl a with
  | none => simp [hr] at hs
  | some r =>
    simp only [hr, Option.map_some, Option.some.injEq] at hs
    subst hs
    have hfp := SyncWait.fp_idle hr ha
    refine ⟨.tail a h.rl hr, ?_, ?_, ?_, ?_, ?_, h.sto, ?_, ?_, ?_, h.uaf⟩
    · rw [dead_step hr hd]; exact h.nd
    · intro f hf; rw [hfp]; exact h.one f hf
    · rw [hfp]; exact h.fin
    · rw [hfp]; exact h.fin1
    · intro hret
      by_cases h0 : s.rl.rp = .returned
      · rw [hfp]; exact h.ret h0
      · obtain ⟨f, hf⟩ := (RunLoop.C07_drained st _ _ a h.rl hr h0 hret).1
        rw [hfp] at hf ⊢
        by_cases hf0 : f = 0
        · subst hf0; exact hf
        · by_cases hf1 : f = 1
          · subst hf1; rw [(h.fin1 hf).2]; simp
          · exact absurd (h.one f hf0 hf1) hf
    · intro o ho
      obtain ⟨h1, h2⟩ := h.out o ho
      exact ⟨SyncWait.rp_finish hr h1, h2⟩
    · intro hg; exact SyncWait.rp_finish hr (h.gone hg)
    · rw [hl r hr]; exact h.late

/-- A loop whose `run()` has returned is not used again by the call of `finish()` that made it return. -/
theorem quiet {st : Nat → Bool} {r r' : RunLoop.St} {f : Nat} (h : RunLoop.Reachable st r) (hret : r.rp = .returned)
    (hl : r.late = false) (hd : r.dead = false) (hi : r.fp f ≠ .idle) (hs : RunLoop.step st r (.finish f) = some r') :
    False := by
  have h1 : RunLoop.step st r .destroy = some { r with dead := true } := by simp [RunLoop.step, hret, hl, hd]
  have h2 := Reach.tail _ h h1
  have h3 : ∃ r2, RunLoop.step st { r with dead := true } (.finish f) = some r2 ∧ r2.uafFinish = true := by
    simp only [RunLoop.step, RunLoop.stepFinish] at hs ⊢
    (repeat' split at hs) <;> first | (cases hs; done) | simp_all
  obtain ⟨r2, h4, h5⟩ := h3
  have := RunLoop.C09_finish st r2 (.tail _ h2 h4)
  rw [h5] at this; cases this

theorem store_expected (c : Compl) (status : Nat) : (match some (store c status) with
    | some (.err e) => Out.throws e
    | some .stopped => .ret none
    | some (.value vs) => .ret (some vs)
    | none => .badAccess) = expected c status := by
  by_cases h : status = 0
  · subst h
    match c with
    | .value vs none => rfl
    | .value _ (some _) => rfl
    | .cuda e => rfl
    | .other _ => rfl
    | .stopped => rfl
  · simp [store, expected, h]

theorem inv_step {st : Nat → Bool} {s s' : St} (a : Act) (h : Inv st s) (hs : step st s a = some s') : Inv st s' := by
  cases a with
  | start =>
    simp only [step] at hs; split at hs <;> cases hs
    exact ⟨h.rl, h.nd, h.one, h.fin, h.fin1, h.ret, h.sto, h.out, h.gone, h.late, h.uaf⟩
  | complete c status =>
    simp only [step] at hs; split at hs <;> cases hs
    rename_i hc
    have hnr : s.rl.rp ≠ .returned := fun hr => h.fin (h.ret hr) hc.2
    have hng : s.gone = false := by
      cases hg : s.gone with
      | false => rfl
      | true => exact absurd (h.gone hg) hnr
    have hu := h.uaf (by simp [hc.2])
    have hl := h.late (by simp [hc.2])
    refine ⟨h.rl, h.nd, h.one, by simp, ?_, h.ret, rfl, ?_, h.gone, fun _ => hl, fun _ => by simp [hu, hng]⟩
    · intro h1
      have := (h.fin1 h1).1
      simp [hc.2] at this
    · intro o ho
      exact absurd (h.out o ho).1 hnr
  | finish =>
    simp only [step] at hs
    split at hs
    · rename_i hc
      simp only [onFinish, onLoop] at hs
      cases hr : RunLoop.step st s.rl (.finish 0) with
      | none => simp [hr] at hs
      | some r =>
        simp only [hr, Option.map_some, Option.some.injEq] at hs
        subst hs
        have hfp := SyncWait.fp_finish hr
        have hnd : s.rl.fp 0 ≠ .done := by
          intro hd
          simp [RunLoop.step, RunLoop.stepFinish, hd] at hr
        refine ⟨.tail _ h.rl hr, ?_, ?_, fun _ => hc, ?_, fun _ => hfp.1, h.sto, ?_, ?_, ?_, ?_⟩
        · rw [dead_step hr (by simp)]; exact h.nd
        · intro f hf hf1; rw [hfp.2 f hf]; exact h.one f hf hf1
        · rw [hfp.2 1 (by simp)]
          intro h1; exact absurd (h.fin1 h1).2 hnd
        · intro o ho
          obtain ⟨h1, h2⟩ := h.out o ho
          exact ⟨SyncWait.rp_finish hr h1, h2⟩
        · intro hg; exact SyncWait.rp_finish hr (h.gone hg)
        · intro ha
          show r.late = false
          rw [late_finish hr h.ret]; exact h.late ha
        · intro ha
          have hl := h.late ha
          cases hg : s.gone with
          | false => simp [h.uaf ha]
          | true => exact (quiet h.rl (h.gone hg) hl h.nd (h.ret (h.gone hg)) hr).elim
    · cases hs
  | finish2 =>
    simp only [step] at hs
    split at hs
    · rename_i hc
      simp only [onFinish, onLoop] at hs
      cases hr : RunLoop.step st s.rl (.finish 1) with
      | none => simp [hr] at hs
      | some r =>
        simp only [hr, Option.map_some, Option.some.injEq] at hs
        subst hs
        have hfp := SyncWait.fp_finish hr
        have h0 := hfp.2 0 (by simp)
        refine ⟨.tail _ h.rl hr, ?_, ?_, ?_, fun _ => ⟨hc.2, ?_⟩, ?_, h.sto, ?_, ?_, ?_, ?_⟩
        · rw [dead_step hr (by simp)]; exact h.nd
        · intro f hf hf1; rw [hfp.2 f hf1]; exact h.one f hf hf1
        · rw [h0]; exact h.fin
        · rw [h0]; exact hc.1
        · intro _; rw [h0, hc.1]; simp
        · intro o ho
          obtain ⟨h1, h2⟩ := h.out o ho
          exact ⟨SyncWait.rp_finish hr h1, h2⟩
        · intro hg; exact SyncWait.rp_finish hr (h.gone hg)
        · intro ha; rw [hc.2] at ha; cases ha
        · intro ha; rw [hc.2] at ha; cases ha
    · cases hs
  | run =>
    simp only [step] at hs; split at hs
    · exact inv_loop h (by simp) (by simp) (fun r hr => late_run hr) hs
    · cases hs
  | sched n =>
    simp only [step] at hs; split at hs
    · cases hs
    · rename_i hc
      exact inv_loop h (by simp) (by simp) (fun r hr => late_start hr hc) hs
  | requestStop n =>
    exact inv_loop h (by simp) (by simp) (fun r hr => by simp only [RunLoop.step] at hr; cases hr; rfl) hs
  | destroy =>
    simp only [step] at hs; split at hs <;> cases hs
    rename_i hc
    refine ⟨h.rl, h.nd, h.one, h.fin, h.fin1, h.ret, h.sto, h.out, fun _ => ?_, h.late, h.uaf⟩
    cases ho : s.out with
    | none => exact absurd ho hc.1
    | some o => exact (h.out o ho).1
  | ret =>
    simp only [step] at hs; split at hs <;> cases hs
    rename_i hc
    refine ⟨h.rl, h.nd, h.one, h.fin, h.fin1, h.ret, h.sto, ?_, h.gone, h.late, h.uaf⟩
    intro o ho
    refine ⟨hc.1, ?_⟩
    cases hcc : s.compl with
    | none => exact absurd hcc (h.fin (h.ret hc.1))
    | some p =>
      refine ⟨p, rfl, ?_⟩
      simp only [Option.some.injEq] at ho
      rw [← ho, ← store_expected, h.sto, dataOf, hcc]; rfl

theorem inv_reach {st : Nat → Bool} {s : St} (h : Reachable st s) : Inv st s :=
  Reach.inv (Inv st) (inv_init st) (fun _ a _ h hs => inv_step a h hs) s h

/-- **C85**: when `sync_wait` returns or throws, the sender has completed, and the outcome is the one specified for its
completion and the status of the stream. -/
theorem C85_outcome {st : Nat → Bool} {s : St} (h : Reachable st s) {o : Out} (ho : s.out = some o) :
    ∃ c status, s.compl = some (c, status) ∧ o = expected c status := by
  obtain ⟨p, h1, h2⟩ := ((inv_reach h).out o ho).2
  exact ⟨p.1, p.2, h1, h2⟩

/-- **C85**: once `finish()` has set its flag, and when the other threads have left the loop, the waiting thread
returns after finitely many steps of its own. -/
theorem C85_returns {st : Nat → Bool} {s : St} (h : Reachable st s) (hst : s.started = true)
    (hf : s.rl.finishing = true) (hset : RunLoop.Settled s.rl) (hno : s.out = none) :
    ∃ k s', exec (step st) s (List.replicate k .run ++ [.ret]) = some s' ∧ s'.out ≠ none := by
  obtain ⟨k, r, he, hr⟩ := RunLoop.C07_returns st s.rl (inv_reach h).rl hf hset
  have key : ∀ k (s : St) r, s.started = true → s.out = none → exec (RunLoop.step st) s.rl (List.replicate k .run) = some r →
      r.rp = .returned → ∃ s', exec (step st) s (List.replicate k .run ++ [.ret]) = some s' ∧ s'.out ≠ none := by
    intro k
    induction k with
    | zero =>
      intro s r _ h0 he hr
      simp only [List.replicate, exec, Option.some.injEq] at he
      subst he
      refine ⟨_, by simp [exec, step, hr, h0]; rfl, by simp⟩
    | succ k ih =>
      intro s r h1 h0 he hr
      simp only [List.replicate_succ, exec] at he
      cases hs : RunLoop.step st s.rl .run with
      | none => simp [hs] at he
      | some r1 =>
        simp only [hs] at he
        obtain ⟨s', e1, e2⟩ := ih { s with rl := r1 } r h1 h0 he hr
        exact ⟨s', by simpa [List.replicate_succ, exec, step, h1, onLoop, hs] using e1, e2⟩
  exact ⟨k, key k s r hst hno he hr⟩

/-- **C85** (partial: unless synchronising the stream failed after a value or stopped completion): the completing
thread does not use the local variables of `sync_wait` after it has returned. -/
theorem C85_no_use_after_partial {st : Nat → Bool} {s : St} (h : Reachable st s) (hn : ¬SyncFailed s) :
    s.uaf = false := by
  refine (inv_reach h).uaf ?_
  cases hc : s.compl with
  | none => rfl
  | some p =>
    obtain ⟨c, status⟩ := p
    simp only [Option.any_some]
    by_cases h0 : status = 0
    · subst h0; cases c <;> rfl
    · cases c with
      | value vs t => exact absurd ⟨status, h0, .inl ⟨vs, t, hc⟩⟩ hn
      | stopped => exact absurd ⟨status, h0, .inr hc⟩ hn
      | cuda e => rfl
      | other e => rfl

/-- **C85** is false without the proviso: whatever the completion (a value or stopped) and the failure, `finish()` is
called a second time, and by then `sync_wait` may have thrown and destroyed the loop. -/
theorem C85_violated (st : Nat → Bool) (c : Compl) (status : Nat) (h0 : status ≠ 0)
    (hc : (∃ vs t, c = .value vs t) ∨ c = .stopped) :
    ∃ s, Reachable st s ∧ s.compl = some (c, status) ∧ s.out = some (.throws status) ∧ s.uaf = true := by
  have ha : again c status = true := by
    rcases hc with ⟨vs, t, rfl⟩ | rfl <;> simp [again, h0]
  have hst : store c status = .err status := by simp [store, h0]
  have he : exec (step st) init ([.start, .complete c status, .finish, .finish, .finish, .finish, .finish,
      .run, .run, .run, .run, .run, .run, .run, .ret, .destroy, .finish2]) ≠ none ∧
      ∀ s, exec (step st) init ([.start, .complete c status, .finish, .finish, .finish, .finish, .finish,
        .run, .run, .run, .run, .run, .run, .run, .ret, .destroy, .finish2]) = some s →
        s.compl = some (c, status) ∧ s.out = some (.throws status) ∧ s.uaf = true := by
    simp [exec, step, init, onFinish, onLoop, RunLoop.step, RunLoop.stepFinish, RunLoop.stepRun, RunLoop.execItem,
      RunLoop.wake, upd, ha, hst]
  cases hx : exec (step st) init ([.start, .complete c status, .finish, .finish, .finish, .finish, .finish,
      .run, .run, .run, .run, .run, .run, .run, .ret, .destroy, .finish2]) with
  | none => exact absurd hx he.1
  | some s => exact ⟨s, Reach.of_exec _ hx, he.2 s hx⟩

/-- The error thrown is not always the sender's: any error that is not a CUDA error code is thrown as
`cudaErrorUnknown`. -/
theorem C85_error_lost {st : Nat → Bool} {s : St} (h : Reachable st s) {e : Nat} (hc : s.compl = some (.other e, 0))
    {o : Out} (ho : s.out = some o) : o = .throws 999 := by
  obtain ⟨c, status, h1, h2⟩ := C85_outcome h ho
  rw [hc] at h1; cases h1; exact h2

/-- Not vacuous: values delivered from another thread while the waiter sleeps. -/
example : ∃ s, Reachable (fun _ => true) s ∧ s.out = some (.ret (some [7])) ∧ ¬SyncFailed s ∧ s.gone = true := by
  have := Reach.witness (init := init) (step := step (fun _ => true))
    [.start, .run, .run, .run, .complete (.value [7] none) 0, .finish, .finish, .finish, .finish, .finish,
     .run, .run, .run, .run, .run, .run, .run, .ret, .destroy]
    (fun s : St => s.out == some (.ret (some [7])) && s.gone && s.compl == some (.value [7] none, 0)) (by decide)
  obtain ⟨s, hr, hp⟩ := this
  simp only [Bool.and_eq_true, beq_iff_eq] at hp
  exact ⟨s, hr, hp.1.1, by simp [SyncFailed, hp.2], hp.1.2⟩

/-- A CUDA error, inline. -/
example : ∃ s, Reachable (fun _ => true) s ∧ s.out = some (.throws 2) ∧ s.uaf = false := by
  have := Reach.witness (init := init) (step := step (fun _ => true))
    [.start, .complete (.cuda 2) 0, .finish, .finish, .finish, .finish, .finish, .run, .run, .run, .run, .run, .run, .run,
     .ret, .destroy]
    (fun s : St => s.out == some (.throws 2) && !s.uaf) (by decide)
  obtain ⟨s, hr, hp⟩ := this
  simp only [Bool.and_eq_true, beq_iff_eq, Bool.not_eq_true'] at hp
  exact ⟨s, hr, hp.1, hp.2⟩

end Verif.NvSyncWait
