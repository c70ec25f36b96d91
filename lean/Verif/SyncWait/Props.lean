import Verif.SyncWait.Model
/-!
# `sync_wait`: property C34
-/
namespace Verif.SyncWait

/-- The specification: what `sync_wait` must do for a completion (the documented table, 237-245). -/
def expected : Compl → Out
  | .value vs none => .ret (some vs)
  | .value _ (some x) => .throws (.store x)
  | .error (.ptr (some e)) => .throws (.ref e)
  | .error (.ptr none) => .ret none
  | .error (.code c) => .throws (.systemError c)
  | .error (.other e) => .throws (.obj e)
  | .stopped => .ret none

theorem fp_idle {st : Nat → Bool} {r r' : RunLoop.St} {a : RunLoop.Act} (hs : RunLoop.step st r a = some r')
    (ha : ∀ f, a ≠ .finish f) : r'.fp = r.fp := by
  cases a with
  | finish f => exact absurd rfl (ha f)
  | start n => simp only [RunLoop.step, RunLoop.stepStart] at hs; (repeat' split at hs) <;> cases hs <;> rfl
  | run =>
    simp only [RunLoop.step, RunLoop.stepRun] at hs
    (repeat' split at hs) <;> cases hs <;> try rfl
    rename_i i l k _; cases i <;> rfl
  | requestStop n => simp only [RunLoop.step] at hs; cases hs; rfl
  | destroy => simp only [RunLoop.step] at hs; split at hs <;> cases hs; rfl

theorem fp_finish {st : Nat → Bool} {r r' : RunLoop.St} {f : Nat} (hs : RunLoop.step st r (.finish f) = some r') :
    r'.fp f ≠ .idle ∧ ∀ g, g ≠ f → r'.fp g = r.fp g := by
  simp only [RunLoop.step, RunLoop.stepFinish] at hs
  (repeat' split at hs) <;> cases hs <;> refine ⟨?_, fun g hg => upd_other _ _ hg⟩ <;> simp only [upd_same]
  all_goals try (simp; done)
  all_goals (split <;> simp)

theorem rp_finish {st : Nat → Bool} {r r' : RunLoop.St} {a : RunLoop.Act} (hs : RunLoop.step st r a = some r')
    (h : r.rp = .returned) : r'.rp = .returned := by
  cases a with
  | finish f =>
    simp only [RunLoop.step, RunLoop.stepFinish] at hs
    (repeat' split at hs) <;> cases hs <;> simp [h, RunLoop.wake]
  | start n =>
    simp only [RunLoop.step, RunLoop.stepStart] at hs
    (repeat' split at hs) <;> cases hs <;> simp [h, RunLoop.wake]
  | run => simp [RunLoop.step, RunLoop.stepRun, h] at hs
  | requestStop n => simp only [RunLoop.step] at hs; cases hs; exact h
  | destroy => simp only [RunLoop.step] at hs; split at hs <;> cases hs; exact h

/-- The stores a completion makes, from the initial contents. -/
def stored (s : St) : Prop :=
  match s.compl with
  | none => s.eptr = none ∧ s.result = none
  | some c => s.eptr = (store {} c).eptr ∧ s.result = (store {} c).result

structure Inv (st : Nat → Bool) (s : St) : Prop where
  rl : RunLoop.Reachable st s.rl
  one : ∀ f, f ≠ 0 → s.rl.fp f = .idle
  fin : s.rl.fp 0 ≠ .idle → s.compl ≠ none
  ret : s.rl.rp = .returned → s.rl.fp 0 ≠ .idle
  sto : stored s
  out : ∀ o, s.out = some o → s.rl.rp = .returned ∧ ∃ c, s.compl = some c ∧ o = expected c
  dead : s.rl.dead = true → s.rl.rp = .returned
  uaf : s.uaf = false

theorem inv_init (st) : Inv st init := by
  constructor <;> simp [init, stored]
  exact .refl

theorem dead_mono {st : Nat → Bool} {r r' : RunLoop.St} {a : RunLoop.Act} (hs : RunLoop.step st r a = some r')
    (h : r.dead = true → r.rp = .returned) : r'.dead = true → r'.rp = .returned := by
  intro hd
  by_cases hd0 : r.dead = true
  · exact rp_finish hs (h hd0)
  · cases a with
    | destroy =>
      simp only [RunLoop.step] at hs; split at hs <;> cases hs
      rename_i hc; exact hc.1
    | finish f =>
      simp only [RunLoop.step, RunLoop.stepFinish] at hs
      (repeat' split at hs) <;> cases hs <;> exact absurd hd hd0
    | start n =>
      simp only [RunLoop.step, RunLoop.stepStart] at hs
      (repeat' split at hs) <;> cases hs <;> exact absurd hd hd0
    | run =>
      simp only [RunLoop.step, RunLoop.stepRun] at hs
      (repeat' split at hs) <;> cases hs <;> try exact absurd hd hd0
      rename_i i l k _; cases i <;> exact absurd hd hd0
    | requestStop n => simp only [RunLoop.step] at hs; cases hs; exact absurd hd hd0

/-- A step of the loop other than `finish`. -/
theorem inv_loop {st : Nat → Bool} {s s' : St} {a : RunLoop.Act} (h : Inv st s) (ha : ∀ f, a ≠ .finish f)
    (hs : onLoop st s a = some s') : Inv st s' := by
  simp only [onLoop] at hs
  cases hr : RunLoop.step st s.rl a with
  | none => simp [hr] at hs
  | some r =>
    simp only [hr, Option.map_some, Option.some.injEq] at hs
    subst hs
    have hfp := fp_idle hr ha
    refine ⟨.tail a h.rl hr, ?_, ?_, ?_, h.sto, ?_, dead_mono hr h.dead, h.uaf⟩
    · intro f hf; rw [hfp]; exact h.one f hf
    · rw [hfp]; exact h.fin
    · intro hret
      by_cases h0 : s.rl.rp = .returned
      · rw [hfp]; exact h.ret h0
      · obtain ⟨f, hf⟩ := (RunLoop.C07_drained st _ _ a h.rl hr h0 hret).1
        by_cases hf0 : f = 0
        · subst hf0; exact hf
        · rw [hfp] at hf; exact absurd (h.one f hf0) hf
    · intro o ho
      obtain ⟨h1, h2⟩ := h.out o ho
      exact ⟨rp_finish hr h1, h2⟩

theorem stored_expected {s : St} {c : Compl} (h : stored s) (hc : s.compl = some c) :
    (match s.eptr with | some e => Out.throws e | none => .ret s.result) = expected c := by
  simp only [stored, hc] at h
  rw [h.1, h.2]
  match c with
  | .value vs none => rfl
  | .value vs (some x) => rfl
  | .error (.ptr none) => rfl
  | .error (.ptr (some e)) => rfl
  | .error (.code c) => rfl
  | .error (.other c) => rfl
  | .stopped => rfl

theorem inv_step {st : Nat → Bool} {s s' : St} (a : Act) (h : Inv st s) (hs : step st s a = some s') : Inv st s' := by
  cases a with
  | start =>
    simp only [step] at hs; split at hs <;> cases hs
    exact ⟨h.rl, h.one, h.fin, h.ret, h.sto, h.out, h.dead, h.uaf⟩
  | complete c =>
    simp only [step] at hs; split at hs <;> cases hs
    rename_i hc
    have hnd : s.rl.dead = false := by
      cases hd : s.rl.dead with
      | false => rfl
      | true => exact absurd hc.2 (h.fin (h.ret (h.dead hd)))
    have hno : s.out = none := by
      cases ho : s.out with
      | none => rfl
      | some o => obtain ⟨_, c', h2, _⟩ := h.out o ho; rw [hc.2] at h2; cases h2
    have hst := h.sto
    simp only [stored, hc.2] at hst
    have e1 : (store s c).rl = s.rl := by unfold store; split <;> rfl
    have e2 : (store s c).out = s.out := by unfold store; split <;> rfl
    refine ⟨?_, ?_, ?_, ?_, ?_, ?_, ?_, ?_⟩
    · simpa only [e1] using h.rl
    · simpa only [e1] using h.one
    · simp
    · simpa only [e1] using h.ret
    · simp only [stored]
      match c with
      | .value vs none => exact ⟨hst.1, rfl⟩
      | .value vs (some x) => exact ⟨rfl, hst.2⟩
      | .error (.ptr none) => exact ⟨rfl, hst.2⟩
      | .error (.ptr (some e)) => exact ⟨rfl, hst.2⟩
      | .error (.code c) => exact ⟨rfl, hst.2⟩
      | .error (.other c) => exact ⟨rfl, hst.2⟩
      | .stopped => exact hst
    · intro o ho; simp only [e2, hno] at ho; cases ho
    · simpa only [e1] using h.dead
    · simp [h.uaf, hnd]
  | finish =>
    simp only [step] at hs
    split at hs
    · rename_i hc
      simp only [onLoop] at hs
      cases hr : RunLoop.step st s.rl (.finish 0) with
      | none => simp [hr] at hs
      | some r =>
        simp only [hr, Option.map_some, Option.some.injEq] at hs
        subst hs
        have hfp := fp_finish hr
        refine ⟨.tail _ h.rl hr, ?_, fun _ => hc, fun _ => hfp.1, h.sto, ?_, dead_mono hr h.dead, h.uaf⟩
        · intro f hf; rw [hfp.2 f hf]; exact h.one f hf
        · intro o ho
          obtain ⟨h1, h2⟩ := h.out o ho
          exact ⟨rp_finish hr h1, h2⟩
    · cases hs
  | run =>
    simp only [step] at hs; split at hs
    · exact inv_loop h (by simp) hs
    · cases hs
  | sched n => exact inv_loop h (by simp) hs
  | requestStop n => exact inv_loop h (by simp) hs
  | destroy =>
    simp only [step] at hs; split at hs
    · exact inv_loop h (by simp) hs
    · cases hs
  | ret =>
    simp only [step] at hs; split at hs <;> cases hs
    rename_i hc
    refine ⟨h.rl, h.one, h.fin, h.ret, h.sto, ?_, h.dead, h.uaf⟩
    intro o ho
    refine ⟨hc.1, ?_⟩
    cases hcc : s.compl with
    | none => exact absurd hcc (h.fin (h.ret hc.1))
    | some c =>
      refine ⟨c, rfl, ?_⟩
      simp only [Option.some.injEq] at ho
      rw [← ho]; exact stored_expected h.sto hcc

theorem inv_reach {st : Nat → Bool} {s : St} (h : Reachable st s) : Inv st s :=
  Reach.inv (Inv st) (inv_init st) (fun _ a _ h hs => inv_step a h hs) s h

/-- **C34**: when `sync_wait` returns or throws, the sender has completed, and the outcome is the one documented for
its completion. -/
theorem C34_outcome {st : Nat → Bool} {s : St} (h : Reachable st s) {o : Out} (ho : s.out = some o) :
    ∃ c, s.compl = some c ∧ o = expected c := ((inv_reach h).out o ho).2

/-- The sender's completion, once made, is not altered. -/
theorem C34_compl_stable {st : Nat → Bool} {s s' : St} {a : Act} {c : Compl} (hc : s.compl = some c)
    (hs : step st s a = some s') : s'.compl = some c := by
  cases a <;> simp only [step, onLoop, Option.map_eq_some_iff] at hs
  all_goals try split at hs
  all_goals first
    | (cases hs; done)
    | (cases hs; exact hc)
    | (obtain ⟨r, _, rfl⟩ := hs; exact hc)
    | (simp only [Option.map_eq_some_iff] at hs; obtain ⟨r, _, rfl⟩ := hs; exact hc)
    | skip
  rename_i h; simp [hc] at h

/-- `sync_wait` does return: once the sender has completed and `finish()` has set its flag, when the other threads
have left the loop, the waiting thread returns after finitely many steps of its own. -/
theorem C34_returns {st : Nat → Bool} {s : St} (h : Reachable st s) (hst : s.started = true)
    (hf : s.rl.finishing = true) (hset : RunLoop.Settled s.rl) (hno : s.out = none) :
    ∃ k s', exec (step st) s (List.replicate k .run ++ [.ret]) = some s' ∧ s'.out ≠ none := by
  obtain ⟨k, r, he, hr⟩ := RunLoop.C07_returns st s.rl (inv_reach h).rl hf hset
  have key : ∀ k (s : St) r, s.started = true → s.out = none → exec (RunLoop.step st) s.rl (List.replicate k .run) = some r →
      r.rp = .returned → ∃ s', exec (step st) s (List.replicate k .run ++ [.ret]) = some s' ∧ s'.out ≠ none := by
    intro k
    induction k with
    | zero =>
      intro s r _ h0 he hr
      simp only [List.replicate, exec, Option.some.injEq] at he
      subst he
      refine ⟨_, by simp [exec, step, hr, h0]; rfl, by simp⟩
    | succ k ih =>
      intro s r h1 h0 he hr
      simp only [List.replicate_succ, exec] at he
      cases hs : RunLoop.step st s.rl .run with
      | none => simp [hs] at he
      | some r1 =>
        simp only [hs] at he
        obtain ⟨s', e1, e2⟩ := ih { s with rl := r1 } r h1 h0 he hr
        exact ⟨s', by simpa [List.replicate_succ, exec, step, h1, onLoop, hs] using e1, e2⟩
  exact ⟨k, key k s r hst hno he hr⟩

/-- The completing thread uses neither the receiver's state nor the loop after `sync_wait` has returned and
destroyed them. -/
theorem C34_no_use_after {st : Nat → Bool} {s : St} (h : Reachable st s) : s.uaf = false ∧ s.rl.uafFinish = false :=
  ⟨(inv_reach h).uaf, RunLoop.C09_finish st s.rl (inv_reach h).rl⟩

/-- Not vacuous: a value delivered from another thread while the waiter sleeps; a task runs on the loop meanwhile. -/
example : ∃ s, Reachable (fun _ => true) s ∧ s.out = some (.ret (some [7])) ∧ s.rl.executed = [.task 3, .noop] := by
  have := Reach.witness (init := init) (step := step (fun _ => true))
    [.start, .run, .run, .run, .sched 3, .sched 3, .sched 3, .run, .run, .run, .run, .complete (.value [7] none),
     .run, .run, .finish, .finish, .finish, .finish, .run, .run, .run, .finish, .run, .run, .run, .run, .ret, .destroy]
    (fun s : St => s.out == some (.ret (some [7])) && s.rl.executed == [.task 3, .noop]) (by decide)
  obtain ⟨s, hr, hp⟩ := this
  simp only [Bool.and_eq_true, beq_iff_eq] at hp
  exact ⟨s, hr, hp.1, hp.2⟩

/-- Inline completion with an error, before `run()` is called. -/
example : ∃ s, Reachable (fun _ => true) s ∧ s.out = some (.throws (.systemError 5)) := by
  have := Reach.witness (init := init) (step := step (fun _ => true))
    [.start, .complete (.error (.code 5)), .finish, .finish, .finish, .finish, .finish, .run, .run, .run, .run, .run, .run, .run, .ret]
    (fun s : St => s.out == some (.throws (.systemError 5))) (by decide)
  obtain ⟨s, hr, hp⟩ := this
  exact ⟨s, hr, by simpa using hp⟩

end Verif.SyncWait
