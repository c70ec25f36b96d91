import Verif.AnySender.Model
/-!
# C67: type-erased senders
-/
namespace Verif.AnySender
set_option maxHeartbeats 4000000

structure Inv (k : Kind) (x : St) : Prop where
  bad : x.bad = false
  pre : x.s = .idle ∨ x.s = .reg → x.c = .off ∧ x.reg = false ∧ x.f = .off ∧ x.inner = false ∧ x.alive = true
  inreg : x.s = .inReg → x.f ≠ .off ∧ x.c = .off ∧ x.reg = true ∧ x.alive = true
  chl : x.s = .child → x.c = .off ∧ x.alive = true ∧ (k = .translate → x.reg = true)
  ret : x.s = .ret → x.c ≠ .off ∨ x.alive = false
  run : x.c = .run → x.s = .ret ∧ x.alive = true ∧ (k = .translate → x.reg = true) ∧ x.sent = []
  unreg : ∀ g i, x.c = .unreg g i → x.s = .ret ∧ x.alive = true ∧ i = false ∧ (k = .translate → x.reg = true) ∧ x.sent = [g]
  call : ∀ g i, x.c = .call g i → x.s = .ret ∧ x.alive = true ∧ i = false ∧ x.reg = false ∧ x.f.act = false ∧ x.sent = [g]
  done : x.c = .done → x.s = .ret ∧ x.alive = false ∧ x.reg = false ∧ x.f.act = false ∧ x.sigs = x.sent ∧ x.sent.length = 1
  off : x.c = .off → x.sent = [] ∧ x.sigs = []
  sg : x.c ≠ .done → x.sigs = []
  dead : x.alive = false → x.c = .done ∨ (x.c = .off ∧ x.s = .ret ∧ x.f = .off ∧ x.reg = false)
  fact : x.f.act = true → x.reg = true ∧ x.alive = true
  freq : x.f ≠ .off → x.stopReq = true
  fin : x.f = .mid ∨ x.f = .tail ∨ x.f = .done → x.inner = true
  miss : x.reg = true → x.stopReq = true → x.f ≠ .off
  kreg : x.reg = true → k = .translate
  inReq : x.inner = true → x.stopReq = true

theorem inv_step (k : Kind) (x : St) (a : Act) (y : St) (h : Inv k x) (hs : step k false x a = some y) : Inv k y := by
  obtain ⟨e1, e2, e3, e4, e5, e6, e7, e8, e9, e10, e11, e12, e13, e14, e15, e16, e17, e18⟩ := h
  cases a with
  | start => simp only [step] at hs; split at hs <;> cases hs; constructor <;> grind
  | drop => simp only [step] at hs; split at hs <;> cases hs; constructor <;> grind [FPC.act]
  | reqStop => simp only [step] at hs; split at hs <;> cases hs; constructor <;> grind [FPC.act]
  | comp g i => simp only [step] at hs; split at hs <;> cases hs; simp only [St.acc]; constructor <;> grind
  | s =>
    cases hp : x.s <;> simp only [step, hp] at hs <;> (repeat' split at hs) <;> cases hs
    all_goals (try simp only [St.acc])
    all_goals constructor <;> grind [FPC.act]
  | f =>
    cases hp : x.f <;> simp only [step, hp] at hs <;> (repeat' split at hs) <;> cases hs
    all_goals (try simp only [St.acc])
    all_goals constructor <;> grind [FPC.act]
  | c =>
    cases hp : x.c <;> simp only [step, hp] at hs <;> (repeat' split at hs) <;> cases hs
    all_goals (try simp only [St.acc])
    all_goals constructor <;> grind [FPC.act]

theorem inv_reach (k : Kind) (x : St) (hr : Reach init (step k false) x) : Inv k x :=
  Reach.inv (Inv k) (by constructor <;> simp [init, FPC.act]) (inv_step k) x hr

/-- **C67 (once)**: whatever the child does, the receiver is completed at most once, with the child's completion. -/
theorem C67_once (k : Kind) (i : Bool) (x : St) (hr : Reach init (step k i) x) :
    x.sigs.length ≤ 1 ∧ (x.sigs = [] ∨ x.sigs = x.sent) := by
  suffices h : x.sent.length ≤ 1 ∧ (x.c = .off ∨ x.c = .run → x.sent = [] ∧ x.sigs = []) ∧ (∀ g j, x.c = .unreg g j ∨ x.c = .call g j → x.sent = [g] ∧ x.sigs = []) ∧
      (x.sigs = [] ∨ x.sigs = x.sent) by
    refine ⟨?_, h.2.2.2⟩
    rcases h.2.2.2 with h1 | h1 <;> simp [h1, h.1]
  refine Reach.inv (fun x => x.sent.length ≤ 1 ∧ (x.c = .off ∨ x.c = .run → x.sent = [] ∧ x.sigs = []) ∧
    (∀ g j, x.c = .unreg g j ∨ x.c = .call g j → x.sent = [g] ∧ x.sigs = []) ∧ (x.sigs = [] ∨ x.sigs = x.sent) ∧ (x.c = .off → x.s ≠ .ret ∨ x.alive = false) ∧
    (x.s ≠ .ret → x.c = .off)) ?_ ?_ x hr |> fun h => ⟨h.1, h.2.1, h.2.2.1, h.2.2.2.1⟩
  · simp [init]
  · rintro u a v ⟨h1, h2, h3, h4, h5, h6⟩ hs
    cases a with
    | start => simp only [step] at hs; split at hs <;> cases hs; grind
    | drop => simp only [step] at hs; split at hs <;> cases hs; grind
    | reqStop => simp only [step] at hs; split at hs <;> cases hs; grind
    | comp g j => simp only [step] at hs; split at hs <;> cases hs; simp only [St.acc]; grind
    | s => cases hp : u.s <;> simp only [step, hp] at hs <;> (repeat' split at hs) <;> cases hs <;> (try simp only [St.acc]) <;> grind
    | f => cases hp : u.f <;> simp only [step, hp] at hs <;> (repeat' split at hs) <;> cases hs <;> (try simp only [St.acc]) <;> grind
    | c => cases hp : u.c <;> simp only [step, hp] at hs <;> (repeat' split at hs) <;> cases hs <;> (try simp only [St.acc]) <;> grind

/-- **C67 (safe)**: if the child does not complete inside its own stop callback, the operation state is never used after its destruction, and the stop callback is gone
before the receiver is completed. Missing: see `C67_violated_inline`. -/
theorem C67_safe_partial (k : Kind) (x : St) (hr : Reach init (step k false) x) :
    x.bad = false ∧ (x.alive = false → x.reg = false ∧ x.f.act = false) := by
  have h := inv_reach k x hr
  refine ⟨h.bad, fun ha => ?_⟩
  rcases h.dead ha with h1 | h1
  · exact ⟨(h.done h1).2.2.1, (h.done h1).2.2.2.1⟩
  · exact ⟨h1.2.2.2, by simp [h1.2.2.1, FPC.act]⟩

/-- **C67 (stop forwarded)**: if stop has been requested on the receiver's token and the callback's run has returned, or was not needed because the request came before, the
running child's token says so; the child's token says so only if stop was requested. (With `Kind.never` the receiver's token cannot be stopped.) -/
theorem C67_stop_forwarded_partial (k : Kind) (x : St) (hr : Reach init (step k false) x) (hk : k ≠ .never) (hc : x.c = .run) :
    (x.stopReq = true → x.f.act = false → childSees k x = true) ∧ (childSees k x = true → x.stopReq = true) := by
  have h := inv_reach k x hr
  constructor
  · intro hq hf
    cases k with
    | never => exact absurd rfl hk
    | same => exact hq
    | translate =>
      have h1 := h.miss ((h.run hc).2.2.1 rfl) hq
      have : x.f = .done := by cases hf2 : x.f <;> simp_all [FPC.act]
      exact h.fin (.inr (.inr this))
  · intro hs
    cases k with
    | never => exact absurd rfl hk
    | same => exact hs
    | translate =>
      exact h.inReq hs

/-- A started operation is over. -/
def Over (x : St) : Prop := x.s = .ret ∧ x.alive = false

/-- **C67 (no deadlock)**: a started operation that is not over can take a step that is not the child's decision, unless it waits for the child. -/
theorem C67_no_deadlock_partial (k : Kind) (x : St) (hr : Reach init (step k false) x) (hs : x.s ≠ .idle) (ho : ¬ Over x) :
    x.c = .run ∨ ∃ a y, (a = .s ∨ a = .f ∨ a = .c) ∧ step k false x a = some y := by
  have h := inv_reach k x hr
  have key : (∃ a, (a = .s ∨ a = .f ∨ a = .c) ∧ (step k false x a).isSome = true) → ∃ a y, (a = .s ∨ a = .f ∨ a = .c) ∧ step k false x a = some y := by
    rintro ⟨a, h1, h2⟩; obtain ⟨y, hy⟩ := Option.isSome_iff_exists.1 h2; exact ⟨a, y, h1, hy⟩
  have hinl : x.c.inl = false := by
    cases hc : x.c with
    | unreg g i => simp [CPC.inl, (h.unreg g i hc).2.2.1]
    | call g i => simp [CPC.inl, (h.call g i hc).2.2.1]
    | _ => rfl
  by_cases hf : x.f.act = true
  · right; apply key
    refine ⟨.f, by simp, ?_⟩
    cases hff : x.f <;> simp_all [FPC.act, step]
  · cases hp : x.s with
    | idle => exact absurd hp hs
    | reg => right; apply key; refine ⟨.s, by simp, ?_⟩; simp only [step, hp]; repeat' split
             all_goals rfl
    | inReg =>
      right; apply key; refine ⟨.s, by simp, ?_⟩
      have := (h.inreg hp).1
      have : x.f = .done := by cases hff : x.f <;> simp_all [FPC.act]
      simp [step, hp, this]
    | child => right; apply key; exact ⟨.s, by simp, by simp [step, hp]⟩
    | ret =>
      cases hc : x.c with
      | run => exact .inl rfl
      | off => exfalso; have := h.ret hp; simp [hc] at this; exact ho ⟨hp, this⟩
      | done => exfalso; exact ho ⟨hp, (h.done hc).2.1⟩
      | unreg g i =>
        right; apply key; refine ⟨.c, by simp, ?_⟩
        simp only [step, hc]; split
        · simp [hf]
        · rfl
      | call g i => right; apply key; exact ⟨.c, by simp, by simp [step, hc]⟩

/-- **C67 (violated)**: a child that completes inside its own stop callback destroys the operation's stop source while `request_stop` of that source is running, which then
uses it. -/
theorem C67_violated_inline : ∃ x, Reach init (step .translate true) x ∧ x.bad = true ∧ x.sigs = [.stopped] := by
  obtain ⟨x, h1, h2⟩ := Reach.witness (init := init) (step := step .translate true)
    [.start, .s, .s, .reqStop, .f, .comp .stopped true, .c, .c, .f, .f] (fun x : St => decide (x.bad = true ∧ x.sigs = [.stopped])) (by rfl)
  simp only [decide_eq_true_eq] at h2
  exact ⟨x, h1, h2⟩

/-- A stop request is forwarded while the child runs; the child completes on another thread and waits for the callback. -/
example : ∃ x, Reach init (step .translate false) x ∧ x.sigs = [.stopped] ∧ x.inner = true ∧ Over x := by
  obtain ⟨x, h1, h2⟩ := Reach.witness (init := init) (step := step .translate false)
    [.start, .s, .s, .reqStop, .f, .comp .stopped false, .f, .f, .c, .c] (fun x : St => decide (x.sigs = [.stopped] ∧ x.inner = true ∧ x.s = .ret ∧ x.alive = false)) (by rfl)
  simp only [decide_eq_true_eq] at h2
  exact ⟨x, h1, h2.1, h2.2.1, h2.2.2⟩

/-- Stop requested before the start: the child starts with its token stopped. -/
example : ∃ x, Reach init (step .translate false) x ∧ x.c = .run ∧ childSees .translate x = true := by
  obtain ⟨x, h1, h2⟩ := Reach.witness (init := init) (step := step .translate false)
    [.reqStop, .start, .s, .f, .f, .f, .s, .s] (fun x : St => decide (x.c = .run ∧ childSees .translate x = true)) (by rfl)
  simp only [decide_eq_true_eq] at h2
  exact ⟨x, h1, h2⟩

end Verif.AnySender
