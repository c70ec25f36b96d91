import Verif.ConnAwait.Model
/-!
# C66: connecting an awaitable
-/
namespace Verif.ConnAwait
set_option maxHeartbeats 4000000

/-! ## Specification -/

/-- Objects are destroyed in the reverse order of their construction: the objects that exist after the events, newest first; `none` if something is
destroyed that is not the newest existing object. -/
def stack : List Obj → List Ev → Option (List Obj)
  | st, [] => some st
  | st, .cons o :: l => stack (o :: st) l
  | o :: st, .dest p :: l => if o = p then stack st l else none
  | [], .dest _ :: _ => none

/-- The completion that corresponds to what the awaitable does: its exception, its result, or stopped. -/
def expected : List Obs → List Sig
  | [.threw e] => [.error e]
  | [.value v] => [.value v]
  | [.stopped] => [.stopped]
  | _ => []

/-- The calls on the awaiter are those of a `co_await` expression: `await_ready`, then `await_suspend` exactly if it returned `false`, then at most one
`await_resume`. -/
def Protocol (l : List Call) : Prop :=
  l <+: [.ready true, .resume] ∨ l <+: [.ready false, .suspend, .resume]

theorem protocol_cases : Protocol [] ∧ Protocol [.ready true] ∧ Protocol [.ready false] ∧ Protocol [.ready false, .suspend] ∧
    Protocol [.ready true, .resume] ∧ Protocol [.ready false, .suspend, .resume] := by
  simp [Protocol]

theorem stack_append (l m : List Ev) (st : List Obj) : stack st (l ++ m) = (stack st l).bind (fun s => stack s m) := by
  induction l generalizing st with
  | nil => rfl
  | cons a l ih =>
    cases a with
    | cons o => simp [stack, ih]
    | dest o =>
      cases st with
      | nil => simp [stack]
      | cons p st => by_cases h : p = o <;> simp [stack, h, ih]

/-- The objects that exist while the operation state exists. -/
def objs (c : Cfg) (x : St) : List Obj :=
  match c.style with
  | .none => [.awaiter]
  | .one => if x.flag then [.awaiter] else []
  | .both => if x.flag then [.awaiter, .awaitable] else if x.s = .getW then [.awaitable] else []

/-- Before the awaiter gets the coroutine handle. -/
def SPC.pre : SPC → Bool
  | .idle => true | .getA => true | .getW => true | .ready => true | .susp => true
  | _ => false

structure Inv (c : Cfg) (x : St) : Prop where
  bad : x.bad = false
  stk : x.alive = true → stack [] x.log = some (objs c x)
  dead : x.alive = false → stack [] x.log = some [] ∧ (x.s = .ret ∨ x.s = .inside) ∧ x.tok = false ∧ (x.r = .off ∨ x.r = .done) ∧ x.sigs = expected x.obs ∧
    x.sigs.length ≤ 1 ∧ (x.s = .inside → x.r = .done)
  pre : x.s.pre = true → x.r = .off ∧ x.tok = false ∧ x.alive = true ∧ x.obs = []
  flg0 : x.s = .idle ∨ x.s = .getA ∨ x.s = .getW → x.flag = false
  flg1 : x.s = .ready ∨ x.s = .susp ∨ x.s = .inside ∨ x.tok = true ∨ (x.r ≠ .off ∧ x.r ≠ .done) → x.flag = true
  sA : x.s = .getA → c.style = .both
  sW : x.s = .getW → c.style ≠ .none
  cat : ∀ e, x.s = .catch_ e → x.r = .off ∧ x.tok = false ∧ x.alive = true ∧ x.obs = [.threw e]
  tok : x.tok = true → x.r = .off ∧ x.alive = true ∧ x.obs = [] ∧ (x.s = .inside ∨ x.s = .ret)
  ins : x.s = .inside → x.tok = true ∨ x.r ≠ .off
  ret : x.s = .ret → x.alive = true → x.tok = true ∨ x.r ≠ .off
  run : x.r ≠ .off → x.r ≠ .done → x.tok = false ∧ x.alive = true ∧ (x.s = .inside ∨ x.s = .ret)
  call : x.r = .call → x.obs = []
  val : ∀ v, x.r = .val v → x.obs = [.value v]
  exc : ∀ e, x.r = .exc e → x.obs = [.threw e]
  stop : x.r = .stop → x.obs = [.stopped]
  rdone : x.r = .done → x.alive = false
  alive : x.alive = true → x.sigs = []
  c0 : x.s = .idle ∨ x.s = .getA ∨ x.s = .getW ∨ x.s = .ready → x.calls = []
  c1 : x.s = .susp → x.calls = [.ready false]
  c2 : x.tok = true → x.calls = [.ready false, .suspend]
  c3 : x.r = .call → x.calls = [.ready true] ∨ x.calls = [.ready false, .suspend]
  c4 : Protocol x.calls

theorem dtor_stack (c : Cfg) (x : St) (h : stack [] x.log = some (objs c x)) (hs : x.s ≠ .getW) : stack [] (x.log ++ dtor c x.flag) = some [] := by
  rw [stack_append, h]
  cases hc : c.style <;> cases hf : x.flag <;> simp [objs, dtor, hc, hf, hs, stack]

theorem inv_step (c : Cfg) (x : St) (a : Act) (y : St) (h : Inv c x) (hs : step c x a = some y) : Inv c y := by
  have hd := dtor_stack c x
  obtain ⟨p1, p2, p3, p4, p5, p6⟩ := protocol_cases
  obtain ⟨e1, e2, e3, e4, e5, e6, e7, e8, e9, e10, e11, e12, e13, e14, e15, e16, e17, e18, e19, f0, f1, f2, f3, f4⟩ := h
  cases a with
  | start =>
    simp only [step] at hs; split at hs <;> cases hs
    cases hc : c.style
    all_goals constructor <;> first | assumption | grind [SPC.pre, objs]
  | drop =>
    simp only [step] at hs; split at hs <;> cases hs
    constructor <;> first | assumption | grind [SPC.pre, objs, expected]
  | ok =>
    cases hp : x.s <;> simp only [step, hp] at hs <;> cases hs
    all_goals (try simp only [St.acc])
    all_goals constructor
    all_goals first | assumption | grind [SPC.pre, objs] | skip
    all_goals (intro ha; simp only [stack_append, e2 ha]; cases hc : c.style <;> simp [objs, hc, hp, stack] <;> grind)
  | throw e =>
    cases hp : x.s <;> simp only [step, hp] at hs <;> (repeat' split at hs) <;> cases hs
    all_goals (try simp only [St.acc])
    all_goals constructor
    all_goals first | assumption | grind [SPC.pre, objs] | skip
    all_goals (intro ha; simp only [stack_append, e2 ha]; cases hc : c.style <;> simp [objs, hc, hp, stack] <;> cases hf : x.flag <;> (try simp [stack]) <;> grind)
  | ready b =>
    simp only [step] at hs; split at hs <;> cases hs
    simp only [St.acc]
    cases b <;> constructor <;> first | assumption | grind [SPC.pre, objs]
  | stay =>
    simp only [step] at hs; split at hs <;> cases hs
    constructor <;> first | assumption | grind [SPC.pre, objs]
  | back =>
    simp only [step] at hs; split at hs <;> cases hs
    constructor <;> first | assumption | grind [SPC.pre, objs]
  | handler =>
    cases hp : x.s <;> simp only [step, hp] at hs <;> cases hs
    simp only [St.done, St.acc]
    constructor <;> first | assumption | grind [SPC.pre, objs, expected]
  | resume =>
    simp only [step] at hs; split at hs <;> cases hs
    constructor <;> first | assumption | grind [SPC.pre, objs]
  | stop =>
    simp only [step] at hs; split at hs <;> cases hs
    constructor <;> first | assumption | grind [SPC.pre, objs]
  | resumed v =>
    simp only [step] at hs; split at hs <;> cases hs
    simp only [St.acc]
    constructor <;> first | assumption | grind [SPC.pre, objs]
  | rthrow e =>
    simp only [step] at hs; split at hs <;> cases hs
    simp only [St.acc]
    constructor <;> first | assumption | grind [SPC.pre, objs]
  | complete =>
    cases hp : x.r <;> simp only [step, hp] at hs <;> cases hs
    all_goals simp only [St.done, St.acc]
    all_goals constructor <;> first | assumption | grind [SPC.pre, objs, expected]

theorem inv_reach (c : Cfg) (x : St) (hr : Reach (init c) (step c) x) : Inv c x := by
  refine Reach.inv (Inv c) ?_ (inv_step c) x hr
  cases hc : c.style <;> constructor <;> simp [init, hc, SPC.pre, objs, stack, protocol_cases.1]

/-- **C66 (once)**: the receiver is completed at most once, and the operation state is not used after that. -/
theorem C66_once (c : Cfg) (x : St) (hr : Reach (init c) (step c) x) :
    x.sigs.length ≤ 1 ∧ x.bad = false ∧ (x.sigs ≠ [] → x.alive = false) := by
  have h := inv_reach c x hr
  refine ⟨?_, h.bad, ?_⟩
  · cases ha : x.alive with
    | true => simp [h.alive ha]
    | false => exact (h.dead ha).2.2.2.2.2.1
  · intro hn; cases ha : x.alive with
    | true => exact absurd (h.alive ha) hn
    | false => rfl

/-- **C66 (outcome)**: the completion is the one that corresponds to what the awaitable did: the exception it threw, the result of `await_resume`, or stopped
because it called `unhandled_stopped`. -/
theorem C66_outcome (c : Cfg) (x : St) (hr : Reach (init c) (step c) x) (g : Sig) (hg : g ∈ x.sigs) : [g] = expected x.obs := by
  have h := inv_reach c x hr
  have ha : x.alive = false := (C66_once c x hr).2.2 (by intro hn; simp [hn] at hg)
  have h1 := h.dead ha
  rw [← h1.2.2.2.2.1]
  cases hs : x.sigs with
  | nil => simp [hs] at hg
  | cons k t =>
    have : t = [] := by have := h1.2.2.2.2.2.1; rw [hs] at this; simpa using this
    subst this; rw [hs] at hg; simpa using hg

/-- **C66 (protocol)**: the awaiter's functions are called as by a `co_await` expression. -/
theorem C66_protocol (c : Cfg) (x : St) (hr : Reach (init c) (step c) x) : Protocol x.calls ∧
    (∀ v, Sig.value v ∈ x.sigs → Call.resume ∈ x.calls) := by
  have h := inv_reach c x hr
  refine ⟨h.c4, ?_⟩
  refine (Reach.inv (fun x => (∀ v, Sig.value v ∈ x.sigs → Call.resume ∈ x.calls) ∧ (∀ v, x.r = .val v → Call.resume ∈ x.calls)) ?_ ?_ x hr).1
  · simp [init]
  · rintro s a s' ⟨h1, h2⟩ he
    cases a with
    | complete => cases hp : s.r <;> simp only [step, hp] at he <;> cases he <;> grind [St.done, St.acc]
    | handler => cases hp : s.s <;> simp only [step, hp] at he <;> cases he <;> grind [St.done, St.acc]
    | ok => cases hp : s.s <;> simp only [step, hp] at he <;> cases he <;> grind [St.acc]
    | throw e => cases hp : s.s <;> simp only [step, hp] at he <;> (repeat' split at he) <;> cases he <;> grind [St.acc]
    | ready b => simp only [step] at he; split at he <;> cases he <;> cases b <;> grind [St.acc]
    | _ => simp only [step] at he; split at he <;> cases he <;> grind [St.acc]

/-- **C66 (lifetimes)**: awaitable and awaiter are always destroyed in the reverse order of their construction, and are gone when the operation state is,
whether it was completed, or destroyed without being started. -/
theorem C66_lifetimes (c : Cfg) (x : St) (hr : Reach (init c) (step c) x) :
    stack [] x.log ≠ none ∧ (x.alive = false → stack [] x.log = some []) := by
  have h := inv_reach c x hr
  refine ⟨?_, fun ha => (h.dead ha).1⟩
  cases ha : x.alive with
  | true => simp [h.stk ha]
  | false => simp [(h.dead ha).1]

/-- **C66 (awaiter alive)**: while the awaiter may be called, or has the coroutine handle, or `await_resume`'s result is being delivered, it exists. -/
theorem C66_awaiter_alive (c : Cfg) (x : St) (hr : Reach (init c) (step c) x)
    (hs : x.s = .ready ∨ x.s = .susp ∨ x.tok = true ∨ x.r = .call ∨ (∃ v, x.r = .val v)) : ∃ st, stack [] x.log = some (.awaiter :: st) := by
  have h := inv_reach c x hr
  have hf : x.flag = true := h.flg1 (by grind)
  have ha : x.alive = true := by
    rcases hs with h1 | h1 | h1 | h1 | ⟨v, h1⟩
    · exact (h.pre (by simp [h1, SPC.pre])).2.2.1
    · exact (h.pre (by simp [h1, SPC.pre])).2.2.1
    · exact (h.tok h1).2.1
    · exact (h.run (by simp [h1]) (by simp [h1])).2.1
    · exact (h.run (by simp [h1]) (by simp [h1])).2.1
  rw [h.stk ha]
  cases hc : c.style <;> simp [objs, hc, hf]

/-- It is the awaitable's turn: one of its functions is running, or somebody has the coroutine handle. -/
def AwaitableTurn (x : St) : Prop :=
  x.s = .getA ∨ x.s = .getW ∨ x.s = .ready ∨ x.s = .susp ∨ x.s = .inside ∨ x.tok = true ∨ x.r = .call

/-- **C66 (never lost)**: a started operation that is not complete either waits for the awaitable, or its next step is to complete the receiver. -/
theorem C66_not_lost (c : Cfg) (x : St) (hr : Reach (init c) (step c) x) (hs : x.s ≠ .idle) (ha : x.alive = true) :
    AwaitableTurn x ∨ ∃ a y, step c x a = some y ∧ y.sigs.length = 1 := by
  have h := inv_reach c x hr
  have hnil := h.alive ha
  by_cases ht : AwaitableTurn x
  · exact .inl ht
  · right
    cases hp : x.s with
    | catch_ e => exact ⟨.handler, _, by simp only [step, hp]; rfl, by simp [St.done, St.acc, hnil]⟩
    | ret =>
      cases hq : x.r with
      | val v => exact ⟨.complete, _, by simp only [step, hq]; rfl, by simp [St.done, St.acc, hnil]⟩
      | exc v => exact ⟨.complete, _, by simp only [step, hq]; rfl, by simp [St.done, St.acc, hnil]⟩
      | stop => exact ⟨.complete, _, by simp only [step, hq]; rfl, by simp [St.done, St.acc, hnil]⟩
      | off => have := h.ret hp ha; grind [AwaitableTurn]
      | call => grind [AwaitableTurn]
      | done => have := h.rdone hq; simp [ha] at this
    | idle => exact absurd hp hs
    | _ => grind [AwaitableTurn]

/-- Steps left. -/
def ms (x : St) : Nat :=
  (match x.s with | .idle => 8 | .getA => 7 | .getW => 6 | .ready => 5 | .susp => 4 | .inside => 1 | .catch_ _ => 1 | .ret => 0) +
  (match x.s with | .idle => 4 | .getA => 4 | .getW => 4 | .ready => 4 | .susp => 4 | _ => 0) +
  (if x.tok then 4 else 0) + (match x.r with | .off => 0 | .call => 3 | .val _ => 1 | .exc _ => 1 | .stop => 1 | .done => 0)

theorem ms_dec (c : Cfg) (x : St) (a : Act) (y : St) (h : Inv c x) (hs : step c x a = some y) : ms y < ms x := by
  obtain ⟨e1, e2, e3, e4, e5, e6, e7, e8, e9, e10, e11, e12, e13, e14, e15, e16, e17, e18, e19, f0, f1, f2, f3, f4⟩ := h
  cases a with
  | start => simp only [step] at hs; split at hs <;> cases hs; cases hc : c.style <;> grind [ms]
  | ok => cases hp : x.s <;> simp only [step, hp] at hs <;> cases hs <;> grind [ms, St.acc, SPC.pre]
  | throw e => cases hp : x.s <;> simp only [step, hp] at hs <;> (repeat' split at hs) <;> cases hs <;> grind [ms, St.acc, SPC.pre]
  | handler => cases hp : x.s <;> simp only [step, hp] at hs <;> cases hs; grind [ms, St.acc, St.done]
  | complete => cases hp : x.r <;> simp only [step, hp] at hs <;> cases hs <;> grind [ms, St.acc, St.done]
  | ready b => simp only [step] at hs; split at hs <;> cases hs; cases b <;> grind [ms, St.acc, SPC.pre]
  | _ => simp only [step] at hs; split at hs <;> cases hs; grind [ms, St.acc, SPC.pre]

/-- **C66 (bounded)**: every run has at most 16 steps. -/
theorem C66_bounded (c : Cfg) (as : List Act) (y : St) (h : exec (step c) (init c) as = some y) : as.length ≤ 16 := by
  suffices ∀ as x, Reach (init c) (step c) x → exec (step c) x as = some y → as.length ≤ ms x by
    have h1 := this as (init c) .refl h
    have h2 : ms (init c) ≤ 16 := by simp [ms, init]
    omega
  intro as
  induction as with
  | nil => intro x _ _; simp
  | cons a as ih =>
    intro x hr hex
    simp only [exec] at hex
    cases hst : step c x a with
    | none => simp [hst] at hex
    | some z =>
      simp only [hst] at hex
      have h1 := ih z (.tail a hr hst) (by simpa using hex)
      have h2 := ms_dec c x a z (inv_reach c x hr) hst
      simp only [List.length_cons]; omega

/-- The coroutine is resumed on another thread, and the operation completes and is destroyed, before `await_suspend` returns. -/
example : ∃ x, Reach (init ⟨.both, .void⟩) (step ⟨.both, .void⟩) x ∧ x.sigs = [.value 7] ∧ x.s = .ret ∧
    x.log = [.cons .awaitable, .cons .awaiter, .dest .awaiter, .dest .awaitable] := by
  obtain ⟨x, h1, h2⟩ := Reach.witness (init := init ⟨.both, .void⟩) (step := step ⟨.both, .void⟩)
    [.start, .ok, .ok, .ready false, .ok, .resume, .resumed 7, .complete, .stay]
    (fun x : St => decide (x.sigs = [.value 7] ∧ x.s = .ret ∧ x.log = [.cons .awaitable, .cons .awaiter, .dest .awaiter, .dest .awaitable])) (by rfl)
  simp only [decide_eq_true_eq] at h2
  exact ⟨x, h1, h2⟩

/-- The awaiter's construction throws: the awaitable is destroyed, the receiver gets the exception. -/
example : ∃ x, Reach (init ⟨.both, .bool⟩) (step ⟨.both, .bool⟩) x ∧ x.sigs = [.error 3] ∧ x.log = [.cons .awaitable, .dest .awaitable] := by
  obtain ⟨x, h1, h2⟩ := Reach.witness (init := init ⟨.both, .bool⟩) (step := step ⟨.both, .bool⟩) [.start, .ok, .throw 3, .handler]
    (fun x : St => decide (x.sigs = [.error 3] ∧ x.log = [.cons .awaitable, .dest .awaitable])) (by rfl)
  simp only [decide_eq_true_eq] at h2
  exact ⟨x, h1, h2⟩

/-- `await_suspend` returns `false`; `unhandled_stopped`. -/
example : (∃ x, Reach (init ⟨.one, .bool⟩) (step ⟨.one, .bool⟩) x ∧ x.sigs = [.value 1]) ∧
    ∃ x, Reach (init ⟨.none, .handle⟩) (step ⟨.none, .handle⟩) x ∧ x.sigs = [.stopped] ∧ x.log = [.cons .awaiter, .dest .awaiter] := by
  constructor
  · obtain ⟨x, h1, h2⟩ := Reach.witness (init := init ⟨.one, .bool⟩) (step := step ⟨.one, .bool⟩) [.start, .ok, .ready false, .ok, .back, .resumed 1, .complete]
      (fun x : St => decide (x.sigs = [.value 1])) (by rfl)
    simp only [decide_eq_true_eq] at h2
    exact ⟨x, h1, h2⟩
  · obtain ⟨x, h1, h2⟩ := Reach.witness (init := init ⟨.none, .handle⟩) (step := step ⟨.none, .handle⟩) [.start, .ready false, .ok, .stay, .stop, .complete]
      (fun x : St => decide (x.sigs = [.stopped] ∧ x.log = [.cons .awaiter, .dest .awaiter])) (by rfl)
    simp only [decide_eq_true_eq] at h2
    exact ⟨x, h1, h2⟩

end Verif.ConnAwait
