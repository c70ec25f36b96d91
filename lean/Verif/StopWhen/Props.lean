import Verif.StopWhen.Model
/-! # `stop_when`: property C05 -/
namespace Verif.StopWhen

/-- Has inner callback `i` not been constructed yet? -/
def unbuilt (i : Bool) : Life → Prop
  | .ctor false => True
  | .ctorRun false => i = true
  | .ctor true => i = true
  | _ => False

/-- Has inner callback `i` been destroyed? -/
def gone (i : Bool) : Life → Prop
  | .dead => True
  | .dtor false _ => i = true
  | _ => False

structure I (s : St) : Prop where
  called : s.called = decide (s.calls = 1)
  le : s.calls ≤ 1
  some_stopped : ∀ i, s.inv i ≠ .idle → s.stopped i = true
  callsInv : s.calls = 1 → ∃ i, s.inv i ≠ .idle ∧ s.inv i ≠ .entered
  reg : ∀ i, s.registered i = true → s.stopped i = false ∧ s.inv i = .idle ∧ ¬ unbuilt i s.life ∧ ¬ gone i s.life
  notreg : ∀ i, ¬ unbuilt i s.life → ¬ gone i s.life → s.registered i = false → s.inv i ≠ .idle
  unb : ∀ i, unbuilt i s.life → s.inv i = .idle ∧ s.registered i = false
  fin : ∀ i, s.inv i = .done ∨ s.inv i = .inFn → s.calls = 1
  inU : ∀ i j, s.inv i = .inFn → s.inv j = .inFn → i = j
  goneI : ∀ i, gone i s.life → s.inv i ≠ .entered
  run : ∀ i, s.life = .ctorRun i → s.inv i ≠ .idle
  self : ∀ i j, s.life = .dtor i (some j) → s.inv j = .inFn
  uaf : s.uaf = false
  deadF : s.life = .dead → s.inv true ≠ .entered ∧ s.inv false ≠ .entered

theorem inv_init : I init := by
  constructor <;> simp [init, unbuilt, gone]

set_option maxHeartbeats 4000000 in
theorem inv_step {s s' : St} {a : Act} (h : I s) (hs : step s a = some s') : I s' := by
  obtain ⟨h1, h2, h3, h4, h5, h6, h7, h8, h9, h10, h11, h12, h13, h14⟩ := h
  have two : ∀ (P : Bool → Prop), (∃ i, P i) ↔ (P false ∨ P true) := by
    intro P; constructor
    · rintro ⟨i, hi⟩; cases i <;> simp [hi]
    · rintro (h | h) <;> exact ⟨_, h⟩
  rw [two] at h4
  simp only [Bool.forall_bool] at *
  cases a with
  | requestStop i =>
      simp only [step] at hs
      cases i <;> (repeat' split at hs) <;> cases hs <;> constructor <;>
        simp only [Bool.forall_bool, two] <;> grind [unbuilt, gone]
  | invoke i =>
      simp only [step] at hs
      cases i <;> (repeat' split at hs) <;> cases hs <;> constructor <;>
        simp only [Bool.forall_bool, two] <;> grind [unbuilt, gone]
  | owner =>
      rcases hl : s.life with (_|_)|(_|_)|_|⟨(_|_), _|(_|_)⟩|_ <;> simp only [step, hl] at hs <;>
        (repeat' split at hs) <;> cases hs <;> constructor <;>
        simp only [Bool.forall_bool, two] <;> grind [unbuilt, gone, Inv.busy]
  | destroy self =>
      simp only [step] at hs
      rcases self with _ | (_ | _) <;> (repeat' split at hs) <;> cases hs <;> constructor <;>
        simp only [Bool.forall_bool, two] <;> grind [unbuilt, gone]

theorem inv_reach {s : St} (h : Reachable s) : I s :=
  Reach.inv I inv_init (fun _ _ _ h hs => inv_step h hs) s h

/-- C05 (token): the net token reports a stop request iff the given token or the receiver's does. -/
theorem C05_token (sender receiver : Token) :
    (makeToken sender receiver).stopRequested = true ↔
      sender.stopRequested = true ∨ receiver.stopRequested = true := by
  cases receiver <;> simp [makeToken, Token.stopRequested]

/-- C05 (token): the net token can be stopped iff one of the two can. -/
theorem C05_token_possible (sender receiver : Token) :
    (makeToken sender receiver).stopPossible = true ↔
      sender.stopPossible = true ∨ receiver.stopPossible = true := by
  cases receiver <;> simp [makeToken, Token.stopPossible]

example : (makeToken (.src false) (.fused (.src true) .unstoppable)).stopRequested = true := by decide
example : (makeToken (.src false) .unstoppable) = .src false := by decide

/-- C05: whatever the interleaving of the two stop requests, construction and destruction, the user's
callback runs at most once, and only after one of the two sources was stopped. -/
theorem C05_once {s : St} (h : Reachable s) :
    s.calls ≤ 1 ∧ (s.calls = 1 → ∃ i, s.stopped i = true) := by
  have hi := inv_reach h
  refine ⟨hi.le, fun hc => ?_⟩
  obtain ⟨i, h1, _⟩ := hi.callsInv hc
  exact ⟨i, hi.some_stopped i h1⟩

/-- C05: once the callback is constructed, a stop request of either source makes it run: it has run, or it
is running, or a source is just about to run it. If nothing is in progress any more it has run exactly
once. -/
theorem C05_runs {s : St} (h : Reachable s) (hl : s.life = .alive) {i : Bool}
    (hst : s.stopped i = true) :
    (s.calls = 1 ∨ s.inv i = .entered) ∧ ((∀ j, (s.inv j).busy = false) → s.calls = 1) := by
  have hi := inv_reach h
  have hr : s.registered i = false := by
    cases hrr : s.registered i
    · rfl
    · have := (hi.reg i hrr).1; simp [hst] at this
  have hn := hi.notreg i (by simp [hl, unbuilt]) (by simp [hl, gone]) hr
  have hf := hi.fin i
  have key : s.calls = 1 ∨ s.inv i = .entered := by
    cases hv : s.inv i <;> simp_all
  refine ⟨key, fun hb => ?_⟩
  rcases key with k | k
  · exact k
  · have := hb i; simp [k, Inv.busy] at this

/-- C05: the invocation of an inner callback can always go on (so "about to run" above does run). -/
theorem C05_progress {s : St} (i : Bool) (hb : s.inv i = .entered) :
    ∃ s', step s (.invoke i) = some s' ∧ s'.calls = (if s.called then s.calls else s.calls + 1) := by
  simp only [step, hb]
  cases hc : s.called
  · exact ⟨{ s with inv := upd s.inv i .inFn, called := true, calls := s.calls + 1
                    uaf := s.uaf || s.life == .dead }, by simp, by simp⟩
  · exact ⟨{ s with inv := upd s.inv i .done, uaf := s.uaf || s.life == .dead }, by simp [hc], by simp⟩

/-- C05: no source touches the callback object after its destruction. -/
theorem C05_no_use_after_destroy {s : St} (h : Reachable s) : s.uaf = false := (inv_reach h).uaf

/-- Both sources are stopped concurrently: both invocations are in progress; the callback ran once. -/
example : ∃ s, Reachable s ∧ (s.stopped false && s.stopped true && s.calls == 1
    && s.inv false == .done && s.inv true == .inFn && s.life == .alive) = true :=
  Reach.witness [.owner, .owner, .requestStop false, .requestStop true, .invoke true, .invoke false] _
    (by decide)

/-- Both are stopped before construction, so both run in the constructor; `__fn_` then runs once. -/
example : ∃ s, Reachable s ∧ (s.calls == 1 && s.life == .alive && s.inv true == .done) = true :=
  Reach.witness [.requestStop true, .requestStop false, .owner, .invoke false, .invoke false, .owner,
    .owner, .invoke true, .owner] _ (by decide)

/-- The callback destroys itself from inside its invocation. -/
example : ∃ s, Reachable s ∧ (s.calls == 1 && s.life == .dead && s.inv true == .done) = true :=
  Reach.witness [.owner, .owner, .requestStop true, .invoke true, .destroy (some true), .owner, .owner,
    .invoke true] _ (by decide)

end Verif.StopWhen
