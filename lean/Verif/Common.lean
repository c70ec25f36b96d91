/-!
# Shared vocabulary: partial step functions, executions, reachability

Every concurrent subsystem is modelled by a partial function `step : σ → α → Option σ`; an action
`α` says which thread moves (and resolves the environment's choices); `none` means the action is
not enabled in that state.
-/
namespace Verif

/-- States reachable from an initial state by any finite sequence of enabled actions. -/
inductive Reach {σ α : Type} (init : σ) (step : σ → α → Option σ) : σ → Prop
  | refl : Reach init step init
  | tail {s s' : σ} (a : α) : Reach init step s → step s a = some s' → Reach init step s'

/-- Run a list of actions; `none` if one of them is not enabled. -/
def exec {σ α : Type} (step : σ → α → Option σ) : σ → List α → Option σ
  | s, [] => some s
  | s, a :: as => match step s a with
    | some s' => exec step s' as
    | none => none

theorem Reach.trans_exec {σ α : Type} {init : σ} {step : σ → α → Option σ} :
    ∀ (as : List α) (s s' : σ), Reach init step s → exec step s as = some s' →
      Reach init step s'
  | [], s, s', h, he => by simp [exec] at he; exact he ▸ h
  | a :: as, s, s', h, he => by
      unfold exec at he
      split at he
      · rename_i s1 h1
        exact Reach.trans_exec as s1 s' (Reach.tail a h h1) he
      · cases he

/-- A concrete execution is a reachability proof. -/
theorem Reach.of_exec {σ α : Type} {init s : σ} {step : σ → α → Option σ} (as : List α)
    (h : exec step init as = some s) : Reach init step s :=
  Reach.trans_exec as init s .refl h

/-- A concrete execution ending in a state with a decidable property. -/
theorem Reach.witness {σ α : Type} {init : σ} {step : σ → α → Option σ} (as : List α) (p : σ → Bool)
    (h : (exec step init as).any p = true) : ∃ s, Reach init step s ∧ p s = true := by
  cases he : exec step init as with
  | none => rw [he] at h; simp at h
  | some s => rw [he] at h; exact ⟨s, Reach.of_exec as he, by simpa using h⟩

/-- Invariant rule. -/
theorem Reach.inv {σ α : Type} {init : σ} {step : σ → α → Option σ} (P : σ → Prop)
    (h0 : P init) (hs : ∀ s a s', P s → step s a = some s' → P s') :
    ∀ s, Reach init step s → P s := by
  intro s h
  induction h with
  | refl => exact h0
  | tail a _ h1 ih => exact hs _ a _ ih h1

/-- Invariant rule that also gives reachability of the pre-state. -/
theorem Reach.inv' {σ α : Type} {init : σ} {step : σ → α → Option σ} (P : σ → Prop)
    (h0 : P init) (hs : ∀ s a s', Reach init step s → P s → step s a = some s' → P s') :
    ∀ s, Reach init step s → P s := by
  intro s h
  induction h with
  | refl => exact h0
  | tail a hr h1 ih => exact hs _ a _ hr ih h1

/-- Update a function at one point. -/
def upd {α β : Type} [DecidableEq α] (f : α → β) (a : α) (b : β) : α → β :=
  fun x => if x = a then b else f x

@[simp] theorem upd_same {α β : Type} [DecidableEq α] (f : α → β) (a : α) (b : β) :
    upd f a b a = b := by simp [upd]

theorem upd_other {α β : Type} [DecidableEq α] (f : α → β) {a x : α} (b : β) (h : x ≠ a) :
    upd f a b x = f x := by simp [upd, h]

@[grind =] theorem upd_apply {α β : Type} [DecidableEq α] (f : α → β) (a : α) (b : β) (x : α) :
    upd f a b x = if x = a then b else f x := rfl

end Verif
