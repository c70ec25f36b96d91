import Verif.Pipe.Model
/-!
# C113: what a user of pipelines relies on

The specification: a pipeline is what stands between its bars, from left to right (`CExpr.steps`, `SExpr.steps`), and its value is the first
sender with the algorithms applied to it one after the other (`applied`).
-/
namespace Verif.Pipe

/-- An algorithm with its arguments. -/
abbrev Step := Nat × List (Option Nat)

/-- The algorithms applied, one after the other. -/
def applied (s : Sender) (l : List Step) : Sender := l.foldl (fun s p => .adapt p.1 p.2 s) s

/-- The steps of a closure object, in order. -/
def Closure.steps : Closure → List Step
  | .prim fn args => [(fn, args)]
  | .comp t0 t1   => t0.steps ++ t1.steps

/-- What stands between the bars of an expression for a closure. -/
def CExpr.steps : CExpr → List Step
  | .obj c _  => c.steps
  | .pipe a b => a.steps ++ b.steps

/-- The sender an expression begins with. -/
def SExpr.first : SExpr → Sender
  | .obj s    => s
  | .pipe a _ => a.first

/-- What stands between the bars of an expression for a sender. -/
def SExpr.steps : SExpr → List Step
  | .obj _    => []
  | .pipe a b => a.steps ++ b.steps

theorem applied_append (s : Sender) (l₁ l₂ : List Step) : applied s (l₁ ++ l₂) = applied (applied s l₁) l₂ := by
  simp [applied]

theorem callConst_eq (c : Closure) (s : Sender) : c.callConst s = applied s c.steps := by
  induction c generalizing s with
  | prim fn args => rfl
  | comp t0 t1 h0 h1 => simp [Closure.callConst, Closure.steps, applied_append, h0, h1]

theorem callMove_eq (c : Closure) (s : Sender) : c.callMove s = (applied s c.steps, c.hollow) := by
  induction c generalizing s with
  | prim fn args => rfl
  | comp t0 t1 h0 h1 => simp [Closure.callMove, Closure.steps, Closure.hollow, applied_append, h0, h1]

theorem eval_steps (e : CExpr) : e.eval.1.steps = e.steps := by
  induction e with
  | obj c l => rfl
  | pipe a b ha hb => simp [CExpr.eval, pipeClosures, Closure.steps, CExpr.steps, ha, hb]

/-- **C113.** A pipeline has the value its steps have from left to right, whatever the parentheses and whichever of the closures are lvalues. -/
theorem C113_value (e : SExpr) : e.eval = applied e.first e.steps := by
  induction e with
  | obj s => rfl
  | pipe a b ih =>
    rw [SExpr.eval, pipeSender]
    split
    · rw [callConst_eq, eval_steps, ih]; simp [SExpr.first, SExpr.steps, applied_append]
    · rw [callMove_eq, eval_steps, ih]; simp [SExpr.first, SExpr.steps, applied_append]

/-- **C113.** Two pipelines that read the same but for their parentheses have the same value. -/
theorem C113_parentheses (e e' : SExpr) (h1 : e.first = e'.first) (h2 : e.steps = e'.steps) : e.eval = e'.eval := by
  rw [C113_value, C113_value, h1, h2]

/-- **C113.** In particular `(s | a) | b` is `s | (a | b)`, and `(a | b) | c` is as good as `a | (b | c)`. -/
theorem C113_associative (s : SExpr) (a b c : CExpr) :
    (SExpr.pipe (.pipe s a) b).eval = (SExpr.pipe s (.pipe a b)).eval ∧
    (SExpr.pipe s (.pipe (.pipe a b) c)).eval = (SExpr.pipe s (.pipe a (.pipe b c))).eval :=
  ⟨C113_parentheses _ _ rfl (by simp [SExpr.steps, CExpr.steps]), C113_parentheses _ _ rfl (by simp [SExpr.steps, CExpr.steps])⟩

/-- **C113.** A closure that is an lvalue is what it was after it has been used, so it may be used any number of times, each time with the
    same result. -/
theorem C113_lvalue_reusable (c : Closure) (s s' : Sender) :
    (pipeSender s c true).2 = c ∧ (pipeSender s' (pipeSender s c true).2 true).1 = applied s' c.steps ∧
    ∀ d l, (pipeClosures c true d l).2.1 = c ∧ (pipeClosures d l c true).2.2 = c := by
  refine ⟨rfl, ?_, fun d l => ⟨rfl, rfl⟩⟩
  simp [pipeSender, callConst_eq]

/-- No argument in it has been moved from. -/
def Closure.Whole : Closure → Prop
  | .prim _ args => ∀ a ∈ args, a.isSome = true
  | .comp t0 t1  => t0.Whole ∧ t1.Whole

/-- All arguments in it have been moved from. -/
def Closure.Empty : Closure → Prop
  | .prim _ args => ∀ a ∈ args, a = none
  | .comp t0 t1  => t0.Empty ∧ t1.Empty

theorem hollow_empty (c : Closure) : c.hollow.Empty := by
  induction c with
  | prim fn args => intro a h; simp at h; exact h.2.symm
  | comp t0 t1 h0 h1 => exact ⟨h0, h1⟩

/-- **C113.** A closure that is not an lvalue gives its arguments up, all of them, to the sender that is made: they are moved, and not copied. -/
theorem C113_rvalue_moves (c : Closure) (s : Sender) :
    (pipeSender s c false).1 = applied s c.steps ∧ (pipeSender s c false).2.Empty := by
  simp only [pipeSender, callMove_eq]
  exact ⟨rfl, hollow_empty c⟩

/-- The closure objects of an expression. -/
def CExpr.objs : CExpr → List Closure
  | .obj c _  => [c]
  | .pipe a b => a.objs ++ b.objs

/-- The closure objects of a pipeline. -/
def SExpr.objs : SExpr → List Closure
  | .obj _    => []
  | .pipe a b => a.objs ++ b.objs

theorem whole_steps (c : Closure) (h : c.Whole) : ∀ p ∈ c.steps, ∀ a ∈ p.2, a.isSome = true := by
  induction c with
  | prim fn args => intro p hp; simp [Closure.steps] at hp; subst hp; exact h
  | comp t0 t1 h0 h1 =>
    intro p hp
    simp only [Closure.steps, List.mem_append] at hp
    rcases hp with hp | hp
    · exact h0 h.1 p hp
    · exact h1 h.2 p hp

theorem csteps_whole (e : CExpr) (h : ∀ c ∈ e.objs, c.Whole) : ∀ p ∈ e.steps, ∀ a ∈ p.2, a.isSome = true := by
  induction e with
  | obj c l => exact whole_steps c (h c (by simp [CExpr.objs]))
  | pipe a b ha hb =>
    intro p hp
    simp only [CExpr.steps, List.mem_append] at hp
    rcases hp with hp | hp
    · exact ha (fun c hc => h c (by simp [CExpr.objs, hc])) p hp
    · exact hb (fun c hc => h c (by simp [CExpr.objs, hc])) p hp

/-- **C113.** No argument that has been moved from gets into the sender of a pipeline whose closures were whole. -/
theorem C113_no_moved_argument (e : SExpr) (h : ∀ c ∈ e.objs, c.Whole) : ∀ p ∈ e.steps, ∀ a ∈ p.2, a.isSome = true := by
  induction e with
  | obj s => intro p hp; simp [SExpr.steps] at hp
  | pipe a b ih =>
    intro p hp
    simp only [SExpr.steps, List.mem_append] at hp
    rcases hp with hp | hp
    · exact ih (fun c hc => h c (by simp [SExpr.objs, hc])) p hp
    · exact csteps_whole b (fun c hc => h c (by simp [SExpr.objs, hc])) p hp

/-! ### Concrete cases -/

example : (SExpr.pipe (.obj (.base 0)) (.pipe (.obj (.prim 1 [some 5]) true) (.obj (.prim 2 []) false))).eval =
    .adapt 2 [] (.adapt 1 [some 5] (.base 0)) := rfl

example : (Closure.comp (.prim 1 [some 5]) (.prim 2 [])).Whole := by
  refine ⟨?_, ?_⟩ <;> intro a h <;> simp_all

end Verif.Pipe
