import Verif.Coro.Model
/-!
# What the coroutines should do

A direct-style reading of a body: no frames, no continuations.  Running a body yields what it was seen
to do, how it ended, where, and the exit actions it registered, last registered first.
-/
namespace Verif.Coro

/-- The effect of an exit action: given how the coroutine ended and the context it ended on, what is
    seen and the context afterwards; `none` is `std::terminate`. -/
abbrev Exit := Disp → Ctx → Option (List Ev × Ctx)

/-- The result of a body, before its exit actions. -/
structure BRes where
  trace : List Ev
  out : Out
  ctx : Ctx
  exits : List Exit

def Out.disp : Out → Disp
  | .val _ => .succeeded
  | .err _ => .failed
  | .stop => .stopped

/-- Run the exit actions in order; each is destroyed after it has run, except that the last one of a
    stopped coroutine is destroyed late. -/
def runExits : List Exit → Disp → Ctx → Option (List Ev × Ctx)
  | [], _, c => some ([], c)
  | x :: xs, d, c => do
      let (t1, c1) ← x d c
      let (t2, c2) ← runExits xs d c1
      return (t1 ++ (if d = .stopped ∧ xs = [] then Ev.late else Ev.freed) :: t2, c2)

/-- A whole task: the body, then its exit actions; the outcome is the body's. -/
def finish (r : BRes) : Option (List Ev × Out × Ctx) := do
  let (t, c) ← runExits r.exits r.out.disp r.ctx
  return (r.trace ++ t, r.out, c)

/-- An exit action that is a task: it must end with a value. -/
def exitOf (cond : Option Disp) (run : Ctx → Option (List Ev × Out × Ctx)) : Exit :=
  fun d c =>
    if cond = none ∨ cond = some d then
      match run c with
      | some (t, .val _, c') => some (t, c')
      | _ => none
    else some ([], c)

/-- An exit action that is a plain sender. -/
def exitOp (cond : Option Disp) (c' : Ctx) (o : Out) : Exit :=
  fun d c =>
    if cond = none ∨ cond = some d then
      match o with
      | .val _ => some ([], c')
      | _ => none
    else some ([], c)

/-- `den b σ rs c`: run `b` in a coroutine whose scheduler is `σ`, from context `c`; `rs` tells whether
    the coroutine has been rescheduled before.  A scheduler that fails to take the coroutine
    (`resched` with an error) terminates the program: that is what the code does, not what one would
    wish (DESIGN.md, divergence 39). -/
def den : Body → Ctx → Bool → Ctx → Option BRes
  | .ret v, _, _, c => some ⟨[], .val v, c, []⟩
  | .throw e, _, _, c => some ⟨[], .err e, c, []⟩
  | .emit n k, σ, rs, c => do
      let r ← den k σ rs c
      return { r with trace := Ev.code c n :: r.trace }
  | .await _ (.val v) kv _, σ, rs, _ => den (kv v) σ rs σ
  | .await _ (.err e) _ ke, σ, rs, _ => den (ke e) σ rs σ
  | .await _ .stop _ _, σ, _, _ => some ⟨[], .stop, σ, []⟩
  | .reg cond act k, σ, rs, c => do
      let r ← den k σ rs c
      return { r with exits := r.exits ++ [exitOf cond fun c => (den act σ false c).bind finish] }
  | .regOp cond c' o k, σ, rs, c => do
      let r ← den k σ rs c
      return { r with exits := r.exits ++ [exitOp cond c' o] }
  | .resched c' o k, σ, rs, _ => do
      let r ← match o with
        | .val _ => den k c' true c'
        | .err _ => none
        | .stop => some ⟨[], .stop, c', []⟩
      return if rs then r else { r with exits := r.exits ++ [exitOp none σ (.val 0)] }
  | .call child guard kv ke ks, σ, rs, c => do
      let (t, o, _) ← (den child σ false c).bind finish
      let r ← match o with
        | .val v => den (kv v) σ rs σ
        | .err e => den (ke e) σ rs σ
        | .stop => if guard then den ks σ rs σ else some ⟨[], .stop, σ, []⟩
      return { r with trace := t ++ r.trace }

/-- A task with the body `b`, started on context `c` with scheduler `σ`: what is seen, the outcome and
    the context it completes on; `none` is `std::terminate`. -/
def task (b : Body) (σ c : Ctx) : Option (List Ev × Out × Ctx) :=
  (den b σ false c).bind finish

end Verif.Coro
