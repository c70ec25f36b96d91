import Verif.Common
/-!
# Pipelines: `sender | closure` and `closure | closure` (`stdexec/__detail/__sender_adaptor_closure.hpp`)

What a pipeline evaluates to, however it is put in parentheses, and what becomes of the closures in it.

Models `__closure` (:101-135), `__compose` (:49-74) and the two `operator|` (:76-91) of
`stdexec/__detail/__sender_adaptor_closure.hpp`.

Simplifications: an algorithm is a number, and so is an argument; an algorithm applied to a sender and arguments makes a sender that
remembers them. An argument that has been moved from is `none`. Exceptions of copies and moves are not modelled.
-/
namespace Verif.Pipe

/-- A sender: one to begin with, or an algorithm applied to a sender and arguments. -/
inductive Sender
  | base (n : Nat)
  | adapt (fn : Nat) (args : List (Option Nat)) (child : Sender)
  deriving DecidableEq, Repr

/-- A closure object: `__closure` (:132-134) with its algorithm and arguments, or `__compose` (:72-73) of two. -/
inductive Closure
  | prim (fn : Nat) (args : List (Option Nat))
  | comp (t0 t1 : Closure)
  deriving DecidableEq, Repr

/-- `operator()(_Sender&&) const &` (:60-70, :122-129): everything is copied. -/
def Closure.callConst : Closure → Sender → Sender
  | .prim fn args, s => .adapt fn args s
  | .comp t0 t1,   s => t1.callConst (t0.callConst s)

/-- `operator()(_Sender&&) &&` (:52-58, :111-120): the arguments are moved into the sender that is made, and what is left of the closure has
    been moved from. -/
def Closure.callMove : Closure → Sender → Sender × Closure
  | .prim fn args, s => (.adapt fn args s, .prim fn (args.map fun _ => none))
  | .comp t0 t1,   s =>
      let (s0, t0') := t0.callMove s
      let (s1, t1') := t1.callMove s0
      (s1, .comp t0' t1')

/-- What is left of a closure that is moved from. -/
def Closure.hollow : Closure → Closure
  | .prim fn args => .prim fn (args.map fun _ => none)
  | .comp t0 t1   => .comp t0.hollow t1.hollow

/-- `closure | closure` (:84-90): each side is copied if it is an lvalue and moved if it is not. What is made, and what is left of the
    two. -/
def pipeClosures (t0 : Closure) (lvalue0 : Bool) (t1 : Closure) (lvalue1 : Bool) : Closure × Closure × Closure :=
  (.comp t0 t1, if lvalue0 then t0 else t0.hollow, if lvalue1 then t1 else t1.hollow)

/-- `sender | closure` (:76-82): an lvalue is called as `const &`, anything else as an rvalue. What is made, and what is left of the
    closure. -/
def pipeSender (s : Sender) (t : Closure) (lvalue : Bool) : Sender × Closure :=
  if lvalue then (t.callConst s, t) else t.callMove s

/-- An expression that denotes a closure: a closure object that is used where it stands (an lvalue, or not), or one piped into another. -/
inductive CExpr
  | obj (c : Closure) (lvalue : Bool)
  | pipe (a b : CExpr)
  deriving DecidableEq, Repr

/-- An expression that denotes a sender. -/
inductive SExpr
  | obj (s : Sender)
  | pipe (a : SExpr) (b : CExpr)
  deriving DecidableEq, Repr

/-- What an expression for a closure evaluates to, and whether that is an lvalue. -/
def CExpr.eval : CExpr → Closure × Bool
  | .obj c l  => (c, l)
  | .pipe a b => ((pipeClosures a.eval.1 a.eval.2 b.eval.1 b.eval.2).1, false)

/-- What an expression for a sender evaluates to. -/
def SExpr.eval : SExpr → Sender
  | .obj s    => s
  | .pipe a b => (pipeSender a.eval b.eval.1 b.eval.2).1

end Verif.Pipe
