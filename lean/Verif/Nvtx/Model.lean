import Verif.Common
/-!
# Ranges for the profiler: `nvexec::nvtx::push`, `pop` and `scoped` (`nvexec/nvtx.cuh`)

What an algorithm in a range of NVTX does to the stacks of ranges, of which every thread has one of its own.

Models `receiver::_complete` (:52-65) with `set_value`, `set_error` and `set_stopped` (:68-83), `push_t` (:132-145), `pop_t` (:147-160)
and `scoped_t` (:165-179) of `nvexec/nvtx.cuh`.

Simplifications: a value and an error is a number. What is put in a scope is made of five kinds of steps, which stand for the algorithms of
the library: one that calls a function of the user on one of the channels (`then`, `upon_error`, `upon_stopped`), one that goes on with on
another thread (`continues_on`), one that runs what is before it many times (`repeat_n`), and `push` and `pop` themselves. All steps are run one
after the other. NVTX itself is the specification of its documentation: `nvtxRangePushA` and `nvtxRangePop` work on the stack of the calling
thread, and to pop from an empty stack does nothing.
-/
namespace Verif.Nvtx

/-- How a sender completes. -/
inductive Sig where
  | value (v : Nat)
  | error (e : Nat)
  | stopped
deriving DecidableEq, Repr

/-- What is observed on a thread: a call to NVTX, or a call to function number `k` of the user. -/
inductive Ev where
  | push (name : Nat)
  | pop
  | work (k : Nat)
deriving DecidableEq, Repr

/-- `kind` (:38-42) with the name, which `pop` has none of. -/
inductive Kind where
  | push (name : Nat)
  | pop
deriving DecidableEq, Repr

/-- What `_complete` (:52-65) does before it passes the completion on; whatever the completion. -/
def complete (k : Kind) (_sig : Sig) : Ev :=
  match k with
  | .push name => .push name
  | .pop       => .pop

/-- Senders. -/
inductive Snd where
  | just (sig : Sig)
  /-- Function number `k` is called if the completion is one that is `on`; `f` is what it gives. -/
  | map (k : Nat) (on : Sig → Bool) (f : Sig → Sig) (s : Snd)
  | onto (thread : Nat) (s : Snd)
  | again (n : Nat) (s : Snd)
  /-- `nvtx_sender` (:97-127). -/
  | nvtx (kind : Kind) (s : Snd)

/-- A sender run `n` times, until it does not complete with a value. -/
def times (run : Nat → Sig × Nat × List (Nat × Ev)) : Nat → Nat → Sig × Nat × List (Nat × Ev)
  | 0,     t => (.value 0, t, [])
  | n + 1, t =>
    let (sig, t1, l1) := run t
    match sig with
    | .value _ =>
      let (sig2, t2, l2) := times run n t1
      (sig2, t2, l1 ++ l2)
    | _ => (sig, t1, l1)

/-- A sender started on thread `t`: how it completes, on what thread, and what is observed on what thread. -/
def Snd.run : Snd → Nat → Sig × Nat × List (Nat × Ev)
  | .just sig, t => (sig, t, [])
  | .map k on f s, t =>
    let (sig, t1, l) := s.run t
    if on sig then (f sig, t1, l ++ [(t1, .work k)]) else (sig, t1, l)
  | .onto t' s, t =>
    let (sig, _, l) := s.run t
    (sig, t', l)
  | .again n s, t => times s.run n t
  | .nvtx k s, t =>
    let (sig, t1, l) := s.run t
    (sig, t1, l ++ [(t1, complete k sig)])

/-- Closures. -/
inductive Clo where
  | map (k : Nat) (on : Sig → Bool) (f : Sig → Sig)
  | onto (thread : Nat)
  | again (n : Nat)
  | push (name : Nat)
  | pop
  | comp (a b : Clo)
  /-- `scoped(name, closure)` (:173-178). -/
  | scope (name : Nat) (c : Clo)

/-- A sender piped into a closure: `push_t` (:134-138), `pop_t` (:149-153), and `scoped_t` (:167-171), which is
`sndr | push(name) | closure | pop()`. -/
def Clo.apply : Clo → Snd → Snd
  | .map k on f,    s => .map k on f s
  | .onto t,        s => .onto t s
  | .again n,       s => .again n s
  | .push name,     s => .nvtx (.push name) s
  | .pop,           s => .nvtx .pop s
  | .comp a b,      s => b.apply (a.apply s)
  | .scope name c,  s => .nvtx .pop (c.apply (.nvtx (.push name) s))

end Verif.Nvtx
