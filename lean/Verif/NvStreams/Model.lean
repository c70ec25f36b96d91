import Verif.Common
/-!
# The stream pools and stream providers of the GPU context — model (C87)

Models `/repo/include/nvexec/stream/common.cuh`: `stream_pool_t` 201-261 (`borrow_stream` 211-244, `return_stream` 246-250,
destructor 252-260), `stream_pools_t` 263-282, `context::borrow_stream` / `return_stream` 304-312, `stream_provider` 347-395
(constructor 356-363, `bury` 369-373, destructor 375-394).
Any number of providers on any threads. Every access to a pool is made under its mutex and is one step.
Simplifications: streams are numbered in the order of their creation, from 1; number 0 is the null handle (the default
stream), which is what a failed creation leaves in the provider (224, 231, 240); the destructor of a provider runs its rites
and returns the stream in one step; rites are numbers; a provider that borrows its stream from another one (`borrows_stream`)
does nothing here and is left out.
-/
namespace Verif.NvStreams

/-- A provider. -/
inductive PPc
  | fresh
  | alive
  | gone
  deriving DecidableEq, Repr

/-- Ghost: where a stream is. -/
inductive Loc
  | none
  | pooled
  | lent (p : Nat)
  | destroyed
  deriving DecidableEq, Repr

structure St where
  /-- `pools_`, by priority: the stack of each pool, top first -/
  pool : Nat → List Nat := fun _ => []
  pc : Nat → PPc := fun _ => .fresh
  /-- `own_stream_` -/
  own : Nat → Nat := fun _ => 0
  /-- `status_` is `cudaSuccess` -/
  ok : Nat → Bool := fun _ => true
  /-- `cemetery_` -/
  rites : Nat → List Nat := fun _ => []
  /-- providers alive -/
  alive : List Nat := []
  down : Bool := false
  /-- streams created so far -/
  made : Nat := 0
  -- ghost
  /-- priority a stream was created with -/
  sprio : Nat → Nat := fun _ => 0
  loc : Nat → Loc := fun _ => .none
  /-- rites executed, in order -/
  ran : List Nat := []
  /-- handles given to `cudaStreamDestroy` -/
  killed : List Nat := []
  /-- creations that failed -/
  failures : Nat := 0
  /-- streams created with this priority -/
  madeAt : Nat → Nat := fun _ => 0
  /-- the greatest number of streams of this priority that were lent at the same time -/
  peakAt : Nat → Nat := fun _ => 0

inductive Act
  /-- the constructor of provider `p`; `fails`: a CUDA call fails, if one is made -/
  | borrow (p : Nat) (fails : Bool)
  | bury (p : Nat) (r : Nat)
  /-- the destructor of provider `p` -/
  | drop (p : Nat)
  /-- the destructors of the pools -/
  | shutdown
  deriving DecidableEq, Repr

/-- Ghost: the number of providers of priority `i` that hold a stream (other than the null handle). -/
def lentAt (prio : Nat → Fin 3) (s : St) (i : Nat) : Nat :=
  s.alive.countP fun p => s.own p != 0 && (prio p).val == i

/-- Ghost: keeps `peakAt`. -/
def notePeak (prio : Nat → Fin 3) (s : St) (i : Nat) : St :=
  { s with peakAt := upd s.peakAt i (max (s.peakAt i) (lentAt prio s i)) }

/-- `borrow_stream` (211-244) on behalf of provider `p` of priority `i` (361). -/
def borrow (prio : Nat → Fin 3) (s : St) (p i : Nat) (fails : Bool) : St :=
  match s.pool i with
  | [] =>
    if fails then
      { s with pc := upd s.pc p .alive, alive := p :: s.alive, own := upd s.own p 0, ok := upd s.ok p false
               failures := s.failures + 1 }
    else
      notePeak prio
        { s with pc := upd s.pc p .alive, alive := p :: s.alive, own := upd s.own p (s.made + 1), ok := upd s.ok p true
                 made := s.made + 1, sprio := upd s.sprio (s.made + 1) i, loc := upd s.loc (s.made + 1) (.lent p)
                 madeAt := upd s.madeAt i (s.madeAt i + 1) } i
  | x :: l =>
    let s' := { s with pc := upd s.pc p .alive, alive := p :: s.alive, own := upd s.own p x, ok := upd s.ok p true
                       pool := upd s.pool i l }
    if x = 0 then s' else notePeak prio { s' with loc := upd s.loc x (.lent p) } i

/-- `~stream_provider` (375-394): the rites in order, then `return_stream` (246-250, 278-281). -/
def drop (s : St) (p i : Nat) : St :=
  let s' := { s with pc := upd s.pc p .gone, alive := s.alive.erase p, ran := s.ran ++ s.rites p, rites := upd s.rites p []
                     pool := upd s.pool i (s.own p :: s.pool i) }
  if s.own p = 0 then s'
  else { s' with loc := upd s.loc (s.own p) .pooled }

/-- `prio`: the priority of the context of provider `p` (0, 1 or 2: 274-281). -/
def step (prio : Nat → Fin 3) (s : St) : Act → Option St
  | .borrow p fails =>
    if s.pc p = .fresh ∧ s.down = false then some (borrow prio s p (prio p) fails) else none
  | .bury p r => if s.pc p = .alive then some { s with rites := upd s.rites p (s.rites p ++ [r]) } else none
  | .drop p => if s.pc p = .alive then some (drop s p (prio p)) else none
  | .shutdown =>
    if s.alive = [] ∧ s.down = false then
      some { s with down := true, killed := s.killed ++ s.pool 0 ++ s.pool 1 ++ s.pool 2
                    pool := fun _ => []
                    loc := fun x => if s.loc x = .pooled then .destroyed else s.loc x }
    else none

def init : St := {}
abbrev Reachable (prio : Nat → Fin 3) (s : St) : Prop := Reach init (step prio) s

end Verif.NvStreams
