import Verif.Common
/-!
# `exec::fork_join` — model

Models `/repo/include/exec/fork_join.hpp` lines 73-115 (`_cache_sndr_t`) and 123-224 (`_opstate_t`). The
operation consists of the predecessor's operation (`_child_opstate_`, constructed and destroyed by
hand), the cached result (`_cache_`) and the `when_all` of the `n` branches (`_fork_opstate_`), each of
which starts by reading the cached result. `when_all` is used through its contract: once started it
either starts no branch and completes (stop was requested before), or starts the branches one after the
other and completes once all of them have completed (its own model is `Verif.WhenAll`). Branches and
predecessor are arbitrary: they complete at any time, from any thread, also inside the call that starts
them. `connect` is `noexcept` in the source (lines 142, 258): exceptions thrown while connecting
terminate the program and are not modelled.
-/
namespace Verif.ForkJoin

/-- A completion: tag and arguments. -/
inductive Res
  | value (vs : List Nat)
  | error (e : Nat)
  | stopped
  deriving DecidableEq, Repr

/-- Where the operation is. -/
inductive Pc
  | idle                    -- not started
  | child                   -- the predecessor is running (line 169)
  | cached                  -- lines 178-189 done: the result is stored
  | forking (i : Nat)       -- line 191 done; `when_all` started, next branch to start: `i`
  | finished                -- the receiver has been completed
  deriving DecidableEq, Repr

/-- State of one branch. -/
inductive Br
  | idle | running | done
  deriving DecidableEq, Repr

structure St where
  pc : Pc
  child : Bool              -- the predecessor's operation exists
  cache : Option Res        -- `_cache_` (`none`: valueless)
  pred : Option Res         -- ghost: how the predecessor completed
  threw : Option Nat        -- ghost: storing its result threw
  br : Nat → Br
  seen : Nat → Option Res   -- what branch `i` was completed with by its `_cache_sndr_t`
  starts : Nat → Nat        -- how often branch `i` was started
  skipped : Bool            -- `when_all` completed without starting the branches
  comps : Nat               -- completions of the receiver
  alive : Bool              -- the operation exists
  dead : Nat                -- destructions of the predecessor's operation
  ub : Bool

/-- Lines 142-155: both operations are constructed, nothing is started. -/
def init : St :=
  { pc := .idle, child := true, cache := none, pred := none, threw := none, br := fun _ => .idle,
    seen := fun _ => none, starts := fun _ => 0, skipped := false, comps := 0, alive := true,
    dead := 0, ub := false }

inductive Act
  | start                   -- line 169
  | predDone (r : Res)      -- lines 175-180: the predecessor completes, storing the result succeeds
  | predThrow (r : Res) (e : Nat)   -- lines 182-189: storing it throws `e`
  | drop                    -- line 190, `_child_opstate_.__destroy()`, and line 191
  | fork                    -- `when_all` starts the next branch (line 81-84 reads the cache)
  | skip                    -- `when_all` completes without starting anything
  | branchDone (i : Nat)
  | join                    -- `when_all` completes after its last branch
  | destroy                 -- lines 159-166: `~_opstate_t`
  deriving DecidableEq, Repr

def step (n : Nat) (s : St) : Act → Option St
  | .start =>
      if s.pc = .idle ∧ s.alive = true then some { s with pc := .child } else none
  | .predDone r =>
      if s.pc = .child then
        some { s with pc := .cached, cache := some r, pred := some r,
                      ub := s.ub || !s.child || !s.alive }
      else none
  | .predThrow r e =>
      if s.pc = .child ∧ r ≠ .stopped then
        some { s with pc := .cached, cache := some (.error e), pred := some r, threw := some e,
                      ub := s.ub || !s.child || !s.alive }
      else none
  | .drop =>
      if s.pc = .cached then
        some { s with pc := .forking 0, child := false, dead := s.dead + 1,
                      ub := s.ub || !s.child || !s.alive }
      else none
  | .fork =>
      match s.pc with
      | .forking i =>
          if i < n then
            some { s with pc := .forking (i + 1), br := upd s.br i .running,
                          seen := upd s.seen i s.cache, starts := upd s.starts i (s.starts i + 1),
                          ub := s.ub || !s.alive || s.cache.isNone }
          else none
      | _ => none
  | .skip =>
      if s.pc = .forking 0 then
        some { s with pc := .finished, skipped := true, comps := s.comps + 1, ub := s.ub || !s.alive }
      else none
  | .branchDone i =>
      if s.br i = .running then
        some { s with br := upd s.br i .done, ub := s.ub || !s.alive }
      else none
  | .join =>
      if s.pc = .forking n ∧ ∀ i < n, s.br i = .done then
        some { s with pc := .finished, comps := s.comps + 1, ub := s.ub || !s.alive }
      else none
  | .destroy =>
      if s.alive = true ∧ (s.pc = .idle ∨ s.pc = .finished) then
        if s.cache = none then
          some { s with alive := false, child := false, dead := s.dead + 1, ub := s.ub || !s.child }
        else some { s with alive := false }
      else none

abbrev Reachable (n : Nat) (s : St) : Prop := Reach init (step n) s

end Verif.ForkJoin
