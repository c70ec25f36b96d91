import Verif.Run
/-!
# A chain of `then` / `upon_error` / `upon_stopped` on a GPU stream — model (C88)

Models the operation state of such a chain: `/repo/include/nvexec/stream/common.cuh` `opstate_base::defer_temp_storage_destruction`
694-729, `propagate_completion_signal` 742-772 (stream receivers), `stream_provider` 347-395 (rites), `opstate` 814-922
(`start` 886-918, destructor 868-881); `/repo/include/nvexec/stream/then.cuh` 38-125, `upon_error.cuh` 38-122, `upon_stopped.cuh`
38-118. The host walks through the receivers and enqueues kernels; the device executes them in order, at any time. A value
is never copied: a stage is given a reference to the storage of the stage that produced it, and an error by a reference to
a variable on the host's stack.
The environment is arbitrary: the number and kinds of the stages, their functions, how the head sender completes, which
launches and which allocations fail, whether the last receiver synchronises the stream before it returns (as `sync_wait`
does) or leaves that to somebody else (as `split` does).
Simplifications: values and error codes are numbers (2: `cudaErrorMemoryAllocation`); one step per receiver called; the
destruction of the whole operation state is one step; a kernel that is accepted does not fail.
-/
namespace Verif.NvChain

inductive Kind
  | thn
  | uponError
  | uponStopped
  deriving DecidableEq, Repr

/-- What the function returns: nothing, a trivially destructible object, another object. -/
inductive Ret
  | void
  | trivial
  | object
  deriving DecidableEq, Repr

structure Stage where
  kind : Kind
  ret : Ret
  f : Nat → Nat
  /-- `sizeof` the result -/
  sz : Nat
  /-- `memory_allocation_size()`: the size of the largest result the stage can have -/
  mx : Nat

inductive Head
  | value
  | error (e : Nat)
  | stopped
  deriving DecidableEq, Repr

structure Cfg where
  n : Nat
  stage : Nat → Stage
  head : Head
  /-- status of the stream that the outermost operation borrowed from the pool (0: good) -/
  status : Nat
  /-- the error of the launch of the kernel of stage `k`, if it fails -/
  launch : Nat → Option Nat
  /-- allocating the storage of stage `k` throws -/
  noMem : Nat → Bool
  /-- the last receiver synchronises the stream before it returns -/
  syncs : Bool

/-- A stage needs storage (common.cuh 900: `memory_allocation_size()` is not 0). -/
def Cfg.needs (c : Cfg) (k : Nat) : Bool := (c.stage k).ret != .void

/-- A completion signal on the host; the value is a reference to the storage of a stage. -/
inductive Sig
  | value (loc : Option Nat)
  | error (e : Nat)
  | stopped
  deriving DecidableEq, Repr

/-- The argument of a kernel. -/
inductive Arg
  | none
  | temp (j : Nat)
  /-- a variable on the host's stack that contains `e` -/
  | host (e : Nat)
  deriving DecidableEq, Repr

/-- The storage of a stage. -/
inductive Cell
  | none
  | alloc
  | obj (v : Nat)
  | freed
  deriving DecidableEq, Repr

/-- Results, as values. -/
inductive PSig
  | value (v : Option Nat)
  | error (e : Nat)
  | stopped
  deriving DecidableEq, Repr

inductive Pc
  /-- the operation of stage `k - 1` is about to be started (the outermost one is started first) -/
  | start (k : Nat)
  /-- the receiver of stage `k` is about to be called -/
  | at (k : Nat) (sig : Sig)
  /-- the last receiver has been called -/
  | term (sig : Sig)
  /-- the last receiver has returned without synchronising; the result is read later -/
  | handed (sig : Sig)
  | out
  | gone
  deriving DecidableEq, Repr

structure St where
  pc : Pc
  /-- the stream -/
  queue : List (Nat × Arg) := []
  mem : Nat → Cell := fun _ => .none
  /-- `cemetery_`: the stages whose result is destroyed and freed by the stream provider -/
  buried : List Nat := []
  /-- the functions on the host's stack have not returned -/
  frames : Bool := true
  result : Option PSig := none
  -- ghost
  /-- the value that stage `k` was launched to compute -/
  val : Nat → Option Nat := fun _ => none
  allocs : List (Nat × Nat) := []
  frees : List (Nat × Nat) := []
  destroyed : List Nat := []
  /-- a kernel or a reader used storage that was not allocated, or had no object in it -/
  bad : Bool := false
  /-- a kernel used a variable of a function that had returned -/
  dangling : Bool := false
  /-- a destructor was called for an object that was never constructed -/
  badDestroy : Bool := false

inductive Act
  | host
  | dev
  | destroy
  deriving DecidableEq, Repr

/-- `start` of the outermost operation: a bad stream is reported to the last receiver (common.cuh 890-896). -/
def init (c : Cfg) : St :=
  { pc := if c.status ≠ 0 then .at c.n (.error c.status) else .start c.n }

def Head.sig : Head → Sig
  | .value => .value none
  | .error e => .error e
  | .stopped => .stopped

/-- `start` of the operation of stage `k` (common.cuh 898-917). -/
def startStage (c : Cfg) (s : St) (k : Nat) : St :=
  if c.needs k then
    if c.noMem k then { s with pc := .at (k + 1) (.error 2) }
    else { s with pc := .start k, mem := upd s.mem k .alloc, allocs := s.allocs ++ [(k, (c.stage k).mx)] }
  else { s with pc := .start k }

/-- The signal for which the function is called, and the argument it is called with (then.cuh 72, upon_error.cuh 79,
upon_stopped.cuh 84). -/
def handles : Kind → Sig → Option Arg
  | .thn, .value none => some .none
  | .thn, .value (some j) => some (.temp j)
  | .uponError, .error e => some (.host e)
  | .uponStopped, .stopped => some .none
  | _, _ => none

/-- Ghost: the value the argument stands for. -/
def absArg (val : Nat → Option Nat) : Arg → Nat
  | .none => 0
  | .temp j => (val j).getD 0
  | .host e => e

/-- `defer_temp_storage_destruction` (common.cuh 694-729). -/
def defer (c : Cfg) (s : St) (k : Nat) : St :=
  if (c.stage k).ret = .object then { s with buried := s.buried ++ [k] } else s

/-- The receiver of stage `k` (then.cuh 72-111, upon_error.cuh 71-112, upon_stopped.cuh 84-118). Only `then` defers the
destruction of the result before it checks the launch (98-101). -/
def recv (c : Cfg) (s : St) (k : Nat) (sig : Sig) : St :=
  match handles (c.stage k).kind sig with
  | none => { s with pc := .at (k + 1) sig }
  | some a =>
    match c.launch k with
    | some e =>
      { (if (c.stage k).kind = .thn then defer c s k else s) with pc := .at (k + 1) (.error e) }
    | none =>
      { defer c s k with
        pc := .at (k + 1) (.value (if c.needs k then some k else none))
        queue := s.queue ++ [(k, a)]
        val := if c.needs k then upd s.val k (some ((c.stage k).f (absArg s.val a))) else s.val }

/-- Reading the result. -/
def deliver (s : St) : Sig → St
  | .value none => { s with pc := .out, frames := false, result := some (.value none) }
  | .value (some j) =>
    match s.mem j with
    | .obj v => { s with pc := .out, frames := false, result := some (.value (some v)) }
    | _ => { s with pc := .out, frames := false, bad := true, result := some (.value (some 0)) }
  | .error e => { s with pc := .out, frames := false, result := some (.error e) }
  | .stopped => { s with pc := .out, frames := false, result := some .stopped }

def hostStep (c : Cfg) (s : St) : Option St :=
  match s.pc with
  | .start 0 => some { s with pc := .at 0 c.head.sig }
  | .start (k + 1) => some (startStage c s k)
  | .at k sig => if k < c.n then some (recv c s k sig) else some { s with pc := .term sig }
  | .term sig =>
    if c.syncs then (if s.queue = [] then some (deliver s sig) else none)
    else some { s with pc := .handed sig, frames := false }
  | .handed sig => if s.queue = [] then some (deliver s sig) else none
  | .out => none
  | .gone => none

/-- What a kernel reads. -/
def readArg (s : St) : Arg → St × Nat
  | .none => (s, 0)
  | .temp j => match s.mem j with
    | .obj v => (s, v)
    | _ => ({ s with bad := true }, 0)
  | .host e => if s.frames then (s, e) else ({ s with dangling := true }, 0)

/-- What a kernel writes (then.cuh 50-54). -/
def writeRes (c : Cfg) (s : St) (k v : Nat) : St :=
  if c.needs k then { s with mem := upd s.mem k (.obj v), bad := s.bad || s.mem k != .alloc } else s

/-- The device executes the next kernel of the stream (then.cuh 42-54). -/
def devStep (c : Cfg) (s : St) : Option St :=
  match s.queue with
  | [] => none
  | (k, a) :: q =>
    let r := readArg { s with queue := q } a
    some (writeRes c r.1 k ((c.stage k).f r.2))

/-- The destructor of `opstate` frees the storage that was not deferred (common.cuh 876-881). -/
def freeOwn (c : Cfg) (s : St) (k : Nat) : St :=
  if k ∉ s.buried ∧ s.mem k ≠ .none ∧ s.mem k ≠ .freed then
    { s with frees := s.frees ++ [(k, (c.stage k).mx)], mem := upd s.mem k .freed }
  else s

/-- A rite (common.cuh 706-727). -/
def rite (c : Cfg) (s : St) (k : Nat) : St :=
  match s.mem k with
  | .obj _ => { s with destroyed := s.destroyed ++ [k], frees := s.frees ++ [(k, (c.stage k).sz)], mem := upd s.mem k .freed }
  | _ => { s with badDestroy := true, destroyed := s.destroyed ++ [k], frees := s.frees ++ [(k, (c.stage k).sz)]
                  mem := upd s.mem k .freed }

/-- The operation state is destroyed, outermost stage first, the stream provider last. -/
def destroyAll (c : Cfg) (s : St) : St :=
  { s.buried.foldl (rite c) ((List.range c.n).reverse.foldl (freeOwn c) s) with pc := .gone }

def step (c : Cfg) (s : St) : Act → Option St
  | .host => hostStep c s
  | .dev => devStep c s
  | .destroy => if s.pc = .out then some (destroyAll c s) else none

abbrev Reachable (c : Cfg) (s : St) : Prop := Reach (init c) (step c) s

end Verif.NvChain
