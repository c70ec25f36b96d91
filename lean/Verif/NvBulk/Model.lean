import Verif.Common

/-!
# nvexec `bulk`: which indices are visited, on one device and on several, and in what order

`/repo/include/nvexec/stream/bulk.cuh`. Integers are mathematical integers, wrapped by hand where C++
converts them. Signed overflow is undefined behaviour and has its own outcome.
-/

namespace Verif.NvBulk

/-- An integral type: width in bits, signedness. (`std::integral Shape`, bulk.cuh:40, 54, 164) -/
structure IT where
  w : Nat
  sg : Bool
  deriving DecidableEq

/-- Largest value of the type. -/
def IT.max (T : IT) : Int := if T.sg then 2 ^ (T.w - 1) - 1 else 2 ^ T.w - 1

/-- `static_cast` to the type (modular since C++20). -/
def IT.wrap (T : IT) (x : Int) : Int := if T.sg then Int.bmod x (2 ^ T.w) else x % (2 ^ T.w : Nat)

/-- `int` -/
def i32 : IT := ⟨32, true⟩
/-- `std::size_t` -/
def u64 : IT := ⟨64, false⟩

/-- What a launch does: undefined behaviour on the host, a launch that CUDA refuses (no block or too many),
or calls of the function with these indices. -/
inductive Out
  | ub
  | refused
  | calls (l : List Int)
  deriving DecidableEq

/-- `(static_cast<int>(shape) + block_threads - 1) / block_threads` with `block_threads = 256`
(bulk.cuh:79-80, 207-208, 225-226); `none`: the addition overflows. -/
def grid (n : Int) : Option Int :=
  if i32.wrap n + 256 > i32.max then none else some ((i32.wrap n + 256 - 1).tdiv 256)

/-- One thread of `_bulk_kernel` (bulk.cuh:40-52): the thread's number is converted to `int`, and compared with
the shape converted to `int`. -/
def kernel (n : Int) (t : Nat) : Option Int :=
  if i32.wrap t < i32.wrap n then some (i32.wrap t) else none

/-- `_bulk::receiver::set_value` (bulk.cuh:70-94). Simplified: the order of the threads is not modelled; a call
is recorded by its index. The arguments are passed to all threads alike and left out. -/
def single (n : Int) : Out :=
  if n = 0 then .calls []
  else match grid n with
    | none => .ub
    | some g => if g ≤ 0 then .refused else .calls ((List.range (g * 256).toNat).filterMap (kernel n))

/-- `multi_gpu_bulk::receiver::even_share` (bulk.cuh:272-287). `n / size` and all that follows is computed in
`std::size_t`; the pair is converted to `Shape` at the end. -/
def evenShare (T : IT) (n : Int) (rank size : Int) : Int × Int :=
  let n := u64.wrap n
  let avg := n / size
  let nbig := u64.wrap (avg + 1)
  let bigs := n % size
  let isBig := rank < bigs
  let b := if isBig then u64.wrap (nbig * rank) else u64.wrap (nbig * bigs + (rank - bigs) * avg)
  let e := u64.wrap (b + if isBig then nbig else avg)
  (T.wrap b, T.wrap e)

/-- One thread of `_multi_bulk_kernel` (bulk.cuh:164-176): the index is computed in `Shape`. -/
def multiKernel (T : IT) (b e : Int) (t : Nat) : Option Int :=
  if T.wrap (b + T.wrap t) < e then some (T.wrap (b + T.wrap t)) else none

/-- Does `begin + static_cast<Shape>(t)` overflow? Narrow types are promoted to `int` first, unsigned ones wrap. -/
def overflows (T : IT) (b : Int) (t : Nat) : Bool := T.sg && decide (32 ≤ T.w) && decide (b + T.wrap t > T.max)

/-- The launch for one device (bulk.cuh:205-217 and 222-233). `none`: no launch. -/
def device (T : IT) (n : Int) (dev size : Nat) : Option Out :=
  let s := evenShare T n dev size
  match grid (T.wrap (s.2 - s.1)) with
  | none => some .ub
  | some g =>
    if s.1 < s.2 then
      if g ≤ 0 then some .refused
      else if (List.range (g * 256).toNat).any (overflows T s.1) then some .ub
      else some (.calls ((List.range (g * 256).toNat).filterMap (multiKernel T s.1 s.2)))
    else none

/-- The devices in the order of the launches: all others first, then the current one (bulk.cuh:201-234). -/
def order (size cur : Nat) : List Nat := (List.range size).filter (· ≠ cur) ++ [cur]

/-- All launches together: undefined if one is, refused if one is (and none undefined). -/
def join : List (Option Out) → Out
  | [] => .calls []
  | none :: l => join l
  | some .ub :: _ => .ub
  | some .refused :: l => match join l with
    | .ub => .ub
    | _ => .refused
  | some (.calls c) :: l => match join l with
    | .calls c' => .calls (c ++ c')
    | o => o

/-- `multi_gpu_bulk::receiver::set_value` (bulk.cuh:189-254) on `size` devices, of which `cur` is the current one. -/
def multi (T : IT) (n : Int) (size cur : Nat) : Out :=
  if n = 0 then .calls []
  else join ((order size cur).map fun d => device T n d size)

/-! ## The order of the launches

CUDA's streams and events: a stream executes its commands one after the other; a command that waits for an event
lets the following commands of its stream wait for what was enqueued before the last recording of the event.
The semantics computes, for every stream, which work is certain to be finished before the stream's next command
starts. -/

/-- The commands that `set_value` enqueues. Stream 0 is the baseline stream, stream `d + 1` belongs to device `d`;
event 0 is `ready_to_launch_`, event `d + 1` is `ready_to_complete_[d]`. Work is named by the user. -/
inductive Cmd
  | record (ev stream : Nat)
  | wait (stream ev : Nat)
  | work (stream : Nat) (name : Nat)
  deriving DecidableEq

/-- For every stream and event the work that precedes it; for every finished enqueueing of work its
predecessors. -/
structure Q where
  past : Nat → List Nat := fun _ => []
  evt : Nat → List Nat := fun _ => []
  /-- work with the work certain to be finished before it starts -/
  log : List (Nat × List Nat) := []

/-- `cudaEventRecord`, `cudaStreamWaitEvent`, kernel launch. -/
def Q.issue (q : Q) : Cmd → Q
  | .record e s => { q with evt := upd q.evt e (q.past s) }
  | .wait s e => { q with past := upd q.past s (q.evt e ++ q.past s) }
  | .work s n => { q with past := upd q.past s (n :: q.past s), log := (n, q.past s) :: q.log }

def Q.issues (q : Q) (l : List Cmd) : Q := l.foldl Q.issue q

/-- What is enqueued for another device with a share (bulk.cuh:210-217). The work on device `d` is named `d`. -/
def otherCmds (has : Nat → Bool) (d : Nat) : List Cmd :=
  if has d then [.wait (d + 1) 0, .work (d + 1) d, .record (d + 1) (d + 1)] else []

/-- `set_value` (bulk.cuh:193-243): `has d` says whether device `d`'s share is not empty. -/
def cmds (has : Nat → Bool) (size cur : Nat) (nonzero : Bool) : List Cmd :=
  .record 0 0 ::
    if nonzero then
      ((List.range size).filter (· ≠ cur)).flatMap (otherCmds has) ++
      (if has cur then [.work 0 cur] else []) ++
      ((List.range size).filter (· ≠ cur)).map (fun d => .wait 0 (d + 1))
    else []

end Verif.NvBulk
