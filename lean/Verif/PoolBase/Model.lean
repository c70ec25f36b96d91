import Verif.Bulk.PoolProps
/-!
# `bulk` on the pools derived from `thread_pool_base` (TBB, Taskflow, Asio) — model

Models `/repo/include/exec/thread_pool_base.hpp` lines 182-296 (`bulk_shared_state`), 298-360
(`bulk_receiver`) and 541-552 (`bulk_enqueue`), with `enqueue` of
`/repo/include/exec/tbb/tbb_thread_pool.hpp`, `taskflow/taskflow_thread_pool.hpp` and
`asio/asio_thread_pool.hpp` (each wraps `task->execute_(task, tid)` and hands it to the library; the
library runs every accepted task once, at any time, on any thread).

The protocol executed by a task (lines 228-292: `even_share`, call the function on the range, compare-
exchange `thread_with_exception_`, store `exception_`, `fetch_add` on `finished_threads_`, complete if
last) is statement for statement that of `static_thread_pool`'s `bulk_task`, so the transition
system of `Verif.Bulk` is reused; what differs is the number of tasks, which is computed *in the
shape type* (lines 203-210). That computation is modelled here on machine integers.
-/
namespace Verif.PoolBase

/-- Lines 203-210, `num_agents_required`:
    `static_cast<uint32_t>(std::min(shape_, static_cast<Shape>(pool_.available_parallelism())))` for a
    shape type of `w` bits, signed or not. The conversion of the 32-bit parallelism to `Shape`
    truncates (C++20 modular conversion), `std::min(a, b)` is `b < a ? b : a` in `Shape`, and the
    result is converted back to 32 bits. -/
def agents {w : Nat} (signed : Bool) (shape : BitVec w) (par : BitVec 32) : BitVec 32 :=
  let p : BitVec w := par.setWidth w
  if signed then
    (if p.slt shape then p else shape).signExtend 32
  else
    (if p.ult shape then p else shape).setWidth 32

/-- The transition system of the bulk operation for a given shape value and pool size: lines
    304-339 (start), 541-552 (one `enqueue` per task), 226-292 (task body). -/
def step {w : Nat} (signed : Bool) (shape : BitVec w) (par : BitVec 32) :
    Bulk.St → Bulk.Act → Option Bulk.St :=
  Bulk.step shape.toNat (agents signed shape par).toNat

abbrev Reachable {w : Nat} (signed : Bool) (shape : BitVec w) (par : BitVec 32) (s : Bulk.St) : Prop :=
  Reach Bulk.init (step signed shape par) s

end Verif.PoolBase
