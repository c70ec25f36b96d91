import Verif.Common

/-!
# Threads, NUMA nodes and constrained scheduling (`exec/detail/numa.hpp`, `exec/static_thread_pool.hpp`)

The default policy assigns each thread of a pool to a node, a scheduler may be constrained to some nodes, and tasks that come from outside the
pool, or from a thread of another node, are dealt out to the threads of the allowed nodes in turn.

Simplifications: integers are natural numbers except the per-thread counter, which wraps at `2^64`; `std::upper_bound` and
`std::lower_bound` are the first position at which the predicate turns true (their documented result on a sorted range); reading outside a
vector is `none`, and so is the remainder by zero. What libnuma says about the machine is the list of the numbers of processors of the nodes.
-/
namespace Verif.Numa

/-- `_node_to_thread_index::get` (numa.hpp:136-153): running totals of the numbers of processors. -/
def totals : List Nat → Nat → List Nat
  | [], _ => []
  | c :: r, t => (t + c) :: totals r (t + c)

/-- `thread_index_to_node` (numa.hpp:190-198). -/
def toNode (cpus : List Nat) (idx : Nat) : Option Nat :=
  match (totals cpus 0).getLast? with
  | none => none
  | some 0 => none
  | some (n + 1) => some ((totals cpus 0).findIdx fun t => decide (idx % (n + 1) < t))

/-- A pool (static_thread_pool.hpp:695-716, :733-751). -/
structure Pool where
  /-- `thread_count_` -/
  count : Nat
  /-- `thread_index_to_node` of the policy -/
  node : Nat → Nat
  /-- `num_nodes` of the policy -/
  nodes : Nat
  /-- `thread_index_by_numa_node_`: pairs of node and thread -/
  tab : List (Nat × Nat)

/-- What the constructor establishes (:743-751): every thread is in the table, which is sorted by node; `std::ranges::sort` is not stable, so
the order within a node is open. -/
structure Pool.Made (p : Pool) : Prop where
  pos : 0 < p.count
  all : p.tab.Perm ((List.range p.count).map fun i => (p.node i, i))
  sorted : p.tab.Pairwise fun a b => a.1 ≤ b.1

/-- `std::ranges::lower_bound` (:827, :858). -/
def lower (tab : List (Nat × Nat)) (k : Nat) : Nat := tab.findIdx fun e => decide (k ≤ e.1)

/-- `num_threads(int)` (:824-834). -/
def numOn (tab : List (Nat × Nat)) (k : Nat) : Nat :=
  if lower tab k = tab.length then 0 else (tab.drop (lower tab k)).findIdx fun e => decide (k < e.1)

/-- The loop of `num_threads(nodemask)` (:841-849) over the first nodes. -/
def countLoop (tab : List (Nat × Nat)) (mask : Nat → Bool) : Nat → Nat
  | 0 => 0
  | n + 1 => countLoop tab mask n + if mask n then numOn tab n else 0

/-- `num_threads(nodemask)` (:836-851). -/
def numAllowed (tab : List (Nat × Nat)) (mask : Nat → Bool) : Nat := countLoop tab mask ((tab.getLast?.map (·.1)).getD 0 + 1)

/-- `get_thread_index` (:853-862). -/
def getIdx (tab : List (Nat × Nat)) (k j : Nat) : Option Nat := tab[lower tab k + j]?.map (·.2)

/-- The loop of `random_thread_index_with_constraints` (:874-887), `n` nodes left from node `k`. -/
def pickLoop (tab : List (Nat × Nat)) (mask : Nat → Bool) : Nat → Nat → Nat → Option Nat
  | 0, _, target => some target
  | n + 1, k, target =>
    if mask k then
      if target < numOn tab k then getIdx tab k target else pickLoop tab mask n (k + 1) (target - numOn tab k)
    else pickLoop tab mask n (k + 1) target

/-- `random_thread_index_with_constraints` (:864-889) with the counter after its increment. -/
def pick (p : Pool) (mask : Nat → Bool) (start : Nat) : Option Nat :=
  let n := numAllowed p.tab mask
  let target := start % (if n = 0 then p.count else n)
  if n = 0 then some target else pickLoop p.tab mask p.nodes 0 target

/-- What `k` calls in a row return on one thread, from the counter `s` (:868-869). -/
def calls (p : Pool) (mask : Nat → Bool) : Nat → Nat → List (Option Nat)
  | _, 0 => []
  | s, k + 1 => pick p mask ((s + 1) % 2 ^ 64) :: calls p mask ((s + 1) % 2 ^ 64) k

/-- Thread to whose queues `enqueue` gives a task (:891-913); `caller` is the number of the calling thread if it is one of the pool. -/
def route (p : Pool) (mask : Nat → Bool) (caller : Option Nat) (start : Nat) : Option Nat :=
  match caller with
  | some i => if i < p.count ∧ mask (p.node i) then some i else pick p mask ((start + 1) % 2 ^ 64)
  | none => pick p mask ((start + 1) % 2 ^ 64)

/-- The loop of `victims` (:617-633): near ones, all. -/
def victimLoop (p : Pool) (i : Nat) : List Nat → List Nat × List Nat → List Nat × List Nat
  | [], r => r
  | v :: l, (near, all) =>
    if v = i then victimLoop p i l (near, all)
    else victimLoop p i l (if p.node v = p.node i then near ++ [v] else near, all ++ [v])

/-- Victims of thread `i` (:752-760). -/
def victims (p : Pool) (i : Nat) : List Nat × List Nat := victimLoop p i (List.range p.count) ([], [])

end Verif.Numa
