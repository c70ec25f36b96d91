import Verif.ParSched.Model
/-!
# What `bulk` promises
-/
namespace Verif.ParSched

/-- How many of the ranges contain the index `i`. -/
def cover : List (Nat × Nat) → Nat → Nat
  | [], _ => 0
  | r :: rs, i => (if r.1 ≤ i ∧ i < r.2 then 1 else 0) + cover rs i

/-- Every index below `n` once, no other index. -/
def EachOnce (n : Nat) (l : List (Nat × Nat)) : Prop := ∀ i, cover l i = if i < n then 1 else 0

/-- The contract of a back end asked for `n` items (`__parallel_scheduler_backend.hpp:126-143`): it calls `execute` for
different non-empty subranges of `[0, n)`, or for each item. -/
structure BackendOk (k : Kind) (n : Nat) (execs : List (Nat × Nat)) : Prop where
  once : EachOnce n execs
  nonempty : ∀ r ∈ execs, r.1 < r.2
  single : k = .unchunked → ∀ r ∈ execs, r.2 = r.1 + 1

end Verif.ParSched
