import Verif.Common
/-!
# `let_value`, `let_error` and `let_stopped` on a GPU stream (`nvexec/stream/let_xxx.cuh`)

The operation as the list of what it does, for any machine and any senders: how the first sender completes, what the function returns, how
the second sender completes, which calls of the CUDA runtime fail.

Models `_let_kernel` (:39-45), `_receiver` (:123-190), `_opstate` (:199-253) of `let_xxx.cuh`, with `opstate::start` (:886-918), `~opstate`
(:868-881) and `opstate_base::defer_temp_storage_destruction` (:694-729) of `nvexec/stream/common.cuh`.

Simplifications: values and senders are numbers; a kernel that was accepted runs to its end before `cudaStreamSynchronize` returns; the
operation state is destroyed, and its stream provider with it, when the receiver has been completed.
-/
namespace Verif.NvLet

/-- The three channels. -/
inductive Tag
  | value | error | stopped
  deriving DecidableEq, Repr

/-- A completion: the channel and what is delivered on it. -/
structure Sig where
  tag : Tag
  arg : Nat
  deriving DecidableEq, Repr

/-- Where the first sender's result lies while its receiver is called (`then.cuh:96-107`: a result in the operation state, an error in a
    variable on the host's stack). -/
inductive Place
  | opstate | stack
  deriving DecidableEq, Repr

/-- Everything that is not decided by the code modelled here. -/
structure World where
  chan : Tag                -- `SetTag`: `let_value`, `let_error` or `let_stopped`
  status : Nat              -- the stream provider's status: 0, or the error of its creation
  allocOk : Bool            -- the allocation of the temporary storage succeeds
  first : Sig               -- how the first sender completes
  place : Place             -- where its result lies
  launchOk : Bool           -- the kernel is accepted
  sync : Nat                -- what `cudaStreamSynchronize` returns: 0, or an error
  fn : Nat → Nat            -- the function
  size : Nat                -- `sizeof` the sender that the function returns for this completion
  mx : Nat                  -- `memory_allocation_size()`: the largest of the possible ones (:57-69, :128-132)
  trivial : Bool            -- the sender that the function returns is trivially destructible
  second : Nat → Sig        -- how that sender completes
  later : Bool              -- it completes after the call that completed the first one has returned

/-- What happens. -/
inductive Ev
  | alloc (size : Nat)      -- the temporary storage is allocated
  | firstStarted
  | call (arg : Nat)        -- the function is called
  | readByDevice (p : Place) -- the kernel reads the arguments
  | construct (s : Nat)     -- the returned sender is constructed in the temporary storage
  | connect (s : Nat)       -- it is moved from, connected, and the result is started
  | connectGarbage          -- the same, but nothing was constructed in the storage
  | returned                -- the call that completed the first sender returns
  | use (p : Place)         -- the second operation uses the arguments, by reference
  | complete (s : Sig)      -- the receiver is completed
  | destroySender (s : Nat) -- the returned sender is destroyed
  | dealloc (size : Nat)    -- the temporary storage is deallocated
  deriving DecidableEq, Repr

/-- `propagate_completion_signal` (common.cuh:742-772). -/
def propagate (s : Sig) : List Ev := [.complete s]

/-- The end of the operation state: its destructor (common.cuh:868-881) frees the temporary storage if that was not deferred, then the stream
    provider performs the last rites (common.cuh:707-728), with the size of the sender. `deferred`: the sender to destroy. -/
def finish (w : World) (allocated : Bool) (deferred : Option Nat) : List Ev :=
  match deferred with
  | some s => [.destroySender s, .dealloc w.size]
  | none => if allocated = true then [.dealloc w.mx] else []

/-- `_complete` for the channel of the algorithm (let_xxx.cuh:134-157), then the end. -/
def matching (w : World) : List Ev :=
  let kernel :=                                                           -- :141-143, the kernel :39-45
    if w.launchOk = true then [.readByDevice w.place, .call w.first.arg, .construct (w.fn w.first.arg)] else []
  if w.sync = 0 then                                                      -- :145-146
    if w.launchOk = true then
      let s := w.fn w.first.arg
      let deferred := if w.trivial = true then none else some s           -- :148, common.cuh:699-701
      let back := if w.later = true then [.returned, .use w.place] else [.use w.place]
      kernel ++ [.connect s] ++ back ++ propagate (w.second s) ++ finish w true deferred    -- :149-150
    else [.connectGarbage]
  else kernel ++ propagate ⟨.error, w.sync⟩ ++ finish w true none         -- :152-155

/-- `_receiver`'s functions (let_xxx.cuh:159-179), then the end. -/
def received (w : World) : List Ev :=
  if w.first.tag = w.chan then matching w else propagate w.first ++ finish w true none

/-- `opstate::start` (common.cuh:886-918), for a receiver that needs temporary storage, and all that follows. -/
def run (w : World) : List Ev :=
  if w.status ≠ 0 then propagate ⟨.error, w.status⟩ ++ finish w false none     -- :890-896
  else if w.allocOk = true then [.alloc w.mx, .firstStarted] ++ received w     -- :903-907, :917
  else propagate ⟨.error, 2⟩ ++ finish w false none                            -- :909-913, `cudaErrorMemoryAllocation`

end Verif.NvLet
