import Verif.Common
/-!
# The multi-GPU context (`nvexec/multi_gpu_context.cuh`)

What the constructor of the context does to the machine, for any number of devices and any failures of the CUDA runtime, and an
operation of its scheduler from its making to its end.

Models `multi_gpu_stream_context` (:167-229) and `_strm::multi_gpu_stream_scheduler` (:32-154) of `nvexec/multi_gpu_context.cuh`,
`continuation_kernel` (`nvexec/stream/common.cuh:582-588`) and `STDEXEC_ASSERT_CUDA_API`
(`nvexec/detail/throw_on_cuda_error.cuh:96-102`).

Simplifications: the requests for access are kept as a list of ordered pairs of devices; what the runtime makes of a request is not
modelled (it can grant one of a device for a peer it reaches, once). A kernel that is accepted runs.
-/
namespace Verif.MultiGpu

/-- The machine as far as the constructor sees it: how many devices there are, which can reach which, whether making a device the current
    one succeeds. -/
structure Machine where
  devices : Nat
  reach : Nat → Nat → Bool
  setOk : Nat → Bool

/-- The state of the runtime: the current device and the requests made, each by the device that was current and for a peer. -/
structure Rt where
  current : Nat
  requested : List (Nat × Nat)
  deriving DecidableEq, Repr

/-- `cudaSetDevice`: if it fails the current device stays what it was; nobody looks at the result (:178, :193). -/
def setDevice (m : Machine) (d : Nat) (r : Rt) : Rt := if m.setOk d = true then { r with current := d } else r

/-- `cudaDeviceEnablePeerAccess(peer, 0)`: a request of the current device; nobody looks at the result (:188). -/
def enablePeer (p : Nat) (r : Rt) : Rt := { r with requested := r.requested ++ [(r.current, p)] }

/-- The inner loop (:179-191), from `peer` on with `n` peers to go. -/
def peers (m : Machine) (dev : Nat) : Nat → Nat → Rt → Rt
  | 0,     _, r => r
  | n + 1, p, r =>
      peers m dev n (p + 1) (if p ≠ dev then (if m.reach dev p = true then enablePeer p r else r) else r)

/-- The outer loop (:176-192), from `dev` on with `n` devices to go. -/
def devices (m : Machine) : Nat → Nat → Rt → Rt
  | 0,     _, r => r
  | n + 1, d, r => devices m n (d + 1) (peers m d m.devices 0 (setDevice m d r))

/-- The constructor (:169-194): it remembers the current device, visits all and comes back. -/
def construct (m : Machine) (current : Nat) : Rt :=
  setDevice m current (devices m m.devices 0 { current := current, requested := [] })

/-- A scheduler: the context it belongs to (its `hub_`), the priority, and the number of devices it was told. -/
structure Sched where
  hub : Nat
  priority : Nat
  devices : Nat
  deriving DecidableEq, Repr

/-- `operator==` (:39-42). -/
def same (a b : Sched) : Bool := a.hub == b.hub && a.priority == b.priority

/-- What can be seen of an operation. -/
inductive Ev
  | createStream | value | error (code : Nat) | destroyStream
  /-- A failed assertion: the program ends in a build with assertions. -/
  | assertion
  deriving DecidableEq, Repr

/-- What the runtime does with an operation: the status of `cudaStreamCreate` (0 is success), whether the receiver is one of a stream
    algorithm, whether the kernel that completes another kind of receiver is accepted, whether the operation is started. -/
structure World where
  create : Nat
  streamReceiver : Bool
  launchOk : Bool
  started : Bool
  deriving DecidableEq, Repr

/-- `start()` (:73-99). -/
def start (w : World) : List Ev :=
  let done := if w.create = 0 then Ev.value else Ev.error w.create
  if w.streamReceiver = true then [done] else if w.launchOk = true then [done] else []

/-- `~opstate()` (:62-65): the stream is destroyed, whether it was created or not; `cudaStreamDestroy` of no stream fails. -/
def finish (w : World) : List Ev := if w.create = 0 then [.destroyStream] else [.assertion]

/-- The operation: its constructor (:56-60), `start` if it is started, its destructor. -/
def run (w : World) : List Ev :=
  (if w.create = 0 then [.createStream] else []) ++ (if w.started = true then start w else []) ++ finish w

end Verif.MultiGpu
