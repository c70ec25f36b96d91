import Verif.Common
import Verif.ListSum
/-!
# Model of `exec::merge_each` (include/exec/sequence/merge_each.hpp)

The operation, the producer of the sequence of sequences (agent `0`), every nested sequence and every nested value
sender run concurrently; an unbounded number of nested sequences and values may be created.  What each completion
signal of a child does is a short program of shared-memory operations (`Op`), executed one operation per step, so that
programs of different children interleave arbitrarily.

Simplifications: errors are numbers (an `exception_ptr` made from `e` is `e`); the operations on one atomic are
sequentially consistent; registration/deregistration of the receiver's stop callback is one step each (the
stop-source model C01-C04 covers them); a consumer either never starts the item it is given or starts it once.
The sequence-sender contract is assumed of the children: a producer completes only after each item it emitted has
completed its next-receiver.
-/
namespace Verif.MergeEach

/-- Completion signals of a child. -/
inductive Sig | value | error (e : Nat) | stopped
  deriving DecidableEq, Repr

/-- merge_each.hpp:157-162, `__completion_t`. -/
inductive Compl | started | error | stopped
  deriving DecidableEq, Repr

/-- What a child is: the sequence of sequences, a nested sequence (its item sender first, then the sequence),
    or a value sender emitted by the nested sequence `owner`. -/
inductive Kind | outer | seq | val (owner : Nat)
  deriving DecidableEq, Repr

/-- One shared-memory operation of a completion handler.
    `note b`: complete the item's next-receiver with set_value (`true`) or set_stopped (`false`);
    `fail e` / `except e`: the exchange in `nested_value_fail` (448-465) / `set_exception` (355-383);
    `rstop`: `__nested_stop_.request_stop()` (126-133); `store e` / `storeEx e`: write the error storage (199-217) /
    `__ex_` (366-380); `brk`: the compare-exchange of `set_break` (384-393); `dec`: `--__active_` (481-484);
    `unreg`: `unregister_token` (108-114); `finish`: the switch of `complete_if_none_active` (486-545). -/
inductive Op
  | note (b : Bool) | fail (e : Nat) | except (e : Nat) | rstop | store (e : Nat) | storeEx (e : Nat)
  | brk | dec | unreg | finish
  deriving DecidableEq, Repr

/-- Program counter of a child: not created; handed over by set_next but not started; running the sender of a nested
    sequence; running; executing a completion handler; waiting for the error item to be consumed; finished. -/
inductive Pc
  | absent | given | live0 | live | run (ops : List Op) | errItem | done
  deriving DecidableEq, Repr

/-- Calls observed by the output receiver. -/
inductive Ev
  | next (i : Nat) | errNext (e : Option Nat) | value | error (e : Nat) | stopped
  deriving DecidableEq, Repr

/-- Terminal completion? -/
def Ev.term : Ev → Bool
  | .value | .error _ | .stopped => true
  | _ => false

structure St where
  /-- Can the output receiver's stop token be stopped (`!unstoppable_token`)? -/
  stoppable : Bool
  pc : Nat → Pc
  kind : Nat → Kind
  /-- Children created so far. -/
  agents : List Nat
  /-- The producer's next-receiver of this item was completed. -/
  acked : Nat → Bool
  /-- The item's operation state was destroyed by its producer. -/
  gone : Nat → Bool
  /-- The consumer's item receiver was completed (values only). -/
  noted : Nat → Bool
  active : Nat
  compl : Compl
  ex : Option Nat
  store : Option Nat
  stopReq : Bool
  /-- Stop requested on the output receiver's own token. -/
  rcvStop : Bool
  registered : Bool
  begun : Bool
  log : List Ev
  /-- Ghost: the signal with which a child completed (for a nested sequence: the signal that ended it). -/
  sig : Nat → Option Sig
  /-- Ghost: errors in the order in which they reached the operation, with the child that reported each. -/
  reports : List (Nat × Nat)
  /-- Ghost: the sequence of sequences completed with set_stopped. -/
  outerStopped : Bool
  /-- Ghost: an error object was read after the operation state that holds it was destroyed. -/
  dangling : Bool
  /-- Ghost: children that finished without completing their producer's next-receiver. -/
  lost : List Nat

def init (stoppable : Bool) : St :=
  { stoppable, pc := fun _ => .absent, kind := fun _ => .outer, agents := [], acked := fun _ => false,
    gone := fun _ => false, noted := fun _ => false, active := 0, compl := .started, ex := none, store := none,
    stopReq := false, rcvStop := false, registered := false, begun := false, log := [], sig := fun _ => none, reports := [],
    outerStopped := false, dangling := false, lost := [] }

/-- Completion handlers of `__receive_nested_sequences` (1135-1151): the sequence of sequences. -/
def progOuter : Sig → List Op
  | .value => [.dec]
  | .error e => [.except e, .brk, .dec]
  | .stopped => [.brk, .dec]

/-- `__receive_nested_sequence` (1012-1047): error or stopped from the sender of a nested sequence, or an exception
    `e` from subscribing to it.  Note that no `note` occurs: `__op_->nested_sequence_break()` and
    `__op_->nested_sequence_complete()` are the members of the operation, not of `__next_seq_op_`. -/
def progSeq0 : Sig → List Op
  | .value => [.dec]
  | .error e => [.fail e, .brk, .dec]
  | .stopped => [.dec]

/-- `__receive_nested_values` (766-781) with `__next_operation_base` (713-725): a nested sequence. -/
def progSeq : Sig → List Op
  | .value => [.note true, .dec]
  | .error e => [.fail e, .note false, .brk, .dec]
  | .stopped => [.note true, .dec]

/-- `__receive_nested_value` (566-588): a nested value sender. -/
def progVal : Sig → List Op
  | .value => [.note true, .dec]
  | .error e => [.note false, .fail e, .brk, .dec]
  | .stopped => [.note false, .dec]

inductive Act
  /-- start() of the merge_each operation. -/
  | start
  /-- The producer of sequences calls set_next with item `i`. -/
  | nextSeq (i : Nat)
  /-- The nested sequence `j` calls set_next with item `i`. -/
  | nextVal (j i : Nat)
  /-- Item `i` is started. -/
  | begin (i : Nat)
  /-- The consumer (or a producer dropping the item) completes the producer's next-receiver for item `i`. -/
  | ack (i : Nat)
  /-- The producer destroys the operation state of item `i`. -/
  | destroy (i : Nat)
  /-- Child `i` completes; for the sender of a nested sequence `.value` means that it produced the sequence and that
      subscribing succeeded. -/
  | complete (i : Nat) (sig : Sig)
  /-- Child `i` executes the next operation of its completion handler. -/
  | op (i : Nat)
  /-- Executing the error item: set_next or connect throws `e`. -/
  | opThrow (i e : Nat)
  /-- The consumer completes the error item. -/
  | errAck (i : Nat)
  /-- Stop is requested on the output receiver's token. -/
  | extStop
  deriving DecidableEq, Repr

/-- All items of `j` handed over so far have completed their next-receiver. -/
def itemsDone (s : St) (j : Nat) : Bool :=
  s.agents.all fun i => i == 0 || (match s.kind i with
    | .outer => true
    | .seq => j != 0 || s.acked i
    | .val k => k != j || s.acked i)

/-- merge_each.hpp:1176-1193, `__operation::start`: register the stop callback (which runs at once when stop was
    requested); if stopped, complete; otherwise `sequence_started()` and start the sequence of sequences. -/
def stepStart (s : St) : Option St :=
  if s.begun then none
  else if s.stoppable && s.rcvStop then
    some { s with begun := true, registered := true, stopReq := true, log := s.log ++ [.stopped] }
  else
    some { s with begun := true, registered := s.stoppable, active := 1, pc := upd s.pc 0 .live,
                  kind := upd s.kind 0 .outer, agents := 0 :: s.agents }

/-- merge_each.hpp:1123-1132, `__receive_nested_sequences::set_next`. -/
def stepNextSeq (s : St) (i : Nat) : Option St :=
  if s.pc 0 = .live ∧ i ≠ 0 ∧ s.pc i = .absent then
    some { s with pc := upd s.pc i .given, kind := upd s.kind i .seq, agents := i :: s.agents }
  else none

/-- merge_each.hpp:755-764, `__receive_nested_values::set_next` forwards the wrapped item to the output receiver. -/
def stepNextVal (s : St) (j i : Nat) : Option St :=
  if j ≠ 0 ∧ s.pc j = .live ∧ s.kind j = .seq ∧ i ≠ 0 ∧ s.pc i = .absent then
    some { s with pc := upd s.pc i .given, kind := upd s.kind i (.val j), agents := i :: s.agents,
                  log := s.log ++ [.next i] }
  else none

/-- merge_each.hpp:618-622 and 1076-1080: `start` of an item: `++__active_`, then start the child. -/
def stepBegin (s : St) (i : Nat) : Option St :=
  if s.pc i = .given ∧ s.acked i = false then
    match s.kind i with
    | .outer => none
    | .seq => some { s with active := s.active + 1, pc := upd s.pc i .live0 }
    | .val _ => some { s with active := s.active + 1, pc := upd s.pc i .live }
  else none

/-- The producer's next-receiver of item `i` is completed by somebody else than merge_each: by the consumer, for a
    value item that it never started or whose own receiver was completed; by the producer itself, for a nested sequence
    that it dropped before starting it (connecting it threw, say). -/
def stepAck (s : St) (i : Nat) : Option St :=
  match s.kind i with
  | .val _ =>
    if s.acked i = false ∧ (s.pc i = .given ∨ s.noted i = true) then
      some { s with acked := upd s.acked i true }
    else none
  | .seq =>
    if s.acked i = false ∧ s.pc i = .given then some { s with acked := upd s.acked i true } else none
  | .outer => none

/-- Once the next-receiver was completed the producer may destroy the item's operation state. -/
def stepDestroy (s : St) (i : Nat) : Option St :=
  if s.acked i = true ∧ s.gone i = false then some { s with gone := upd s.gone i true } else none

/-- A child completes; its handler is the program of its kind. -/
def stepComplete (s : St) (i : Nat) (sig : Sig) : Option St :=
  match s.pc i with
  | .live0 =>
    match sig with
    | .value => some { s with pc := upd s.pc i .live }
    | _ => some { s with pc := upd s.pc i (.run (progSeq0 sig)), lost := i :: s.lost, sig := upd s.sig i (some sig) }
  | .live =>
    match s.kind i with
    | .outer =>
      if itemsDone s i then
        some { s with pc := upd s.pc i (.run (progOuter sig)),
                      outerStopped := s.outerStopped || decide (sig = .stopped), sig := upd s.sig i (some sig) }
      else none
    | .seq =>
      if itemsDone s i then some { s with pc := upd s.pc i (.run (progSeq sig)), sig := upd s.sig i (some sig) } else none
    | .val _ => some { s with pc := upd s.pc i (.run (progVal sig)), sig := upd s.sig i (some sig) }
  | _ => none

/-- The handler continues with `ops`. -/
def cont : List Op → Pc
  | [] => .done
  | ops => .run ops

/-- One operation of child `i`'s handler. -/
def stepOp (s : St) (i : Nat) : Option St :=
  match s.pc i with
  | .run (o :: ops) =>
    match o with
    | .note _ =>
      match s.kind i with
      | .val _ => some { s with noted := upd s.noted i true, pc := upd s.pc i (cont ops) }
      | _ => some { s with acked := upd s.acked i true, pc := upd s.pc i (cont ops) }
    | .fail e =>
      match s.compl with
      | .started => some { s with compl := .error, reports := s.reports ++ [(i, e)],
                                  pc := upd s.pc i (.run (.rstop :: .store e :: ops)) }
      | .stopped => some { s with compl := .error, reports := s.reports ++ [(i, e)],
                                  pc := upd s.pc i (.run (.store e :: ops)) }
      | .error => some { s with reports := s.reports ++ [(i, e)], pc := upd s.pc i (cont ops) }
    | .except e =>
      match s.compl with
      | .started => some { s with compl := .error, reports := s.reports ++ [(i, e)],
                                  pc := upd s.pc i (.run (.rstop :: .storeEx e :: ops)) }
      | .stopped => some { s with compl := .error, reports := s.reports ++ [(i, e)],
                                  pc := upd s.pc i (.run (.storeEx e :: ops)) }
      | .error => some { s with reports := s.reports ++ [(i, e)], pc := upd s.pc i (cont ops) }
    | .rstop => some { s with stopReq := s.stopReq || s.stoppable, pc := upd s.pc i (cont ops) }
    | .store e => some { s with store := some e, dangling := s.dangling || s.gone i, pc := upd s.pc i (cont ops) }
    | .storeEx e => some { s with ex := some e, pc := upd s.pc i (cont ops) }
    | .brk =>
      match s.compl with
      | .started => some { s with compl := .stopped, pc := upd s.pc i (.run (.rstop :: ops)) }
      | _ => some { s with pc := upd s.pc i (cont ops) }
    | .dec =>
      if s.active = 1 then some { s with active := 0, pc := upd s.pc i (.run [.unreg, .finish]) }
      else some { s with active := s.active - 1, pc := upd s.pc i .done }
    | .unreg => some { s with registered := false, pc := upd s.pc i (cont ops) }
    | .finish =>
      match s.compl with
      | .started => some { s with log := s.log ++ [.value], pc := upd s.pc i .done }
      | .stopped => some { s with log := s.log ++ [.stopped], pc := upd s.pc i .done }
      | .error =>
        match s.ex with
        | some e => some { s with log := s.log ++ [.error e], pc := upd s.pc i .done }
        | none => some { s with log := s.log ++ [.errNext s.store], pc := upd s.pc i .errItem }
  | _ => none

/-- merge_each.hpp:519-543: set_next or connect of the error item throws: the exception is delivered by set_error. -/
def stepOpThrow (s : St) (i e : Nat) : Option St :=
  if s.pc i = .run [.finish] ∧ s.compl = .error ∧ s.ex = none then
    some { s with log := s.log ++ [.error e], pc := upd s.pc i .done }
  else none

/-- merge_each.hpp:471-476, `error_complete`: `__set_value_unless_stopped`. -/
def stepErrAck (s : St) (i : Nat) : Option St :=
  if s.pc i = .errItem then
    some { s with log := s.log ++ [if s.stoppable && s.rcvStop then .stopped else .value], pc := upd s.pc i .done }
  else none

/-- Stop on the receiver's token runs the registered callback, which requests stop on the nested source. -/
def stepExtStop (s : St) : Option St :=
  some { s with rcvStop := true, stopReq := s.stopReq || s.registered }

def step (s : St) : Act → Option St
  | .start => stepStart s
  | .nextSeq i => stepNextSeq s i
  | .nextVal j i => stepNextVal s j i
  | .begin i => stepBegin s i
  | .ack i => stepAck s i
  | .destroy i => stepDestroy s i
  | .complete i sig => stepComplete s i sig
  | .op i => stepOp s i
  | .opThrow i e => stepOpThrow s i e
  | .errAck i => stepErrAck s i
  | .extStop => stepExtStop s

end Verif.MergeEach
