import Verif.Common
/-!
# Type-erased senders: completion and stop requests

`exec/any_sender_of.hpp:317-483`: the operation state of `any_sender`. The type-erased operation is given a reference to the receiver, and a stop token of the erased type:
the receiver's own token if it can be converted, a token that never stops if the receiver's cannot, and otherwise the token of a stop source inside the operation
state, to which a stop callback forwards the receiver's stop requests.

One operation; the erased operation (the child) is arbitrary: it completes once, at any time after its start, on any thread, also inside a stop callback it has registered.
The receiver's stop source runs a callback at most once, inside the registration if stop was requested before; destroying a callback waits for a run on another thread
(C01-C04). The receiver destroys the operation state when it is completed.
-/
namespace Verif.AnySender

/-- The three specialisations of `_state`. -/
inductive Kind
  | translate   -- own stop source (`:351-396`)
  | same        -- the receiver's token is convertible (`:398-411`)
  | never       -- a default-constructed token (`:413-430`)
  deriving DecidableEq, Repr

inductive Sig | value (v : Nat) | error (e : Nat) | stopped
  deriving DecidableEq, Repr

/-- `start` (`:475-479`). -/
inductive SPC
  | idle
  | reg         -- `_register_callback()`
  | inReg       -- the callback is running inside its registration
  | child       -- `_opstate_.start()`
  | ret
  deriving DecidableEq, Repr

/-- A run of the stop callback: `_stop_source_.request_stop()`. -/
inductive FPC
  | off
  | begin_      -- it sets the flag
  | mid         -- it runs the child's stop callbacks
  | tail        -- it looks for further callbacks
  | done
  deriving DecidableEq, Repr

/-- The child. -/
inductive CPC
  | off
  | run
  | unreg (g : Sig) (inl : Bool)   -- its completion call: `_callback_.__destroy()`; `inl`: inside the child's stop callback
  | call (g : Sig) (inl : Bool)    -- then the receiver is completed
  | done
  deriving DecidableEq, Repr

structure St where
  s : SPC := .idle
  f : FPC := .off
  c : CPC := .off
  stopReq : Bool := false      -- stop was requested on the receiver's token
  inner : Bool := false        -- stop was requested on the operation's own source
  reg : Bool := false          -- the stop callback exists
  alive : Bool := true
  sigs : List Sig := []        -- ghost: the receiver's completions
  sent : List Sig := []        -- ghost: the child's completions
  bad : Bool := false          -- ghost: the operation state was used after its destruction
  deriving DecidableEq, Repr

def init : St := {}

inductive Act
  | start | drop
  | s                              -- the starter's next step
  | f                              -- the next step of the stop callback's run
  | comp (g : Sig) (inl : Bool)    -- the child completes
  | c                              -- the next step of the completion
  | reqStop                        -- stop is requested on the receiver's token
  deriving DecidableEq, Repr

def St.acc (x : St) : St := { x with bad := x.bad || !x.alive }

/-- Is the stop callback running? -/
def FPC.act : FPC → Bool
  | .begin_ => true | .mid => true | .tail => true
  | _ => false

/-- Is the child completing inside its own stop callback? -/
def CPC.inl : CPC → Bool
  | .unreg _ i => i
  | .call _ i => i
  | _ => false

/-- One step. `inlineOk`: the child may complete inside its own stop callback. -/
def step (k : Kind) (inlineOk : Bool) (x : St) : Act → Option St
  | .start => if x.s = .idle ∧ x.alive then some { x with s := .reg } else none
  | .drop => if x.s = .idle ∧ x.alive then some { x with s := .ret, alive := false } else none
  | .s =>
    match x.s with
    | .reg =>
      if k = .translate then
        if x.stopReq then some { x.acc with reg := true, f := .begin_, s := .inReg } else some { x.acc with reg := true, s := .child }
      else some { x with s := .child }
    | .inReg => if x.f = .done then some { x with s := .child } else none
    | .child => some { x.acc with c := .run, s := .ret }
    | _ => none
  | .f =>
    match x.f with
    | .begin_ => some { x.acc with inner := true, f := .mid }
    | .mid => if x.c.inl then none else some { x with f := .tail }
    | .tail => some { x.acc with f := .done }
    | _ => none
  | .comp g inl =>
    if x.c = .run ∧ (inl → inlineOk ∧ x.f = .mid) then some { x.acc with c := .unreg g inl, sent := x.sent ++ [g] } else none
  | .c =>
    match x.c with
    | .unreg g inl =>
      if k = .translate then (if x.f.act ∧ inl = false then none else some { x.acc with reg := false, c := .call g inl })
      else some { x with c := .call g inl }
    | .call g _ => some { x.acc with c := .done, sigs := x.sigs ++ [g], alive := false }
    | _ => none
  | .reqStop =>
    if x.stopReq then none
    else some { x with stopReq := true, f := if x.reg then .begin_ else x.f }

/-- The stop state the child sees through its token. -/
def childSees (k : Kind) (x : St) : Bool :=
  match k with
  | .translate => x.inner
  | .same => x.stopReq
  | .never => false

end Verif.AnySender
