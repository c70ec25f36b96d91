import Verif.Common
/-!
# Sender expressions, receivers and the start/complete machine

Deep embedding of stdexec sender expressions (`S`), of the receivers the library's adaptors put
between a child sender and the downstream receiver (`Frame`), and of the run-time behaviour of
`start()` and `set_value` / `set_error` / `set_stopped` (the machine `step`).

What a receiver function does is written in a small writer + exception monad (`M`), so that dropped
and duplicated completions, escaping exceptions (`Out.term`, i.e. `std::terminate`) and calls that
would not compile (`Out.ub`) are all expressible; nothing about "exactly one completion" is built in.

Simplifications.
* Leaves (arbitrary third-party senders and schedule senders) are black boxes: they complete once,
  at any later time, with any completion of their declared signatures, on any context (value
  completions of a `schedule` sender: on the scheduler's context).
* Whether a copy or a connect that is not `noexcept` throws, and whether a stop has been requested
  when it is tested, is chosen by an oracle (`orc`).
* Moves (of receivers, functions, senders being connected as rvalues) do not throw; environment
  queries do not throw; function objects are nothrow copyable.
* Nested calls `start`/`set_*` are tail calls in the library, and are modelled as tasks.
-/
namespace Verif.Sender

/-- The three completion channels (`set_value_t`, `set_error_t`, `set_stopped_t`). -/
inductive Chan | value | error | stopped
  deriving DecidableEq, Repr

/-- C++ types of completion data. `base n nt`: a user type, `nt` = nothrow decay-copyable.
`nil`/`cons` encode `std::tuple<...>`; `opt t` is `std::optional<t>`; `var ts` is
`std::variant<ts...>` with the alternatives encoded as a `cons` list; `bconst` is
`std::bool_constant`; `tag c` is the tag type `set_value_t` etc. -/
inductive Ty
  | base (n : Nat) (nt : Bool) | eptr | bool | bconst (b : Bool) | tag (c : Chan)
  | nil | cons (a b : Ty) | opt (t : Ty) | var (t : Ty)
  deriving DecidableEq, Repr

/-- `__nothrow_decay_copyable` (include/stdexec/__detail/__concepts.hpp): products, optionals and
variants are nothrow copyable iff their parts are. -/
def Ty.nt : Ty → Bool
  | .base _ b => b
  | .cons a b => a.nt && b.nt
  | .opt t => t.nt
  | .var t => t.nt
  | _ => true

/-- `std::tuple<ts...>`. -/
def tupTy : List Ty → Ty
  | [] => .nil
  | t :: ts => .cons t (tupTy ts)

/-- Values of those types. -/
inductive Val
  | base (n : Nat) (nt : Bool) (data : Nat) | eptr (e : Nat) | bool (b : Bool) | bconst (b : Bool)
  | tag (c : Chan) | nil | cons (a b : Val)
  | null (t : Ty) | some (t : Ty) (v : Val) | alt (t : Ty) (sel : Ty) (v : Val)
  deriving DecidableEq, Repr

/-- The C++ type of a value. -/
def Val.ty : Val → Ty
  | .base n nt _ => .base n nt
  | .eptr _ => .eptr
  | .bool _ => .bool
  | .bconst b => .bconst b
  | .tag c => .tag c
  | .nil => .nil
  | .cons a b => .cons a.ty b.ty
  | .null t => .opt t
  | .some t _ => .opt t
  | .alt t _ _ => .var t

/-- `std::tuple{vs...}`. -/
def tupVal : List Val → Val
  | [] => .nil
  | v :: vs => .cons v (tupVal vs)

abbrev tys (vs : List Val) : List Ty := vs.map Val.ty

/-- Copying these arguments is `noexcept` (`__nothrow_decay_copyable<_Args...>`). -/
def ntArgs (vs : List Val) : Bool := vs.all fun v => v.ty.nt
def ntTys (ts : List Ty) : Bool := ts.all Ty.nt

/-- A completion: channel and arguments. -/
structure Comp where
  ch : Chan
  args : List Val
  deriving DecidableEq, Repr

/-- A completion signature: channel and argument types. -/
structure Sig where
  ch : Chan
  ts : List Ty
  deriving DecidableEq, Repr

abbrev sigOf (c : Comp) : Sig := ⟨c.ch, tys c.args⟩
abbrev cvalue (vs : List Val) : Comp := ⟨.value, vs⟩
abbrev cerror (e : Nat) : Comp := ⟨.error, [.eptr e]⟩
abbrev cstopped : Comp := ⟨.stopped, []⟩
abbrev sigEptr : Sig := ⟨.error, [.eptr]⟩

/-- A receiver environment: query ↦ value. Query 0 is `get_stop_token`; `none` there means an
unstoppable token. -/
abbrev Env := Nat → Option Val
def stoppable (e : Env) : Bool := (e 0).isSome

/-- A user callable given to `then`/`upon_error`/`upon_stopped`. `run` returns `[]` for `void`;
`noexc` is `__nothrow_invocable` and `ret` the return type for given argument types. -/
structure Fn where
  id : Nat
  noexc : List Ty → Bool
  ret : List Ty → List Ty
  run : List Val → Except Nat (List Val)

/-- A user callable given to `let_*` (the sender it returns is a separate field of `S.letc`).
`sigs` is the type-level view: the completion signatures of the returned sender type, and `ct`
whether connecting it may throw, as functions of the argument types. -/
structure LFn where
  id : Nat
  noexc : List Ty → Bool
  thr : List Val → Option Nat
  sigs : List Ty → List Sig
  ct : List Ty → Bool

/-- A user callable given to `bulk*`: called with `(begin, end)` (`(i, i+1)` for the unchunked
forms) and the values by reference, which it may modify. -/
structure BFn where
  id : Nat
  noexc : Bool
  run : Nat → Nat → List Val → Except Nat (List Val)

inductive BKind | chunked | unchunked | plain
  deriving DecidableEq, Repr

/-- A black-box sender. `on = some x`: a `schedule` sender whose value completion happens on
context `x`; `ct`: connect may throw; `cpt`: copying the sender may throw. -/
structure Leaf where
  id : Nat
  sigs : List Sig
  on : Option Nat := none
  ct : Bool := false
  cpt : Bool := false
  deriving DecidableEq, Repr

/-- Sender expressions. Derived adaptors are defined in terms of these below. -/
inductive S
  | leaf (l : Leaf)
  /-- `just(vs...)`, `just_error(e)`, `just_stopped()` — __just.hpp 44-93 -/
  | just (c : Comp)
  /-- `schedule(trampoline_scheduler{})` — exec/trampoline_scheduler.hpp 130-285 -/
  | tramp
  /-- `read_env(q)` — __read_env.hpp 51-160 -/
  | readEnv (q : Nat)
  /-- `write_env(s, prop{q, v})` — __write_env.hpp 40-65 -/
  | writeEnv (q : Nat) (v : Val) (s : S)
  /-- `then` / `upon_error` / `upon_stopped` -/
  | upon (ch : Chan) (f : Fn) (s : S)
  /-- `let_value` / `let_error` / `let_stopped`; `k vs` is the sender the function returns. -/
  | letc (ch : Chan) (f : LFn) (k : List Val → S) (s : S)
  /-- `continues_on(s, sch)` with `l = schedule(sch)` — __continues_on.hpp -/
  | contOn (l : Leaf) (s : S)
  /-- `exec::finally(a, b)` — __finally.hpp -/
  | fin (a b : S)
  /-- `__sequence(a, b)` — __sequence.hpp -/
  | seq (a b : S)
  /-- `stopped_as_optional(s)` — __stopped_as_optional.hpp -/
  | sao (s : S)
  /-- `into_variant(s)` — __into_variant.hpp -/
  | ivar (s : S)
  /-- `exec::materialize(s)`, `exec::dematerialize(s)` — exec/materialize.hpp -/
  | mat (s : S)
  | demat (s : S)
  /-- `exec::repeat_n(s, n)` — exec/repeat_n.hpp -/
  | repN (n : Nat) (s : S)
  /-- `exec::repeat_until(s)` — exec/repeat_until.hpp -/
  | repU (s : S)
  /-- `bulk` family, default (sequential) implementation — __bulk.hpp 180-350 -/
  | bulk (kd : BKind) (n : Nat) (f : BFn) (s : S)
  /-- `exec::unless_stop_requested(s)` — exec/unless_stop_requested.hpp -/
  | unless (s : S)

/-- `starts_on(sch, s)` lowers to `__sequence(continues_on(just(), sch), s)` — __starts_on.hpp 224-234 -/
def S.startsOn (l : Leaf) (s : S) : S := .seq (.contOn l (.just (cvalue []))) s

/-- `stopped_as_error(s, v)` lowers to `let_stopped(s, [v]{ return just_error(v); })`
— __stopped_as_error.hpp 118-130. The lambda moves `v` into the sender (nothrow move). -/
def S.stoppedAsError (v : Val) (s : S) : S :=
  .letc .stopped { id := 0, noexc := fun _ => true, thr := fun _ => none
                   sigs := fun _ => [⟨.error, [v.ty]⟩], ct := fun _ => false }
    (fun _ => .just ⟨.error, [v]⟩) s

/-- `exec::sequence(s...)`: none → `just()`, one → itself, more → left nested pairs
— __sequence.hpp 439-442, 472-500 -/
def S.sequence : List S → S
  | [] => .just (cvalue [])
  | s :: ss => ss.foldl .seq s

/-- The callable `__repeat::_never` — exec/repeat_until.hpp 217-224 -/
def neverFn : Fn :=
  { id := 0, noexc := fun _ => true, ret := fun _ => [.bconst false]
    run := fun _ => .ok [.bconst false] }

/-- `exec::repeat(s)` lowers to `repeat_until(then(s, _never))` — exec/repeat_until.hpp 370-390 -/
def S.repeat (s : S) : S := .repU (.upon .value neverFn s)

/-- Copy-constructing the sender may throw. -/
def S.cpt : S → Bool
  | .leaf l => l.cpt
  | .just c => !ntArgs c.args
  | .tramp => false
  | .readEnv _ => false
  | .writeEnv _ v s => !v.ty.nt || s.cpt
  | .upon _ _ s => s.cpt
  | .letc _ _ _ s => s.cpt
  | .contOn l s => l.cpt || s.cpt
  | .fin a b => a.cpt || b.cpt
  | .seq a b => a.cpt || b.cpt
  | .sao s => s.cpt
  | .ivar s => s.cpt
  | .mat s => s.cpt
  | .demat s => s.cpt
  | .repN _ s => s.cpt
  | .repU s => s.cpt
  | .bulk _ _ _ s => s.cpt
  | .unless s => s.cpt

/-- `!__nothrow_connectable`: what the `noexcept` specification of `connect` (rvalue sender) says.
finally: unconditionally `noexcept` (__finally.hpp 361-362); sequence: only the first sender is
connected (__sequence.hpp 318-319); continues_on: also the schedule sender
(__continues_on.hpp 123-128); repeat_n / repeat_until: the bouncing `sequence` is built from a copy
of the child (exec/repeat_n.hpp 115-119, 127-128, exec/repeat_until.hpp 161-167). -/
def S.connThrow : S → Bool
  | .leaf l => l.ct
  | .just _ => false
  | .tramp => false
  | .readEnv _ => false
  | .writeEnv _ _ s => s.connThrow
  | .upon _ _ s => s.connThrow
  | .letc _ _ _ s => s.connThrow
  | .contOn l s => l.ct || s.connThrow
  | .fin _ _ => false
  | .seq a _ => a.connThrow
  | .sao s => s.connThrow
  | .ivar s => s.connThrow
  | .mat s => s.connThrow
  | .demat s => s.connThrow
  | .repN _ s => s.cpt
  | .repU s => s.cpt
  | .bulk _ _ _ s => s.connThrow
  | .unless s => s.connThrow

/-! ## Declared completion signatures -/

/-- `__eptr_completion_unless_t<ok>` -/
def eptrUnless (ok : Bool) : List Sig := if ok then [] else [sigEptr]

/-- `__transform_completion_signatures` restricted to one channel. -/
def onChan (ch : Chan) (f : List Ty → List Sig) (sg : List Sig) : List Sig :=
  sg.flatMap fun s => if s.ch = ch then f s.ts else [s]

/-- `__sends<set_value_t, ...>` -/
def sendsValue (sg : List Sig) : Bool := sg.any fun s => s.ch = .value

def dropValues (sg : List Sig) : List Sig := onChan .value (fun _ => []) sg

/-- `__decay_arguments<ch>`: the signature, plus `exception_ptr` if the copy may throw
— __transform_completion_signatures.hpp 368-385 -/
def decayArgs (ch : Chan) (sg : List Sig) : List Sig :=
  onChan ch (fun ts => ⟨ch, ts⟩ :: eptrUnless (ntTys ts)) sg

def valueTys (sg : List Sig) : List (List Ty) := (sg.filter fun s => s.ch = .value).map Sig.ts

/-- `std::variant<std::tuple<...>...>` of all value completions. -/
def varTy (sg : List Sig) : Ty := .var (tupTy ((valueTys sg).map tupTy))

/-- `__single_sender_value_t`: the type of the single value completion. -/
def singleTy (sg : List Sig) : Ty := tupTy ((valueTys sg).headD [])

/-- Signature of the `trampoline_scheduler` schedule sender — exec/trampoline_scheduler.hpp 244-255 -/
def trampSigs (e : Env) : List Sig :=
  ⟨.value, []⟩ :: (if stoppable e then [⟨.stopped, []⟩] else [])

/-- Signature transformation of `__sequence(a, b)` — __sequence.hpp 374-414 -/
def seqSigs (a b : List Sig) (ct : Bool) : List Sig :=
  if sendsValue a then dropValues a ++ b ++ eptrUnless (!ct) else a

/-- `get_completion_signatures<S, Env>()`. Sources: just 77-82, read_env 115-140, write_env 56-63,
then 53-83, upon_error 53-84, upon_stopped 45-56, let 555-627, continues_on 293-344,
finally 298-348, sequence 374-414, stopped_as_optional 65-99, into_variant 94-111,
materialize 91-109 / 200-214, repeat_n 204-238, repeat_until 235-314, bulk 227-261,
unless_stop_requested 38-43. -/
def sigs (e : Env) : S → List Sig
  | .leaf l => l.sigs
  | .just c => [sigOf c]
  | .tramp => trampSigs e
  | .readEnv q => match e q with
    | some v => [⟨.value, [v.ty]⟩]
    | none => []
  | .writeEnv q v s => sigs (upd e q (some v)) s
  | .upon ch f s =>
      onChan ch (fun ts => ⟨.value, f.ret ts⟩ :: eptrUnless (f.noexc ts)) (sigs e s)
        ++ (if ch = .stopped then eptrUnless (f.noexc []) else [])
  | .letc ch f _ s =>
      onChan ch (fun ts => f.sigs ts ++ eptrUnless (ntTys ts && f.noexc ts && !f.ct ts)) (sigs e s)
  | .contOn l s =>
      decayArgs .error (decayArgs .value (sigs e s)) ++ dropValues l.sigs
        ++ eptrUnless ((sigs e s).all fun s => ntTys s.ts)
  | .fin a b =>
      if sendsValue (sigs e b) then decayArgs .value (sigs e a) ++ dropValues (sigs e b)
      else dropValues (sigs e a) ++ sigs e b
  | .seq a b => seqSigs (sigs e a) (sigs e b) b.connThrow
  | .sao s =>
      onChan .stopped (fun _ => []) (onChan .value
        (fun ts => ⟨.value, [.opt (tupTy ts)]⟩ :: eptrUnless (ntTys ts)) (sigs e s))
  | .ivar s => dropValues (sigs e s) ++ [⟨.value, [varTy (sigs e s)]⟩, sigEptr]
  | .mat s => (sigs e s).map fun g => ⟨.value, .tag g.ch :: g.ts⟩
  | .demat s => onChan .value (fun ts => match ts with
      | .tag c :: rest => [⟨c, rest⟩]
      | _ => []) (sigs e s)
  | .repN _ s =>
      decayArgs .error (seqSigs (trampSigs e) (sigs e s) s.connThrow) ++ eptrUnless (!s.cpt)
  | .repU s =>
      onChan .error (fun ts => ⟨.error, ts⟩ :: eptrUnless (ntTys ts)) (onChan .value
        (fun ts => if ts = [.bconst false] then [] else [⟨.value, []⟩]) (sigs e s))
        ++ eptrUnless (!s.connThrow) ++ dropValues (trampSigs e)
  | .bulk _ _ f s => onChan .value (fun ts => ⟨.value, ts⟩ :: eptrUnless f.noexc) (sigs e s)
  | .unless s => sigs e s ++ (if stoppable e then [⟨.stopped, []⟩] else [])

/-! ## Receivers -/

/-- The receiver an adaptor connects to its child; a continuation is a list of frames, innermost
first, ending in the user's receiver. -/
inductive Frame
  /-- write_env's receiver (forwards; changes the environment) -/
  | env (q : Nat) (v : Val)
  | upon (ch : Chan) (f : Fn)
  | letc (ch : Chan) (f : LFn) (k : List Val → S)
  /-- plain forwarding receivers: let's `__rcvr_env` (__let.hpp 64-95), sequence's `__rcvr2`
  (__sequence.hpp 208-245), `__receiver_ref` -/
  | fwd
  | cont (l : Leaf)
  /-- continues_on's `__receiver2`, with the stored completion -/
  | cont2 (c : Comp)
  /-- finally's `__initial_receiver`; `sv` = the final sender has value completions -/
  | fin (b : S) (sv : Bool)
  /-- finally's `__final_receiver` with the stored completion -/
  | fin2 (c : Comp)
  | seq (b : S)
  | sao (t : Ty)
  | ivar (t : Ty)
  | mat
  | demat
  | repN (n : Nat) (s : S)
  | repU (s : S)
  | bulk (kd : BKind) (n : Nat) (f : BFn)

/-- Environment a child sees through a frame (`get_env` of the receiver). -/
def Frame.env' (e : Env) : Frame → Env
  | .env q v => upd e q (some v)
  | _ => e

/-- Environment at the top of a continuation. -/
def envOf (root : Env) : List Frame → Env
  | [] => root
  | f :: k => f.env' (envOf root k)

/-! ## The machine -/

inductive Ev
  | start (id : Nat) (x : Nat)
  | finish (id : Nat) (c : Comp) (x : Nat)
  | call (id : Nat) (args : List Val)
  | callB (id : Nat) (b e : Nat) (args : List Val)
  | threw (e : Nat)
  deriving DecidableEq, Repr

/-- Pending calls: start an operation, or complete a receiver, on a context. -/
inductive Task
  | start (s : S) (k : List Frame) (x : Nat)
  | compl (c : Comp) (k : List Frame) (x : Nat)

/-- State threaded through one receiver/operation function call. -/
structure W where
  orc : List (Option Nat)
  log : List Ev := []
  tasks : List Task := []
  wait : List (Leaf × List Frame) := []

/-- Result of a call: normal, exception, `std::terminate`, ill-formed program. -/
inductive Out (α : Type)
  | ok (a : α) | thr (e : Nat) | term | ub

def M (α : Type) := W → Out α × W

namespace M
def pure (a : α) : M α := fun w => (.ok a, w)
def bind (m : M α) (f : α → M β) : M β := fun w => match m w with
  | (.ok a, w') => f a w'
  | (.thr e, w') => (.thr e, w')
  | (.term, w') => (.term, w')
  | (.ub, w') => (.ub, w')
def emit (ev : Ev) : M Unit := fun w => (.ok (), { w with log := w.log ++ [ev] })
def raise (e : Nat) : M α := fun w => (.thr e, { w with log := w.log ++ [.threw e] })
def terminate : M α := fun w => (.term, w)
def illFormed : M α := fun w => (.ub, w)
/-- An operation that may throw iff `b`; the oracle decides. -/
def mayThrow (b : Bool) : M Unit := fun w =>
  if b then match w.orc with
    | some e :: r => (.thr e, { w with orc := r, log := w.log ++ [.threw e] })
    | none :: r => (.ok (), { w with orc := r })
    | [] => (.ok (), w)
  else (.ok (), w)
/-- The oracle's answer to "stop requested?". -/
def flip : M Bool := fun w => match w.orc with
  | some _ :: r => (.ok true, { w with orc := r })
  | none :: r => (.ok false, { w with orc := r })
  | [] => (.ok false, w)
/-- `try { m } catch (...) { h }` -/
def tryCatch (m : M Unit) (h : Nat → M Unit) : M Unit := fun w => match m w with
  | (.thr e, w') => h e w'
  | r => r
/-- `noexcept` boundary. -/
def noexc (m : M Unit) : M Unit := fun w => match m w with
  | (.thr _, w') => (.term, w')
  | r => r
/-- Call `set_value`/`set_error`/`set_stopped` on a receiver. -/
def deliver (c : Comp) (k : List Frame) (x : Nat) : M Unit :=
  fun w => (.ok (), { w with tasks := w.tasks ++ [.compl c k x] })
/-- Call `start` on the operation state of `s` connected to `k`. -/
def startOp (s : S) (k : List Frame) (x : Nat) : M Unit :=
  fun w => (.ok (), { w with tasks := w.tasks ++ [.start s k x] })
def park (l : Leaf) (k : List Frame) : M Unit :=
  fun w => (.ok (), { w with wait := w.wait ++ [(l, k)] })
end M
open M

/-- Decay-copy a completion's arguments. -/
def copyArgs (vs : List Val) : M Unit := mayThrow (!ntArgs vs)

/-- Invoke a user function; an exception leaving a `noexcept` function terminates. -/
def callFn (f : Fn) (vs : List Val) : M (List Val) :=
  M.bind (emit (.call f.id vs)) fun _ => match f.run vs with
    | .ok r => M.pure r
    | .error e => if f.noexc (tys vs) then terminate else raise e

def callLFn (f : LFn) (vs : List Val) : M Unit :=
  M.bind (emit (.call f.id vs)) fun _ => match f.thr vs with
    | none => M.pure ()
    | some e => if f.noexc (tys vs) then terminate else raise e

def callBFn (f : BFn) (b e : Nat) (vs : List Val) : M (List Val) :=
  M.bind (emit (.callB f.id b e vs)) fun _ => match f.run b e vs with
    | .ok r => M.pure r
    | .error ex => if f.noexc then terminate else raise ex

/-- `for (i = b; i != b + n; ++i) f(i, args...)` — __bulk.hpp 189-192, 325-328 -/
def bulkLoop (f : BFn) (vs : List Val) (b : Nat) : Nat → M (List Val)
  | 0 => M.pure vs
  | n + 1 => M.bind (callBFn f b (b + 1) vs) fun vs' => bulkLoop f vs' (b + 1) n

/-- The default bulk bodies — __bulk.hpp 282-290 (chunked: one call for the whole range if the shape
is positive), 323-331 (unchunked: loop), 180-194 (plain `bulk`: chunked with a loop inside). -/
def bulkBody (kd : BKind) (n : Nat) (f : BFn) (vs : List Val) : M (List Val) :=
  match kd with
  | .chunked => if 0 < n then callBFn f 0 n vs else M.pure vs
  | .unchunked => bulkLoop f vs 0 n
  | .plain => if 0 < n then bulkLoop f vs 0 n else M.pure vs

/-- Run-time effect of connecting a sender expression: which sub-connects run, inside which
`noexcept` boundaries. finally: base class constructor connects the final sender inside a `noexcept`
constructor, then the initial one, all inside a `noexcept` `connect` (__finally.hpp 167-176, 230-241,
361-368). repeat_n connects only if the count is not 0 (exec/repeat_n.hpp 132-135). -/
def connectM : S → M Unit
  | .leaf l => mayThrow l.ct
  | .just _ => M.pure ()
  | .tramp => M.pure ()
  | .readEnv _ => M.pure ()
  | .writeEnv _ _ s => connectM s
  | .upon _ _ s => connectM s
  | .letc _ _ _ s => connectM s
  | .contOn l s => M.bind (mayThrow l.ct) fun _ => connectM s
  | .fin a b => noexc (M.bind (noexc (connectM b)) fun _ => connectM a)
  | .seq a _ => connectM a
  | .sao s => connectM s
  | .ivar s => connectM s
  | .mat s => connectM s
  | .demat s => connectM s
  | .repN n s => if n = 0 then M.pure () else mayThrow s.cpt
  | .repU s => mayThrow s.cpt
  | .bulk _ _ _ s => connectM s
  | .unless s => connectM s

/-- `try { m } catch (...) { if constexpr (!nothrow) set_error(rcvr, current_exception()); }` -/
def guarded (nothrow : Bool) (m : M Unit) (k : List Frame) (x : Nat) : M Unit :=
  tryCatch m fun e => if nothrow then M.pure () else deliver (cerror e) k x

/-- `start()` of the operation state of a sender connected to continuation `k` on context `x`
(`e` = the receiver's environment). -/
def startS (e : Env) (k : List Frame) (x : Nat) : S → M Unit
  | .leaf l => M.bind (emit (.start l.id x)) fun _ => park l k
  | .just c => deliver c k x
  -- exec/trampoline_scheduler.hpp 211-229
  | .tramp => if stoppable e then
        M.bind flip fun b => if b then deliver cstopped k x else deliver (cvalue []) k x
      else deliver (cvalue []) k x
  | .readEnv q => match e q with
    | some v => deliver (cvalue [v]) k x
    | none => illFormed
  | .writeEnv q v s => startOp s (.env q v :: k) x
  | .upon ch f s => startOp s (.upon ch f :: k) x
  | .letc ch f kk s => startOp s (.letc ch f kk :: k) x
  | .contOn l s => startOp s (.cont l :: k) x
  | .fin a b => startOp a (.fin b (sendsValue (sigs e b)) :: k) x
  | .seq a b => startOp a (.seq b :: k) x
  | .sao s => startOp s (.sao (singleTy (sigs e s)) :: k) x
  | .ivar s => startOp s (.ivar (varTy (sigs e s)) :: k) x
  | .mat s => startOp s (.mat :: k) x
  | .demat s => startOp s (.demat :: k) x
  -- exec/repeat_n.hpp 138-148
  | .repN n s => if n = 0 then deliver (cvalue []) k x
      else startOp (.seq .tramp s) (.repN n s :: k) x
  | .repU s => startOp (.seq .tramp s) (.repU s :: k) x
  | .bulk kd n f s => startOp s (.bulk kd n f :: k) x
  -- exec/unless_stop_requested.hpp 58-68, 104-120
  | .unless s => if stoppable e then
        M.bind flip fun b => if b then deliver cstopped k x else startOp s (.fwd :: k) x
      else startOp s k x

/-- `static_cast<bool>` of the single value repeat_until's child sends (`bool` or
`bool_constant`; other convertible types are not modelled) — exec/repeat_until.hpp 74-112 -/
def asBool : List Val → Option Bool
  | [.bool b] => some b
  | [.bconst b] => some b
  | _ => none

/-- The leading completion tag dematerialize dispatches on — exec/materialize.hpp 148-153 -/
def asTag : List Val → Option (Chan × List Val)
  | .tag ch :: rest => some (ch, rest)
  | _ => none

/-- The completion functions of the library's receivers. -/
def complF (k : List Frame) (x : Nat) (c : Comp) : Frame → M Unit
  -- __write_env.hpp: default `__complete` forwards
  | .env _ _ => deliver c k x
  -- __then.hpp 85-102, __upon_error.hpp 86-104, __upon_stopped.hpp 58-74, __receivers.hpp 443-467
  | .upon ch f => if c.ch = ch then
        guarded (f.noexc (tys c.args))
          (M.bind (callFn f c.args) fun r => deliver (cvalue r) k x) k x
      else deliver c k x
  -- __let.hpp 188-218, 260-284, 324-336
  | .letc ch f kk => if c.ch = ch then
        guarded (ntArgs c.args && f.noexc (tys c.args) && !(kk c.args).connThrow)
          (M.bind (copyArgs c.args) fun _ => M.bind (callLFn f c.args) fun _ =>
            M.bind (connectM (kk c.args)) fun _ => startOp (kk c.args) (.fwd :: k) x) k x
      else deliver c k x
  | .fwd => deliver c k x
  -- __continues_on.hpp 358-386
  | .cont l => M.tryCatch
        (M.bind (copyArgs c.args) fun _ => startOp (.leaf l) (.cont2 c :: k) x)
        fun e => deliver (cerror e) k x
  -- __continues_on.hpp 91-106
  | .cont2 c0 => if c.ch = .value then deliver c0 k x else deliver c k x
  -- __finally.hpp 178-206
  | .fin b sv => if sv then
        guarded (ntArgs c.args)
          (M.bind (copyArgs c.args) fun _ => startOp b (.fin2 c :: k) x) k x
      else startOp b (.fin2 c :: k) x
  -- __finally.hpp 133-148
  | .fin2 c0 => if c.ch = .value then deliver c0 k x else deliver c k x
  -- __sequence.hpp 252-266, 294-309
  | .seq b => if c.ch = .value then
        guarded (!b.connThrow) (M.bind (connectM b) fun _ => startOp b (.fwd :: k) x) k x
      else deliver c k x
  -- __stopped_as_optional.hpp 109-143
  | .sao t => match c.ch with
    | .value => guarded (ntArgs c.args)
        (M.bind (copyArgs c.args) fun _ => deliver (cvalue [.some t (tupVal c.args)]) k x) k x
    | .error => deliver c k x
    | .stopped => deliver (cvalue [.null t]) k x
  -- __into_variant.hpp 67-92
  | .ivar t => if c.ch = .value then
        M.tryCatch (M.bind (copyArgs c.args) fun _ =>
          deliver (cvalue [match t with
            | .var a => .alt a (tupTy (tys c.args)) (tupVal c.args)
            | t => .alt t (tupTy (tys c.args)) (tupVal c.args)]) k x)
          fun e => deliver (cerror e) k x
      else deliver c k x
  -- exec/materialize.hpp 37-56
  | .mat => deliver (cvalue (.tag c.ch :: c.args)) k x
  -- exec/materialize.hpp 148-164
  | .demat => if c.ch = .value then match asTag c.args with
        | some (ch, rest) => deliver ⟨ch, rest⟩ k x
        | none => illFormed
      else deliver c k x
  -- exec/repeat_n.hpp 71-100, 163-185
  | .repN n s => match c.ch with
    | .value => if n - 1 = 0 then deliver (cvalue []) k x
        else guarded (!s.cpt)
          (M.bind (mayThrow s.cpt) fun _ => startOp (.seq .tramp s) (.repN (n - 1) s :: k) x) k x
    | .error => guarded (ntArgs c.args) (M.bind (copyArgs c.args) fun _ => deliver c k x) k x
    | .stopped => deliver c k x
  -- exec/repeat_until.hpp 70-139, 192-205
  | .repU s => match c.ch with
    | .value => match asBool c.args with
      | some true => deliver (cvalue []) k x
      | some false =>
          guarded (!s.cpt)
            (M.bind (mayThrow s.cpt) fun _ => startOp (.seq .tramp s) (.repU s :: k) x) k x
      | none => illFormed
    | .error => guarded (ntArgs c.args) (M.bind (copyArgs c.args) fun _ => deliver c k x) k x
    | .stopped => deliver c k x
  -- __bulk.hpp 270-303, 311-344
  | .bulk kd n f => if c.ch = .value then
        guarded f.noexc (M.bind (bulkBody kd n f c.args) fun vs => deliver (cvalue vs) k x) k x
      else deliver c k x

/-- Machine state: pending calls, leaves in flight, completions received by the user's receiver. -/
structure St where
  env : Env
  tasks : List Task
  wait : List (Leaf × List Frame) := []
  done : List (Comp × Nat) := []
  log : List Ev := []
  term : Bool := false
  ub : Bool := false

/-- Actions: perform pending call `i` with oracle `orc`; leaf `i` completes. -/
inductive Act
  | run (i : Nat) (orc : List (Option Nat))
  | leaf (i : Nat) (c : Comp) (x : Nat)

/-- Put the outcome of a call into the state. -/
def St.after (s : St) (i : Nat) (r : Out Unit × W) : St :=
  match r with
  | (.ok _, w) => { s with tasks := s.tasks.eraseIdx i ++ w.tasks, wait := s.wait ++ w.wait
                           log := s.log ++ w.log }
  | (.thr _, w) => { s with term := true, log := s.log ++ w.log }   -- escapes a `noexcept` function
  | (.term, w) => { s with term := true, log := s.log ++ w.log }
  | (.ub, w) => { s with ub := true, log := s.log ++ w.log }

/-- A leaf may complete with `c` on `x`. -/
def Leaf.allows (l : Leaf) (c : Comp) (x : Nat) : Bool :=
  decide (sigOf c ∈ l.sigs) && (c.ch != .value || match l.on with
    | some y => x == y
    | none => true)

def step (s : St) (a : Act) : Option St :=
  if s.term || s.ub then none else
  match a with
  | .run i orc => match s.tasks[i]? with
    | none => none
    | some (.start sn k x) => some (s.after i (startS (envOf s.env k) k x sn { orc := orc }))
    | some (.compl c [] x) =>
        some { s with tasks := s.tasks.eraseIdx i, done := s.done ++ [(c, x)] }
    | some (.compl c (f :: k) x) => some (s.after i (complF k x c f { orc := orc }))
  | .leaf i c x => match s.wait[i]? with
    | none => none
    | some (l, k) => if l.allows c x then
        some { s with wait := s.wait.eraseIdx i, tasks := s.tasks ++ [.compl c k x]
                      log := s.log ++ [.finish l.id c x] }
      else none

/-- The operation state of `sn` connected to a user receiver with environment `e`, started on
context `x`. -/
def init (e : Env) (sn : S) (x : Nat) : St := { env := e, tasks := [.start sn [] x] }

end Verif.Sender
