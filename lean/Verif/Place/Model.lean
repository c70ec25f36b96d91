import Verif.Common
/-!
# Where senders complete, and what they say about it — model

Models the attribute queries `get_completion_scheduler<Tag>` (`__schedulers.hpp` 340-482) and
`__get_completion_behavior<Tag>` (`__completion_behavior.hpp` 42-226) of the library's senders and
adaptors, together with where and when those senders really complete. Paths are relative to
`/repo/include/stdexec/__detail/`.

An *execution context* is a number. A scheduler either owns one (`res n`) or is `inline_scheduler`
(`inl`), which runs work wherever it is asked to. A completion is observed as the channel it arrives
on, the context it arrives on, and whether it arrived inside the call to `start` (`inl`, on the same
thread by definition). Senders that are not the library's (`leaf`) and the senders returned by
`schedule(res n)` are arbitrary: any relation between the context they are started on and their
completions, and any attributes.

Simplifications. Values are not modelled; whether copying a result, calling a function or connecting a
sender may throw is a flag of the adaptor (`thr…`), as it is for the library (`noexcept` traits). A
sender's environment is reduced to its start scheduler. Schedulers are assumed to name themselves as
their own completion scheduler (the loop of `__recurse_query_t`, `__schedulers.hpp` 373-410, then stops
at once). `let_*` has one continuation sender. `__completion_behavior` flags are kept as three bits.
-/
namespace Verif.Place

inductive Tag
  | value | error | stopped
  deriving DecidableEq, Repr

abbrev Ctx := Nat

/-- `__completion_behavior.hpp` 50-73: `naff` — may complete on another context than it was started on;
`asyn` — may complete after `start` returned; `inl` — may complete before `start` returned. -/
structure Beh where
  naff : Bool
  asyn : Bool
  inl : Bool
  deriving DecidableEq, Repr

/-- Lines 72. -/
def unknown : Beh := ⟨true, true, true⟩
/-- Line 61. -/
def asynchronous : Beh := ⟨true, true, false⟩
/-- Line 65. -/
def asyncAffine : Beh := ⟨false, true, false⟩
/-- Line 69. -/
def inlineB : Beh := ⟨false, false, true⟩

/-- `operator|`, lines 95-101; also `__common` (143-154). -/
def Beh.or (a b : Beh) : Beh := ⟨a.naff || b.naff, a.asyn || b.asyn, a.inl || b.inl⟩

/-- `__is_affine`, lines 112-116. -/
def Beh.affine (a : Beh) : Bool := !a.naff

/-- A scheduler. -/
inductive Sched
  | inl             -- `inline_scheduler` (`__inline_scheduler.hpp` 45-94)
  | res (n : Nat)   -- the scheduler of execution context `n`
  deriving DecidableEq, Repr

/-- A completion as the receiver sees it. -/
structure Out where
  tag : Tag
  ctx : Ctx
  inl : Bool
  deriving DecidableEq, Repr

/-- The part of an environment that matters here: `get_start_scheduler(env)`. -/
abbrev Env := Option Sched

/-- A sender that is not one of the library's adaptors: how it behaves and what it says. -/
structure Leaf where
  sends : Tag → Bool          -- its completion signatures
  runs : Ctx → Out → Prop     -- started on a context, it may complete like this
  beh : Tag → Beh             -- `__get_completion_behavior<Tag>`
  cs : Tag → Option Sched     -- `get_completion_scheduler<Tag>`

/-- `schedule(res n)` for every context `n`. -/
abbrev World := Nat → Leaf

/-- Sender expressions. -/
inductive S
  | leaf (l : Leaf)
  | just (t : Tag)                                         -- `just`, `just_error`, `just_stopped`
  | readEnv (thr : Bool)                                   -- `read_env(q)`
  | sched (s : Sched)                                      -- `schedule(s)`
  | thn (s : S) (thr : Bool)                               -- `then`; also `bulk`
  | uponE (s : S) (thr : Bool)                             -- `upon_error`
  | uponS (s : S) (thr : Bool)                             -- `upon_stopped`
  | letT (t : Tag) (s : S) (k : S) (thr : Bool)            -- `let_value/error/stopped`
  | seq (s1 s2 : S) (thr : Bool)                           -- `exec::sequence` of two
  | contOn (s : S) (sch : Sched) (thrV thrE : Bool)        -- `continues_on`
  | startsOn (sch : Sched) (s : S) (thr : Bool)            -- `starts_on`
  | on (sch : Sched) (s : S) (thr thrV thrE : Bool)        -- `on(sch, s)`
  | whenAll (n : Nat) (f : Fin n → S) (thr stp : Bool)     -- `when_all`
  | affine (s : S) (thr : Bool)                            -- `affine(s)`

/-- What a sender says about itself: its completion signatures and the member queries of its
attributes (`none`: the query is not there). -/
structure Attr where
  sends : Env → Tag → Bool
  beh : Env → Tag → Beh
  csq : Env → Tag → Option Sched

/-- `get_completion_scheduler<Tag>(attrs, env)`, `__schedulers.hpp` 414-475: the member query if there is
one, else the start scheduler of the environment if the sender claims to complete inline. -/
def Attr.comp (a : Attr) (e : Env) (t : Tag) : Option Sched :=
  match a.csq e t with
  | some x => some x
  | none => if a.beh e t = inlineB then e else none

def leafA (l : Leaf) : Attr := ⟨fun _ => l.sends, fun _ => l.beh, fun _ => l.cs⟩

/-- `__just.hpp` 47-54: inline on its own channel, nothing said about the others. -/
def justA (t : Tag) : Attr :=
  ⟨fun _ t' => t' == t, fun _ t' => if t' = t then inlineB else unknown, fun _ _ => none⟩

/-- `__read_env.hpp` 91-106. -/
def readA (thr : Bool) : Attr :=
  ⟨fun _ t => t == .value || (thr && t == .error),
   fun _ t => if t = .value then inlineB else if t = .error ∧ thr = true then inlineB else unknown,
   fun _ _ => none⟩

/-- `schedule(sch)`; for `inline_scheduler` see `__inline_scheduler.hpp` 36-76. -/
def schedA (W : World) : Sched → Attr
  | .inl => justA .value
  | .res n => leafA (W n)

/-- `then`: attributes `__sync_attrs` (`__then.hpp` 47-51, `__queries.hpp` 60-82) forward to the child;
signatures `__then.hpp` 54-83. `bulk` (`__bulk.hpp` 200-226) has the same shape. -/
def thenA (a : Attr) (thr : Bool) : Attr :=
  ⟨fun e t => match t with
     | .error => a.sends e .error || (thr && a.sends e .value)
     | t => a.sends e t,
   a.beh, a.csq⟩

/-- `upon_error`: `__upon_error.hpp` 47-51 and 53-84. -/
def uponEA (a : Attr) (thr : Bool) : Attr :=
  ⟨fun e t => match t with
     | .value => a.sends e .value || a.sends e .error
     | .error => thr && a.sends e .error
     | .stopped => a.sends e .stopped,
   a.beh, a.csq⟩

/-- `upon_stopped`: default attributes (`__basic_sender.hpp` 156-166: forwarded from the child),
signatures `__upon_stopped.hpp` 45-56. -/
def uponSA (a : Attr) (thr : Bool) : Attr :=
  ⟨fun e t => match t with
     | .value => a.sends e .value || a.sends e .stopped
     | .error => a.sends e .error || thr
     | .stopped => false,
   a.beh, a.csq⟩

/-- `__mk_sch_env(sch, env)`, `__schedulers.hpp` 604-620: the start scheduler of work started where `sch`
completes; a scheduler that completes inline stands for the start scheduler of `env`. -/
def mkSch (W : World) (e : Env) (sch : Sched) : Sched :=
  if (schedA W sch).beh e .value = inlineB then e.getD sch else sch

/-- `__mk_secondary_env_t<Tag>`, `__schedulers.hpp` 622-686: the start scheduler of the environment for
the work started by the `Tag` completion of a sender, if it is known. -/
def Attr.sec (W : World) (a : Attr) (e : Env) (t : Tag) : Env :=
  if a.sends e t then (a.comp e t).map (mkSch W e) else none

/-- `__join(env2, fwd(env))` seen through `get_start_scheduler`: `__sequence.hpp` 244-247, `__let.hpp`
`__rcvr_env`. -/
def join (e2 e : Env) : Env := e2.or e

/-- `let_*`: attributes are the child's (`__let.hpp` 596-601, "this needs a proper implementation");
signatures 603-640. -/
def letA (W : World) (t0 : Tag) (a k : Attr) (thr : Bool) : Attr :=
  ⟨fun e t =>
     (t != t0 && a.sends e t) ||
     (a.sends e t0 && (k.sends (join (a.sec W e t0) e) t || (thr && t == .error))),
   a.beh, a.csq⟩

/-- `sequence`: `__sequence.hpp` 88-184. The second sender is queried with the secondary environment
only (`__env2_t`, lines 95-102). -/
def seqA (W : World) (a b : Attr) (thr : Bool) : Attr :=
  ⟨fun e t => match t with
     | .value => a.sends e .value && b.sends (join (a.sec W e .value) e) .value
     | t => a.sends e t ||
        (a.sends e .value &&
          (b.sends (join (a.sec W e .value) e) t || (thr && t == .error))),
   fun e t => (a.beh e t).or (b.beh (a.sec W e .value) t),
   fun e t =>
     let e2 := a.sec W e .value
     match t with
     | .value => if b.sends e2 .value then b.comp e2 .value else none
     | t =>
       let h1 := a.sends e t && (a.comp e t).isSome
       let h2 := b.sends e2 t && (b.comp e2 t).isSome
       if h1 != h2 then (if h2 then b.comp e2 t else a.comp e t) else none⟩

/-- `get_completion_scheduler<Tag>(sch, env)` of a scheduler: `inline_scheduler` claims to complete
inline on the value channel, so the start scheduler stands for it (`__schedulers.hpp` 427-446). -/
def schSelf (sch : Sched) (e : Env) (t : Tag) : Sched :=
  match sch with
  | .res n => .res n
  | .inl => if t = .value then e.getD .inl else .inl

/-- `continues_on`: `__continues_on.hpp` 136-295 and 329-341. Two overloads answer
`get_completion_scheduler<Tag>` (171-196); when both apply the call is ambiguous and there is no answer. -/
def contA (W : World) (a : Attr) (sch : Sched) (thrV : Bool) : Attr :=
  ⟨fun e t => match t with
     | .value => a.sends e .value
     | .error => a.sends e .error || (schedA W sch).sends e .error
          || (thrV && a.sends e .value)
     | .stopped => a.sends e .stopped || (schedA W sch).sends e .stopped,
   fun e t => ((schedA W sch).beh e t).or (a.beh e t),
   fun e t =>
     let o1 := (t == .value || !a.sends e t) && !(t == .error && a.sends e .value && thrV)
     let o2 := !(schedA W sch).sends e t && (a.comp e t).isSome
     if o1 && o2 then none
     else if o1 then some (schSelf sch e t)
     else if o2 then a.comp e t
     else none⟩

/-- `starts_on`: attributes `__starts_on.hpp` 46-118; signatures those of the transformed sender
(224-235). No completion behaviour is provided. -/
def startsA (W : World) (sch : Sched) (a : Attr) (thr : Bool) : Attr :=
  ⟨(seqA W (contA W (justA .value) sch false) a thr).sends,
   fun _ _ => unknown,
   fun e t =>
     let e2 := some (mkSch W e sch)
     if (a.beh e2 t).affine then some sch else a.comp e2 t⟩

/-- `on(sch, s)`: attributes `__on.hpp` 161-184 (only with a start scheduler in the environment);
signatures those of the transformed sender (74-86). -/
def onA (W : World) (sch : Sched) (a : Attr) (thr thrV : Bool) : Attr :=
  ⟨fun e => (contA W (startsA W sch a thr) (e.getD .inl) thrV).sends e,
   fun e t => match e with
     | some st => (contA W (startsA W sch a thr) st thrV).beh e t
     | none => unknown,
   fun e t => match e with
     | some st => (contA W (startsA W sch a thr) st thrV).csq e t
     | none => none⟩

/-- Fold of `|` over the children (`__when_all.hpp` 690-697). -/
def orAll : (n : Nat) → (Fin n → Beh) → Beh
  | 0, _ => ⟨false, false, false⟩
  | n + 1, f => (f 0).or (orAll n (fun i => f i.succ))

def anyAll : (n : Nat) → (Fin n → Bool) → Bool
  | 0, _ => false
  | n + 1, f => f 0 || anyAll n (fun i => f i.succ)

def allAll : (n : Nat) → (Fin n → Bool) → Bool
  | 0, _ => true
  | n + 1, f => f 0 && allAll n (fun i => f i.succ)

/-- `when_all`: attributes `__when_all.hpp` 665-709 (no completion scheduler). -/
def allA (n : Nat) (f : Fin n → Attr) (thr stp : Bool) : Attr :=
  ⟨fun e t => match t with
     | .value => allAll n (fun i => (f i).sends e .value)
     | .error => anyAll n (fun i => (f i).sends e .error) || (thr && n != 0)
     | .stopped => anyAll n (fun i => (f i).sends e .stopped) || (stp && n != 0),
   fun e t => if n = 0 then inlineB else orAll n (fun i => (f i).beh e t),
   fun _ _ => none⟩

/-- `__is_affine<Sender, Env>`, `__affine.hpp` 48-63. -/
def isAffine (a : Attr) (e : Env) : Bool :=
  (!a.sends e .value || (a.beh e .value).affine) &&
  (!a.sends e .error || (a.beh e .error).affine) &&
  (!a.sends e .stopped || (a.beh e .stopped).affine)

/-- `affine`: attributes `__affine.hpp` 142-173. -/
def affineA (a : Attr) (thr : Bool) : Attr :=
  ⟨fun e t => a.sends e t || (!isAffine a e && thr && t == .error && a.sends e .value),
   fun e t => if a.beh e t = inlineB then inlineB else asyncAffine,
   fun _ _ => none⟩

/-- The attributes of a sender expression. -/
def attrs (W : World) : S → Attr
  | .leaf l => leafA l
  | .just t => justA t
  | .readEnv thr => readA thr
  | .sched s => schedA W s
  | .thn s thr => thenA (attrs W s) thr
  | .uponE s thr => uponEA (attrs W s) thr
  | .uponS s thr => uponSA (attrs W s) thr
  | .letT t s k thr => letA W t (attrs W s) (attrs W k) thr
  | .seq s1 s2 thr => seqA W (attrs W s1) (attrs W s2) thr
  | .contOn s sch thrV _ => contA W (attrs W s) sch thrV
  | .startsOn sch s thr => startsA W sch (attrs W s) thr
  | .on sch s thr thrV _ => onA W sch (attrs W s) thr thrV
  | .whenAll n f thr stp => allA n (fun i => attrs W (f i)) thr stp
  | .affine s thr => affineA (attrs W s) thr

/-! ### Behaviour -/

/-- A started sender: started with an environment on a context, it may complete like this. -/
abbrev Beha := Env → Ctx → Out → Prop

/-- What happens after `o1` started something that completed like `o2`. -/
def after (o1 o2 : Out) : Out := ⟨o2.tag, o2.ctx, o1.inl && o2.inl⟩

/-- The same completion, replaced by an exception. -/
def Out.err (o : Out) : Out := { o with tag := .error }

/-- `schedule(sch)`; `__inline_scheduler.hpp` 55-59. -/
def schedR (W : World) : Sched → Beha
  | .inl => fun _ c o => o = ⟨.value, c, true⟩
  | .res n => fun _ c o => (W n).runs c o

/-- `__sequence.hpp` 209-306: the second sender is connected and started by the first one's value
completion, with the joined environment. -/
def seqR (W : World) (a1 : Attr) (r1 r2 : Beha) (thr : Bool) : Beha := fun e c o =>
  ∃ o1, r1 e c o1 ∧
    ((o1.tag ≠ .value ∧ o = o1) ∨
     (o1.tag = .value ∧ thr = true ∧ o = o1.err) ∨
     (o1.tag = .value ∧ ∃ o2, r2 (join (a1.sec W e .value) e) o1.ctx o2 ∧ o = after o1 o2))

/-- `__continues_on.hpp` 358-387 and 80-113: the completion is stored, the schedule operation started,
and its value completion delivers what was stored; storing may throw (376-380). -/
def contR (W : World) (r : Beha) (sch : Sched) (thrV thrE : Bool) : Beha := fun e c o =>
  ∃ o1, r e c o1 ∧
    ((((o1.tag = .value ∧ thrV = true) ∨ (o1.tag = .error ∧ thrE = true)) ∧ o = o1.err) ∨
     ∃ o2, schedR W sch e o1.ctx o2 ∧
       ((o2.tag = .value ∧ o = ⟨o1.tag, o2.ctx, o1.inl && o2.inl⟩) ∨
        (o2.tag ≠ .value ∧ o = after o1 o2)))

/-- `starts_on`'s transformation, `__starts_on.hpp` 224-235: `sequence(continues_on(just(), sch), s)`. -/
def startsR (W : World) (sch : Sched) (r : Beha) (thr : Bool) : Beha :=
  seqR W (contA W (justA .value) sch false)
    (contR W (fun _ c o => o = ⟨.value, c, true⟩) sch false false) r thr

/-- `let_*`, `__let.hpp` 185-216 and 275-300. -/
def letR (W : World) (t0 : Tag) (a1 : Attr) (r1 r2 : Beha) (thr : Bool) : Beha := fun e c o =>
  ∃ o1, r1 e c o1 ∧
    ((o1.tag ≠ t0 ∧ o = o1) ∨
     (o1.tag = t0 ∧ thr = true ∧ o = o1.err) ∨
     (o1.tag = t0 ∧ ∃ o2, r2 (join (a1.sec W e t0) e) o1.ctx o2 ∧ o = after o1 o2))

/-- `affine`'s transformation, `__affine.hpp` 77-134: the child itself if it claims to be affine, else
`__finally_(child, unstoppable(schedule(start scheduler)))` (`__finally.hpp` 178-208), which needs a
start scheduler whose schedule operations cannot fail (ill-formed otherwise). -/
def affineR (W : World) (a : Attr) (r : Beha) (thr : Bool) : Beha := fun e c o =>
  (isAffine a e = true ∧ r e c o) ∨
  (isAffine a e = false ∧ ∃ st, e = some st ∧ (schedA W st).sends e .error = false ∧
    ∃ o1, r e c o1 ∧
      ((o1.tag ≠ .stopped ∧ thr = true ∧ o = o1.err) ∨
       ∃ o2, schedR W st e o1.ctx o2 ∧ o2.tag = .value ∧
         o = ⟨o1.tag, o2.ctx, o1.inl && o2.inl⟩))

/-- Where, when and how a sender may complete, started in environment `e` on context `c`. -/
def Runs (W : World) : S → Beha
  | .leaf l => fun _ => l.runs
  | .just t => fun _ c o => o = ⟨t, c, true⟩                                    -- `__just.hpp` 59-62
  | .readEnv thr => fun _ c o => o.ctx = c ∧ o.inl = true ∧
      (o.tag = .value ∨ (thr = true ∧ o.tag = .error))                          -- `__read_env.hpp` 50-84
  | .sched s => schedR W s
  | .thn s thr => fun e c o => ∃ o1, Runs W s e c o1 ∧
      (o = o1 ∨ (o1.tag = .value ∧ thr = true ∧ o = o1.err))                    -- `__then.hpp` 85-115
  | .uponE s thr => fun e c o => ∃ o1, Runs W s e c o1 ∧
      ((o1.tag ≠ .error ∧ o = o1) ∨
       (o1.tag = .error ∧ (o = { o1 with tag := .value } ∨ (thr = true ∧ o = o1))))
  | .uponS s thr => fun e c o => ∃ o1, Runs W s e c o1 ∧
      ((o1.tag ≠ .stopped ∧ o = o1) ∨
       (o1.tag = .stopped ∧ (o = { o1 with tag := .value } ∨ (thr = true ∧ o = o1.err))))
  | .letT t s k thr => letR W t (attrs W s) (Runs W s) (Runs W k) thr
  | .seq s1 s2 thr => seqR W (attrs W s1) (Runs W s1) (Runs W s2) thr
  | .contOn s sch thrV thrE => contR W (Runs W s) sch thrV thrE
  | .startsOn sch s thr => startsR W sch (Runs W s) thr
  | .on sch s thr thrV thrE => fun e c o =>                                     -- `__on.hpp` 74-86
      contR W (startsR W sch (Runs W s) thr) (e.getD .inl) thrV thrE e c o
  | .whenAll n f thr stp => fun e c o =>                                        -- `__when_all.hpp` 788-798, 597-654
      (n = 0 ∧ o = ⟨.value, c, true⟩) ∨
      ∃ g : Fin n → Out, (∀ i, Runs W (f i) e c (g i)) ∧
        -- the last child to complete delivers the result
        ∃ last, o.ctx = (g last).ctx ∧ o.inl = (g last).inl ∧
          ((o.tag = .value ∧ ∀ i, (g i).tag = .value) ∨
           (o.tag = .error ∧ (thr = true ∨ ∃ i, (g i).tag = .error)) ∨
           (o.tag = .stopped ∧ (stp = true ∨ ∃ i, (g i).tag = .stopped)))
  | .affine s thr => affineR W (attrs W s) (Runs W s) thr

/-- `on(s, sch, closure)`, `__on.hpp` 92-105, as a transformation of its predecessor's behaviour: go to
`sch`, run the closure there, and come back to the scheduler `old` found at connect time. -/
def onClosureR (W : World) (r : Beha) (sch old : Sched) (k : Beha → Beha)
    (thrV thrE thrV' thrE' : Bool) : Beha :=
  contR W (k (contR W r sch thrV thrE)) old thrV' thrE'

/-- `exec::task`'s `await_transform`, `exec/task.hpp` 600-619: awaits the sender itself if it claims to
complete (with a value) where it starts, else `continues_on(sender, start scheduler)`. -/
def taskAwait (W : World) (s : S) (st : Sched) (thrV thrE : Bool) : Beha := fun e c o =>
  if ((attrs W s).beh (some st) .value).affine then Runs W s e c o
  else contR W (Runs W s) st thrV thrE e c o

end Verif.Place
