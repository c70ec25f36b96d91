import Verif.Common
import Verif.ListSum
/-!
# Model of `__intrusive_ptr` (include/stdexec/__detail/__intrusive_ptr.hpp)

Any number of objects, of `__intrusive_ptr` variables and of threads.  Every read-modify-write of a reference-count
word is one step; so is every (unsynchronised) change of a pointer variable.  A call that performs several of these is
a *frame* on its thread's stack; the destructor of the managed object may itself make calls (it usually destroys other
`__intrusive_ptr`s), which are pushed above its frame.

The contract assumed of the callers is the one of `std::shared_ptr`: a variable is not written while another call is
reading or writing it, a copy is made from a variable inside its lifetime or from a manually held reference that is
not given up meanwhile.  Simplifications: the count word is a natural number (no 64-bit wrap-around of the number of
references); sequentially consistent memory; `_Ty`'s constructor does not call `__intrusive_from_this`.
-/
namespace Verif.IntrusivePtr

/-- Number of reserved low bits, the pointer variables and the threads of the program under consideration. -/
structure Cfg where
  R : Nat
  vars : List Nat
  thr : List Nat
  ndv : vars.Nodup
  ndt : thr.Nodup

/-- Where a copied reference comes from: a pointer variable, or a manually held reference (212-216, 326-341). -/
inductive Src | var (w : Nat) | raw
  deriving DecidableEq, Repr

/-- Where it goes: a variable under construction, an existing variable, or a manual reference (`__inc_ref`). -/
inductive Dst | ctor (v : Nat) | assign (v : Nat) | raw
  deriving DecidableEq, Repr

/-- The rest of a call.
    `inc`: about to `fetch_add` (131-135); `put x d`: a temporary owning `x` is about to be stored;
    `drop o`: about to `fetch_sub` (137-145); `del o`: about to `delete this` (142); `dtor o`: inside the destructor. -/
inductive Frame
  | inc (s : Src) (o : Nat) (d : Dst)
  | put (x : Option Nat) (d : Dst)
  | drop (o : Nat)
  | del (o : Nat)
  | dtor (o : Nat)
  deriving DecidableEq, Repr

structure St where
  /-- `__ref_count_` of each control block. -/
  word : Nat → Nat
  /-- The object was created. -/
  made : Nat → Bool
  /-- How often the object's destructor was entered. -/
  dtors : Nat → Nat
  /-- How often the object's storage was freed. -/
  freed : Nat → Nat
  /-- `__data_` of each variable. -/
  ptr : Nat → Option Nat
  /-- The variable is inside its lifetime. -/
  live : Nat → Bool
  /-- Manually held references. -/
  raw : Nat → Nat
  /-- Stack of calls of each thread. -/
  fr : Nat → List Frame
  /-- Changes of the reserved bits so far, newest first (ghost): `(bit, value)`. -/
  hist : Nat → List (Nat × Bool)
  /-- An object was accessed before its creation or after its destructor was entered. -/
  bad : Bool

def init : St where
  word _ := 0
  made _ := false
  dtors _ := 0
  freed _ := 0
  ptr _ := none
  live _ := false
  raw _ := 0
  fr _ := []
  hist _ := []
  bad := false

/-- Calls of thread `t`, and `go t`: its next step inside the current call. -/
inductive Act
  | go (t : Nat)
  | make (t v o : Nat)
  | copy (t : Nat) (d : Dst) (w : Nat)
  | fromRaw (t : Nat) (d : Dst) (o : Nat)
  | moveCtor (t v w : Nat)
  | moveAssign (t v w : Nat)
  | destroy (t v : Nat)
  | reset (t v : Nat)
  | swap (t v w : Nat)
  | release (t v : Nat)
  | rawDec (t o : Nat)
  | setBit (t : Nat) (s : Src) (o b : Nat)
  | clearBit (t : Nat) (s : Src) (o b : Nat)
  | use (t : Nat) (s : Src) (o : Nat)
  deriving DecidableEq, Repr

/-- Sum of a weight over a stack. -/
def fsum (f : Frame → Nat) : List Frame → Nat
  | [] => 0
  | a :: l => f a + fsum f l

/-- Sum of a frame weight over all stacks. -/
def T (c : Cfg) (f : Frame → Nat) (s : St) : Nat := lsum (fsum f) s.fr c.thr

/-- Is this frame copying from variable `w`? -/
def isRd (w : Nat) : Frame → Nat
  | .inc (.var w') _ _ => if w' = w then 1 else 0
  | _ => 0

/-- Is this frame copying from a manual reference to `o`? -/
def isRawRd (o : Nat) : Frame → Nat
  | .inc .raw o' _ => if o' = o then 1 else 0
  | _ => 0

def Dst.is (v : Nat) : Dst → Nat
  | .ctor v' => if v' = v then 1 else 0
  | .assign v' => if v' = v then 1 else 0
  | .raw => 0

/-- Is this frame going to write variable `v`? -/
def isWr (v : Nat) : Frame → Nat
  | .inc _ _ d => d.is v
  | .put _ d => d.is v
  | _ => 0

/-- `__ref_count_increment` (52, 108). -/
def Cfg.one (c : Cfg) : Nat := 2 ^ c.R
/-- `__count` (58-61). -/
def count (c : Cfg) (w : Nat) : Nat := w / 2 ^ c.R

/-- A thread may make a call when it is idle or running the destructor of a managed object. -/
def canCall (c : Cfg) (s : St) (t : Nat) : Bool :=
  decide (t ∈ c.thr) && match s.fr t with
    | [] => true
    | .dtor _ :: _ => true
    | _ => false

/-- Contract: nobody else reads or writes the variable. -/
def free (c : Cfg) (s : St) (v : Nat) : Bool := decide (T c (isRd v) s = 0) && decide (T c (isWr v) s = 0)

/-- The variable may be read. -/
def readable (c : Cfg) (s : St) (w : Nat) : Bool := s.live w && decide (T c (isWr w) s = 0)

/-- The variable may be written. -/
def writable (c : Cfg) (s : St) (v : Nat) : Bool := s.live v && free c s v

/-- The variable may be constructed. -/
def constructible (c : Cfg) (s : St) (v : Nat) : Bool := decide (v ∈ c.vars) && !s.live v && free c s v

def okDst (c : Cfg) (s : St) : Dst → Bool
  | .ctor v => constructible c s v
  | .assign v => writable c s v
  | .raw => true

/-- Contract: the caller holds a reference to `o` — through a variable, or manually. -/
def okSrc (c : Cfg) (s : St) (o : Nat) : Src → Bool
  | .var w => readable c s w && decide (s.ptr w = some o)
  | .raw => decide (T c (isRawRd o) s < s.raw o)

def push (s : St) (t : Nat) (f : Frame) : St := { s with fr := upd s.fr t (f :: s.fr t) }

/-- Release what a pointer held: `__dec_ref_` of the pointer (201-207). -/
def pushDrop (s : St) (t : Nat) : Option Nat → St
  | none => s
  | some o => push s t (.drop o)

/-- An access to the object's count or value. -/
def touch (s : St) (o : Nat) : Bool := s.bad || !s.made o || decide (0 < s.dtors o)

/-- `fetch_and(~mask)` (171). -/
def clr (w b : Nat) : Nat := w ^^^ (w &&& 2 ^ b)

/-- The next step of the call on top of the stack. -/
def go (c : Cfg) (s : St) (t : Nat) : Option St :=
  match s.fr t with
  | [] => none
  -- 131-135, 193-199: `fetch_add(__ref_count_increment)`
  | .inc _ o d :: k =>
      some { s with word := upd s.word o (s.word o + c.one), bad := touch s o, fr := upd s.fr t (.put (some o) d :: k) }
  -- 227-231: the end of the copy constructor; 301-312, 374-388: the returned temporary becomes the variable
  | .put x (.ctor v) :: k => some { s with ptr := upd s.ptr v x, live := upd s.live v true, fr := upd s.fr t k }
  -- 237-242: `__old{exchange(__data_, exchange(__that.__data_, nullptr))}`, with `__that` the temporary
  | .put x (.assign v) :: k => match s.ptr v with
      | none => some { s with ptr := upd s.ptr v x, fr := upd s.fr t k }
      | some o => some { s with ptr := upd s.ptr v x, fr := upd s.fr t (.drop o :: k) }
  | .put (some o) .raw :: k => some { s with raw := upd s.raw o (s.raw o + 1), fr := upd s.fr t k }
  | .put none .raw :: k => some { s with fr := upd s.fr t k }
  -- 137-145: `fetch_sub`; delete when the old count was one
  | .drop o :: k =>
      if count c (s.word o) = 1 then
        some { s with word := upd s.word o (s.word o - c.one), bad := touch s o, fr := upd s.fr t (.del o :: k) }
      else
        some { s with word := upd s.word o (s.word o - c.one), bad := touch s o, fr := upd s.fr t k }
  -- 142, 126-129: `delete this` enters the destructor
  | .del o :: k => some { s with dtors := upd s.dtors o (s.dtors o + 1), bad := touch s o, fr := upd s.fr t (.dtor o :: k) }
  -- the destructor returns, the storage is freed
  | .dtor o :: k => some { s with freed := upd s.freed o (s.freed o + 1), fr := upd s.fr t k }

def step (c : Cfg) (s : St) : Act → Option St
  | .go t => go c s t
  -- `__make_intrusive` (374-388) with the constructor of the control block (117-124)
  | .make t v o =>
      if canCall c s t && constructible c s v && !s.made o then
        some (push { s with made := upd s.made o true, word := upd s.word o c.one } t (.put (some o) (.ctor v)))
      else none
  -- 227-231, 244-247 (a null pointer is copied without touching a count); `__intrusive_from_this` of an object held by `w`
  | .copy t d w =>
      if canCall c s t && okDst c s d && readable c s w then
        match s.ptr w with
        | none => some (push s t (.put none d))
        | some o => some (push s t (.inc (.var w) o d))
      else none
  -- 233-235, 249-253, 301-332: `__intrusive_from_this` / `__inc_ref` through a manual reference
  | .fromRaw t d o =>
      if canCall c s t && okDst c s d && okSrc c s o .raw then some (push s t (.inc .raw o d)) else none
  -- 223-225
  | .moveCtor t v w =>
      if canCall c s t && constructible c s v && writable c s w then
        some { s with ptr := upd (upd s.ptr w none) v (s.ptr w), live := upd s.live v true }
      else none
  -- 237-242: the inner exchange first, then the outer one
  | .moveAssign t v w =>
      if canCall c s t && writable c s v && writable c s w then
        some (pushDrop { s with ptr := upd (upd s.ptr w none) v (s.ptr w) } t (upd s.ptr w none v))
      else none
  -- 255-258
  | .destroy t v =>
      if canCall c s t && writable c s v then
        some (pushDrop { s with ptr := upd s.ptr v none, live := upd s.live v false } t (s.ptr v))
      else none
  -- 260-263
  | .reset t v =>
      if canCall c s t && writable c s v then
        some (pushDrop { s with ptr := upd s.ptr v none } t (s.ptr v))
      else none
  -- 265-268
  | .swap t v w =>
      if canCall c s t && writable c s v && writable c s w then
        some { s with ptr := upd (upd s.ptr v (s.ptr w)) w (s.ptr v) }
      else none
  -- 212-216: `__release_`
  | .release t v =>
      if canCall c s t && writable c s v then
        match s.ptr v with
        | none => some s
        | some o => some { s with ptr := upd s.ptr v none, raw := upd s.raw o (s.raw o + 1) }
      else none
  -- `__dec_ref` of the object (334-341)
  | .rawDec t o =>
      if canCall c s t && okSrc c s o .raw then
        some (push { s with raw := upd s.raw o (s.raw o - 1) } t (.drop o))
      else none
  -- 157-163
  | .setBit t q o b =>
      if canCall c s t && okSrc c s o q && decide (b < c.R) then
        some { s with word := upd s.word o (s.word o ||| 2 ^ b), hist := upd s.hist o ((b, true) :: s.hist o), bad := touch s o }
      else none
  -- 167-173
  | .clearBit t q o b =>
      if canCall c s t && okSrc c s o q && decide (b < c.R) then
        some { s with word := upd s.word o (clr (s.word o) b), hist := upd s.hist o ((b, false) :: s.hist o), bad := touch s o }
      else none
  -- 270-283: `get`, `operator->`, `operator*`
  | .use t q o => if canCall c s t && okSrc c s o q then some { s with bad := touch s o } else none

abbrev Reachable (c : Cfg) (s : St) : Prop := Reach init (step c) s

end Verif.IntrusivePtr
