import Verif.Asio.Model
/-!
# `completion_token`: what its users must respect, and what they get

`Ok` is the contract of the initiating function and of the threads that run its work.
-/
namespace Verif.Asio

/-- Is the activation record a frame that was not released? -/
def Rec.isOwned : Rec → Bool
  | .frame _ _ o => o
  | _ => false

/-- Is the activation record the frame of `start`, of an executor function or of the handler's destructor? -/
def Rec.isFrame : Rec → Bool
  | .frame _ _ _ => true
  | _ => false

/-- Is `start` still running, and has not registered its stop callback yet? -/
def Rec.isStarting : Rec → Bool
  | .frame .init _ true => true
  | .frame .post _ true => true
  | _ => false

/-- The outermost record of a stack among the cancellation signals being emitted (`some false`) and the frames that were
not released (`some true`). -/
def bottom : List Rec → Option Bool
  | [] => none
  | r :: rs => match bottom rs with
    | some b => some b
    | none => match r with
      | .frame _ _ true => some true
      | .emit => some false
      | _ => none

/-- What a user of the token must respect:
* executor functions begin only while the handler exists, or inside an executor function that has not completed the operation;
* nothing invokes the handler inside the emission of the cancellation signal, nor drops it there (unless the emission is itself
  inside the initiation or an executor function);
* an initiation or executor function that has completed the operation inline does not throw afterwards. -/
def Ok (s : St) : Act → Bool
  | .enterRun t => s.h == .live || (s.stk t).any Rec.isOwned
  | .call t => !(Rec.emit ∈ s.stk t)
  | .drop t => !(Rec.emit ∈ s.stk t) || bottom (s.stk t) == some true
  | .leave t (some _) => match s.stk t with
    | r :: _ => r.isOwned
    | [] => false
  | .initEnd t (some _) => match s.stk t with
    | r :: _ => r.isOwned
    | [] => false
  | _ => true

/-- Steps that respect the contract. -/
def stepOk (s : St) (a : Act) : Option St := if Ok s a then step s a else none

/-- The completions a user expects: an exception wins, the first one thrown; otherwise a value (or the exception of converting it)
if the handler was invoked, stopped if it was dropped. -/
inductive Expected : HSt → List Nat → Sig → Prop
  | error (h e es) : Expected h (e :: es) (.error e)
  | value : Expected .called [] .value
  | conv : Expected .called [] .convError
  | stopped : Expected .dropped [] .stopped

/-- Actions by which an activation returns or stops waiting, without throwing: no choice of Asio or the user. -/
def Returns : Act → Bool
  | .leave _ none => true
  | .initEnd _ none => true
  | .emplace _ => true
  | .emitLock _ => true
  | .emitDone _ => true
  | .reset _ => true
  | .complete _ _ => true
  | _ => false

end Verif.Asio
