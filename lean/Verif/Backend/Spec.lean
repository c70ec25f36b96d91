import Verif.Backend.Model
/-!
# What the backend singleton promises
-/
namespace Verif.Backend

/-- The factories ever installed: the default one and those passed to `set`. -/
def Known (sets : List (Nat × Nat)) (f : Nat) : Prop := f = 0 ∨ ∃ o, (f, o) ∈ sets

/-- Every exchange returned what the previous one installed (the first one the default factory); `fac` is what the last one installed. -/
def Chain : List (Nat × Nat) → Nat → Prop
  | [], fac => fac = 0
  | (n, o) :: l, fac => n = fac ∧ Chain l o

/-- The thread is inside the lock. -/
def PC.crit : PC → Bool
  | .g2 => true | .g3 _ => true | .g7 _ => true | .g8 _ => true | .s4 _ _ => true | .s5 _ => true
  | _ => false

/-- The thread may still replace the instance: it is making one, or replacing the factory. -/
def PC.replacing : PC → Bool
  | .g3 none => true | .g4 => true | .g5 _ => true | .g6 _ => true | .g7 _ => true
  | .s1 _ => true | .s2 _ _ => true | .s3 _ _ => true | .s4 _ _ => true
  | _ => false

/-- Steps other than calls of `set`. -/
def stepGet (s : St) (a : Act) : Option St :=
  match a with
  | .set _ _ => none
  | a => step s a

end Verif.Backend
