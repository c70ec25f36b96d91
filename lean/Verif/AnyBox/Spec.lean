import Verif.AnyBox.Model
/-!
# What a type-erased value is supposed to be: a variable holding a value or nothing

The specification knows nothing about buffers, tags and heap blocks: every `__any` object is a variable
of an interface type that is empty or holds a value (a type and a payload).
-/
namespace Verif.AnyBox

/-- The program's variables: `none` -- no such object; `some (f, v)` -- an object of interface `f` that
is empty or holds a value. -/
abbrev Vars := Nat → Option (Nat × Option (Nat × Nat))

def Vars.set (a : Vars) (i : Nat) (v : Option (Nat × Nat)) : Vars :=
  fun k => if k = i then (a i).map (fun x => (x.1, v)) else a k

def Vars.new (a : Vars) (i f : Nat) (v : Option (Nat × Nat)) : Vars :=
  fun k => if k = i then some (f, v) else a k

def Vars.get (a : Vars) (i : Nat) : Option (Nat × Nat) := (a i).bind (·.2)
def Vars.iface (a : Vars) (i : Nat) : Nat := (a i).elim 0 (·.1)

/-- What each operation does to the variables, given whether it threw. -/
def specOp (a : Vars) : Op → Bool → Vars
  | .new i f, _ => a.new i f none
  -- a constructor that throws creates nothing
  | .val i f ty v _, threw => if threw then a else a.new i f (some (ty, v))
  | .move i j, _ => (a.new i (a.iface j) (a.get j)).set j none
  | .copy i j _, threw => if threw then a else a.new i (a.iface j) (a.get j)
  -- the argument is passed by value: it has been moved from whatever happens
  | .conv i f j _, threw =>
      if threw then a.set j none else (a.new i f (a.get j)).set j none
  | .del i, _ => fun k => if k = i then none else a k
  | .reset i, _ => a.set i none
  -- basic guarantee: the old value is destroyed first
  | .emplace i ty v _, threw => a.set i (if threw then none else some (ty, v))
  | .massign i j, _ => if i = j then a else (a.set i (a.get j)).set j none
  -- strong guarantee
  | .cassign i j _, threw => if threw then a else a.set i (a.get j)
  | .vassign i j _, threw => (a.set i (if threw then none else a.get j)).set j none
  | .swap i j, _ => (a.set i (a.get j)).set j (a.get i)

def specRun : Vars → List Op → List Bool → Vars
  | a, op :: ops, t :: ts => specRun (specOp a op t) ops ts
  | a, _, _ => a

/-- The value seen through a variable of the program (`__value`, `__any_cast`). -/
def seen (s : St) : Vars := fun i =>
  (s.cell i).map (fun c => (c.iface, (objOf c.word).map (fun o => ((s.obj o).ty, (s.obj o).val))))

end Verif.AnyBox
