/-!
# Environments — model

Models `/repo/include/stdexec/__detail/__env.hpp` lines 53-62 (`cprop`), 64-101 (`__fwd`), 107-134
(`__join`), 143-171 (root environments), 196-220 (`prop`), 226-268 (`env`).

Query resolution happens at compile time in C++ (which overload is viable); here the same selection is
a total function. A user-defined environment class is a partial function from queries to values;
queries and values are abstract (`Nat`), query arguments are part of the query. `fwd q` says whether
`forwarding_query(q)` is true.
-/
namespace Verif.Env

abbrev Query := Nat
abbrev Val := Nat

inductive Env
  | user (answers : Query → Option Val)   -- a user-defined class with `query` members
  | prop (q : Query) (v : Val)            -- lines 197-220 (and `cprop`, 54-62)
  | fwd (e : Env)                         -- lines 64-81
  | env (es : List Env)                   -- lines 252-268

/-- Lines 240-241: `__mfind_if<P, __msize>` applied to a pack: the number of elements from the first
    one satisfying `P` to the end (0 if there is none). -/
def findSize (p : Option Val → Bool) : List (Option Val) → Nat
  | [] => 0
  | x :: xs => if p x then (x :: xs).length else findSize p xs

/-- Lines 236-246 `__get_1st_env`: the answer of the element at index `size - findSize`. -/
def get1st (answers : List (Option Val)) : Option Val :=
  let index := answers.length - findSize Option.isSome answers
  if index < answers.length then answers[index]?.join else none

mutual
/-- The result of `q(e)`, `none` when `e` does not answer `q` (no viable overload). -/
def Env.query (isFwd : Query → Bool) (q : Query) : Env → Option Val
  | .user a => a q
  | .prop q' v => if q' = q then some v else none
  | .fwd e => if isFwd q then Env.query isFwd q e else none
  | .env es => get1st (queryAll isFwd q es)
/-- The answers of the elements of a pack. -/
def queryAll (isFwd : Query → Bool) (q : Query) : List Env → List (Option Val)
  | [] => []
  | e :: es => Env.query isFwd q e :: queryAll isFwd q es
end

/-- Lines 88-100 `__fwd_env`: `env<>` and already forwarded environments are returned as they are. -/
def fwdEnv : Env → Env
  | .env [] => .env []
  | .fwd e => .fwd e
  | e => .fwd e

def Env.isEmpty : Env → Bool
  | .env [] => true
  | _ => false

/-- Lines 116-133 `__join(env1, env2)`. -/
def join (e1 e2 : Env) : Env :=
  if e1.isEmpty then fwdEnv e2
  else if e2.isEmpty then e1
  else .env [e1, fwdEnv e2]

/-- Lines 143-150: the root query is not a forwarding query. -/
structure RootQuery (isFwd : Query → Bool) (root : Query) : Prop where
  notFwd : isFwd root = false

/-- Lines 162-171 `__as_root_env`. -/
def asRoot (root : Query) (e : Env) : Env := join (.prop root 1) e

end Verif.Env
