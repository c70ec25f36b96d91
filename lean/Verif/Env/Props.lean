import Verif.Env.Model
/-! # Environments — C35 -/
namespace Verif.Env

variable (isFwd : Query → Bool)

theorem findSize_le (p : Option Val → Bool) (l : List (Option Val)) : findSize p l ≤ l.length := by
  induction l with
  | nil => simp [findSize]
  | cons x xs ih => simp only [findSize]; split <;> simp; omega

theorem get1st_eq (l : List (Option Val)) : get1st l = l.findSome? id := by
  induction l with
  | nil => simp [get1st]
  | cons x xs ih =>
    cases x with
    | some v => simp [get1st, findSize]
    | none =>
      have hle := findSize_le Option.isSome xs
      simp only [List.findSome?_cons, id]
      rw [← ih]
      simp only [get1st, findSize, Option.isSome_none, Bool.false_eq_true, if_false,
        List.length_cons]
      have h1 : xs.length + 1 - findSize Option.isSome xs
          = (xs.length - findSize Option.isSome xs) + 1 := by omega
      rw [h1]
      by_cases h2 : xs.length - findSize Option.isSome xs < xs.length
      · rw [if_pos h2, if_pos (by omega)]; simp
      · rw [if_neg h2, if_neg (by omega)]

theorem queryAll_eq (q : Query) (es : List Env) : queryAll isFwd q es = es.map (Env.query isFwd q) := by
  induction es with
  | nil => simp [queryAll]
  | cons e es ih => simp [queryAll, ih]

/-- **C35.** `env{e1,…,en}` answers a query exactly as the first `ei` that answers it. -/
theorem C35_first (q : Query) (es : List Env) :
    (Env.env es).query isFwd q = es.findSome? (Env.query isFwd q) := by
  simp [Env.query, get1st_eq, queryAll_eq, List.findSome?_map]

/-- … spelled out: if `e` answers and nothing before it does, `e`'s answer is the answer. -/
theorem C35_first_wins (q : Query) (pre post : List Env) (e : Env) (v : Val)
    (hpre : ∀ e' ∈ pre, e'.query isFwd q = none) (he : e.query isFwd q = some v) :
    (Env.env (pre ++ e :: post)).query isFwd q = some v := by
  rw [C35_first, List.findSome?_append, List.findSome?_eq_none_iff.2 hpre]
  simp [he]

/-- … and if none answers, the query has no answer. -/
theorem C35_none (q : Query) (es : List Env) :
    (Env.env es).query isFwd q = none ↔ ∀ e ∈ es, e.query isFwd q = none := by
  rw [C35_first, List.findSome?_eq_none_iff]

/-- `__fwd_env` exposes forwarding queries only. -/
theorem C35_fwd (q : Query) (e : Env) :
    (fwdEnv e).query isFwd q = if isFwd q then e.query isFwd q else none := by
  unfold fwdEnv
  split
  · simp [Env.query, get1st, queryAll]
  · simp only [Env.query]; split <;> rfl
  · simp only [Env.query]

/-- Joining: the left environment shadows the right one, and only forwarding queries of the right one
    remain visible. -/
theorem C35_join (q : Query) (e1 e2 : Env) :
    (join e1 e2).query isFwd q =
      match e1.query isFwd q with
      | some v => some v
      | none => if isFwd q then e2.query isFwd q else none := by
  have hemp : ∀ e : Env, e.isEmpty = true → e.query isFwd q = none := by
    intro e he
    unfold Env.isEmpty at he
    split at he
    · simp [Env.query, get1st, queryAll]
    · cases he
  unfold join
  split
  · rename_i h; rw [hemp e1 h, C35_fwd]
  · split
    · rename_i h; rw [hemp e2 h]; cases e1.query isFwd q <;> simp
    · rw [C35_first]; simp only [List.findSome?_cons, List.findSome?_nil, C35_fwd]
      cases e1.query isFwd q <;> simp
      split <;> simp_all

/-- Joining is associative as far as any query can observe. -/
theorem C35_join_assoc (q : Query) (a b c : Env) :
    (join (join a b) c).query isFwd q = (join a (join b c)).query isFwd q := by
  simp only [C35_join]
  cases a.query isFwd q <;> cases b.query isFwd q <;> cases hf : isFwd q <;> simp

/-- A root environment answers the root query, and an environment into which it was only forwarded
    does not. -/
theorem C35_root (root : Query) (h : RootQuery isFwd root) (e e1 : Env)
    (h1 : e1.query isFwd root = none) :
    (asRoot root e).query isFwd root = some 1 ∧ (join e1 (asRoot root e)).query isFwd root = none := by
  constructor
  · simp [asRoot, C35_join, Env.query]
  · simp [C35_join, h1, h.notFwd]

/-! Non-vacuity: three nested environments, query 5 forwarding, query 6 not. -/
def demoFwd : Query → Bool := fun q => q = 5
example : (Env.env [.prop 6 1, .env [.prop 5 2], .prop 5 3]).query demoFwd 5 = some 2 := by decide
example : (join (.prop 7 0) (.env [.prop 5 2, .prop 6 9])).query demoFwd 5 = some 2 ∧
    (join (.prop 7 0) (.env [.prop 5 2, .prop 6 9])).query demoFwd 6 = none ∧
    (join (.prop 5 8) (.env [.prop 5 2, .prop 6 9])).query demoFwd 5 = some 8 := by decide
example : RootQuery demoFwd 6 ∧ (Env.prop 5 1).query demoFwd 6 = none := ⟨⟨by decide⟩, by decide⟩

end Verif.Env
