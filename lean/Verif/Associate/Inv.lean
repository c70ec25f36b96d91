import Verif.Associate.Model
/-! # Invariant of `associate` and `spawn` -/
namespace Verif.Associate
set_option maxHeartbeats 4000000

/-- 1 if `o < n`. -/
def lt1 (o n : Nat) : Nat := if o < n then 1 else 0
/-- 1 if `p = o`. -/
def eq1 (p o : Nat) : Nat := if p = o then 1 else 0

theorem lt1_succ (o n : Nat) : lt1 o (n + 1) = lt1 o n + eq1 n o := by
  unfold lt1 eq1; split <;> split <;> split <;> omega
theorem eq1_self (o : Nat) : eq1 o o = 1 := by simp [eq1]
theorem lt1_cases (o n : Nat) : (o < n ∧ lt1 o n = 1) ∨ (n ≤ o ∧ lt1 o n = 0) := by
  unfold lt1; split <;> omega
theorem dead_inc (f : Nat → Nat) (o p : Nat) : upd f o (f o + 1) p = f p + eq1 o p := by
  by_cases h : p = o
  · subst h; simp [eq1]
  · rw [upd_other _ _ h]; simp [eq1, Ne.symm h]

/-- Does it hold an association? -/
def assocW : Cell → Nat
  | .data true _ => 1
  | .op c => if c.a then 1 else 0
  | .spawn _ => 1
  | _ => 0

/-- Does it hold object `o`? -/
def ownW (o : Nat) : Cell → Nat
  | .data true p => eq1 p o
  | .op c => if c.a then eq1 c.o o else 0
  | .spawn p => eq1 p o
  | _ => 0

/-- Does it hold a block? -/
def blkW : Cell → Nat
  | .spawn _ => 1
  | _ => 0

/-- Sum over the variables. -/
def S (N : Nat) (c : Cell → Nat) (f : Nat → Cell) : Nat := lsum c f (List.range N)

theorem S_upd {N i : Nat} (c : Cell → Nat) (f : Nat → Cell) (x : Cell) (h : i < N) :
    S N c (upd f i x) + c (f i) = S N c f + c x :=
  lsum_upd_in c f List.nodup_range (List.mem_range.mpr h)

/-- The state of an operation. -/
def okOp (c : OpC) : Prop :=
  (c.st = false → c.kids = 0 ∧ c.kd = false ∧ c.dn = 0 ∧ c.sp = false) ∧
  (c.st = true → c.a = false → c.kids = 0 ∧ c.kd = false ∧ c.dn = 1 ∧ c.sp = true) ∧
  (c.st = true → c.a = true → c.kids = 1 ∧ c.sp = false ∧ c.dn = if c.kd then 1 else 0)

structure Inv (N : Nat) (s : St) : Prop where
  cnt : s.count = S N assocW s.cell
  cov : s.ncov = S N assocW s.cell
  blk : s.blks = S N blkW s.cell
  own : ∀ o, s.dead o + S N (ownW o) s.cell = lt1 o s.nobj
  bad : s.bad = false
  ops : ∀ i c, s.cell i = .op c → okOp c

theorem S_pos {N i : Nat} (c : Cell → Nat) (f : Nat → Cell) (h : i < N) : c (f i) ≤ S N c f := by
  have key : ∀ l : List Nat, i ∈ l → c (f i) ≤ lsum c f l := by
    intro l
    induction l with
    | nil => intro h; cases h
    | cons a l ih =>
      intro h
      simp only [lsum]
      rcases List.mem_cons.mp h with h | h
      · subst h; omega
      · have := ih h; omega
  exact key _ (List.mem_range.mpr h)

theorem inv_init (N : Nat) : Inv N init := by
  have h : ∀ c : Cell → Nat, c .absent = 0 → S N c init.cell = 0 := fun c hc => lsum_eq_zero _ _ (fun _ _ => hc)
  constructor
  · exact (h _ rfl).symm
  · exact (h _ rfl).symm
  · exact (h _ rfl).symm
  · intro o; rw [h _ rfl]; simp [init, lt1]
  · rfl
  · intro i c hc; simp [init] at hc

theorem ops_put {f : Nat → Cell} {i : Nat} {x : Cell} (h : ∀ i c, f i = .op c → okOp c)
    (hx : ∀ c, x = .op c → okOp c) : ∀ k c, upd f i x k = .op c → okOp c := by
  intro k c hk
  by_cases e : k = i
  · subst e; rw [upd_same] at hk; exact hx c hk
  · rw [upd_other _ _ e] at hk; exact h k c hk

theorem okOp_new (a : Bool) (o : Nat) : okOp ⟨a, o, false, 0, false, 0, false⟩ := by
  refine ⟨fun _ => ⟨rfl, rfl, rfl, rfl⟩, ?_, ?_⟩ <;> (intro h; cases h)

/-- Facts about one variable. -/
theorem cell_facts {N : Nat} {s : St} (h : Inv N s) {i : Nat} (hi : i < N) :
    assocW (s.cell i) ≤ s.count ∧ assocW (s.cell i) ≤ s.ncov ∧ blkW (s.cell i) ≤ s.blks ∧
    ∀ o, ownW o (s.cell i) = 1 → o < s.nobj ∧ s.dead o = 0 := by
  have h1 := S_pos assocW s.cell hi
  have h2 := S_pos blkW s.cell hi
  have h3 := h.cnt
  have h4 := h.cov
  have h5 := h.blk
  refine ⟨by omega, by omega, by omega, fun o ho => ?_⟩
  have h6 := h.own o
  have h7 := S_pos (ownW o) s.cell hi
  rcases lt1_cases o s.nobj with h8 | h8
  · exact ⟨h8.1, by omega⟩
  · omega

theorem fresh_dead {N : Nat} {s : St} (h : Inv N s) (k : Nat) : s.dead (s.nobj + k) = 0 ∧ S N (ownW (s.nobj + k)) s.cell = 0 := by
  have := h.own (s.nobj + k)
  rcases lt1_cases (s.nobj + k) s.nobj with h8 | h8 <;> omega

/-- Only `dead`, `nobj` of fresh objects changed and everything fresh is dead: the invariant is kept. -/
theorem inv_keep {N : Nat} {s s' : St} (h : Inv N s) (h1 : s'.cell = s.cell) (h2 : s'.count = s.count)
    (h3 : s'.ncov = s.ncov) (h4 : s'.blks = s.blks)
    (h5 : ∀ o, s'.dead o + lt1 o s.nobj = s.dead o + lt1 o s'.nobj)
    (h7 : s'.bad = false) : Inv N s' := by
  refine ⟨by rw [h1, h2]; exact h.cnt, by rw [h1, h3]; exact h.cov, by rw [h1, h4]; exact h.blk, fun o => ?_, h7,
    by rw [h1]; exact h.ops⟩
  rw [h1]
  have := h.own o
  have := h5 o
  omega

/-- A variable is set: what has to be checked. -/
theorem inv_put {N : Nat} {s s' : St} (h : Inv N s) {i : Nat} (hi : i < N) {x : Cell}
    (h1 : s'.cell = upd s.cell i x) (h2 : s'.count + assocW (s.cell i) = s.count + assocW x)
    (h3 : s'.ncov + assocW (s.cell i) = s.ncov + assocW x) (h4 : s'.blks + blkW (s.cell i) = s.blks + blkW x)
    (h5 : ∀ o, s'.dead o + ownW o x + lt1 o s.nobj =
      s.dead o + ownW o (s.cell i) + lt1 o s'.nobj)
    (h6 : s'.bad = false) (h7 : ∀ c, x = .op c → okOp c) : Inv N s' := by
  refine ⟨?_, ?_, ?_, fun o => ?_, h6, by rw [h1]; exact ops_put h.ops h7⟩
  · have := S_upd assocW s.cell x hi; have := h.cnt; rw [h1]; omega
  · have := S_upd assocW s.cell x hi; have := h.cov; rw [h1]; omega
  · have := S_upd blkW s.cell x hi; have := h.blk; rw [h1]; omega
  · have := S_upd (ownW o) s.cell x hi; have := h.own o; have := h5 o; rw [h1]; omega

/-- Two variables are set; the first was absent. -/
theorem inv_put2 {N : Nat} {s s' : St} (h : Inv N s) {i j : Nat} (hi : i < N) (hj : j < N) (hij : i ≠ j) {x y : Cell}
    (h0 : s.cell i = .absent) (h1 : s'.cell = upd (upd s.cell j y) i x)
    (h2 : s'.count + assocW (s.cell j) = s.count + assocW x + assocW y)
    (h3 : s'.ncov + assocW (s.cell j) = s.ncov + assocW x + assocW y)
    (h4 : s'.blks + blkW (s.cell j) = s.blks + blkW x + blkW y)
    (h5 : ∀ o, s'.dead o + ownW o x + ownW o y + lt1 o s.nobj =
      s.dead o + ownW o (s.cell j) + lt1 o s'.nobj)
    (h6 : s'.bad = false) (h7 : ∀ c, x = .op c → okOp c) (h8 : ∀ c, y = .op c → okOp c) : Inv N s' := by
  have key : ∀ w : Cell → Nat, w .absent = 0 → S N w s'.cell + w (s.cell j) = S N w s.cell + w x + w y := by
    intro w hw
    have e1 := S_upd w s.cell y hj
    have e2 := S_upd w (upd s.cell j y) x hi
    rw [upd_other _ _ hij, h0, hw] at e2
    rw [h1]; omega
  refine ⟨?_, ?_, ?_, fun o => ?_, h6, by rw [h1]; exact ops_put (ops_put h.ops h8) h7⟩
  · have := key assocW rfl; have := h.cnt; omega
  · have := key assocW rfl; have := h.cov; omega
  · have := key blkW rfl; have := h.blk; omega
  · have := key (ownW o) rfl; have := h.own o; have := h5 o; omega

end Verif.Associate
