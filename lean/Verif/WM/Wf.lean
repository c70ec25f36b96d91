import Verif.WM.Lemmas
/-!
# The view machine: whatever is seen exists

Views point to messages that exist; so a thread can always read the newest message of an object, write a new message above all others,
and a read-modify-write can always read the newest message (`load_ok`, `store_ok`, `rmw_ok`; used for progress).
-/
namespace Verif.WM

variable {L A : Type} [DecidableEq L]

/-- Every view points to messages that exist. -/
structure Mem.Wf (m : Mem L A) : Prop where
  zero : ∀ l, m.hist l 0 ≠ none
  cur : ∀ t l, m.hist l ((m.cur t).seen l) ≠ none
  msg : ∀ l ts g, m.hist l ts = some g → ∀ x, m.hist x (g.view.seen x) ≠ none

theorem Mem.Wf.init (v : L → Nat) : (Mem.init v : Mem L A).Wf := by
  constructor
  · intro l; simp [Mem.init]
  · intro t l; simp [Mem.init, View.bot]
  · intro l ts g h x
    simp only [Mem.init] at h
    split at h
    · cases h; simp [Mem.init, View.bot]
    · cases h

theorem Mem.Wf.touch {conf : A → A → Bool} {m : Mem L A} (h : m.Wf) (t : Nat) (a : A) : (m.touch conf t a).Wf := by
  obtain ⟨t1, -, -, t4, -, t6⟩ := touch_spec conf m t a
  constructor
  · intro l; rw [t1]; exact h.zero l
  · intro u l
    rw [t1]
    by_cases hu : u = t
    · subst hu; rw [t6]; exact h.cur u l
    · rw [t4 u hu]; exact h.cur u l
  · intro l ts g hg x; rw [t1] at hg ⊢; exact h.msg l ts g hg x

theorem max_ne {P : Nat → Prop} {a b : Nat} (ha : P a) (hb : P b) : P (max a b) := by
  rcases Nat.le_total a b with h | h
  · rw [Nat.max_eq_right h]; exact hb
  · rw [Nat.max_eq_left h]; exact ha

theorem Mem.Wf.load {conf : A → A → Bool} {m m' : Mem L A} {o : Ord} {t ts v : Nat} {l : L} {a : A} (h : m.Wf)
    (hm : m.load conf o t l ts a = some (v, m')) : m'.Wf := by
  obtain ⟨g, t1, -, -, t4, -, -, t7, -, t9⟩ := load_spec hm
  constructor
  · intro x; rw [t4]; exact h.zero x
  · intro u x
    rw [t4]
    by_cases hu : u = t
    · subst hu; rw [t9]
      refine max_ne (P := fun j => m.hist x j ≠ none) ?_ ?_
      · split
        · rename_i hx; subst hx; rw [t1]; simp
        · exact h.cur u x
      · split
        · exact h.msg l ts g t1 x
        · exact h.zero x
    · rw [t7 u hu]; exact h.cur u x
  · intro x j g' hg y; rw [t4] at hg ⊢; exact h.msg x j g' hg y

theorem Mem.Wf.store {conf : A → A → Bool} {m m' : Mem L A} {o : Ord} {t ts v : Nat} {l : L} {a : A} (h : m.Wf)
    (hm : m.store conf o t l ts v a = some m') : m'.Wf := by
  obtain ⟨-, -, -, -, t5, -, t7, t8, g', t9, -, -, t12⟩ := store_spec hm
  have up : ∀ x j, m.hist x j ≠ none → m'.hist x j ≠ none := fun x j hx => by
    by_cases hc : x = l ∧ j = ts
    · rw [hc.1, hc.2, t9]; simp
    · rw [t8 x j hc]; exact hx
  have hself : ∀ x, m'.hist x ((m'.cur t).seen x) ≠ none := fun x => by
    rw [t7]
    split
    · rename_i hx; subst hx; rw [t9]; simp
    · exact up _ _ (h.cur t x)
  constructor
  · intro x; exact up _ _ (h.zero x)
  · intro u x
    by_cases hu : u = t
    · subst hu; exact hself x
    · rw [t5 u hu]; exact up _ _ (h.cur u x)
  · intro x j g hg y
    by_cases hc : x = l ∧ j = ts
    · rw [hc.1, hc.2, t9] at hg
      cases hg
      rw [t12]
      split
      · exact hself y
      · split
        · rename_i hy; subst hy; rw [t9]; simp
        · exact up _ _ (h.zero y)
    · rw [t8 x j hc] at hg; exact up _ _ (h.msg x j g hg y)

theorem Mem.Wf.rmw {conf : A → A → Bool} {m m' : Mem L A} {o : Ord} {t ts v : Nat} {l : L} {f : Nat → Nat} {a : A} (h : m.Wf)
    (hm : m.rmw conf o t l ts f a = some (v, m')) : m'.Wf := by
  obtain ⟨g, t1, -, -, -, -, -, t7, -, t9, t10, g', t11, -, -, t14⟩ := rmw_spec hm
  have up : ∀ x j, m.hist x j ≠ none → m'.hist x j ≠ none := fun x j hx => by
    by_cases hc : x = l ∧ j = ts + 1
    · rw [hc.1, hc.2, t11]; simp
    · rw [t10 x j hc]; exact hx
  have hself : ∀ x, m'.hist x ((m'.cur t).seen x) ≠ none := fun x => by
    rw [t9]
    refine max_ne (P := fun j => m'.hist x j ≠ none) ?_ ?_
    · split
      · rename_i hx; subst hx; rw [t11]; simp
      · exact up _ _ (h.cur t x)
    · split
      · exact up _ _ (h.msg l ts g t1 x)
      · exact up _ _ (h.zero x)
  constructor
  · intro x; exact up _ _ (h.zero x)
  · intro u x
    by_cases hu : u = t
    · subst hu; exact hself x
    · rw [t7 u hu]; exact up _ _ (h.cur u x)
  · intro x j g2 hg y
    by_cases hc : x = l ∧ j = ts + 1
    · rw [hc.1, hc.2, t11] at hg
      cases hg
      rw [t14]
      refine max_ne (P := fun j => m'.hist y j ≠ none) (up _ _ (h.msg l ts g t1 y)) ?_
      split
      · exact hself y
      · split
        · rename_i hy; subst hy; rw [t11]; simp
        · exact up _ _ (h.zero y)
    · rw [t10 x j hc] at hg; exact up _ _ (h.msg x j g2 hg y)

/-- If `k` is the newest message of `l`, nobody has seen more. -/
theorem Mem.Wf.seen_le {m : Mem L A} (h : m.Wf) {l : L} {k : Nat} (hk : ∀ j, k < j → m.hist l j = none) (t : Nat) :
    (m.cur t).seen l ≤ k := by
  rcases Nat.lt_or_ge k ((m.cur t).seen l) with hl | hl
  · exact absurd (hk _ hl) (h.cur t l)
  · exact hl

/-- The newest message can be read. -/
theorem load_ok {conf : A → A → Bool} {m : Mem L A} (h : m.Wf) {l : L} {k : Nat} {g : Msg L} (hk : ∀ j, k < j → m.hist l j = none)
    (hg : m.hist l k = some g) (o : Ord) (t : Nat) (a : A) : ∃ m', m.load conf o t l k a = some (g.val, m') := by
  simp only [Mem.load, hg]
  rw [if_pos (h.seen_le hk t)]
  exact ⟨_, rfl⟩

/-- A new message can be written. -/
theorem store_ok {conf : A → A → Bool} {m : Mem L A} (h : m.Wf) {l : L} {k : Nat} (hk : ∀ j, k < j → m.hist l j = none)
    (o : Ord) (t v : Nat) (a : A) : ∃ m', m.store conf o t l (k + 1) v a = some m' := by
  have h1 := h.seen_le hk t
  simp only [Mem.store]
  rw [if_pos ⟨by omega, hk _ (by omega)⟩]
  exact ⟨_, rfl⟩

/-- A read-modify-write can read the newest message. -/
theorem rmw_ok {conf : A → A → Bool} {m : Mem L A} (h : m.Wf) {l : L} {k : Nat} {g : Msg L} (hk : ∀ j, k < j → m.hist l j = none)
    (hg : m.hist l k = some g) (o : Ord) (t : Nat) (f : Nat → Nat) (a : A) : ∃ m', m.rmw conf o t l k f a = some (g.val, m') := by
  simp only [Mem.rmw, hg]
  rw [if_pos ⟨h.seen_le hk t, hk _ (by omega)⟩]
  exact ⟨_, rfl⟩

end Verif.WM
