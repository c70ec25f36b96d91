import Verif.Bwos.Spec
/-! # `bwos::lifo_queue` — invariant -/
namespace Verif.Bwos

/-- The thief has claimed a slot of physical block `j` and not yet reported. -/
def TPc.holds (j : Nat) : TPc → Bool
  | .rd j' _ => decide (j' = j)
  | .inc j' _ => decide (j' = j)
  | _ => false

/-- Number of unreported claims on physical block `j`. -/
def claimed (c : Cfg) (s : St) (j : Nat) : Nat := cnt (fun t => (s.tpc t).holds j) c.N

/-- The value a thief has claimed and not yet returned. -/
def St.pend (s : St) (t : Nat) : List Val :=
  match s.tpc t with
  | .rd j i => [(s.blk j).buf i]
  | .inc _ v => [v]
  | _ => []

/-- A block open to thieves. -/
structure Gr (c : Cfg) (k : Nat) (b : Blk) (cl : Nat) : Prop where
  rnd : b.stealTail.1 = ((k / c.n : Nat) : Int)
  le : b.stealTail.2 ≤ c.bs
  tl : b.tail = c.bs
  hd : b.head = (((k / c.n : Nat) : Int), c.bs)
  ct : b.stealCount + cl = b.stealTail.2

/-- An unused block. -/
structure Fr (c : Cfg) (k : Nat) (b : Blk) (cl : Nat) : Prop where
  st : b.stealTail = (((k / c.n : Nat) : Int) - 1, c.bs)
  hd : b.head.2 ≤ c.bs
  ct : b.stealCount + cl = b.head.2

/-- The owner's block. -/
structure Ow (c : Cfg) (k : Nat) (b : Blk) (cl : Nat) : Prop where
  st : b.stealTail = (((k / c.n : Nat) : Int), c.bs)
  rnd : b.head.1 = ((k / c.n : Nat) : Int)
  lo : b.head.2 ≤ b.tail
  hi : b.tail ≤ c.bs
  ct : b.stealCount + cl = b.head.2

/-- Owner's block while being reclaimed. -/
structure Rc (c : Cfg) (k : Nat) (b : Blk) (cl : Nat) : Prop where
  hd : b.head = (((k / c.n : Nat) : Int), 0)
  cl : cl = 0

def ownOk (c : Cfg) (s : St) : Prop :=
  let k := s.own
  let b := s.at c s.own
  let cl := claimed c s (s.own % c.n)
  match s.opc with
  | .idle | .get | .lastG => Ow c k b cl
  | .put _ p => Ow c k b cl ∧ b.head.2 ≤ p ∧ p ≤ c.bs
  | .wr vs => Ow c k b cl ∧ b.tail = c.bs ∧ vs ≠ []
  | .stS vs => Ow c k b cl ∧ b.tail = c.bs ∧ vs ≠ [] ∧
      (k + 1 < s.start + c.n ∨ (k + 1 = s.start + c.n ∧ s.start < k ∧
        (s.at c s.start).stealTail.2 = c.bs))
  | .grant1 vs => Ow c k b cl ∧ b.tail = c.bs ∧ vs ≠ [] ∧ k + 1 < s.start + c.n
  | .grant2 vs e => Ow c k b cl ∧ b.tail = c.bs ∧ vs ≠ [] ∧ k + 1 < s.start + c.n ∧
      e = (((k / c.n : Nat) : Int), c.bs)
  | .spin vs => Fr c k b cl ∧ vs ≠ []
  | .rTail vs => Rc c k b cl ∧ b.stealTail = (((k / c.n : Nat) : Int) - 1, c.bs) ∧ vs ≠ []
  | .rSteal vs => Rc c k b cl ∧ b.stealTail = (((k / c.n : Nat) : Int) - 1, c.bs) ∧ b.tail = 0 ∧
      vs ≠ []
  | .rCount vs => Rc c k b cl ∧ b.stealTail = (((k / c.n : Nat) : Int), c.bs) ∧ b.tail = 0 ∧ vs ≠ []
  | .lastP vs => Ow c k b cl ∧ b.tail = 0 ∧ vs ≠ []
  | .ldS => Ow c k b cl ∧ b.head.2 = b.tail
  | .red1 => Ow c k b cl ∧ b.head.2 = b.tail ∧ s.start < k
  | .red2 e => Ow c k b cl ∧ b.head.2 = b.tail ∧ s.start < k ∧ e = (((k / c.n : Nat) : Int), c.bs)
  | .take => Fr c k b cl ∧ s.start < k

/-- Claimed slots lie below this index. -/
def lim (c : Cfg) (s : St) (k : Nat) : Nat :=
  if k < s.own then (s.at c k).stealTail.2 else (s.at c k).head.2

structure Inv (c : Cfg) (s : St) : Prop where
  lo : s.start ≤ s.own
  hi : s.own < s.start + c.n
  gr : ∀ k, s.start ≤ k → k < s.own → Gr c k (s.at c k) (claimed c s (k % c.n))
  fr : ∀ k, s.own < k → k < s.start + c.n → Fr c k (s.at c k) (claimed c s (k % c.n))
  ow : ownOk c s
  thr : ∀ t, s.tpc t ≠ .idle → t < c.N
  idx : ∀ t k r i, s.tpc t = .ldTail k r i ∨ s.tpc t = .cas k r i → i < c.bs
  rdj : ∀ t j i, s.tpc t = .rd j i → j < c.n
  rdl : ∀ t k i, s.start ≤ k → k < s.start + c.n → s.tpc t = .rd (k % c.n) i → i < lim c s k
  pnd : ∀ t, s.log.filterMap (stolenBy t) = s.ret t ++ s.pend t

/-! ## Arithmetic of the window -/

theorem mod_inj {n a k k' : Nat} (h1 : a ≤ k) (h2 : k < a + n) (h3 : a ≤ k') (h4 : k' < a + n)
    (h : k % n = k' % n) : k = k' := by
  rcases Nat.le_total k k' with hk | hk
  · have := Nat.sub_mod_eq_zero_of_mod_eq h.symm
    rw [Nat.mod_eq_of_lt (by omega)] at this; omega
  · have := Nat.sub_mod_eq_zero_of_mod_eq h
    rw [Nat.mod_eq_of_lt (by omega)] at this; omega

theorem window {n : Nat} (a j : Nat) (hn : 0 < n) (hj : j < n) :
    ∃ k, a ≤ k ∧ k < a + n ∧ k % n = j := by
  have h1 := Nat.mod_lt a hn
  have h2 := Nat.div_add_mod a n
  by_cases h : a % n ≤ j
  · refine ⟨n * (a / n) + j, by omega, by omega, ?_⟩
    rw [Nat.mul_add_mod]; exact Nat.mod_eq_of_lt hj
  · refine ⟨n * (a / n + 1) + j, ?_, ?_, ?_⟩
    · rw [Nat.mul_add]; omega
    · rw [Nat.mul_add]; omega
    · rw [Nat.mul_add_mod]; exact Nat.mod_eq_of_lt hj

@[simp] theorem setB_at (c : Cfg) (s : St) (k : Nat) (b : Blk) : (s.setB c k b).blk (k % c.n) = b := by
  simp [St.setB]

theorem claimed_congr {c : Cfg} {s s' : St} {j : Nat}
    (h : ∀ t, (s'.tpc t).holds j = (s.tpc t).holds j) : claimed c s' j = claimed c s j :=
  cnt_congr (fun t _ => h t)

theorem claimed_pos {c : Cfg} {s : St} {t j : Nat} (ht : t < c.N) (h : (s.tpc t).holds j = true) :
    0 < claimed c s j := by
  by_cases h0 : claimed c s j = 0
  · rw [claimed, cnt_zero_iff] at h0; rw [h0 t ht] at h; cases h
  · omega

/-- The steal index of a block of the window is below `block_size` only if the block is granted. -/
theorem Inv.granted_of {c : Cfg} {s : St} (h : Inv c s) {k : Nat} (h1 : s.start ≤ k)
    (h2 : k < s.start + c.n) (h3 : (s.at c k).stealTail.2 < c.bs) : k < s.own := by
  rcases Nat.lt_trichotomy k s.own with hk | hk | hk
  · exact hk
  · subst hk
    have ho := h.ow
    simp only [ownOk] at ho
    exfalso
    have hst : (s.at c s.own).stealTail.2 = c.bs := by
      split at ho
      all_goals first
        | exact (congrArg Prod.snd ho.1.st)
        | exact (congrArg Prod.snd ho.st)
        | exact (congrArg Prod.snd ho.2.1)
    omega
  · have := congrArg Prod.snd (h.fr k hk h2).st
    simp at this; omega

theorem inv_init (c : Cfg) : Inv c (init c) := by
  have hn := c.hn
  have hcl : ∀ j, claimed c (init c) j = 0 := by
    intro j; rw [claimed, cnt_zero_iff]; intro i _; rfl
  have h0 : (init c).at c 0 = (Blk.fresh c.bs).reclaimed c.bs 0 := by
    simp [init, St.at, upd]
  refine ⟨Nat.le_refl _, by simp [init]; exact hn, fun k h1 h2 => ?_, fun k h1 h2 => ?_, ?_, ?_, ?_, ?_, ?_, ?_⟩
  · simp [init] at h2
  · simp [init] at h1 h2
    have hk : k % c.n ≠ 0 := by rw [Nat.mod_eq_of_lt h2]; omega
    have hb : (init c).at c k = Blk.fresh c.bs := by
      simp [init, St.at, upd, hk]
    rw [hb, hcl]
    refine ⟨?_, Nat.le_refl _, rfl⟩
    simp [Blk.fresh, Nat.div_eq_of_lt h2]
  · simp only [ownOk]
    show Ow c 0 ((init c).at c 0) _
    rw [h0, hcl]
    refine ⟨?_, ?_, Nat.le_refl _, Nat.zero_le _, rfl⟩ <;> simp [Blk.reclaimed]
  · intro t h; simp [init] at h
  · intro t k r i h; simp [init] at h
  · intro t j i h; simp [init] at h
  · intro t j i _ _ h; simp [init] at h
  · intro t; simp [init, St.pend]

end Verif.Bwos
