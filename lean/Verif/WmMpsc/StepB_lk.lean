import Verif.WmMpsc.Base
/-!
# The intrusive MPSC queue under the C++ memory model — links (C96)
-/
namespace Verif.WmMpsc

open Verif.WM

set_option maxHeartbeats 8000000 in
theorem B_lk {s : St} (hA : A s) (hB : B s) {n x ts : Nat} {o : Ord} {m' : Mem Loc Acc} (hn : n ≠ 0) (ho : o.isRel = true) (hp : s.pc n = .lk x) (hm : s.m.store conf o n (.next x) ts (n + 1) ⟨n, .lnk x⟩ = some m') : B { s with m := m', pc := upd s.pc n .done, lkd := upd s.lkd (s.idx n - 1) true, kn := upd s.kn x ts } := by
  obtain ⟨t1, t2, t3, t4, t5, t6, t7, t8, g', t9, t10, t11, t12⟩ := store_spec hm
  have hlog := fun k b => logged_snoc t3 k b
  have hlt := logged_lt s.m
  have mono : ∀ u k, (s.m.cur u).know k = true → (m'.cur u).know k = true := fun u k hk => by
    by_cases hu : u = n
    · rw [hu] at hk ⊢; rw [t6, hk]; rfl
    · rw [t5 u hu]; exact hk
  have hself : (m'.cur (n)).know s.m.log.length = true := by rw [t6]; simp
  have hrel : o.isRel = true → ∀ k, (m'.cur n).know k = true → g'.view.know k = true := fun ho k hk => by rw [t11, ho, hk]; rfl
  have hsn : ∀ u x, (s.m.cur u).seen x ≤ (m'.cur u).seen x := fun u x => by
    by_cases hu : u = n
    · rw [hu, t7]; split
      · rename_i hx; subst hx; omega
      · omega
    · rw [t5 u hu]; exact Nat.le_refl _
  have hsn3 : ∀ u, u ≠ n → ∀ x, (m'.cur u).seen x = (s.m.cur u).seen x := fun u hu x => by rw [t5 u hu]
  have hsn2 := t7 (.next x)
  simp only [if_true] at hsn2
  clear t3 t4 t5 t6 t7 t11 t12 hm
  obtain ⟨a1, a2, a3, a4, a5, a6, a7, a8, a9, a10, a11, a12, a13, a14, a15, a16⟩ := hA
  obtain ⟨b1, b2, b3, b4, b5, b6, b7, b8, b9, b10, b11, b12, b13, b14⟩ := hB
  obtain ⟨i1, i2, i3⟩ := a4 n hn (by rw [hp]; rfl)
  obtain ⟨e1, e2⟩ := a9 n x hp
  have hq1 : s.p ≤ s.idx n - 1 := by
    rcases Nat.lt_or_ge (s.idx n - 1) s.p with hl | hl
    · rw [a13 _ hl] at e2; cases e2
    · exact hl
  have hwin : ∀ j, s.p ≤ j → j ≤ s.kh → s.seq j = x → j = s.idx n - 1 := fun j h1 h2 h3 => by
    by_cases hx : x = 0
    · rw [a6 j h1 h2 (by rw [h3, hx]), a6 (s.idx n - 1) hq1 (by omega) (by rw [← e1, hx])]
    · rw [← (a3 j h2 (by rw [h3]; exact hx)).1, ← (a3 (s.idx n - 1) (by omega) (by rw [← e1]; exact hx)).1, h3, ← e1]
  have hfx : ∀ m, m ≠ 0 → exd (s.pc m) = false → m ≠ x := fun m h1 h2 h3 => by
    have := (a3 (s.idx n - 1) (by omega) (by rw [← e1, ← h3]; exact h1)).2
    rw [← e1, ← h3, h2] at this; cases this
  have hk : ∀ y, y ≠ x → upd s.kn x ts y = s.kn y := fun y hy => upd_other _ _ hy
  have hk' : upd s.kn x ts x = ts := by rw [upd_same]
  have hf : ∀ y j, y ≠ x → m'.hist (.next y) j = s.m.hist (.next y) j := fun y j hy => t8 _ _ (by rintro ⟨e, -⟩; cases e; exact hy rfl)
  have hf' : ∀ j, j ≠ ts → m'.hist (.next x) j = s.m.hist (.next x) j := fun j hy => t8 _ _ (fun e => hy e.2)
  have hd : ∀ j, m'.hist .head j = s.m.hist .head j := fun j => t8 _ _ (by rintro ⟨e, -⟩; cases e)
  have hlk : ∀ j, s.lkd j = true → j < s.kh := fun j hj => by
    rcases Nat.lt_or_ge j s.kh with hl | hl
    · exact hl
    · rw [a12 _ hl] at hj; cases hj
  have hnz : ∀ m y, s.pc m = .lk y → m ≠ 0 := fun m y hm h0 => by rw [h0, a5] at hm; cases hm
  have hlx : ∀ m y, m ≠ n → s.pc m = .lk y → y ≠ x := fun m y hmn hm hyx => by
    obtain ⟨f1, f2⟩ := a9 m y hm
    obtain ⟨k1, k2, k3⟩ := a4 m (hnz m y hm) (by rw [hm]; rfl)
    have hpq : s.p ≤ s.idx m - 1 := by
      rcases Nat.lt_or_ge (s.idx m - 1) s.p with hl | hl
      · rw [a13 _ hl] at f2; cases f2
      · exact hl
    have := hwin (s.idx m - 1) hpq (by omega) (by rw [← f1, hyx])
    exact hmn (k1.symm.trans ((congrArg s.seq (by omega)).trans i1))
  have hcx : ∀ y, s.c = .c6 y → y ≠ x := fun y hy hyx => by
    obtain ⟨f1, f2, f3⟩ := a10 y hy
    have f4 : s.p ≤ s.sp - 1 := by
      rcases Nat.lt_or_ge (s.sp - 1) s.p with hl | hl
      · rw [a13 _ hl] at f3; cases f3
      · exact hl
    have f5 := hwin (s.sp - 1) f4 (by have := a7.1; omega) (by rw [← f1, hyx])
    exact hn (i1.symm.trans ((congrArg s.seq (by omega)).trans a7.2))
  have hc5 : s.c = .c5 → x ≠ 0 := fun hc hx => by
    have := a15 (.inr hc)
    have := a6 _ hq1 (by omega) (by rw [← e1]; exact hx)
    omega
  have hq3 : s.seq (s.idx n - 1 + 1) = n := (congrArg s.seq (by omega)).trans i1
  have hts : s.kn x < ts := Nat.lt_of_le_of_lt (b8 n x hp) t1
  have hql : s.idx n - 1 < s.kh := by omega
  have hs0 := fun x => hsn3 0 (fun h => hn h.symm) x
  generalize s.idx n - 1 = q at *
  clear t8 a9 a3 a4 a10 a11 a13 a14 a15 a16 mono hself hrel hlog hlt i1 i2 i3
  constructor <;> try dsimp only
  case above =>
    intro y j hj
    by_cases hy : y = x
    · subst hy; rw [hk'] at hj; rw [hf' _ (by omega)]; exact b1 _ _ (by omega)
    · rw [hk _ hy] at hj; rw [hf _ _ hy]; exact b1 _ _ hj
  case older =>
    intro j ts' g h1 h2 h3 h4 h5
    rw [hs0] at h5
    by_cases hy : s.seq j = x
    · have hjq := hwin j h1 h2 hy
      rw [hy] at h3 h4 h5
      rw [hk'] at h4
      rw [hf' _ h4] at h3
      by_cases h6 : ts' = s.kn x
      · subst h6; rw [← hy] at h3; subst hjq; exact b2 j g h1 h2 e2 h3
      · rw [← hy] at h3 h5 h6; exact b4 j ts' g h1 h2 h3 h6 h5
    · rw [hk _ hy] at h4; rw [hf _ _ hy] at h3; exact b4 j ts' g h1 h2 h3 h4 h5
  all_goals first | assumption | grind

end Verif.WmMpsc
