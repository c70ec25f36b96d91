import Mathlib.Tactic.ClearExcept
import Verif.WmMpsc.Base
/-!
# The intrusive MPSC queue under the C++ memory model — knowledge (C96)
-/
namespace Verif.WmMpsc

open Verif.WM

set_option maxHeartbeats 8000000 in
theorem K_lk {s : St} (hA : A s) (hB : B s) (hK : K s) {n x ts : Nat} {o : Ord} {m' : Mem Loc Acc} (hn : n ≠ 0) (ho : o.isRel = true) (hp : s.pc n = .lk x) (hm : s.m.store conf o n (.next x) ts (n + 1) ⟨n, .lnk x⟩ = some m') : K { s with m := m', pc := upd s.pc n .done, lkd := upd s.lkd (s.idx n - 1) true, kn := upd s.kn x ts } := by
  obtain ⟨t1, t2, t3, t4, t5, t6, t7, t8, g', t9, t10, t11, t12⟩ := store_spec hm
  have hlog := fun k b => logged_snoc t3 k b
  have hlt := logged_lt s.m
  have mono : ∀ u k, (s.m.cur u).know k = true → (m'.cur u).know k = true := fun u k hk => by
    by_cases hu : u = n
    · rw [hu] at hk ⊢; rw [t6, hk]; rfl
    · rw [t5 u hu]; exact hk
  have hself : (m'.cur (n)).know s.m.log.length = true := by rw [t6]; simp
  have hrel : o.isRel = true → ∀ k, (m'.cur n).know k = true → g'.view.know k = true := fun ho k hk => by rw [t11, ho, hk]; rfl
  have hsn : ∀ u x, (s.m.cur u).seen x ≤ (m'.cur u).seen x := fun u x => by
    by_cases hu : u = n
    · rw [hu, t7]; split
      · rename_i hx; subst hx; omega
      · omega
    · rw [t5 u hu]; exact Nat.le_refl _
  have hsn3 : ∀ u, u ≠ n → ∀ x, (m'.cur u).seen x = (s.m.cur u).seen x := fun u hu x => by rw [t5 u hu]
  have hsn2 := t7 (.next x)
  simp only [if_true] at hsn2
  clear t3 t4 t5 t6 t7 t11 t12 hm
  obtain ⟨a1, a2, a3, a4, a5, a6, a7, a8, a9, a10, a11, a12, a13, a14, a15, a16⟩ := hA
  obtain ⟨b1, b2, b3, b4, b5, b6, b7, b8, b9, b10, b11, b12, b13, b14⟩ := hB
  obtain ⟨k1, k2, k3, k4, k5, k6, k7, k8, k9, k10, k11, k12, k13⟩ := hK
  obtain ⟨i1, i2, i3⟩ := a4 n hn (by rw [hp]; rfl)
  obtain ⟨e1, e2⟩ := a9 n x hp
  have hq1 : s.p ≤ s.idx n - 1 := by
    rcases Nat.lt_or_ge (s.idx n - 1) s.p with hl | hl
    · rw [a13 _ hl] at e2; cases e2
    · exact hl
  have hwin : ∀ j, s.p ≤ j → j ≤ s.kh → s.seq j = x → j = s.idx n - 1 := fun j h1 h2 h3 => by
    by_cases hx : x = 0
    · rw [a6 j h1 h2 (by rw [h3, hx]), a6 (s.idx n - 1) hq1 (by omega) (by rw [← e1, hx])]
    · rw [← (a3 j h2 (by rw [h3]; exact hx)).1, ← (a3 (s.idx n - 1) (by omega) (by rw [← e1]; exact hx)).1, h3, ← e1]
  have hfx : ∀ m, m ≠ 0 → exd (s.pc m) = false → m ≠ x := fun m h1 h2 h3 => by
    have := (a3 (s.idx n - 1) (by omega) (by rw [← e1, ← h3]; exact h1)).2
    rw [← e1, ← h3, h2] at this; cases this
  have hk : ∀ y, y ≠ x → upd s.kn x ts y = s.kn y := fun y hy => upd_other _ _ hy
  have hk' : upd s.kn x ts x = ts := by rw [upd_same]
  have hf : ∀ y j, y ≠ x → m'.hist (.next y) j = s.m.hist (.next y) j := fun y j hy => t8 _ _ (by rintro ⟨e, -⟩; cases e; exact hy rfl)
  have hf' : ∀ j, j ≠ ts → m'.hist (.next x) j = s.m.hist (.next x) j := fun j hy => t8 _ _ (fun e => hy e.2)
  have hd : ∀ j, m'.hist .head j = s.m.hist .head j := fun j => t8 _ _ (by rintro ⟨e, -⟩; cases e)
  have hlk : ∀ j, s.lkd j = true → j < s.kh := fun j hj => by
    rcases Nat.lt_or_ge j s.kh with hl | hl
    · exact hl
    · rw [a12 _ hl] at hj; cases hj
  have hnz : ∀ m y, s.pc m = .lk y → m ≠ 0 := fun m y hm h0 => by rw [h0, a5] at hm; cases hm
  have hlx : ∀ m y, m ≠ n → s.pc m = .lk y → y ≠ x := fun m y hmn hm hyx => by
    obtain ⟨f1, f2⟩ := a9 m y hm
    obtain ⟨k1, k2, k3⟩ := a4 m (hnz m y hm) (by rw [hm]; rfl)
    have hpq : s.p ≤ s.idx m - 1 := by
      rcases Nat.lt_or_ge (s.idx m - 1) s.p with hl | hl
      · rw [a13 _ hl] at f2; cases f2
      · exact hl
    have := hwin (s.idx m - 1) hpq (by omega) (by rw [← f1, hyx])
    exact hmn (k1.symm.trans ((congrArg s.seq (by omega)).trans i1))
  have hcx : ∀ y, s.c = .c6 y → y ≠ x := fun y hy hyx => by
    obtain ⟨f1, f2, f3⟩ := a10 y hy
    have f4 : s.p ≤ s.sp - 1 := by
      rcases Nat.lt_or_ge (s.sp - 1) s.p with hl | hl
      · rw [a13 _ hl] at f3; cases f3
      · exact hl
    have f5 := hwin (s.sp - 1) f4 (by have := a7.1; omega) (by rw [← f1, hyx])
    exact hn (i1.symm.trans ((congrArg s.seq (by omega)).trans a7.2))
  have hq3 : s.seq (s.idx n - 1 + 1) = n := (congrArg s.seq (by omega)).trans i1
  have hxq : x ≠ 0 → s.idx x = s.idx n - 1 := fun hx => by rw [e1]; exact (a3 _ (by omega) (by rw [← e1]; exact hx)).1
  have hxe : x ≠ 0 → exd (s.pc x) = true := fun hx => by rw [e1]; exact (a3 _ (by omega) (by rw [← e1]; exact hx)).2
  have hnu : ∀ k b, s.m.logged k b → b.what ≠ .use (x) := fun k b h1 h2 => by
    obtain ⟨u1, u2, u3, u4⟩ := k12 k b _ h1 h2
    have := hxq u1
    omega
  have hrx : ∀ y, s.c = .ret y → y ≠ x := fun y hy hyx => by
    obtain ⟨r1, r2, r3⟩ := a16 y hy
    have r4 := (a3 (s.p - 1) (by have := a8.1; omega) (by rw [← r2]; exact r3)).1
    have r5 := hxq (by rw [← hyx]; exact r3)
    rw [← r2, hyx] at r4
    omega
  have hx6 := k6 n x
  have hql : s.idx n - 1 < s.kh := by omega
  have hpk := a8.1
  constructor <;> try dsimp only
  case putPc =>
    clear * - hlog hlt mono hself k3 hn hp hxe
    grind
  case freshW =>
    clear * - hlog hlt mono hself k4 hn hp hfx
    grind
  case msgK =>
    generalize s.idx n - 1 = q at *
    clear * - hlog hlt mono hself k5 hwin hd hql hpk
    grind
  case lkK =>
    clear * - hlog hlt mono hself k6 hlx hp
    grind
  case c6K =>
    clear * - hlog hlt mono hself k7 hcx
    grind
  case linkK =>
    generalize s.idx n - 1 = q at *
    clear * - hlog hlt mono hself k8 hlk hk hf hk' t9 hx6 hp hrel ho hwin e1
    grind
  case linkPut =>
    generalize s.idx n - 1 = q at *
    clear * - hlog hlt mono hself k9 hlk hk hf hk' t9 hrel ho hwin hq3 k1 k2 e1
    grind
  case retK =>
    clear * - hlog hlt mono hself k11 hrx
    grind
  case freeLast =>
    clear * - hlog hlt mono hself k13 hnu
    grind
  all_goals first | assumption | grind

end Verif.WmMpsc
