import Verif.WmMpsc.Base
/-!
# The intrusive MPSC queue under the C++ memory model — links (C96)
-/
namespace Verif.WmMpsc

open Verif.WM

set_option maxHeartbeats 8000000 in
theorem B_c6 {s : St} (hA : A s) (hB : B s) {x ts : Nat} {o : Ord} {m' : Mem Loc Acc} (ho : o.isRel = true) (hc : s.c = .c6 x) (hm : s.m.store conf o 0 (.next x) ts 1 ⟨0, .lnk x⟩ = some m') : B { s with m := m', c := .c7, lkd := upd s.lkd (s.sp - 1) true, kn := upd s.kn x ts } := by
  obtain ⟨t1, t2, t3, t4, t5, t6, t7, t8, g', t9, t10, t11, t12⟩ := store_spec hm
  have hlog := fun k b => logged_snoc t3 k b
  have hlt := logged_lt s.m
  have mono : ∀ u k, (s.m.cur u).know k = true → (m'.cur u).know k = true := fun u k hk => by
    by_cases hu : u = 0
    · rw [hu] at hk ⊢; rw [t6, hk]; rfl
    · rw [t5 u hu]; exact hk
  have hself : (m'.cur (0)).know s.m.log.length = true := by rw [t6]; simp
  have hrel : o.isRel = true → ∀ k, (m'.cur 0).know k = true → g'.view.know k = true := fun ho k hk => by rw [t11, ho, hk]; rfl
  have hsn : ∀ u x, (s.m.cur u).seen x ≤ (m'.cur u).seen x := fun u x => by
    by_cases hu : u = 0
    · rw [hu, t7]; split
      · rename_i hx; subst hx; omega
      · omega
    · rw [t5 u hu]; exact Nat.le_refl _
  have hsn3 : ∀ u, u ≠ 0 → ∀ x, (m'.cur u).seen x = (s.m.cur u).seen x := fun u hu x => by rw [t5 u hu]
  have hsn2 := t7 (.next x)
  simp only [if_true] at hsn2
  clear t3 t4 t5 t6 t7 t11 t12 hm
  obtain ⟨a1, a2, a3, a4, a5, a6, a7, a8, a9, a10, a11, a12, a13, a14, a15, a16⟩ := hA
  obtain ⟨b1, b2, b3, b4, b5, b6, b7, b8, b9, b10, b11, b12, b13, b14⟩ := hB
  obtain ⟨e1, e3, e2⟩ := a10 x hc
  have a7' := a7.1
  have hq1 : s.p ≤ s.sp - 1 := by
    rcases Nat.lt_or_ge (s.sp - 1) s.p with hl | hl
    · rw [a13 _ hl] at e2; cases e2
    · exact hl
  have hwin : ∀ j, s.p ≤ j → j ≤ s.kh → s.seq j = x → j = s.sp - 1 := fun j h1 h2 h3 => by
    by_cases hx : x = 0
    · rw [a6 j h1 h2 (by rw [h3, hx]), a6 (s.sp - 1) hq1 (by omega) (by rw [← e1, hx])]
    · rw [← (a3 j h2 (by rw [h3]; exact hx)).1, ← (a3 (s.sp - 1) (by omega) (by rw [← e1]; exact hx)).1, h3, ← e1]
  have hfx : ∀ m, m ≠ 0 → exd (s.pc m) = false → m ≠ x := fun m h1 h2 h3 => by
    have := (a3 (s.sp - 1) (by omega) (by rw [← e1, ← h3]; exact h1)).2
    rw [← e1, ← h3, h2] at this; cases this
  have hk : ∀ y, y ≠ x → upd s.kn x ts y = s.kn y := fun y hy => upd_other _ _ hy
  have hk' : upd s.kn x ts x = ts := by rw [upd_same]
  have hf : ∀ y j, y ≠ x → m'.hist (.next y) j = s.m.hist (.next y) j := fun y j hy => t8 _ _ (by rintro ⟨e, -⟩; cases e; exact hy rfl)
  have hf' : ∀ j, j ≠ ts → m'.hist (.next x) j = s.m.hist (.next x) j := fun j hy => t8 _ _ (fun e => hy e.2)
  have hd : ∀ j, m'.hist .head j = s.m.hist .head j := fun j => t8 _ _ (by rintro ⟨e, -⟩; cases e)
  have hlk : ∀ j, s.lkd j = true → j < s.kh := fun j hj => by
    rcases Nat.lt_or_ge j s.kh with hl | hl
    · exact hl
    · rw [a12 _ hl] at hj; cases hj
  have hnz : ∀ m y, s.pc m = .lk y → m ≠ 0 := fun m y hm h0 => by rw [h0, a5] at hm; cases hm
  have hq3 : s.seq (s.sp - 1 + 1) = 0 := by rw [← a7.2]; congr 1; omega
  constructor <;> try dsimp only
  all_goals first | assumption | grind

end Verif.WmMpsc
