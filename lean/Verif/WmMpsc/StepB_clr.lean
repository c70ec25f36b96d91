import Verif.WmMpsc.Base
/-!
# The intrusive MPSC queue under the C++ memory model — links (C96)
-/
namespace Verif.WmMpsc

open Verif.WM

set_option maxHeartbeats 8000000 in
theorem B_clr {s : St} (hA : A s) (hB : B s) {n ts : Nat} {o : Ord} {m' : Mem Loc Acc} (hn : n ≠ 0) (hp : s.pc n = .st) (hm : s.m.store conf o n (.next n) ts 0 ⟨n, .lnk n⟩ = some m') : B { s with m := m', pc := upd s.pc n .ex, kn := upd s.kn n ts } := by
  obtain ⟨t1, t2, t3, t4, t5, t6, t7, t8, g', t9, t10, t11, t12⟩ := store_spec hm
  have hlog := fun k b => logged_snoc t3 k b
  have hlt := logged_lt s.m
  have mono : ∀ u k, (s.m.cur u).know k = true → (m'.cur u).know k = true := fun u k hk => by
    by_cases hu : u = n
    · rw [hu] at hk ⊢; rw [t6, hk]; rfl
    · rw [t5 u hu]; exact hk
  have hself : (m'.cur (n)).know s.m.log.length = true := by rw [t6]; simp
  have hrel : o.isRel = true → ∀ k, (m'.cur n).know k = true → g'.view.know k = true := fun ho k hk => by rw [t11, ho, hk]; rfl
  have hsn : ∀ u x, (s.m.cur u).seen x ≤ (m'.cur u).seen x := fun u x => by
    by_cases hu : u = n
    · rw [hu, t7]; split
      · rename_i hx; subst hx; omega
      · omega
    · rw [t5 u hu]; exact Nat.le_refl _
  have hsn3 : ∀ u, u ≠ n → ∀ x, (m'.cur u).seen x = (s.m.cur u).seen x := fun u hu x => by rw [t5 u hu]
  have hsn2 := t7 (.next n)
  simp only [if_true] at hsn2
  clear t3 t4 t5 t6 t7 t11 t12 hm
  obtain ⟨a1, a2, a3, a4, a5, a6, a7, a8, a9, a10, a11, a12, a13, a14, a15, a16⟩ := hA
  obtain ⟨b1, b2, b3, b4, b5, b6, b7, b8, b9, b10, b11, b12, b13, b14⟩ := hB
  have hns : ∀ j, j ≤ s.kh → s.seq j ≠ n := fun j hj hh => by
    have := (a3 j hj (by rw [hh]; exact hn)).2
    rw [hh, hp] at this; cases this
  have hk : ∀ y, y ≠ n → upd s.kn n ts y = s.kn y := fun y hy => upd_other _ _ hy
  have hk' : upd s.kn n ts n = ts := by rw [upd_same]
  have hf : ∀ y j, y ≠ n → m'.hist (.next y) j = s.m.hist (.next y) j := fun y j hy => t8 _ _ (by rintro ⟨e, -⟩; cases e; exact hy rfl)
  have hf' : ∀ j, j ≠ ts → m'.hist (.next n) j = s.m.hist (.next n) j := fun j hy => t8 _ _ (fun e => hy e.2)
  have hd : ∀ j, m'.hist .head j = s.m.hist .head j := fun j => t8 _ _ (by rintro ⟨e, -⟩; cases e)
  have hlk : ∀ j, s.lkd j = true → j < s.kh := fun j hj => by
    rcases Nat.lt_or_ge j s.kh with hl | hl
    · exact hl
    · rw [a12 _ hl] at hj; cases hj
  have hnz : ∀ m y, s.pc m = .lk y → m ≠ 0 := fun m y hm h0 => by rw [h0, a5] at hm; cases hm
  have hlx : ∀ m y, s.pc m = .lk y → y ≠ n := fun m y hm => by
    rw [(a9 m y hm).1]; exact hns _ (by have := a4 m (hnz m y hm) (by rw [hm]; rfl); omega)
  have hcx : ∀ y, s.c = .c6 y → y ≠ n := fun y hy => by
    rw [(a10 y hy).1]; exact hns _ (by have := a7.1; omega)
  have hkn : s.kn n = 0 := b12 n hn (.inr hp)
  clear t8 a9 a3 a4 a10 a11 a13 a14 a15 a16 mono
  constructor <;> try dsimp only
  case above =>
    intro y j hj
    by_cases hy : y = n
    · subst hy; rw [hk'] at hj; rw [hf' _ (by omega)]; exact b1 _ _ (by omega)
    · rw [hk _ hy] at hj; rw [hf _ _ hy]; exact b1 _ _ hj
  case fresh =>
    intro y j g h1 h2 h3
    by_cases hy : y = n
    · subst hy
      by_cases hj : j = ts
      · subst hj; rw [t9] at h3; cases h3; exact t10
      · rw [hf' _ hj] at h3; exact b11 y j g h1 (by rw [hp]; rfl) h3
    · rw [upd_other _ _ hy] at h2; rw [hf _ _ hy] at h3; exact b11 y j g h1 h2 h3
  all_goals first | assumption | grind

end Verif.WmMpsc
