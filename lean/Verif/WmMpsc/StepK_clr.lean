import Mathlib.Tactic.ClearExcept
import Verif.WmMpsc.Base
/-!
# The intrusive MPSC queue under the C++ memory model — knowledge (C96)
-/
namespace Verif.WmMpsc

open Verif.WM

set_option maxHeartbeats 8000000 in
theorem K_clr {s : St} (hA : A s) (hB : B s) (hK : K s) {n ts : Nat} {o : Ord} {m' : Mem Loc Acc} (hn : n ≠ 0) (hp : s.pc n = .st) (hm : s.m.store conf o n (.next n) ts 0 ⟨n, .lnk n⟩ = some m') : K { s with m := m', pc := upd s.pc n .ex, kn := upd s.kn n ts } := by
  obtain ⟨t1, t2, t3, t4, t5, t6, t7, t8, g', t9, t10, t11, t12⟩ := store_spec hm
  have hlog := fun k b => logged_snoc t3 k b
  have hlt := logged_lt s.m
  have mono : ∀ u k, (s.m.cur u).know k = true → (m'.cur u).know k = true := fun u k hk => by
    by_cases hu : u = n
    · rw [hu] at hk ⊢; rw [t6, hk]; rfl
    · rw [t5 u hu]; exact hk
  have hself : (m'.cur (n)).know s.m.log.length = true := by rw [t6]; simp
  have hrel : o.isRel = true → ∀ k, (m'.cur n).know k = true → g'.view.know k = true := fun ho k hk => by rw [t11, ho, hk]; rfl
  have hsn : ∀ u x, (s.m.cur u).seen x ≤ (m'.cur u).seen x := fun u x => by
    by_cases hu : u = n
    · rw [hu, t7]; split
      · rename_i hx; subst hx; omega
      · omega
    · rw [t5 u hu]; exact Nat.le_refl _
  have hsn3 : ∀ u, u ≠ n → ∀ x, (m'.cur u).seen x = (s.m.cur u).seen x := fun u hu x => by rw [t5 u hu]
  have hsn2 := t7 (.next n)
  simp only [if_true] at hsn2
  clear t3 t4 t5 t6 t7 t11 t12 hm
  obtain ⟨a1, a2, a3, a4, a5, a6, a7, a8, a9, a10, a11, a12, a13, a14, a15, a16⟩ := hA
  obtain ⟨b1, b2, b3, b4, b5, b6, b7, b8, b9, b10, b11, b12, b13, b14⟩ := hB
  obtain ⟨k1, k2, k3, k4, k5, k6, k7, k8, k9, k10, k11, k12, k13⟩ := hK
  have hns : ∀ j, j ≤ s.kh → s.seq j ≠ n := fun j hj hh => by
    have := (a3 j hj (by rw [hh]; exact hn)).2
    rw [hh, hp] at this; cases this
  have hnz : ∀ m y, s.pc m = .lk y → m ≠ 0 := fun m y hm h0 => by rw [h0, a5] at hm; cases hm
  have hlx : ∀ m y, s.pc m = .lk y → y ≠ n := fun m y hm => by
    rw [(a9 m y hm).1]; exact hns _ (by have := a4 m (hnz m y hm) (by rw [hm]; rfl); omega)
  have hcx : ∀ y, s.c = .c6 y → y ≠ n := fun y hy => by
    rw [(a10 y hy).1]; exact hns _ (by have := a7.1; omega)
  have hrx : ∀ y, s.c = .ret y → y ≠ n := fun y hy => by
    rw [(a16 y hy).2.1]; exact hns _ (by have := a8.1; omega)
  have hlk : ∀ j, s.lkd j = true → j < s.kh := fun j hj => by
    rcases Nat.lt_or_ge j s.kh with hl | hl
    · exact hl
    · rw [a12 _ hl] at hj; cases hj
  have hk : ∀ y, y ≠ n → upd s.kn n ts y = s.kn y := fun y hy => upd_other _ _ hy
  have hk' : upd s.kn n ts n = ts := by rw [upd_same]
  have hf : ∀ y j, y ≠ n → m'.hist (.next y) j = s.m.hist (.next y) j := fun y j hy => t8 _ _ (by rintro ⟨e, -⟩; cases e; exact hy rfl)
  have hf' : ∀ j, j ≠ ts → m'.hist (.next n) j = s.m.hist (.next n) j := fun j hy => t8 _ _ (fun e => hy e.2)
  have hd : ∀ j, m'.hist .head j = s.m.hist .head j := fun j => t8 _ _ (by rintro ⟨e, -⟩; cases e)
  have hnu : ∀ k b, s.m.logged k b → b.what ≠ .use (n) := fun k b h1 h2 => by
    obtain ⟨u1, u2, u3, u4⟩ := k12 k b _ h1 h2
    rw [hp] at u2; cases u2
  constructor <;> try dsimp only
  case putPc =>
    clear * - hlog hlt mono hself k3 hn hp
    grind
  case freshW =>
    clear * - hlog hlt mono hself k4 hn hp
    grind
  case msgK =>
    clear * - hlog hlt mono hself k5 hns hd
    grind
  case lkK =>
    clear * - hlog hlt mono hself k6 hlx hp
    grind
  case c6K =>
    clear * - hlog hlt mono hself k7 hcx
    grind
  case linkK =>
    clear * - hlog hlt mono hself k8 hns hlk hk hf
    grind
  case retK =>
    clear * - hlog hlt mono hself k11 hrx
    grind
  case freeLast =>
    clear * - hlog hlt mono hself k13 hnu
    grind
  all_goals first | assumption | grind

end Verif.WmMpsc
