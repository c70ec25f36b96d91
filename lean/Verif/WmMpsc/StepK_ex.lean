import Mathlib.Tactic.ClearExcept
import Verif.WmMpsc.Base
/-!
# The intrusive MPSC queue under the C++ memory model — knowledge (C96)
-/
namespace Verif.WmMpsc

open Verif.WM

set_option maxHeartbeats 8000000 in
theorem K_ex {s : St} (hA : A s) (hB : B s) (hK : K s) {n ts v : Nat} {o : Ord} {m' : Mem Loc Acc} (hn : n ≠ 0) (ho : o = .ar) (hp : s.pc n = .ex) (hm : s.m.rmw conf o n .head ts (fun _ => n + 1) ⟨n, .atom⟩ = some (v, m')) : K { s with m := m', pc := upd s.pc n (.lk (v - 1)), ord := s.ord ++ [n], kh := ts + 1, seq := upd s.seq (ts + 1) n, idx := upd s.idx n (ts + 1) } := by
  obtain ⟨g, t1, t2, t3, t4, t5, t6, t7, t8, t9, t10, g', t11, t12, t13, t14⟩ := rmw_spec hm
  have hts := newest hA t1 t4
  subst hts
  have hlog := fun k b => logged_snoc t5 k b
  have hlt := logged_lt s.m
  have mono : ∀ u k, (s.m.cur u).know k = true → (m'.cur u).know k = true := fun u k hk => by
    by_cases hu : u = n
    · rw [hu] at hk ⊢; rw [t8, hk]; rfl
    · rw [t7 u hu]; exact hk
  have hself : (m'.cur (n)).know s.m.log.length = true := by rw [t8]; simp
  have hacq : ∀ k, g.view.know k = true → (m'.cur (n)).know k = true := fun k hk => by rw [t8, hk, ho]; simp [Ord.isAcq]
  have hrel : ∀ k, (m'.cur (n)).know k = true → g'.view.know k = true := fun k hk => by rw [t13, hk, ho]; simp [Ord.isRel]
  have hsr : ∀ x, (m'.cur (n)).seen x ≤ g'.view.seen x := fun x => by rw [t14, ho]; simp [Ord.isRel]; omega
  have hsa : ∀ x, g.view.seen x ≤ (m'.cur (n)).seen x := fun x => by rw [t9, ho]; simp [Ord.isAcq]; omega
  have hsn : ∀ u x, (s.m.cur u).seen x ≤ (m'.cur u).seen x := fun u x => by
    by_cases hu : u = n
    · rw [hu, t9]; split
      · rename_i hx; subst hx; omega
      · omega
    · rw [t7 u hu]; exact Nat.le_refl _
  have hsn2 : s.kh + 1 ≤ (m'.cur (n)).seen .head := by rw [t9]; simp; omega
  clear t5 t6 t7 t8 t9 t13 t14 hm
  obtain ⟨a1, a2, a3, a4, a5, a6, a7, a8, a9, a10, a11, a12, a13, a14, a15, a16⟩ := hA
  obtain ⟨b1, b2, b3, b4, b5, b6, b7, b8, b9, b10, b11, b12, b13, b14⟩ := hB
  obtain ⟨k1, k2, k3, k4, k5, k6, k7, k8, k9, k10, k11, k12, k13⟩ := hK
  have hns : ∀ j, j ≤ s.kh → s.seq j ≠ n := fun j hj hh => by
    have := (a3 j hj (by rw [hh]; exact hn)).2
    rw [hh, hp] at this; cases this
  have hnz : ∀ m y, s.pc m = .lk y → m ≠ 0 := fun m y hm h0 => by rw [h0, a5] at hm; cases hm
  have hlx : ∀ m y, s.pc m = .lk y → y ≠ n := fun m y hm => by
    rw [(a9 m y hm).1]; exact hns _ (by have := a4 m (hnz m y hm) (by rw [hm]; rfl); omega)
  have hcx : ∀ y, s.c = .c6 y → y ≠ n := fun y hy => by
    rw [(a10 y hy).1]; exact hns _ (by have := a7.1; omega)
  have hrx : ∀ y, s.c = .ret y → y ≠ n := fun y hy => by
    rw [(a16 y hy).2.1]; exact hns _ (by have := a8.1; omega)
  have hlk : ∀ j, s.lkd j = true → j < s.kh := fun j hj => by
    rcases Nat.lt_or_ge j s.kh with hl | hl
    · exact hl
    · rw [a12 _ hl] at hj; cases hj
  have hv : v - 1 = s.seq s.kh := by have := (a2 _ _ t1).2; omega
  have hup : ∀ j, j ≤ s.kh → upd s.seq (s.kh + 1) n j = s.seq j := fun j hj => upd_other _ _ (by omega)
  have hup' : upd s.seq (s.kh + 1) n (s.kh + 1) = n := by rw [upd_same]
  have hn' : ∀ x j, m'.hist (.next x) j = s.m.hist (.next x) j := fun x j => t10 _ _ (by rintro ⟨e, -⟩; cases e)
  have hk := k5 g
  constructor <;> try dsimp only
  case putPc =>
    clear * - hlog hlt mono hself k3 hn hp
    grind
  case freshW =>
    clear * - hlog hlt mono hself k4 hn hp
    grind
  case msgK =>
    clear * - hlog hlt mono hself k4 k1 hrel hup' t11 hp hn
    grind
  case lkK =>
    clear * - hlog hlt mono hself k6 hp hk t1 hacq hv
    grind
  case c6K =>
    clear * - hlog hlt mono hself k7
    grind
  case linkK =>
    clear * - hlog hlt mono hself k8 hlk hup hn'
    grind
  case retK =>
    clear * - hlog hlt mono hself k11
    grind
  case freeLast =>
    clear * - hlog hlt mono hself k13
    grind
  all_goals first | assumption | grind

end Verif.WmMpsc
