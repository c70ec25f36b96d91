import Verif.WmMpsc.Base
/-!
# The intrusive MPSC queue under the C++ memory model — links (C96)
-/
namespace Verif.WmMpsc

open Verif.WM

set_option maxHeartbeats 8000000 in
theorem B_c4 {s : St} (hA : A s) (hB : B s) {ts : Nat} {o : Ord} {m' : Mem Loc Acc} (hc : s.c = .c4) (hm : s.m.store conf o 0 (.next 0) ts 0 ⟨0, .lnk 0⟩ = some m') : B { s with m := m', c := .c5, kn := upd s.kn 0 ts } := by
  obtain ⟨t1, t2, t3, t4, t5, t6, t7, t8, g', t9, t10, t11, t12⟩ := store_spec hm
  have hlog := fun k b => logged_snoc t3 k b
  have hlt := logged_lt s.m
  have mono : ∀ u k, (s.m.cur u).know k = true → (m'.cur u).know k = true := fun u k hk => by
    by_cases hu : u = 0
    · rw [hu] at hk ⊢; rw [t6, hk]; rfl
    · rw [t5 u hu]; exact hk
  have hself : (m'.cur (0)).know s.m.log.length = true := by rw [t6]; simp
  have hrel : o.isRel = true → ∀ k, (m'.cur 0).know k = true → g'.view.know k = true := fun ho k hk => by rw [t11, ho, hk]; rfl
  have hsn : ∀ u x, (s.m.cur u).seen x ≤ (m'.cur u).seen x := fun u x => by
    by_cases hu : u = 0
    · rw [hu, t7]; split
      · rename_i hx; subst hx; omega
      · omega
    · rw [t5 u hu]; exact Nat.le_refl _
  have hsn3 : ∀ u, u ≠ 0 → ∀ x, (m'.cur u).seen x = (s.m.cur u).seen x := fun u hu x => by rw [t5 u hu]
  have hsn2 := t7 (.next 0)
  simp only [if_true] at hsn2
  clear t3 t4 t5 t6 t7 t11 t12 hm
  obtain ⟨a1, a2, a3, a4, a5, a6, a7, a8, a9, a10, a11, a12, a13, a14, a15, a16⟩ := hA
  obtain ⟨b1, b2, b3, b4, b5, b6, b7, b8, b9, b10, b11, b12, b13, b14⟩ := hB
  constructor <;> try dsimp only
  all_goals first | assumption | grind

end Verif.WmMpsc
