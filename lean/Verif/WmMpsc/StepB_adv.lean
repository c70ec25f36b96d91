import Verif.WmMpsc.Base
/-!
# The intrusive MPSC queue under the C++ memory model — links (C96)
-/
namespace Verif.WmMpsc

open Verif.WM

set_option maxHeartbeats 8000000 in
theorem B_adv {s : St} (hA : A s) (hB : B s) {ts v : Nat} {o : Ord} {m' : Mem Loc Acc} {c' : CPC} (ho : o.isAcq = true) (hc : s.c = .c0 ∨ s.c = .c1 ∨ s.c = .c7) (hc' : (c' = .c1 ∧ s.tail = 0) ∨ (c' = .ret s.tail ∧ s.tail ≠ 0)) (hv : v ≠ 0) (hm : s.m.load conf o 0 (.next s.tail) ts ⟨0, .lnk s.tail⟩ = some (v, m')) : B { s with m := m', c := c', tail := v - 1, p := s.p + 1 } := by
  obtain ⟨hadv1, hadv2, hadv3⟩ := adv_val hA hB hv hm
  obtain ⟨g, t1, t2, t3, t4, t5, t6, t7, t8, t9⟩ := load_spec hm
  have hlog := fun k b => logged_snoc t5 k b
  have hlt := logged_lt s.m
  have hh : ∀ l j, m'.hist l j = s.m.hist l j := fun l j => by rw [t4]
  have mono : ∀ u k, (s.m.cur u).know k = true → (m'.cur u).know k = true := fun u k hk => by
    by_cases hu : u = 0
    · rw [hu] at hk ⊢; rw [t8, hk]; rfl
    · rw [t7 u hu]; exact hk
  have hself : (m'.cur (0)).know s.m.log.length = true := by rw [t8]; simp
  have hacq : o.isAcq = true → ∀ k, g.view.know k = true → (m'.cur 0).know k = true := fun ho k hk => by rw [t8, ho, hk]; simp
  have hsn : ∀ u x, (s.m.cur u).seen x ≤ (m'.cur u).seen x := fun u x => by
    by_cases hu : u = 0
    · rw [hu, t9]; split
      · rename_i hx; subst hx; omega
      · omega
    · rw [t7 u hu]; exact Nat.le_refl _
  have hsn2 : ts ≤ (m'.cur 0).seen (.next s.tail) := by rw [t9]; simp; omega
  clear t4 t5 t6 t7 t8 t9 hm
  obtain ⟨a1, a2, a3, a4, a5, a6, a7, a8, a9, a10, a11, a12, a13, a14, a15, a16⟩ := hA
  obtain ⟨b1, b2, b3, b4, b5, b6, b7, b8, b9, b10, b11, b12, b13, b14⟩ := hB
  constructor <;> try dsimp only
  all_goals first | assumption | grind

end Verif.WmMpsc
