import Verif.WmMpsc.Base
/-!
# The intrusive MPSC queue under the C++ memory model — links (C96)
-/
namespace Verif.WmMpsc

open Verif.WM

set_option maxHeartbeats 8000000 in
theorem B_put {s : St} (hA : A s) (hB : B s) {n : Nat} (hn : n ≠ 0) (hp : s.pc n = .idle) : B { s with m := s.m.touch conf n ⟨n, .put n⟩, pc := upd s.pc n .st } := by
  obtain ⟨t1, t2, t3, t4, t5, t6⟩ := touch_spec conf s.m (n) ⟨n, .put n⟩
  have hlog := fun k b => logged_snoc t2 k b
  have hlt := logged_lt s.m
  generalize s.m.touch conf (n) ⟨n, .put n⟩ = m' at *
  have hh : ∀ l j, m'.hist l j = s.m.hist l j := fun l j => by rw [t1]
  have mono : ∀ u k, (s.m.cur u).know k = true → (m'.cur u).know k = true := fun u k hk => by
    by_cases hu : u = n
    · rw [hu] at hk ⊢; rw [t5, hk]; rfl
    · rw [t4 u hu]; exact hk
  have hself : (m'.cur (n)).know s.m.log.length = true := by rw [t5]; simp
  have hsn : ∀ u x, (m'.cur u).seen x = (s.m.cur u).seen x := fun u x => by
    by_cases hu : u = n
    · rw [hu, t6]
    · rw [t4 u hu]
  clear t1 t2 t3 t4 t5 t6
  obtain ⟨a1, a2, a3, a4, a5, a6, a7, a8, a9, a10, a11, a12, a13, a14, a15, a16⟩ := hA
  obtain ⟨b1, b2, b3, b4, b5, b6, b7, b8, b9, b10, b11, b12, b13, b14⟩ := hB
  constructor <;> try dsimp only
  all_goals first | assumption | grind

end Verif.WmMpsc
