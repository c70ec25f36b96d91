import Mathlib.Tactic.ClearExcept
import Verif.WmMpsc.Base
/-!
# The intrusive MPSC queue under the C++ memory model — knowledge (C96)
-/
namespace Verif.WmMpsc

open Verif.WM

set_option maxHeartbeats 8000000 in
theorem K_use {s : St} (hA : A s) (hB : B s) (hK : K s) {x : Nat} (hc : s.c = .ret x) : K { s with m := s.m.touch conf 0 ⟨0, .use x⟩, c := .c0, out := s.out ++ [x] } := by
  obtain ⟨t1, t2, t3, t4, t5, t6⟩ := touch_spec conf s.m (0) ⟨0, .use x⟩
  have hlog := fun k b => logged_snoc t2 k b
  have hlt := logged_lt s.m
  generalize s.m.touch conf (0) ⟨0, .use x⟩ = m' at *
  have hh : ∀ l j, m'.hist l j = s.m.hist l j := fun l j => by rw [t1]
  have mono : ∀ u k, (s.m.cur u).know k = true → (m'.cur u).know k = true := fun u k hk => by
    by_cases hu : u = 0
    · rw [hu] at hk ⊢; rw [t5, hk]; rfl
    · rw [t4 u hu]; exact hk
  have hself : (m'.cur (0)).know s.m.log.length = true := by rw [t5]; simp
  have hsn : ∀ u x, (m'.cur u).seen x = (s.m.cur u).seen x := fun u x => by
    by_cases hu : u = 0
    · rw [hu, t6]
    · rw [t4 u hu]
  clear t1 t2 t3 t4 t5 t6
  obtain ⟨a1, a2, a3, a4, a5, a6, a7, a8, a9, a10, a11, a12, a13, a14, a15, a16⟩ := hA
  obtain ⟨b1, b2, b3, b4, b5, b6, b7, b8, b9, b10, b11, b12, b13, b14⟩ := hB
  obtain ⟨k1, k2, k3, k4, k5, k6, k7, k8, k9, k10, k11, k12, k13⟩ := hK
  obtain ⟨r1, r2, r3⟩ := a16 x hc
  have hxe : exd (s.pc x) = true := by
    rw [r2]; exact (a3 (s.p - 1) (by have := a8.1; omega) (by rw [← r2]; exact r3)).2
  have hnu : ∀ k b, s.m.logged k b → b.what ≠ .use (x) := fun k b h1 h2 => by
    obtain ⟨u1, u2, u3, u4⟩ := k12 k b _ h1 h2
    exact u4 hc
  constructor <;> try dsimp only
  case putPc =>
    clear * - hlog hlt mono hself k3 hxe
    grind
  case freshW =>
    clear * - hlog hlt mono hself k4 hxe
    grind
  case freeLast =>
    clear * - hlog hlt mono hself k13 hnu
    grind
  all_goals first | assumption | grind

end Verif.WmMpsc
