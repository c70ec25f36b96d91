import Verif.WmMpsc.Base
/-!
# The intrusive MPSC queue under the C++ memory model — positions (C96)
-/
namespace Verif.WmMpsc

open Verif.WM

set_option maxHeartbeats 8000000 in
theorem A_put {s : St} (hA : A s) {n : Nat} (hn : n ≠ 0) (hp : s.pc n = .idle) : A { s with m := s.m.touch conf n ⟨n, .put n⟩, pc := upd s.pc n .st } := by
  obtain ⟨t1, t2, t3, t4, t5, t6⟩ := touch_spec conf s.m (n) ⟨n, .put n⟩
  have hlog := fun k b => logged_snoc t2 k b
  have hlt := logged_lt s.m
  generalize s.m.touch conf (n) ⟨n, .put n⟩ = m' at *
  have hh : ∀ l j, m'.hist l j = s.m.hist l j := fun l j => by rw [t1]
  have mono : ∀ u k, (s.m.cur u).know k = true → (m'.cur u).know k = true := fun u k hk => by
    by_cases hu : u = n
    · rw [hu] at hk ⊢; rw [t5, hk]; rfl
    · rw [t4 u hu]; exact hk
  have hself : (m'.cur (n)).know s.m.log.length = true := by rw [t5]; simp
  have hsn : ∀ u x, (m'.cur u).seen x = (s.m.cur u).seen x := fun u x => by
    by_cases hu : u = n
    · rw [hu, t6]
    · rw [t4 u hu]
  clear t1 t2 t3 t4 t5 t6
  obtain ⟨a1, a2, a3, a4, a5, a6, a7, a8, a9, a10, a11, a12, a13, a14, a15, a16⟩ := hA
  constructor <;> try dsimp only
  all_goals first | assumption | grind

set_option maxHeartbeats 8000000 in
theorem A_clr {s : St} (hA : A s) {n ts : Nat} {o : Ord} {m' : Mem Loc Acc} (hn : n ≠ 0) (hp : s.pc n = .st) (hm : s.m.store conf o n (.next n) ts 0 ⟨n, .lnk n⟩ = some m') : A { s with m := m', pc := upd s.pc n .ex, kn := upd s.kn n ts } := by
  obtain ⟨t1, t2, t3, t4, t5, t6, t7, t8, g', t9, t10, t11, t12⟩ := store_spec hm
  have hlog := fun k b => logged_snoc t3 k b
  have hlt := logged_lt s.m
  have mono : ∀ u k, (s.m.cur u).know k = true → (m'.cur u).know k = true := fun u k hk => by
    by_cases hu : u = n
    · rw [hu] at hk ⊢; rw [t6, hk]; rfl
    · rw [t5 u hu]; exact hk
  have hself : (m'.cur (n)).know s.m.log.length = true := by rw [t6]; simp
  have hrel : o.isRel = true → ∀ k, (m'.cur n).know k = true → g'.view.know k = true := fun ho k hk => by rw [t11, ho, hk]; rfl
  have hsn : ∀ u x, (s.m.cur u).seen x ≤ (m'.cur u).seen x := fun u x => by
    by_cases hu : u = n
    · rw [hu, t7]; split
      · rename_i hx; subst hx; omega
      · omega
    · rw [t5 u hu]; exact Nat.le_refl _
  have hsn3 : ∀ u, u ≠ n → ∀ x, (m'.cur u).seen x = (s.m.cur u).seen x := fun u hu x => by rw [t5 u hu]
  have hsn2 := t7 (.next n)
  simp only [if_true] at hsn2
  clear t3 t4 t5 t6 t7 t11 t12 hm
  obtain ⟨a1, a2, a3, a4, a5, a6, a7, a8, a9, a10, a11, a12, a13, a14, a15, a16⟩ := hA
  constructor <;> try dsimp only
  all_goals first | assumption | grind

set_option maxHeartbeats 8000000 in
theorem A_ldN {s : St} (hA : A s) {ts : Nat} {o : Ord} {m' : Mem Loc Acc} {c' : CPC} (hc : s.c = .c0 ∨ s.c = .c1 ∨ s.c = .c7) (hc' : c' = .c0 ∨ (c' = .c3 ∧ s.tail ≠ 0)) (hm : s.m.load conf o 0 (.next s.tail) ts ⟨0, .lnk s.tail⟩ = some (0, m')) : A { s with m := m', c := c' } := by
  obtain ⟨g, t1, t2, t3, t4, t5, t6, t7, t8, t9⟩ := load_spec hm
  have hlog := fun k b => logged_snoc t5 k b
  have hlt := logged_lt s.m
  have hh : ∀ l j, m'.hist l j = s.m.hist l j := fun l j => by rw [t4]
  have mono : ∀ u k, (s.m.cur u).know k = true → (m'.cur u).know k = true := fun u k hk => by
    by_cases hu : u = 0
    · rw [hu] at hk ⊢; rw [t8, hk]; rfl
    · rw [t7 u hu]; exact hk
  have hself : (m'.cur (0)).know s.m.log.length = true := by rw [t8]; simp
  have hacq : o.isAcq = true → ∀ k, g.view.know k = true → (m'.cur 0).know k = true := fun ho k hk => by rw [t8, ho, hk]; simp
  have hsn : ∀ u x, (s.m.cur u).seen x ≤ (m'.cur u).seen x := fun u x => by
    by_cases hu : u = 0
    · rw [hu, t9]; split
      · rename_i hx; subst hx; omega
      · omega
    · rw [t7 u hu]; exact Nat.le_refl _
  have hsn2 : ts ≤ (m'.cur 0).seen (.next s.tail) := by rw [t9]; simp; omega
  clear t4 t5 t6 t7 t8 t9 hm
  obtain ⟨a1, a2, a3, a4, a5, a6, a7, a8, a9, a10, a11, a12, a13, a14, a15, a16⟩ := hA
  constructor <;> try dsimp only
  all_goals first | assumption | grind

set_option maxHeartbeats 8000000 in
theorem A_c4 {s : St} (hA : A s) {ts : Nat} {o : Ord} {m' : Mem Loc Acc} (hc : s.c = .c4) (hm : s.m.store conf o 0 (.next 0) ts 0 ⟨0, .lnk 0⟩ = some m') : A { s with m := m', c := .c5, kn := upd s.kn 0 ts } := by
  obtain ⟨t1, t2, t3, t4, t5, t6, t7, t8, g', t9, t10, t11, t12⟩ := store_spec hm
  have hlog := fun k b => logged_snoc t3 k b
  have hlt := logged_lt s.m
  have mono : ∀ u k, (s.m.cur u).know k = true → (m'.cur u).know k = true := fun u k hk => by
    by_cases hu : u = 0
    · rw [hu] at hk ⊢; rw [t6, hk]; rfl
    · rw [t5 u hu]; exact hk
  have hself : (m'.cur (0)).know s.m.log.length = true := by rw [t6]; simp
  have hrel : o.isRel = true → ∀ k, (m'.cur 0).know k = true → g'.view.know k = true := fun ho k hk => by rw [t11, ho, hk]; rfl
  have hsn : ∀ u x, (s.m.cur u).seen x ≤ (m'.cur u).seen x := fun u x => by
    by_cases hu : u = 0
    · rw [hu, t7]; split
      · rename_i hx; subst hx; omega
      · omega
    · rw [t5 u hu]; exact Nat.le_refl _
  have hsn3 : ∀ u, u ≠ 0 → ∀ x, (m'.cur u).seen x = (s.m.cur u).seen x := fun u hu x => by rw [t5 u hu]
  have hsn2 := t7 (.next 0)
  simp only [if_true] at hsn2
  clear t3 t4 t5 t6 t7 t11 t12 hm
  obtain ⟨a1, a2, a3, a4, a5, a6, a7, a8, a9, a10, a11, a12, a13, a14, a15, a16⟩ := hA
  constructor <;> try dsimp only
  all_goals first | assumption | grind

set_option maxHeartbeats 8000000 in
theorem A_use {s : St} (hA : A s) {x : Nat} (hc : s.c = .ret x) : A { s with m := s.m.touch conf 0 ⟨0, .use x⟩, c := .c0, out := s.out ++ [x] } := by
  obtain ⟨t1, t2, t3, t4, t5, t6⟩ := touch_spec conf s.m (0) ⟨0, .use x⟩
  have hlog := fun k b => logged_snoc t2 k b
  have hlt := logged_lt s.m
  generalize s.m.touch conf (0) ⟨0, .use x⟩ = m' at *
  have hh : ∀ l j, m'.hist l j = s.m.hist l j := fun l j => by rw [t1]
  have mono : ∀ u k, (s.m.cur u).know k = true → (m'.cur u).know k = true := fun u k hk => by
    by_cases hu : u = 0
    · rw [hu] at hk ⊢; rw [t5, hk]; rfl
    · rw [t4 u hu]; exact hk
  have hself : (m'.cur (0)).know s.m.log.length = true := by rw [t5]; simp
  have hsn : ∀ u x, (m'.cur u).seen x = (s.m.cur u).seen x := fun u x => by
    by_cases hu : u = 0
    · rw [hu, t6]
    · rw [t4 u hu]
  clear t1 t2 t3 t4 t5 t6
  obtain ⟨a1, a2, a3, a4, a5, a6, a7, a8, a9, a10, a11, a12, a13, a14, a15, a16⟩ := hA
  constructor <;> try dsimp only
  all_goals first | assumption | grind

end Verif.WmMpsc
