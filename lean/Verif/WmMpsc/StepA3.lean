import Verif.WmMpsc.Base
/-!
# The intrusive MPSC queue under the C++ memory model — positions (C96)
-/
namespace Verif.WmMpsc

open Verif.WM

set_option maxHeartbeats 8000000 in
theorem A_c5 {s : St} (hA : A s) {ts v : Nat} {o : Ord} {m' : Mem Loc Acc} (ho : o = .ar) (hc : s.c = .c5) (hm : s.m.rmw conf o 0 .head ts (fun _ => 1) ⟨0, .atom⟩ = some (v, m')) : A { s with m := m', c := .c6 (v - 1), kh := ts + 1, seq := upd s.seq (ts + 1) 0, sp := ts + 1 } := by
  obtain ⟨g, t1, t2, t3, t4, t5, t6, t7, t8, t9, t10, g', t11, t12, t13, t14⟩ := rmw_spec hm
  have hts := newest hA t1 t4
  subst hts
  have hlog := fun k b => logged_snoc t5 k b
  have hlt := logged_lt s.m
  have mono : ∀ u k, (s.m.cur u).know k = true → (m'.cur u).know k = true := fun u k hk => by
    by_cases hu : u = 0
    · rw [hu] at hk ⊢; rw [t8, hk]; rfl
    · rw [t7 u hu]; exact hk
  have hself : (m'.cur (0)).know s.m.log.length = true := by rw [t8]; simp
  have hacq : ∀ k, g.view.know k = true → (m'.cur (0)).know k = true := fun k hk => by rw [t8, hk, ho]; simp [Ord.isAcq]
  have hrel : ∀ k, (m'.cur (0)).know k = true → g'.view.know k = true := fun k hk => by rw [t13, hk, ho]; simp [Ord.isRel]
  have hsr : ∀ x, (m'.cur (0)).seen x ≤ g'.view.seen x := fun x => by rw [t14, ho]; simp [Ord.isRel]; omega
  have hsa : ∀ x, g.view.seen x ≤ (m'.cur (0)).seen x := fun x => by rw [t9, ho]; simp [Ord.isAcq]; omega
  have hsn : ∀ u x, (s.m.cur u).seen x ≤ (m'.cur u).seen x := fun u x => by
    by_cases hu : u = 0
    · rw [hu, t9]; split
      · rename_i hx; subst hx; omega
      · omega
    · rw [t7 u hu]; exact Nat.le_refl _
  have hsn2 : s.kh + 1 ≤ (m'.cur (0)).seen .head := by rw [t9]; simp; omega
  clear t5 t6 t7 t8 t9 t13 t14 hm
  obtain ⟨a1, a2, a3, a4, a5, a6, a7, a8, a9, a10, a11, a12, a13, a14, a15, a16⟩ := hA
  have hv : v - 1 = s.seq s.kh := by have := (a2 _ _ t1).2; omega
  have hup : ∀ j, j ≤ s.kh → upd s.seq (s.kh + 1) 0 j = s.seq j := fun j hj => upd_other _ _ (by omega)
  constructor <;> try dsimp only
  case h1 =>
    intro j hj
    by_cases h : j = s.kh + 1
    · subst h; rw [t11]; simp
    · rw [t10 _ _ (fun hh => h hh.2)]; exact a1 j (by omega)
  all_goals first | assumption | grind

set_option maxHeartbeats 8000000 in
theorem A_c6 {s : St} (hA : A s) {x ts : Nat} {o : Ord} {m' : Mem Loc Acc} (ho : o.isRel = true) (hc : s.c = .c6 x) (hm : s.m.store conf o 0 (.next x) ts 1 ⟨0, .lnk x⟩ = some m') : A { s with m := m', c := .c7, lkd := upd s.lkd (s.sp - 1) true, kn := upd s.kn x ts } := by
  obtain ⟨t1, t2, t3, t4, t5, t6, t7, t8, g', t9, t10, t11, t12⟩ := store_spec hm
  have hlog := fun k b => logged_snoc t3 k b
  have hlt := logged_lt s.m
  have mono : ∀ u k, (s.m.cur u).know k = true → (m'.cur u).know k = true := fun u k hk => by
    by_cases hu : u = 0
    · rw [hu] at hk ⊢; rw [t6, hk]; rfl
    · rw [t5 u hu]; exact hk
  have hself : (m'.cur (0)).know s.m.log.length = true := by rw [t6]; simp
  have hrel : o.isRel = true → ∀ k, (m'.cur 0).know k = true → g'.view.know k = true := fun ho k hk => by rw [t11, ho, hk]; rfl
  have hsn : ∀ u x, (s.m.cur u).seen x ≤ (m'.cur u).seen x := fun u x => by
    by_cases hu : u = 0
    · rw [hu, t7]; split
      · rename_i hx; subst hx; omega
      · omega
    · rw [t5 u hu]; exact Nat.le_refl _
  have hsn3 : ∀ u, u ≠ 0 → ∀ x, (m'.cur u).seen x = (s.m.cur u).seen x := fun u hu x => by rw [t5 u hu]
  have hsn2 := t7 (.next x)
  simp only [if_true] at hsn2
  clear t3 t4 t5 t6 t7 t11 t12 hm
  obtain ⟨a1, a2, a3, a4, a5, a6, a7, a8, a9, a10, a11, a12, a13, a14, a15, a16⟩ := hA
  constructor <;> try dsimp only
  case lkI =>
    intro m y hmx
    have hm0 : m ≠ 0 := fun h0 => by rw [h0, a5] at hmx; cases hmx
    obtain ⟨e1, e2, e3⟩ := a4 m hm0 (by rw [hmx]; rfl)
    obtain ⟨f1, f2⟩ := a9 m y hmx
    obtain ⟨k1, k2, k3⟩ := a10 x hc
    refine ⟨f1, ?_⟩
    rw [upd_other _ _ (fun hh => hm0 (by
      have : s.idx m = s.sp := by omega
      rw [← e1, this]; exact a7.2))]
    exact f2
  case lkBy =>
    intro j hj hl
    obtain ⟨k1, k2, k3⟩ := a10 x hc
    by_cases hjk : j = s.sp - 1
    · subst hjk; rw [upd_same] at hl; cases hl
    · rw [upd_other _ _ hjk] at hl
      rcases a11 j hj hl with ⟨e1, e2⟩ | ⟨e1, e2, e3⟩
      · exact .inl ⟨e1, e2⟩
      · omega
  all_goals first | assumption | grind

end Verif.WmMpsc
