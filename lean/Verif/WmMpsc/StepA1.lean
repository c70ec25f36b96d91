import Verif.WmMpsc.Base
/-!
# The intrusive MPSC queue under the C++ memory model — positions (C96)
-/
namespace Verif.WmMpsc

open Verif.WM

set_option maxHeartbeats 8000000 in
theorem A_ex {s : St} (hA : A s) {n ts v : Nat} {o : Ord} {m' : Mem Loc Acc} (hn : n ≠ 0) (ho : o = .ar) (hp : s.pc n = .ex) (hm : s.m.rmw conf o n .head ts (fun _ => n + 1) ⟨n, .atom⟩ = some (v, m')) : A { s with m := m', pc := upd s.pc n (.lk (v - 1)), ord := s.ord ++ [n], kh := ts + 1, seq := upd s.seq (ts + 1) n, idx := upd s.idx n (ts + 1) } := by
  obtain ⟨g, t1, t2, t3, t4, t5, t6, t7, t8, t9, t10, g', t11, t12, t13, t14⟩ := rmw_spec hm
  have hts := newest hA t1 t4
  subst hts
  have hlog := fun k b => logged_snoc t5 k b
  have hlt := logged_lt s.m
  have mono : ∀ u k, (s.m.cur u).know k = true → (m'.cur u).know k = true := fun u k hk => by
    by_cases hu : u = n
    · rw [hu] at hk ⊢; rw [t8, hk]; rfl
    · rw [t7 u hu]; exact hk
  have hself : (m'.cur (n)).know s.m.log.length = true := by rw [t8]; simp
  have hacq : ∀ k, g.view.know k = true → (m'.cur (n)).know k = true := fun k hk => by rw [t8, hk, ho]; simp [Ord.isAcq]
  have hrel : ∀ k, (m'.cur (n)).know k = true → g'.view.know k = true := fun k hk => by rw [t13, hk, ho]; simp [Ord.isRel]
  have hsr : ∀ x, (m'.cur (n)).seen x ≤ g'.view.seen x := fun x => by rw [t14, ho]; simp [Ord.isRel]; omega
  have hsa : ∀ x, g.view.seen x ≤ (m'.cur (n)).seen x := fun x => by rw [t9, ho]; simp [Ord.isAcq]; omega
  have hsn : ∀ u x, (s.m.cur u).seen x ≤ (m'.cur u).seen x := fun u x => by
    by_cases hu : u = n
    · rw [hu, t9]; split
      · rename_i hx; subst hx; omega
      · omega
    · rw [t7 u hu]; exact Nat.le_refl _
  have hsn2 : s.kh + 1 ≤ (m'.cur (n)).seen .head := by rw [t9]; simp; omega
  clear t5 t6 t7 t8 t9 t13 t14 hm
  obtain ⟨a1, a2, a3, a4, a5, a6, a7, a8, a9, a10, a11, a12, a13, a14, a15, a16⟩ := hA
  have hv : v - 1 = s.seq s.kh := by have := (a2 _ _ t1).2; omega
  have hup : ∀ j, j ≤ s.kh → upd s.seq (s.kh + 1) n j = s.seq j := fun j hj => upd_other _ _ (by omega)
  have hns : ∀ j, j ≤ s.kh → s.seq j ≠ n := fun j hj hh => by
    have := (a3 j hj (by rw [hh]; exact hn)).2
    rw [hh, hp] at this; cases this
  constructor <;> try dsimp only
  case seqP =>
    intro j hj hne
    by_cases hjk : j = s.kh + 1
    · subst hjk; simp [upd_same, exd4]
    · have hj' : j ≤ s.kh := by omega
      rw [hup j hj'] at hne ⊢
      rw [upd_other _ _ (hns j hj'), upd_other _ _ (hns j hj')]
      exact a3 j hj' hne
  case idxP =>
    intro m hm he
    by_cases hmn : m = n
    · subst hmn; simp [upd_same]
    · rw [upd_other _ _ hmn] at he ⊢
      obtain ⟨e1, e2, e3⟩ := a4 m hm he
      exact ⟨by rw [hup _ e2]; exact e1, by omega, e3⟩
  case lkI =>
    intro m x hmx
    by_cases hmn : m = n
    · subst hmn
      simp only [upd_same, PC.lk.injEq] at hmx ⊢
      refine ⟨?_, ?_⟩
      · rw [← hmx, Nat.add_sub_cancel, hup _ (Nat.le_refl _)]; exact hv
      · exact a12 _ (by omega)
    · rw [upd_other _ _ hmn] at hmx ⊢
      have hm0 : m ≠ 0 := fun h0 => by rw [h0, a5] at hmx; cases hmx
      obtain ⟨e1, e2, e3⟩ := a4 m hm0 (by rw [hmx]; rfl)
      rw [hup _ (by omega)]
      exact a9 m x hmx
  all_goals first | assumption | grind

set_option maxHeartbeats 8000000 in
theorem A_lk {s : St} (hA : A s) {n x ts : Nat} {o : Ord} {m' : Mem Loc Acc} (hn : n ≠ 0) (ho : o.isRel = true) (hp : s.pc n = .lk x) (hm : s.m.store conf o n (.next x) ts (n + 1) ⟨n, .lnk x⟩ = some m') : A { s with m := m', pc := upd s.pc n .done, lkd := upd s.lkd (s.idx n - 1) true, kn := upd s.kn x ts } := by
  obtain ⟨t1, t2, t3, t4, t5, t6, t7, t8, g', t9, t10, t11, t12⟩ := store_spec hm
  have hlog := fun k b => logged_snoc t3 k b
  have hlt := logged_lt s.m
  have mono : ∀ u k, (s.m.cur u).know k = true → (m'.cur u).know k = true := fun u k hk => by
    by_cases hu : u = n
    · rw [hu] at hk ⊢; rw [t6, hk]; rfl
    · rw [t5 u hu]; exact hk
  have hself : (m'.cur (n)).know s.m.log.length = true := by rw [t6]; simp
  have hrel : o.isRel = true → ∀ k, (m'.cur n).know k = true → g'.view.know k = true := fun ho k hk => by rw [t11, ho, hk]; rfl
  have hsn : ∀ u x, (s.m.cur u).seen x ≤ (m'.cur u).seen x := fun u x => by
    by_cases hu : u = n
    · rw [hu, t7]; split
      · rename_i hx; subst hx; omega
      · omega
    · rw [t5 u hu]; exact Nat.le_refl _
  have hsn3 : ∀ u, u ≠ n → ∀ x, (m'.cur u).seen x = (s.m.cur u).seen x := fun u hu x => by rw [t5 u hu]
  have hsn2 := t7 (.next x)
  simp only [if_true] at hsn2
  clear t3 t4 t5 t6 t7 t11 t12 hm
  obtain ⟨a1, a2, a3, a4, a5, a6, a7, a8, a9, a10, a11, a12, a13, a14, a15, a16⟩ := hA
  obtain ⟨i1, i2, i3⟩ := a4 n hn (by rw [hp]; rfl)
  have hinj : ∀ m, m ≠ 0 → exd (s.pc m) = true → s.idx m = s.idx n → m = n := fun m hm he hh => by
    rw [← (a4 m hm he).1, hh, i1]
  constructor <;> try dsimp only
  case idxP =>
    intro m hm he
    by_cases hmn : m = n
    · subst hmn; exact ⟨i1, i2, i3⟩
    · rw [upd_other _ _ hmn] at he; exact a4 m hm he
  case lkI =>
    intro m y hmx
    by_cases hmn : m = n
    · subst hmn; rw [upd_same] at hmx; cases hmx
    · rw [upd_other _ _ hmn] at hmx
      have hm0 : m ≠ 0 := fun h0 => by rw [h0, a5] at hmx; cases hmx
      obtain ⟨e1, e2, e3⟩ := a4 m hm0 (by rw [hmx]; rfl)
      obtain ⟨f1, f2⟩ := a9 m y hmx
      refine ⟨f1, ?_⟩
      rw [upd_other _ _ (fun hh => hmn (hinj m hm0 (by rw [hmx]; rfl) (by omega)))]
      exact f2
  case lkBy =>
    intro j hj hl
    by_cases hjk : j = s.idx n - 1
    · subst hjk; rw [upd_same] at hl; cases hl
    · rw [upd_other _ _ hjk] at hl
      rcases a11 j hj hl with ⟨e1, e2⟩ | e
      · refine .inl ⟨e1, ?_⟩
        rw [upd_other _ _ (fun hh => hjk (by
          have := (a3 (j + 1) (by omega) e1).1
          rw [hh] at this; omega))]
        exact e2
      · exact .inr e
  all_goals first | assumption | grind

end Verif.WmMpsc
