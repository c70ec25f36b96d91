import Verif.WmMpsc.Base
/-!
# The intrusive MPSC queue under the C++ memory model — links (C96)
-/
namespace Verif.WmMpsc

open Verif.WM

set_option maxHeartbeats 8000000 in
theorem B_ex {s : St} (hA : A s) (hB : B s) {n ts v : Nat} {o : Ord} {m' : Mem Loc Acc} (hn : n ≠ 0) (ho : o = .ar) (hp : s.pc n = .ex) (hm : s.m.rmw conf o n .head ts (fun _ => n + 1) ⟨n, .atom⟩ = some (v, m')) : B { s with m := m', pc := upd s.pc n (.lk (v - 1)), ord := s.ord ++ [n], kh := ts + 1, seq := upd s.seq (ts + 1) n, idx := upd s.idx n (ts + 1) } := by
  obtain ⟨g, t1, t2, t3, t4, t5, t6, t7, t8, t9, t10, g', t11, t12, t13, t14⟩ := rmw_spec hm
  have hts := newest hA t1 t4
  subst hts
  have hlog := fun k b => logged_snoc t5 k b
  have hlt := logged_lt s.m
  have mono : ∀ u k, (s.m.cur u).know k = true → (m'.cur u).know k = true := fun u k hk => by
    by_cases hu : u = n
    · rw [hu] at hk ⊢; rw [t8, hk]; rfl
    · rw [t7 u hu]; exact hk
  have hself : (m'.cur (n)).know s.m.log.length = true := by rw [t8]; simp
  have hacq : ∀ k, g.view.know k = true → (m'.cur (n)).know k = true := fun k hk => by rw [t8, hk, ho]; simp [Ord.isAcq]
  have hrel : ∀ k, (m'.cur (n)).know k = true → g'.view.know k = true := fun k hk => by rw [t13, hk, ho]; simp [Ord.isRel]
  have hsr : ∀ x, (m'.cur (n)).seen x ≤ g'.view.seen x := fun x => by rw [t14, ho]; simp [Ord.isRel]; omega
  have hsa : ∀ x, g.view.seen x ≤ (m'.cur (n)).seen x := fun x => by rw [t9, ho]; simp [Ord.isAcq]; omega
  have hsn : ∀ u x, (s.m.cur u).seen x ≤ (m'.cur u).seen x := fun u x => by
    by_cases hu : u = n
    · rw [hu, t9]; split
      · rename_i hx; subst hx; omega
      · omega
    · rw [t7 u hu]; exact Nat.le_refl _
  have hsn2 : s.kh + 1 ≤ (m'.cur (n)).seen .head := by rw [t9]; simp; omega
  clear t5 t6 t7 t8 t9 t13 t14 hm
  obtain ⟨a1, a2, a3, a4, a5, a6, a7, a8, a9, a10, a11, a12, a13, a14, a15, a16⟩ := hA
  obtain ⟨b1, b2, b3, b4, b5, b6, b7, b8, b9, b10, b11, b12, b13, b14⟩ := hB
  have hns : ∀ j, j ≤ s.kh → s.seq j ≠ n := fun j hj hh => by
    have := (a3 j hj (by rw [hh]; exact hn)).2
    rw [hh, hp] at this; cases this
  have hv : v - 1 = s.seq s.kh := by have := (a2 _ _ t1).2; omega
  have hup : ∀ j, j ≤ s.kh → upd s.seq (s.kh + 1) n j = s.seq j := fun j hj => upd_other _ _ (by omega)
  have hup' : upd s.seq (s.kh + 1) n (s.kh + 1) = n := by rw [upd_same]
  constructor <;> try dsimp only
  case older =>
    intro j ts' g2 h1 h2 h3 h4 h5
    have hn' : ∀ x j, m'.hist (.next x) j = s.m.hist (.next x) j := fun x j => t10 _ _ (by rintro ⟨e, -⟩; cases e)
    rw [hn'] at h3
    by_cases hj : j = s.kh + 1
    · subst hj; rw [hup'] at h3; exact b11 n ts' g2 hn (by rw [hp]; rfl) h3
    · have hj' : j ≤ s.kh := by omega
      rw [hup j hj'] at h3 h4 h5
      exact b4 j ts' g2 h1 hj' h3 h4 (Nat.le_trans (hsn 0 _) h5)
  all_goals first | assumption | grind

end Verif.WmMpsc
