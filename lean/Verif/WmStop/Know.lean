import Verif.WmStop.Eqs
/-!
# Stop callbacks under the C++ memory model — knowledge under the lock (C94)
-/
namespace Verif.WmStop

open Verif.WM

set_option maxHeartbeats 8000000 in
theorem K_step {c : Cfg} {x y : Ctl} {t ks ks' : Nat} {w : What} {κ : Kind} {m m' : Mem Loc Acc} (tr : Tr c x y t w κ)
    (hT : c.ordT = .ar) (hK : c.ordK.isAcq = true) (hU : c.ordU.isRel = true)
    (hp : P c x) (he : E c x m.logged) (hc : Com m m' t w) (hk : MemK c m m' ks ks' t κ) (h : K x m ks) : K y m' ks' := by
  obtain ⟨p1, p2, p3, p4, p5, p6, p7, p8, p9, p10, p11, p12, p13, p15, p14⟩ := hp
  obtain ⟨hlog, hlt, mono, hself, -, -⟩ := hc
  obtain ⟨g1, g2, g3, g4, g5, g6⟩ := h
  have hm := fun i j => List.Nodup.mem_erase_iff (a := i) (b := j) p7
  have hW := he.makeW
  have hI := he.idleO
  have hT1 : c.ordT.isAcq = true := by rw [hT]; rfl
  have f1 : ∀ i, hand i x.r = true → x.pc i ≠ .idle := fun i h1 h2 => by have := p9 i h1; rw [h2] at this; cases this
  clear p15 p6 p7 p9 p10 p11 p12 p13 p14 he
  cases tr <;> simp only [MemK] at hk
  case' uw | note | loop0 | pop | callS | callD | sc | sf | make | push | remF | remW | inlN | inl | inl2 | fr | saw =>
    obtain ⟨hk1, hk2⟩ := hk
    subst hk1
    have hk2 := fun j => hk2 .state j
  case' req | sl | relock | reg | regd =>
    obtain ⟨hk1, hk2, hk3, hk4, g, g', hk5, hk6, hk7, hk8, hk9, hk10, hk11⟩ := hk
    subst hk1
    have hk2 := fun j => hk2 .state j
  case' rel | su | relF | unl0 | unlF | unlW =>
    obtain ⟨hk1, hk2, g', hk6, hk7, hk8⟩ := hk
    have hk2 := fun j => hk2 .state j
  case' dn =>
    obtain ⟨hk1, ts, g', hk2, hk3, hk4, hk5⟩ := hk
    subst hk1
    have hk2 := fun j => hk2 .state j
  case' wait0 | wait1 =>
    obtain ⟨hk1, hk2, ts, g, hk3, hk4, hk5⟩ := hk
    subst hk1
    have hk2 := fun j => hk2 .state j
  case' see | give | spin =>
    obtain ⟨hk1, hk2, ts, g, hk3, hk4, hk5⟩ := hk
    subst hk1
    have hk2 := fun j => hk2 .state j
  all_goals constructor <;> (try dsimp only) <;> first | assumption | (intro _ _ _ h; cases h; done) | grind | skip

end Verif.WmStop
