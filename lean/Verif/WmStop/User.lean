import Verif.WmStop.Mem
/-!
# Stop callbacks under the C++ memory model — the user's data (C94)
-/
namespace Verif.WmStop

open Verif.WM

set_option maxHeartbeats 8000000 in
theorem U_step {c : Cfg} {x y : Ctl} {t ks ks' : Nat} {w : What} {κ : Kind} {m m' : Mem Loc Acc} (tr : Tr c x y t w κ)
    (hT : c.ordT = .ar) (hKo : c.ordK.isAcq = true) (hUo : c.ordU.isRel = true) (hO : c.ordO.isAcq = true)
    (hPo : c.ordP.isAcq = true ∨ ∀ i, c.reads i = false)
    (hp : P c x) (hM : M x m ks) (he : E c x m.logged) (hK : K x m ks) (hc : Com m m' t w) (hk : MemK c m m' ks ks' t κ)
    (h : U c x m) : U c y m' := by
  obtain ⟨hlog, hlt, mono, hself, -, -⟩ := hc
  obtain ⟨g1, g2, g3, g4⟩ := h
  obtain ⟨m1, m2, m3, m4, m5, m6, m7, m8⟩ := hM
  have p1 := hp.holdO
  have p14 := hp.rIdle
  have p5 := hp.zero
  have p2 := hp.old2
  have k1 := hK.own
  have e1 := he.uwO
  have e2 := he.uwI
  have hT1 : c.ordT.isAcq = true := by rw [hT]; rfl
  have hT2 : c.ordT.isRel = true := by rw [hT]; rfl
  obtain ⟨g0, hg0⟩ := Option.ne_none_iff_exists'.mp m1
  clear hp hK he hT
  cases tr <;> simp only [MemK] at hk
  case' uw | note | loop0 | pop | callS | callD | sc | sf | make | push | remF | remW | inlN | inl | inl2 | fr | saw =>
    obtain ⟨hk1, hk2⟩ := hk
    subst hk1
    have hk2 := fun j => hk2 .state j
  case' req | sl | relock | reg | regd =>
    obtain ⟨hk1, hk2, hk3, hk4, g, g', hk5, hk6, hk7, hk8, hk9, hk10, hk11⟩ := hk
    subst hk1
    have hk2 := fun j => hk2 .state j
  case' rel | su | relF | unl0 | unlF | unlW =>
    obtain ⟨hk1, hk2, g', hk6, hk7, hk8⟩ := hk
    have hk2 := fun j => hk2 .state j
  case' dn =>
    obtain ⟨hk1, ts, g', hk2, hk3, hk4, hk5⟩ := hk
    subst hk1
    have hk2 := fun j => hk2 .state j
  case' wait0 | wait1 =>
    obtain ⟨hk1, hk2, ts, g, hk3, hk4, hk5⟩ := hk
    subst hk1
    have hk2 := fun j => hk2 .state j
  case' see | give | spin =>
    obtain ⟨hk1, hk2, ts, g, hk3, hk4, hk5⟩ := hk
    subst hk1
    have hk2 := fun j => hk2 .state j
  all_goals constructor <;> (try dsimp only) <;> first | assumption | grind | skip

end Verif.WmStop
