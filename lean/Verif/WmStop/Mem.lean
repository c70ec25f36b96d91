import Verif.WmStop.Eqs
/-!
# Stop callbacks under the C++ memory model — the lock (C94)
-/
namespace Verif.WmStop

open Verif.WM

set_option maxHeartbeats 8000000 in
theorem M_step {c : Cfg} {x y : Ctl} {t ks ks' : Nat} {w : What} {κ : Kind} {m m' : Mem Loc Acc} (tr : Tr c x y t w κ)
    (hp : P c x) (hc : Com m m' t w) (hk : MemK c m m' ks ks' t κ) (h : M x m ks) : M y m' ks' := by
  obtain ⟨p1, p2, p3, p4, p5, p6, p7, p8, p9, p10, p11, p12, p13, p15, p14⟩ := hp
  obtain ⟨-, -, -, -, hs, -⟩ := hc
  obtain ⟨g1, g2, g3, g4, g5, g6, g7, g8⟩ := h
  clear p15 p7 p8 p9 p10 p11 p12 p13 p14
  have hs := fun u => hs u .state
  obtain ⟨g0, hg0⟩ := Option.ne_none_iff_exists'.mp g1
  cases tr <;> simp only [MemK] at hk
  case' uw | note | loop0 | pop | callS | callD | sc | sf | make | push | remF | remW | inlN | inl | inl2 | fr | saw =>
    obtain ⟨hk1, hk2⟩ := hk
    subst hk1
    have hk2 := fun j => hk2 .state j
  case' req | sl | relock | reg | regd =>
    obtain ⟨hk1, hk2, hk3, hk4, g, g', hk5, hk6, hk7, hk8, -, -, -⟩ := hk
    subst hk1
    have hk2 := fun j => hk2 .state j
  case' rel | su | relF | unl0 | unlF | unlW =>
    obtain ⟨hk1, hk2, g', hk6, hk7, -⟩ := hk
    have hk2 := fun j => hk2 .state j
  case' dn =>
    obtain ⟨hk1, ts, g', hk2, -⟩ := hk
    subst hk1
    have hk2 := fun j => hk2 .state j
  case' wait0 | wait1 | see | give | spin =>
    obtain ⟨hk1, hk2, -⟩ := hk
    subst hk1
    have hk2 := fun j => hk2 .state j
  all_goals constructor <;> (try dsimp only) <;> first | assumption | grind | (intro _ _ h; cases h) | skip

end Verif.WmStop
