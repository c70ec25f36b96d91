import Verif.WmStop.Eqs
/-!
# Stop callbacks under the C++ memory model — destruction (C94)
-/
namespace Verif.WmStop

open Verif.WM

set_option maxHeartbeats 8000000 in
theorem D_step {c : Cfg} {x y : Ctl} {t ks ks' : Nat} {w : What} {κ : Kind} {m m' : Mem Loc Acc} (tr : Tr c x y t w κ)
    (hD : c.ordD.isRel = true) (hW : c.ordW.isAcq = true)
    (hp : P c x) (he : E c x m.logged) (hK : K x m ks) (hc : Com m m' t w) (hk : MemK c m m' ks ks' t κ) (h : D c x m) : D c y m' := by
  obtain ⟨p1, p2, p3, p4, p5, p6, p7, p8, p9, p10, p11, p12, p13, p15, p14⟩ := hp
  obtain ⟨hlog, hlt, mono, hself, -, -⟩ := hc
  obtain ⟨k1, k2, k3, k4, k5, k6⟩ := hK
  obtain ⟨g1, g2, g3, g4, g5, g6, g7, g8, g9, g10, g11, g12⟩ := h
  have hm := fun i j => List.Nodup.mem_erase_iff (a := i) (b := j) p7
  have hMW := he.makeW
  have hFW := he.freshW
  have hI := he.idleO
  have f1 : ∀ p, open' p = true → fresh p = false ∧ p ≠ .unl0 ∧ p ≠ .fr ∧ p ≠ .fin := by intro p; cases p <;> simp [open', fresh]
  have f2 : ∀ p, listed p = true → fresh p = false ∧ p ≠ .fin ∧ p ≠ .fr := by intro p; cases p <;> simp [listed, fresh]
  have f3 : ∀ p, p = .idle ∨ p = .saw → fresh p = true := by intro p; cases p <;> simp [fresh]
  clear p15 p6 p7 p14 he
  cases tr <;> simp only [MemK] at hk
  case' uw | note | loop0 | pop | callS | callD | sc | sf | make | push | remF | remW | inlN | inl | inl2 | fr | saw =>
    obtain ⟨hk1, hk2⟩ := hk
    subst hk1
    have hk2 := fun i j => hk2 (.done i) j
  case' req | sl | relock | reg | regd =>
    obtain ⟨hk1, hk2, hk3, hk4, g, g', hk5, hk6, hk7, hk8, hk9, hk10, hk11⟩ := hk
    subst hk1
    have hk2 := fun i j => hk2 (.done i) j
  case' rel | su | relF | unl0 | unlF | unlW =>
    obtain ⟨hk1, hk2, g', hk6, hk7, hk8⟩ := hk
    have hk2 := fun i j => hk2 (.done i) j
  case' dn =>
    obtain ⟨hk1, ts, g', hk2, hk3, hk4, hk5⟩ := hk
    subst hk1
    have hk2 := fun i j => hk2 (.done i) j
  case' wait0 | wait1 =>
    obtain ⟨hk1, hk2, ts, g, hk3, hk4, hk5⟩ := hk
    subst hk1
    have hk2 := fun i j => hk2 (.done i) j
  case' see | give | spin =>
    obtain ⟨hk1, hk2, ts, g, hk3, hk4, hk5⟩ := hk
    subst hk1
    have hk2 := fun i j => hk2 (.done i) j
  all_goals constructor <;> (try dsimp only) <;> first | assumption | (intros; rfl) | (intro _ _ _ h; cases h; done) | grind | skip

end Verif.WmStop
