import Verif.WmStop.Eqs
/-!
# Stop callbacks under the C++ memory model — control and log (C94)
-/
namespace Verif.WmStop

open Verif.WM

set_option maxHeartbeats 8000000 in
theorem P_step {c : Cfg} {x y : Ctl} {t : Nat} {w : What} {κ : Kind} (tr : Tr c x y t w κ) (h : P c x) : P c y := by
  obtain ⟨g1, g2, g3, g4, g5, g6, g7, g8, g9, g10, g11, g12, g13, g15, g14⟩ := h
  have hn := fun i => g7.erase i
  have hm := fun i j => List.Nodup.mem_erase_iff (a := i) (b := j) g7
  cases tr <;> constructor <;> (try dsimp only) <;> first | assumption | grind | skip
  case pop.handO i l h1 h2 =>
    intro j hj
    have hj : i = j := by simpa [hand] using hj
    have := g8 j (by rw [h2, hj]; simp)
    have := g1 j
    have := g2 (by rw [h1]; rfl)
    cases hp : x.pc j <;> grind

end Verif.WmStop
