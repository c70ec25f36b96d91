import Verif.WmStop.Eqs
/-!
# Stop callbacks under the C++ memory model — the log (C94)
-/
namespace Verif.WmStop

open Verif.WM

set_option maxHeartbeats 8000000 in
theorem E_step {c : Cfg} {x y : Ctl} {t : Nat} {w : What} {κ : Kind} {L L' : Nat → Acc → Prop} {n : Nat} (tr : Tr c x y t w κ)
    (hp : P c x) (hlog : ∀ k b, L' k b ↔ L k b ∨ (k = n ∧ b = ⟨t, w⟩)) (hlt : ∀ k b, L k b → k < n) (h : E c x L) : E c y L' := by
  obtain ⟨p1, p2, p3, p4, p5, p6, p7, p8, p9, p10, p11, p12, p13, p15, p14⟩ := hp
  obtain ⟨g1, g2, g3, g4, g5, g6, g7, g8, g9, g10, g11, g12, g13, g14⟩ := h
  have hm := fun i j => List.Nodup.mem_erase_iff (a := i) (b := j) p7
  have f1 : ∀ p, open' p = true → fresh p = false ∧ p ≠ .unl0 ∧ p ≠ .fr ∧ p ≠ .fin := by intro p; cases p <;> simp [open', fresh]
  have f2 : ∀ p, listed p = true → fresh p = false ∧ p ≠ .fin ∧ p ≠ .fr := by intro p; cases p <;> simp [listed, fresh]
  have f3 : ∀ p, p = .idle ∨ p = .saw → fresh p = true := by intro p; cases p <;> simp [fresh]
  have hf : ∀ j k a b i, L' j a → L' k b → a.what = .free i → b.what.on i = true → k ≤ j := by
    intro j k a b i h1 h2 h3 h4
    rcases (hlog j a).1 h1 with h1 | ⟨h1, h5⟩ <;> rcases (hlog k b).1 h2 with h2 | ⟨h2, h6⟩
    · exact g13 j k a b i h1 h2 h3 h4
    · subst h6
      exfalso
      clear g1 g6 g7 g8 g9 g12 g13 g14 hlog hlt p1 p2 p3 p4 p6 p7 p11 p12 p14 p15 hm
      cases tr <;> grind
    · have := hlt k b h2; omega
    · omega
  have hw : ∀ i k b, fresh (y.pc i) = true → L' k b → b.what.on i = true → b.who = i := by
    intro i k b h1 h2 h3
    rcases (hlog k b).1 h2 with h2 | ⟨h2, h5⟩
    · have := g9 i k b
      have := g10 i k b
      clear g1 g2 g3 g4 g5 g6 g7 g8 g9 g10 g11 g12 g13 g14 hlog hlt hf p1 p2 p3 p4 p6 p7 p10 p11 p12 p13 p14 p15 hm
      cases tr <;> grind
    · subst h5
      clear g1 g2 g3 g4 g5 g6 g7 g8 g9 g10 g11 g12 g13 g14 hlog hlt hf p1 p2 p3 p4 p6 p7 p10 p11 p12 p13 p14 p15 hm
      cases tr <;> grind
  have hi : ∀ i k b, y.pc i = .idle ∨ y.pc i = .saw → L' k b → b.what.on i = false := by
    intro i k b h1 h2
    rcases (hlog k b).1 h2 with h2 | ⟨h2, h5⟩
    · have := g10 i k b
      clear g1 g2 g3 g4 g5 g6 g7 g8 g9 g10 g11 g12 g13 g14 hlog hlt hf p1 p2 p3 p4 p6 p7 p10 p11 p12 p13 p14 p15 hm
      cases tr <;> grind
    · subst h5
      clear g1 g2 g3 g4 g5 g6 g7 g8 g9 g10 g11 g12 g13 g14 hlog hlt hf p1 p2 p3 p4 p6 p7 p10 p11 p12 p13 p14 p15 hm
      cases tr <;> grind
  have hn := g1
  clear hlt
  have a1 : ∀ k b i, L' k b → b.what = .make i → b.who = i := by
    clear g2 g3 g4 g5 g6 g7 g8 g9 g10 g11 g12 g13 g14 hf hw hi hm p1 p2 p3 p4 p6 p7 p8 p9 p10 p11 p12 p13 p14 p15
    cases tr <;> grind
  have a2 : ∀ i k b, i ∈ y.list → L' k b → b.what ≠ .free i := by
    clear g1 g6 g7 g8 g9 g10 g11 g12 g13 g14 hf hw hi p1 p2 p3 p4 p6 p7 p11 p12 p14 p15
    cases tr <;> grind
  have a3 : ∀ i k b, hand i y.r = true → L' k b → b.what ≠ .free i := by
    clear g1 g6 g7 g8 g9 g10 g11 g12 g13 g14 hf hw hi p1 p2 p3 p4 p6 p7 p11 p12 p14 p15
    cases tr <;> first | (intro _ _ _ h; cases h; done) | grind
  have a4 : ∀ i k b, c.self i = false → y.pc i ≠ .fin → L' k b → b.what ≠ .free i := by
    clear g1 g6 g7 g8 g9 g10 g11 g12 g13 g14 hf hw hi p1 p2 p3 p4 p6 p7 p8 p9 p13 p14 p15
    cases tr <;> grind
  have a5 : ∀ i k b, fresh (y.pc i) = true ∨ y.pc i = .unl0 ∨ y.pc i = .fr → L' k b → b.what ≠ .free i := by
    clear g1 g6 g7 g8 g9 g10 g11 g12 g13 g14 hf hw hi p1 p2 p3 p4 p6 p7 p8 p14 p15
    cases tr <;> grind
  have a6 : ∀ i k b, i ∈ y.list → L' k b → b.what ≠ .run i := by
    clear g1 g2 g3 g4 g5 g9 g10 g11 g12 g13 g14 hf hw hi p1 p2 p3 p4 p6 p7 p11 p12 p14 p15
    cases tr <;> grind
  have a7 : ∀ i k b, hand i y.r = true → before y.r = true → L' k b → b.what ≠ .run i := by
    clear g1 g2 g3 g4 g5 g9 g10 g11 g12 g13 g14 hf hw hi p1 p2 p3 p4 p6 p7 p11 p12 p14 p15
    cases tr <;> first | (intro _ _ _ h; cases h; done) | (intro _ _ _ _ h; cases h; done) | grind
  have a8 : ∀ i k b, fresh (y.pc i) = true → y.pc i ≠ .inl2 → L' k b → b.what ≠ .run i := by
    clear g1 g2 g3 g4 g5 g9 g10 g11 g12 g13 g14 hf hw hi p1 p2 p3 p4 p6 p7 p8 p14 p15
    cases tr <;> grind
  have a9 : ∀ k b, L' k b → b.what = .uw → b.who = 0 := by
    clear g1 g2 g3 g4 g5 g6 g7 g8 g9 g10 g12 g13 g14 hf hw hi hm p1 p2 p3 p4 p5 p6 p7 p8 p9 p10 p11 p12 p13 p14 p15
    cases tr <;> grind
  have a10 : y.r = .idle → ∀ k b, L' k b → b.what ≠ .uw ∧ b.what ≠ .ur := by
    clear g1 g2 g3 g4 g5 g6 g7 g8 g9 g10 g13 g14 hf hw hi hm p1 p2 p3 p4 p5 p6 p7 p8 p9 p10 p11 p12 p13 p15
    cases tr <;> grind
  have a11 : ∀ j k a b i, L' j a → L' k b → a.what = .run i → b.what = .run i → j = k := by
    clear g1 g2 g3 g4 g5 g9 g10 g11 g12 g13 hf hw hi hm p1 p2 p3 p4 p6 p7 p8 p9 p10 p11 p12 p13 p14 p15
    cases tr <;> grind
  exact ⟨a1, a2, a3, a4, a5, a6, a7, a8, hw, hi, a9, a10, hf, a11⟩

end Verif.WmStop
