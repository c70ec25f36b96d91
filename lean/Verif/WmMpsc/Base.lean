import Verif.WmMpsc.Inv
/-!
# The intrusive MPSC queue under the C++ memory model — what is read (C96)
-/
namespace Verif.WmMpsc

open Verif.WM

/-- A read-modify-write reads the newest message. -/
theorem newest {s : St} {ts : Nat} {g : Msg Loc} (h : A s) (h1 : s.m.hist .head ts = some g) (h2 : s.m.hist .head (ts + 1) = none) :
    ts = s.kh := by
  have h3 := (h.h2 ts g h1).1
  rcases Nat.lt_or_eq_of_le h3 with hl | hl
  · exact absurd h2 (h.h1 (ts + 1) hl)
  · exact hl

/-- The consumer reads a link that is not null: it is the newest message. -/
theorem adv_val {s : St} {o : Ord} {ts v : Nat} {m' : Mem Loc Acc} (hA : A s) (hB : B s) (hv : v ≠ 0)
    (hm : s.m.load conf o 0 (.next s.tail) ts ⟨0, .lnk s.tail⟩ = some (v, m')) :
    ts = s.kn s.tail ∧ s.lkd s.p = true ∧ v = s.seq (s.p + 1) + 1 := by
  obtain ⟨g, t1, t2, t3, -⟩ := load_spec hm
  obtain ⟨p1, p2⟩ := hA.pP
  have ht : ts = s.kn s.tail := by
    apply Classical.byContradiction
    intro hne
    rw [p2] at t1 t3 hne
    have := hB.older s.p ts g (Nat.le_refl _) p1 t1 hne t3
    omega
  subst ht
  rw [p2] at t1
  have hl : s.lkd s.p = true := by
    cases hl : s.lkd s.p with
    | true => rfl
    | false => have := hB.null s.p g (Nat.le_refl _) p1 hl t1; omega
  refine ⟨rfl, hl, ?_⟩
  rw [t2, hB.link s.p g (Nat.le_refl _) hl t1]

end Verif.WmMpsc
