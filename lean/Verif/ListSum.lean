import Verif.Common
/-! # Sums of an agent-indexed weight over the list of agents seen so far -/
namespace Verif
set_option linter.unusedSectionVars false

/-- Sum of `c (f x)` over a list. -/
def lsum {α β : Type} (c : β → Nat) (f : α → β) : List α → Nat
  | [] => 0
  | a :: l => c (f a) + lsum c f l

variable {α β : Type} [DecidableEq α] (c : β → Nat) (f : α → β)

theorem lsum_append (l m : List α) : lsum c f (l ++ m) = lsum c f l + lsum c f m := by
  induction l with
  | nil => simp [lsum]
  | cons a l ih => simp [lsum, ih]; omega

theorem lsum_upd_notin {l : List α} {a : α} {b : β} (h : a ∉ l) : lsum c (upd f a b) l = lsum c f l := by
  induction l with
  | nil => rfl
  | cons x l ih =>
      simp only [List.mem_cons, not_or] at h
      simp only [lsum, ih h.2, upd_other f b (Ne.symm h.1)]

theorem lsum_upd_in {l : List α} {a : α} {b : β} (hd : l.Nodup) (h : a ∈ l) :
    lsum c (upd f a b) l + c (f a) = lsum c f l + c b := by
  induction l with
  | nil => cases h
  | cons x l ih =>
      rw [List.nodup_cons] at hd
      by_cases hx : x = a
      · subst hx
        simp only [lsum, lsum_upd_notin c f hd.1, upd_same]; omega
      · simp only [lsum, upd_other f b hx]
        have := ih hd.2 (by simpa [Ne.symm hx] using h)
        omega

theorem le_lsum {l : List α} {a : α} (h : a ∈ l) : c (f a) ≤ lsum c f l := by
  induction l with
  | nil => cases h
  | cons x l ih =>
      simp only [lsum]
      rcases List.mem_cons.1 h with rfl | h
      · omega
      · have := ih h; omega

/-- Two different members contribute separately. -/
theorem add_le_lsum {l : List α} {a b : α} (ha : a ∈ l) (hb : b ∈ l) (h : a ≠ b) :
    c (f a) + c (f b) ≤ lsum c f l := by
  induction l with
  | nil => cases ha
  | cons x l ih =>
      simp only [lsum]
      rcases List.mem_cons.1 ha with rfl | ha2
      · rcases List.mem_cons.1 hb with rfl | hb
        · exact absurd rfl h
        · have := le_lsum c f hb; omega
      · rcases List.mem_cons.1 hb with rfl | hb'
        · have := le_lsum c f (by assumption : a ∈ l); omega
        · have := ih (by assumption) hb'; omega

theorem lsum_eq_zero {l : List α} (h : ∀ a ∈ l, c (f a) = 0) : lsum c f l = 0 := by
  induction l with
  | nil => rfl
  | cons x l ih => simp [lsum, h x (by simp), ih fun a ha => h a (by simp [ha])]

theorem lsum_pos {l : List α} (h : lsum c f l ≠ 0) : ∃ a ∈ l, c (f a) ≠ 0 := by
  induction l with
  | nil => exact absurd rfl h
  | cons x l ih =>
      by_cases hx : c (f x) = 0
      · obtain ⟨a, ha, h1⟩ := ih (by simpa [lsum, hx] using h)
        exact ⟨a, by simp [ha], h1⟩
      · exact ⟨x, by simp, hx⟩

end Verif
