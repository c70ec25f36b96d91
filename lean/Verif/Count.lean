/-! # Counting indices below a bound -/
namespace Verif

/-- Number of `i < n` with `p i`. -/
def cnt (p : Nat → Bool) : Nat → Nat
  | 0 => 0
  | n + 1 => cnt p n + if p n then 1 else 0

theorem cnt_le (p : Nat → Bool) (n : Nat) : cnt p n ≤ n := by
  induction n with
  | zero => simp [cnt]
  | succ n ih => simp only [cnt]; split <;> omega

theorem cnt_congr {p q : Nat → Bool} {n : Nat} (h : ∀ i < n, p i = q i) : cnt p n = cnt q n := by
  induction n with
  | zero => rfl
  | succ n ih =>
    simp only [cnt]
    rw [ih (fun i hi => h i (by omega)), h n (by omega)]

theorem cnt_eq_iff {p : Nat → Bool} {n : Nat} : cnt p n = n ↔ ∀ i < n, p i = true := by
  induction n with
  | zero => simp [cnt]
  | succ n ih =>
    have := cnt_le p n
    simp only [cnt]
    constructor
    · intro h i hi
      by_cases hp : p n = true
      · rw [if_pos hp] at h
        have h' := ih.1 (by omega)
        by_cases hin : i = n
        · exact hin ▸ hp
        · exact h' i (by omega)
      · rw [if_neg hp] at h; omega
    · intro h
      rw [if_pos (h n (by omega)), ih.2 (fun i hi => h i (by omega))]

theorem cnt_zero_iff {p : Nat → Bool} {n : Nat} : cnt p n = 0 ↔ ∀ i < n, p i = false := by
  induction n with
  | zero => simp [cnt]
  | succ n ih =>
    simp only [cnt]
    constructor
    · intro h i hi
      by_cases hp : p n = true
      · rw [if_pos hp] at h; omega
      · rw [if_neg hp] at h
        by_cases hin : i = n
        · subst hin; simpa using hp
        · exact ih.1 (by omega) i (by omega)
    · intro h
      rw [if_neg (by simp [h n (by omega)]), ih.2 (fun i hi => h i (by omega))]

/-- Setting one more index raises the count by one. -/
theorem cnt_flip {p q : Nat → Bool} {n a : Nat} (ha : a < n) (hp : p a = false) (hq : q a = true)
    (h : ∀ i, i ≠ a → q i = p i) : cnt q n = cnt p n + 1 := by
  induction n with
  | zero => omega
  | succ n ih =>
    simp only [cnt]
    by_cases han : a = n
    · subst han
      rw [cnt_congr (fun i hi => h i (by omega)), hp, hq]; simp
    · rw [ih (by omega), h n (Ne.symm han)]; omega

end Verif
