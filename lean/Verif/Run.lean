import Verif.Common
/-! # Runs of selected actions: concatenation, termination, reaching a stuck state -/
namespace Verif

theorem exec_append {σ α : Type} {step : σ → α → Option σ} : ∀ (as bs : List α) (s : σ),
    exec step s (as ++ bs) = (exec step s as).bind fun s' => exec step s' bs
  | [], _, _ => rfl
  | a :: as, bs, s => by
      rw [List.cons_append]
      rw [exec, exec]
      cases step s a with
      | none => rfl
      | some s1 => exact exec_append as bs s1

/-- A measure that strictly decreases along the selected actions bounds the length of every run of
    such actions. -/
theorem run_bound {σ α : Type} {step : σ → α → Option σ} (sel : α → Bool) (P : σ → Prop) (m : σ → Nat)
    (hP : ∀ s a s', P s → sel a = true → step s a = some s' → P s' ∧ m s' < m s) :
    ∀ (as : List α) (s s' : σ), P s → (∀ a ∈ as, sel a = true) → exec step s as = some s' →
      as.length ≤ m s
  | [], _, _, _, _, _ => by simp
  | a :: as, s, s', h, ha, he => by
      unfold exec at he
      split at he
      · rename_i s1 h1
        have hd := hP s a s1 h (ha a (by simp)) h1
        have := run_bound sel P m hP as s1 s' hd.1 (fun b hb => ha b (by simp [hb])) he
        simp only [List.length_cons]; omega
      · cases he

/-- If runs of the selected actions from `s` are bounded, some run reaches a state in which none of
    them is enabled. -/
theorem run_to_stuck {σ α : Type} {step : σ → α → Option σ} (sel : α → Bool) (s : σ) (N : Nat)
    (hN : ∀ as s', (∀ a ∈ as, sel a = true) → exec step s as = some s' → as.length ≤ N) :
    ∃ as s', (∀ a ∈ as, sel a = true) ∧ exec step s as = some s' ∧
      ∀ a, sel a = true → step s' a = none := by
  have ext : ∀ k, (∃ as s', (∀ a ∈ as, sel a = true) ∧ exec step s as = some s' ∧
      ∀ a, sel a = true → step s' a = none) ∨
      (∃ as s', (∀ a ∈ as, sel a = true) ∧ exec step s as = some s' ∧ as.length = k) := by
    intro k
    induction k with
    | zero => exact .inr ⟨[], s, by simp, rfl, rfl⟩
    | succ k ih =>
        rcases ih with ih | ⟨as, s1, h1, h2, h3⟩
        · exact .inl ih
        · by_cases hq : ∀ a, sel a = true → step s1 a = none
          · exact .inl ⟨as, s1, h1, h2, hq⟩
          · simp only [Classical.not_forall] at hq
            obtain ⟨a, ha, hs⟩ := hq
            obtain ⟨s2, hs⟩ := Option.ne_none_iff_exists'.1 hs
            refine .inr ⟨as ++ [a], s2, ?_, ?_, by simp [h3]⟩
            · intro b hb
              rcases List.mem_append.1 hb with hb | hb
              · exact h1 b hb
              · rw [List.mem_singleton.1 hb]; exact ha
            · rw [exec_append, h2]; simp [exec, hs]
  rcases ext (N + 1) with h1 | ⟨as, s', h1, h2, h3⟩
  · exact h1
  · have := hN as s' h1 h2; omega

end Verif
