import Verif.Sequence.IgnoreAll
/-!
# C44 (second part) — `ignore_all_values`

When the sequence completes with a value, the operation completes with the first error or stopped any item produced,
else with a value; the sequence's own error and stopped are passed on. Any number of concurrent items.
-/
namespace Verif.Sequence.Ignore

structure Inv (s : St) : Prop where
  e3 : s.emplaced = 0 ∨ s.emplaced = 1 ∨ s.emplaced = 2
  e0 : s.emplaced = 0 ↔ s.produced = []
  w : ∀ i r, s.pc i = .won r → s.emplaced = 1 ∧ s.slot = none ∧ s.produced.head? = some r ∧
    ∀ j, (∃ r', s.pc j = .won r') ∨ s.pc j = .stored → j = i
  stw : ∀ i, s.pc i = .stored → s.emplaced = 1 ∧ s.slot ≠ none ∧ ∀ j, (∃ r', s.pc j = .won r') ∨ s.pc j = .stored → j = i
  one : s.emplaced = 1 → ∃ i, i ∈ s.items ∧ ((∃ r, s.pc i = .won r) ∨ s.pc i = .stored)
  two : s.emplaced = 2 → s.slot ≠ none
  zero : s.emplaced = 0 → s.slot = none
  sl : ∀ r, s.slot = some r → s.produced.head? = some r
  it : ∀ i, s.pc i ≠ .idle → i ∈ s.items
  sq : s.seq = none → s.out = []
  sqd : s.seq ≠ none → ∀ i ∈ s.items, s.pc i = .finished
  ou : ∀ c, s.seq = some c → s.out = [if c = .value then (match s.produced with | [] => .value | r :: _ => r.toCompl) else c]
  fl : s.fault = false

theorem inv_init : Inv init := by constructor <;> simp [init]

theorem head_append {l : List Res} {r : Res} (h : l ≠ []) : (l ++ [r]).head? = l.head? := by
  cases l with
  | nil => exact absurd rfl h
  | cons a l => rfl

theorem ou_of {s : St} (h : Inv s) {i : Nat} (hi : s.pc i ≠ .idle) (hf : s.pc i ≠ .finished) : s.seq = none := by
  cases hs : s.seq with
  | none => rfl
  | some c => exact absurd (h.sqd (by simp [hs]) i (h.it i hi)) hf

theorem inv_step {s s' : St} (a : Act) (h : Inv s) (hs : step s a = some s') : Inv s' := by
  cases a with
  | itemStart i =>
    simp only [step] at hs
    split at hs <;> cases hs
    rename_i hc
    obtain ⟨hc, hsq⟩ := hc
    have ne : ∀ j r, upd s.pc i IPc.running j = .won r → s.pc j = .won r := by
      intro j r hj; simp only [upd] at hj; split at hj
      · cases hj
      · exact hj
    have ne2 : ∀ j, upd s.pc i IPc.running j = .stored → s.pc j = .stored := by
      intro j hj; simp only [upd] at hj; split at hj
      · cases hj
      · exact hj
    have ne3 : ∀ j, (∃ r', upd s.pc i IPc.running j = .won r') ∨ upd s.pc i IPc.running j = .stored →
        (∃ r', s.pc j = .won r') ∨ s.pc j = .stored := by
      rintro j (⟨r, hr⟩ | hr)
      · exact Or.inl ⟨r, ne j r hr⟩
      · exact Or.inr (ne2 j hr)
    refine ⟨h.e3, h.e0, ?_, ?_, ?_, h.two, h.zero, h.sl, ?_, h.sq, ?_, h.ou, h.fl⟩
    · intro j r hj
      obtain ⟨h1, h2, h3, h4⟩ := h.w j r (ne j r hj)
      exact ⟨h1, h2, h3, fun k hk => h4 k (ne3 k hk)⟩
    · intro j hj
      obtain ⟨h1, h2, h4⟩ := h.stw j (ne2 j hj)
      exact ⟨h1, h2, fun k hk => h4 k (ne3 k hk)⟩
    · intro he
      obtain ⟨j, hj, hw⟩ := h.one he
      have hji : j ≠ i := by rintro rfl; simp [hc] at hw
      refine ⟨j, by simp [hj], ?_⟩
      simpa [upd, hji] using hw
    · intro j hj; simp only [upd] at hj; split at hj
      · subst_vars; simp
      · simp [h.it j hj]
    · intro hne; exact absurd hsq hne
  | itemValue i =>
    simp only [step] at hs
    split at hs <;> cases hs
    rename_i hc
    have hsq := ou_of h (i := i) (by simp [hc]) (by simp [hc])
    have ne3 : ∀ j p, p ≠ IPc.finished → upd s.pc i IPc.finished j = p → s.pc j = p := by
      intro j p hp hj; simp only [upd] at hj; split at hj
      · exact absurd hj.symm hp
      · exact hj
    have ne4 : ∀ j, (∃ r', upd s.pc i IPc.finished j = .won r') ∨ upd s.pc i IPc.finished j = .stored →
        (∃ r', s.pc j = .won r') ∨ s.pc j = .stored := by
      rintro j (⟨r, hr⟩ | hr)
      · exact Or.inl ⟨r, ne3 j _ (by simp) hr⟩
      · exact Or.inr (ne3 j _ (by simp) hr)
    refine ⟨h.e3, h.e0, ?_, ?_, ?_, h.two, h.zero, h.sl, ?_, h.sq, ?_, h.ou, h.fl⟩
    · intro j r hj
      obtain ⟨h1, h2, h3, h4⟩ := h.w j r (ne3 j _ (by simp) hj)
      exact ⟨h1, h2, h3, fun k hk => h4 k (ne4 k hk)⟩
    · intro j hj
      obtain ⟨h1, h2, h4⟩ := h.stw j (ne3 j _ (by simp) hj)
      exact ⟨h1, h2, fun k hk => h4 k (ne4 k hk)⟩
    · intro he
      obtain ⟨j, hj, hw⟩ := h.one he
      have hji : j ≠ i := by rintro rfl; simp [hc] at hw
      exact ⟨j, hj, by simpa [upd, hji] using hw⟩
    · intro j hj; simp only [upd] at hj; split at hj
      · subst_vars; exact h.it _ (by simp [hc])
      · exact h.it j hj
    · intro hne; exact absurd hsq hne
  | itemFail i r =>
    simp only [step] at hs
    split at hs
    · rename_i hc
      have hsq := ou_of h (i := i) (by simp [hc]) (by simp [hc])
      have hii := h.it i (by simp [hc])
      split at hs
      · -- won
        rename_i he
        cases hs
        have hp := h.e0.1 he
        have nowon : ∀ j, ¬ ((∃ r', s.pc j = .won r') ∨ s.pc j = .stored) := by
          rintro j (⟨r', hr'⟩ | hr')
          · have := (h.w j r' hr').1; omega
          · have := (h.stw j hr').1; omega
        have uniq : ∀ k, (∃ r', upd s.pc i (IPc.won r) k = .won r') ∨ upd s.pc i (IPc.won r) k = .stored → k = i := by
          intro k hk
          by_cases hki : k = i
          · exact hki
          · simp only [upd, hki, if_false] at hk; exact absurd hk (nowon k)
        refine ⟨by simp, by simp, ?_, ?_, ?_, by simp, by simp, ?_, ?_, h.sq, ?_, ?_, h.fl⟩
        · intro j r' hj
          have hji := uniq j (Or.inl ⟨r', hj⟩)
          subst hji
          simp only [upd_same, IPc.won.injEq] at hj
          subst hj
          exact ⟨rfl, h.zero he, by simp [hp], uniq⟩
        · intro j hj
          have hji := uniq j (Or.inr hj)
          subst hji; simp at hj
        · intro _; exact ⟨i, hii, Or.inl ⟨r, by simp⟩⟩
        · intro r' hr'; have := h.zero he; simp [this] at hr'
        · intro j hj; simp only [upd] at hj; split at hj
          · subst_vars; exact hii
          · exact h.it j hj
        · intro hne; exact absurd hsq hne
        · intro c hcc; simp [hsq] at hcc
      · -- lost
        rename_i he
        cases hs
        have hpn : s.produced ≠ [] := fun e => he (h.e0.2 e)
        have ne3 : ∀ j p, p ≠ IPc.leaving → upd s.pc i IPc.leaving j = p → s.pc j = p := by
          intro j p hp hj; simp only [upd] at hj; split at hj
          · exact absurd hj.symm hp
          · exact hj
        have ne4 : ∀ j, (∃ r', upd s.pc i IPc.leaving j = .won r') ∨ upd s.pc i IPc.leaving j = .stored →
            (∃ r', s.pc j = .won r') ∨ s.pc j = .stored := by
          rintro j (⟨r, hr⟩ | hr)
          · exact Or.inl ⟨r, ne3 j _ (by simp) hr⟩
          · exact Or.inr (ne3 j _ (by simp) hr)
        refine ⟨h.e3, by simp [he], ?_, ?_, ?_, h.two, h.zero, ?_, ?_, h.sq, ?_, ?_, h.fl⟩
        · intro j r' hj
          obtain ⟨h1, h2, h3, h4⟩ := h.w j r' (ne3 j _ (by simp) hj)
          exact ⟨h1, h2, by simp only; rw [head_append hpn]; exact h3, fun k hk => h4 k (ne4 k hk)⟩
        · intro j hj
          obtain ⟨h1, h2, h4⟩ := h.stw j (ne3 j _ (by simp) hj)
          exact ⟨h1, h2, fun k hk => h4 k (ne4 k hk)⟩
        · intro he1
          obtain ⟨j, hj, hw⟩ := h.one he1
          have hji : j ≠ i := by rintro rfl; simp [hc] at hw
          exact ⟨j, hj, by simpa [upd, hji] using hw⟩
        · intro r' hr'; simp only; rw [head_append hpn]; exact h.sl r' hr'
        · intro j hj; simp only [upd] at hj; split at hj
          · subst_vars; exact hii
          · exact h.it j hj
        · intro hne; exact absurd hsq hne
        · intro c hcc; simp [hsq] at hcc
    · cases hs
  | item i =>
    simp only [step] at hs
    split at hs <;> cases hs
    · rename_i r hc
      have hsq := ou_of h (i := i) (by simp [hc]) (by simp [hc])
      obtain ⟨w1, w2, w3, w4⟩ := h.w i r hc
      have hii := h.it i (by simp [hc])
      have uniq : ∀ k, (∃ r', upd s.pc i IPc.stored k = .won r') ∨ upd s.pc i IPc.stored k = .stored → k = i := by
        intro k hk
        by_cases hki : k = i
        · exact hki
        · simp only [upd, hki, if_false] at hk; exact w4 k hk
      refine ⟨h.e3, h.e0, ?_, ?_, ?_, by simp, ?_, ?_, ?_, h.sq, ?_, ?_, ?_⟩
      · intro j r' hj
        have hji := uniq j (Or.inl ⟨r', hj⟩)
        subst hji; simp at hj
      · intro j hj
        have hji := uniq j (Or.inr hj)
        subst hji
        exact ⟨w1, by simp, uniq⟩
      · intro _; exact ⟨i, hii, Or.inr (by simp)⟩
      · intro he; simp only at he; omega
      · intro r' hr'; simp only [Option.some.injEq] at hr'; subst hr'; exact w3
      · intro j hj; simp only [upd] at hj; split at hj
        · subst_vars; exact hii
        · exact h.it j hj
      · intro hne; exact absurd hsq hne
      · intro c hcc; simp [hsq] at hcc
      · simp [h.fl, w2]
    · rename_i hc
      have hsq := ou_of h (i := i) (by simp [hc]) (by simp [hc])
      obtain ⟨w1, w2, w4⟩ := h.stw i hc
      have hii := h.it i (by simp [hc])
      have none_ : ∀ k, ¬ ((∃ r', upd s.pc i IPc.leaving k = .won r') ∨ upd s.pc i IPc.leaving k = .stored) := by
        intro k hk
        by_cases hki : k = i
        · subst hki; simp at hk
        · simp only [upd, hki, if_false] at hk; exact hki (w4 k hk)
      have hpn : s.produced ≠ [] := fun e => by have := h.e0.2 e; omega
      refine ⟨by simp, by simp [hpn], ?_, ?_, by simp, fun _ => w2, by simp, h.sl, ?_, h.sq, ?_, ?_, h.fl⟩
      · intro j r' hj; exact absurd (Or.inl ⟨r', hj⟩) (none_ j)
      · intro j hj; exact absurd (Or.inr hj) (none_ j)
      · intro j hj; simp only [upd] at hj; split at hj
        · subst_vars; exact hii
        · exact h.it j hj
      · intro hne; exact absurd hsq hne
      · intro c hcc; simp [hsq] at hcc
    · rename_i hc
      have hsq := ou_of h (i := i) (by simp [hc]) (by simp [hc])
      have ne3 : ∀ j p, p ≠ IPc.finished → upd s.pc i IPc.finished j = p → s.pc j = p := by
        intro j p hp hj; simp only [upd] at hj; split at hj
        · exact absurd hj.symm hp
        · exact hj
      have ne4 : ∀ j, (∃ r', upd s.pc i IPc.finished j = .won r') ∨ upd s.pc i IPc.finished j = .stored →
          (∃ r', s.pc j = .won r') ∨ s.pc j = .stored := by
        rintro j (⟨r, hr⟩ | hr)
        · exact Or.inl ⟨r, ne3 j _ (by simp) hr⟩
        · exact Or.inr (ne3 j _ (by simp) hr)
      refine ⟨h.e3, h.e0, ?_, ?_, ?_, h.two, h.zero, h.sl, ?_, h.sq, ?_, h.ou, h.fl⟩
      · intro j r hj
        obtain ⟨h1, h2, h3, h4⟩ := h.w j r (ne3 j _ (by simp) hj)
        exact ⟨h1, h2, h3, fun k hk => h4 k (ne4 k hk)⟩
      · intro j hj
        obtain ⟨h1, h2, h4⟩ := h.stw j (ne3 j _ (by simp) hj)
        exact ⟨h1, h2, fun k hk => h4 k (ne4 k hk)⟩
      · intro he
        obtain ⟨j, hj, hw⟩ := h.one he
        have hji : j ≠ i := by rintro rfl; simp [hc] at hw
        exact ⟨j, hj, by simpa [upd, hji] using hw⟩
      · intro j hj; simp only [upd] at hj; split at hj
        · subst_vars; exact h.it _ (by simp [hc])
        · exact h.it j hj
      · intro hne; exact absurd hsq hne
  | seqDone c =>
    simp only [step] at hs
    split at hs
    · rename_i hc
      obtain ⟨hsq, hall⟩ := hc
      have hout := h.sq hsq
      have hone : s.emplaced ≠ 1 := by
        intro e
        obtain ⟨j, hj, hw⟩ := h.one e
        have := hall j hj
        simp [this] at hw
      cases c with
      | value =>
        simp only at hs
        split at hs
        · rename_i he
          cases hs
          have hp := h.e0.1 he
          refine ⟨h.e3, h.e0, h.w, h.stw, h.one, h.two, h.zero, h.sl, h.it, by simp, fun _ => hall, ?_, h.fl⟩
          intro c hcc; simp only [Option.some.injEq] at hcc; subst hcc; simp [hout, hp]
        · rename_i he
          have he2 : s.emplaced = 2 := by have := h.e3; omega
          split at hs
          · rename_i r hr
            cases hs
            refine ⟨h.e3, h.e0, h.w, h.stw, h.one, h.two, h.zero, h.sl, h.it, by simp, fun _ => hall, ?_, by simp [h.fl, he2]⟩
            intro c hcc; simp only [Option.some.injEq] at hcc; subst hcc
            have := h.sl r hr
            cases hp : s.produced with
            | nil => simp [hp] at this
            | cons a l => simp [hp] at this; simp [hout, this]
          · rename_i hr; exact absurd hr (h.two he2)
      | error e =>
        cases hs
        refine ⟨h.e3, h.e0, h.w, h.stw, h.one, h.two, h.zero, h.sl, h.it, by simp, fun _ => hall, ?_, h.fl⟩
        intro c hcc; simp only [Option.some.injEq] at hcc; subst hcc; simp [hout]
      | stopped =>
        cases hs
        refine ⟨h.e3, h.e0, h.w, h.stw, h.one, h.two, h.zero, h.sl, h.it, by simp, fun _ => hall, ?_, h.fl⟩
        intro c hcc; simp only [Option.some.injEq] at hcc; subst hcc; simp [hout]
    · cases hs

theorem inv_reach {s : St} (h : Reachable s) : Inv s :=
  Reach.inv Inv inv_init (fun _ a _ h hs => inv_step a h hs) s h

/-- The operation completes exactly when the sequence does, exactly once. -/
theorem C44_ignore_once {s : St} (h : Reachable s) : s.out.length = (if s.seq = none then 0 else 1) := by
  have hI := inv_reach h
  cases hs : s.seq with
  | none => simp [hI.sq hs]
  | some c => simp [hI.ou c hs]

/-- A sequence that completes with a value: the result is the first non-value completion any item produced, else a value. -/
theorem C44_ignore_result_partial {s : St} (h : Reachable s) (hs : s.seq = some .value) :
    s.out = [match s.produced with | [] => .value | r :: _ => r.toCompl] := by
  simpa using (inv_reach h).ou _ hs

/-- Error and stopped completions of the sequence are passed on. -/
theorem C44_ignore_pass {s : St} (h : Reachable s) {c : Compl} (hc : c ≠ .value) (hs : s.seq = some c) : s.out = [c] := by
  simpa [hc] using (inv_reach h).ou _ hs

/-- The result is never read before it was stored completely, nor stored twice. -/
theorem C44_ignore_safe {s : St} (h : Reachable s) : s.fault = false := (inv_reach h).fl

/-- **An item's error is lost** when the sequence then completes with stopped, as `iterate` does when stop was requested
by the time the item completes (`__set_value_unless_stopped`). -/
theorem C44_error_lost : ∃ s, Reachable s ∧ s.produced = [.error 5] ∧ s.out = [.stopped] := by
  obtain ⟨s, hr, hp⟩ := Reach.witness (init := init) (step := step)
    [.itemStart 0, .itemFail 0 (.error 5), .item 0, .item 0, .item 0, .seqDone .stopped]
    (fun s : St => s.produced == [.error 5] && s.out == [.stopped]) (by decide)
  simp only [Bool.and_eq_true, beq_iff_eq] at hp
  exact ⟨s, hr, hp.1, hp.2⟩

/-- Not vacuous: three concurrent items, two fail, the second to fail finishes first; the first failure is reported. -/
example : ∃ s, Reachable s ∧ s.seq = some .value ∧ s.produced = [.error 5, .stopped] ∧ s.out = [.error 5] := by
  obtain ⟨s, hr, hp⟩ := Reach.witness (init := init) (step := step)
    [.itemStart 0, .itemStart 1, .itemStart 2, .itemValue 2, .itemFail 1 (.error 5), .itemFail 0 .stopped, .item 0, .item 1, .item 1,
     .item 1, .seqDone .value]
    (fun s : St => s.seq == some .value && s.produced == [.error 5, .stopped] && s.out == [.error 5]) (by decide)
  simp only [Bool.and_eq_true, beq_iff_eq] at hp
  exact ⟨s, hr, hp.1.1, hp.1.2, hp.2⟩

/-- The pipeline `ignore_all_values(iterate(range))` over `n` elements: it completes with a value if every item does;
otherwise with what the first failing item did — except that an error becomes stopped if stop was requested. -/
theorem C44_pipeline (out : Nat → Item) (stop : Nat → Bool) : ∀ (n i : Nat),
    (∀ j, i ≤ j → j < i + n → out j = .value) ∧ pipeline out stop i n = .value ∨
    ∃ j, i ≤ j ∧ j < i + n ∧ (∀ k, i ≤ k → k < j → out k = .value) ∧
      ((out j = .stopped ∧ pipeline out stop i n = .stopped) ∨
       ∃ e, out j = .error e ∧ pipeline out stop i n = if stop j then .stopped else .error e)
  | 0, i => Or.inl ⟨fun j h1 h2 => by omega, rfl⟩
  | n + 1, i => by
    cases ho : out i with
    | value =>
      rcases C44_pipeline out stop n (i + 1) with ⟨h1, h2⟩ | ⟨j, h1, h2, h3, h4⟩
      · left
        refine ⟨fun j a b => ?_, by simp [pipeline, ho, h2]⟩
        rcases Nat.eq_or_lt_of_le a with e | e
        · exact e ▸ ho
        · exact h1 j e (by omega)
      · right
        refine ⟨j, by omega, by omega, fun k a b => ?_, ?_⟩
        · rcases Nat.eq_or_lt_of_le a with e | e
          · exact e ▸ ho
          · exact h3 k e b
        · simpa [pipeline, ho] using h4
    | error e =>
      right
      exact ⟨i, Nat.le_refl _, by omega, fun k a b => by omega, Or.inr ⟨e, ho, by simp [pipeline, ho]⟩⟩
    | stopped =>
      right
      exact ⟨i, Nat.le_refl _, by omega, fun k a b => by omega, Or.inl ⟨ho, by simp [pipeline, ho]⟩⟩

end Verif.Sequence.Ignore
