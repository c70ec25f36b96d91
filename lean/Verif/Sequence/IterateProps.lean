import Verif.Sequence.Iterate
/-!
# C44 (first part) — `iterate` and `transform_each`

For every range, every transformation, every receiver behaviour: the elements delivered are, in order and once each, a
prefix of the (transformed) range; one item at a time; one completion; a value completion means the whole range was
delivered, unless a next sender asked to stop.
-/
namespace Verif.Sequence

structure Inv (xs : List Nat) (f : Nat → Nat) (s : St) : Prop where
  le : s.it ≤ xs.length
  lt : s.phase = .offered → s.it < xs.length
  del : s.delivered = (xs.take s.it).map f
  fl : s.fault = false
  cp : s.compl.length = if s.phase = .done then 1 else 0
  res : ∀ c ∈ s.compl, (c = .value ∧ (s.it = xs.length ∨ s.nextStopped = true)) ∨
    (c = .error ∧ s.threw = true) ∨ (c = .stopped ∧ s.nextStopped = true ∧ s.stop = true)
  idl : s.phase = .idle → s.it = 0 ∧ s.offers = []
  of : ∀ i ∈ s.offers, i ≤ s.it ∧ i < xs.length
  cov : ∀ i, i < s.it → i ∈ s.offers
  cur : s.phase = .offered → s.it ∈ s.offers
  nsd : s.nextStopped = true → s.phase = .done
  thd : s.threw = true → s.phase = .done

theorem inv_init (xs : List Nat) (f : Nat → Nat) : Inv xs f init := by constructor <;> simp [init]

theorem inv_startNext {xs : List Nat} {f : Nat → Nat} {s : St} (h : Inv xs f s) (hp : s.phase ≠ .done) (t : Bool) :
    Inv xs f (startNext xs s t) := by
  have hc : s.compl = [] := by have := h.cp; simp only [hp, if_false] at this; exact List.eq_nil_of_length_eq_zero this
  have hle := h.le
  have hns : s.nextStopped = false := by cases e : s.nextStopped with | false => rfl | true => exact absurd (h.nsd e) hp
  have hth : s.threw = false := by cases e : s.threw with | false => rfl | true => exact absurd (h.thd e) hp
  have hof := h.of
  unfold startNext
  split
  · refine ⟨h.le, by simp, h.del, h.fl, by simp [hc], ?_, by simp, h.of, h.cov, by simp, by simp [hns], by simp [hth]⟩
    rename_i e
    intro c hcm; simp only [hc, List.nil_append, List.mem_singleton] at hcm
    exact Or.inl ⟨hcm, Or.inl e⟩
  · rename_i hne
    have hof' : ∀ i ∈ s.offers ++ [s.it], i ≤ s.it ∧ i < xs.length := by
      intro i hi; simp only [List.mem_append, List.mem_singleton] at hi
      rcases hi with hi | rfl
      · exact hof i hi
      · exact ⟨Nat.le_refl _, by omega⟩
    split
    · refine ⟨h.le, by simp, h.del, h.fl, by simp [hc], ?_, by simp, hof', ?_, by simp, by simp, by simp⟩
      · intro c hcm; simp only [hc, List.nil_append, List.mem_singleton] at hcm
        exact Or.inr (Or.inl ⟨hcm, rfl⟩)
      · intro i hi; simp [h.cov i hi]
    · refine ⟨h.le, fun _ => by simp only; omega, h.del, h.fl, by simp [hc], ?_, by simp, hof', ?_, by simp, by simp [hns], by simp [hth]⟩
      · intro c hcm; simp [hc] at hcm
      · intro i hi; simp [h.cov i hi]

theorem inv_step {xs : List Nat} {f : Nat → Nat} {s s' : St} (a : Act) (h : Inv xs f s) (hs : step xs f s a = some s') :
    Inv xs f s' := by
  cases a with
  | start t =>
    simp only [step] at hs; split at hs <;> cases hs
    rename_i hp; exact inv_startNext h (by simp [hp]) t
  | nextValue t =>
    simp only [step] at hs; split at hs <;> cases hs
    rename_i hp; exact inv_startNext h (by rcases hp with e | e <;> simp [e]) t
  | item st =>
    simp only [step] at hs
    split at hs
    · rename_i hp
      have hlt := h.lt hp
      have hcp := h.cp
      simp only [hp, reduceCtorEq, if_false] at hcp
      have hns : s.nextStopped = false := by cases e : s.nextStopped with | false => rfl | true => simp [h.nsd e] at hp
      have hth : s.threw = false := by cases e : s.threw with | false => rfl | true => simp [h.thd e] at hp
      have hc := List.eq_nil_of_length_eq_zero hcp
      split at hs
      · cases hs
        exact ⟨h.le, by simp, h.del, h.fl, by simpa using hcp, h.res, by simp, h.of, h.cov, by simp, by simp [hns], by simp [hth]⟩
      · have hx : xs[s.it]? = some xs[s.it] := List.getElem?_eq_getElem hlt
        rw [hx] at hs
        cases hs
        have hof := h.of
        refine ⟨hlt, by simp, ?_, h.fl, by simpa using hcp, by simp [hc], by simp, ?_, ?_, by simp, by simp [hns], by simp [hth]⟩
        · simp only [h.del, List.take_add_one, hx, Option.toList_some, List.map_append, List.map_cons, List.map_nil]
        · intro i hi; have := hof i hi; exact ⟨by simp only; omega, this.2⟩
        · intro i hi
          simp only at hi
          rcases Nat.lt_or_ge i s.it with h1 | h1
          · exact h.cov i h1
          · have : i = s.it := by omega
            rw [this]; exact h.cur hp
    · cases hs
  | nextStopped =>
    simp only [step] at hs; split at hs <;> cases hs
    rename_i hp
    have hpd : s.phase ≠ .done := by rcases hp with e | e <;> simp [e]
    have hc : s.compl = [] := by have := h.cp; simp only [hpd, if_false] at this; exact List.eq_nil_of_length_eq_zero this
    refine ⟨h.le, by simp, h.del, h.fl, by simp [hc], ?_, by simp, h.of, h.cov, by simp, by simp, by simp⟩
    intro c hcm
    simp only [hc, List.nil_append, List.mem_singleton] at hcm
    cases hst : s.stop <;> simp [hst] at hcm <;> simp [hcm]
  | requestStop =>
    cases hs
    refine ⟨h.le, h.lt, h.del, h.fl, h.cp, ?_, h.idl, h.of, h.cov, h.cur, h.nsd, h.thd⟩
    intro c hcm
    rcases h.res c hcm with h1 | h1 | h1
    · exact Or.inl h1
    · exact Or.inr (Or.inl h1)
    · exact Or.inr (Or.inr ⟨h1.1, h1.2.1, rfl⟩)

theorem inv_reach {xs : List Nat} {f : Nat → Nat} {s : St} (h : Reachable xs f s) : Inv xs f s :=
  Reach.inv (Inv xs f) (inv_init xs f) (fun _ a _ h hs => inv_step a h hs) s h

/-- Elements are delivered in order, each at most once, transformed: what was delivered is a prefix of the range. -/
theorem C44_in_order {xs : List Nat} {f : Nat → Nat} {s : St} (h : Reachable xs f s) :
    s.delivered <+: xs.map f ∧ s.fault = false := by
  refine ⟨?_, (inv_reach h).fl⟩
  rw [(inv_reach h).del, List.map_take]
  exact List.take_prefix _ _

theorem startNext_delivered (xs : List Nat) (s : St) (t : Bool) : (startNext xs s t).delivered = s.delivered := by
  unfold startNext; split
  · rfl
  · split <;> rfl

/-- One at a time: an element is delivered only while the next sender made of that element's item runs. -/
theorem C44_one_at_a_time {xs : List Nat} {f : Nat → Nat} {s s' : St} {a : Act} (h : Reachable xs f s)
    (hs : step xs f s a = some s') (hd : s'.delivered ≠ s.delivered) :
    s.phase = .offered ∧ s.offers.getLast? = some s.it ∧ ∃ x, xs[s.it]? = some x ∧ s'.delivered = s.delivered ++ [f x] := by
  have hlast : s.phase = .offered → s.offers.getLast? = some s.it := by
    refine Reach.inv (init := init) (step := step xs f) (fun s => s.phase = .offered → s.offers.getLast? = some s.it)
      (by simp [init]) ?_ s h
    intro s a s' hi hs
    cases a <;> simp only [step] at hs
    · split at hs <;> cases hs
      unfold startNext; split
      · simp
      · split <;> simp
    · split at hs
      · split at hs
        · cases hs; simp
        · split at hs <;> cases hs <;> simp
      · cases hs
    · split at hs <;> cases hs
      unfold startNext; split
      · simp
      · split <;> simp
    · split at hs <;> cases hs; simp
    · cases hs; exact hi
  cases a <;> simp only [step] at hs
  · split at hs <;> cases hs
    exact absurd (startNext_delivered _ _ _) hd
  · split at hs
    · rename_i hp
      split at hs
      · cases hs; exact absurd rfl hd
      · split at hs
        · cases hs; rename_i x hx; exact ⟨hp, hlast hp, x, hx, rfl⟩
        · cases hs; exact absurd rfl hd
    · cases hs
  · split at hs <;> cases hs
    exact absurd (startNext_delivered _ _ _) hd
  · split at hs <;> cases hs; exact absurd rfl hd
  · cases hs; exact absurd rfl hd

/-- The sequence completes at most once: with a value only when the whole range was delivered or a next sender completed
with stopped, with stopped only when a next sender did and stop was requested, with an error only when connecting threw. -/
theorem C44_completion {xs : List Nat} {f : Nat → Nat} {s : St} (h : Reachable xs f s) :
    s.compl.length ≤ 1 ∧
    (.value ∈ s.compl → s.delivered = xs.map f ∨ s.nextStopped = true) ∧
    (.stopped ∈ s.compl → s.nextStopped = true ∧ s.stop = true) ∧
    (.error ∈ s.compl → s.threw = true) := by
  have hI := inv_reach h
  refine ⟨by rw [hI.cp]; split <;> omega, ?_, ?_, ?_⟩
  · intro hm
    rcases hI.res _ hm with ⟨_, h1 | h1⟩ | ⟨h1, _⟩ | ⟨h1, _⟩
    · left; rw [hI.del, h1, List.take_length]
    · exact Or.inr h1
    · cases h1
    · cases h1
  · intro hm
    rcases hI.res _ hm with ⟨h1, _⟩ | ⟨h1, _⟩ | ⟨_, h1⟩
    · cases h1
    · cases h1
    · exact h1
  · intro hm
    rcases hI.res _ hm with ⟨h1, _⟩ | ⟨_, h1⟩ | ⟨h1, _⟩
    · cases h1
    · exact h1
    · cases h1

/-- And it does complete: a receiver whose next senders start their item and complete with a value gets every element,
then the completion. -/
theorem C44_completes (xs : List Nat) (f : Nat → Nat) :
    ∃ s, exec (step xs f) init (.start false :: (List.replicate xs.length [Act.item false, .nextValue false]).flatten) = some s ∧
      s.compl = [.value] ∧ s.delivered = xs.map f := by
  have key : ∀ k (s : St), s.it + k = xs.length → s.compl = [] → s.delivered = (xs.take s.it).map f →
      (s.phase = if k = 0 then .done else .offered) → (k ≠ 0 ∨ True) →
      ∃ s', exec (step xs f) { s with compl := if k = 0 then [.value] else [] }
        ((List.replicate k [Act.item false, .nextValue false]).flatten) = some s' ∧ s'.compl = [.value] ∧ s'.delivered = xs.map f := by
    intro k
    induction k with
    | zero =>
      intro s h1 h2 h3 h4 _
      refine ⟨_, rfl, by simp, ?_⟩
      have : s.it = xs.length := by omega
      simp [h3, this]
    | succ k ih =>
      intro s h1 h2 h3 h4 _
      have hlt : s.it < xs.length := by omega
      have hx : xs[s.it]? = some xs[s.it] := List.getElem?_eq_getElem hlt
      have hp : s.phase = .offered := by simpa using h4
      simp only [List.replicate_succ, List.flatten_cons, List.cons_append, List.nil_append, exec, step, hp, hx, if_true,
        Bool.false_eq_true, if_false, or_true, Nat.succ_ne_zero]
      by_cases hk : k = 0
      · subst hk
        have : s.it + 1 = xs.length := by omega
        refine ⟨_, rfl, ?_, ?_⟩
        · simp [startNext, this]
        · simp only [startNext, this, if_true, h3]
          have e : xs.take (s.it + 1) = xs := by rw [this, List.take_length]
          have : xs.map f = (xs.take s.it).map f ++ [f xs[s.it]] := by
            have e2 : (xs.take (s.it + 1)).map f = (xs.take s.it).map f ++ [f xs[s.it]] := by
              rw [List.take_add_one, hx, List.map_append]; rfl
            rw [e] at e2; exact e2
          exact this.symm
      · have hne : ¬ (s.it + 1 = xs.length) := by omega
        have := ih { s with it := s.it + 1, phase := .offered, delivered := s.delivered ++ [f xs[s.it]],
                            offers := s.offers ++ [s.it + 1], compl := [] } (by simp only; omega) rfl
          (by simp only [h3, List.take_add_one, hx, Option.toList_some, List.map_append, List.map_cons, List.map_nil]) (by simp [hk]) (Or.inr trivial)
        simp only [hk, if_false] at this
        simpa [startNext, hne] using this
  cases xs with
  | nil => exact ⟨_, rfl, rfl, rfl⟩
  | cons x l =>
    have h := key (l.length + 1) { init with phase := .offered, offers := [0] } (by simp [init]) rfl (by simp [init]) (by simp) (Or.inr trivial)
    simpa [exec, step, init, startNext] using h

/-- Not vacuous: three elements, the second next sender does not start its item at first, the third asks to stop. -/
example : ∃ s, Reachable [10, 20, 30] (· + 1) s ∧ s.delivered = [11, 21] ∧ s.compl = [.value] ∧ s.offers = [0, 1, 1, 2] := by
  obtain ⟨s, hr, hp⟩ := Reach.witness (init := init) (step := step [10, 20, 30] (· + 1))
    [.start false, .item false, .nextValue false, .nextValue false, .item false, .nextValue false, .item true, .nextStopped]
    (fun s : St => s.delivered == [11, 21] && s.compl == [.value] && s.offers == [0, 1, 1, 2]) (by decide)
  simp only [Bool.and_eq_true, beq_iff_eq] at hp
  exact ⟨s, hr, hp.1.1, hp.1.2, hp.2⟩

end Verif.Sequence
