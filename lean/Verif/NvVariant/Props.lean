import Verif.NvVariant.Model
/-!
# C114: what a user of the variant of the GPU back end relies on

The specification: what a variant holds (`held`) is what the last operation on it that was not a visit made, if it made anything. A history
is `Proper` if it names only types of the variant, and uses `construct` only while the variant holds nothing.
-/
namespace Verif.NvVariant

/-- What is held after an operation, if `h` (an object and its type) was held before it. -/
def held1 (h : Option (Nat × Nat)) (o : Nat) : Op → Option (Nat × Nat)
  | .emplace t th   => if th then none else some (o, t)
  | .construct t th => if th then none else some (o, t)
  | .destroy        => none
  | .visit          => h

/-- What is held after all of them; the next object made is `o`. -/
def heldFrom (h : Option (Nat × Nat)) (o : Nat) : List Op → Option (Nat × Nat)
  | []      => h
  | p :: ps => heldFrom (held1 h o p) (o + 1) ps

/-- An operation that is used as it is meant to be. -/
def Proper1 (ts : List Nat) (h : Option (Nat × Nat)) : Op → Prop
  | .emplace t _   => t ∈ ts
  | .construct t _ => t ∈ ts ∧ h = none
  | _              => True

/-- All of them are. -/
def ProperFrom (ts : List Nat) : Option (Nat × Nat) → Nat → List Op → Prop
  | _, _, []      => True
  | h, o, p :: ps => Proper1 ts h p ∧ ProperFrom ts (held1 h o p) (o + 1) ps

/-- What a variant holds that has been through these operations since it was made: at first an object of the first type, number zero. -/
def held (ts : List Nat) (ps : List Op) : Option (Nat × Nat) := heldFrom (some (0, ts.getD 0 0)) 1 ps

/-- A proper history of a variant. -/
def Proper (ts : List Nat) (ps : List Op) : Prop := ProperFrom ts (some (0, ts.getD 0 0)) 1 ps

/-- A variant that is made and has been through these operations. -/
def after (ep : Nat) (ts : List Nat) (ps : List Op) : Var :=
  (run ep ts (emplace ep ts raw (ts.getD 0 0) 0 false).1 1 ps).1

/-- What has been observed of it. -/
def trace (ep : Nat) (ts : List Nat) (ps : List Op) : List Ev :=
  (emplace ep ts raw (ts.getD 0 0) 0 false).2 ++ (run ep ts (emplace ep ts raw (ts.getD 0 0) 0 false).1 1 ps).2.2

/-! ## Lemmas -/

theorem findI_lt (t : Nat) (ts : List Nat) (h : t ∈ ts) : findI t ts < ts.length ∧ ts.getD (findI t ts) 0 = t := by
  induction ts with
  | nil => simp at h
  | cons a l ih =>
    by_cases ha : a = t
    · subst ha; simp [findI, List.dropWhile]
    · have hm : t ∈ l := by
        rcases List.mem_cons.1 h with h | h
        · exact absurd h.symm ha
        · exact h
      obtain ⟨h1, h2⟩ := ih hm
      have hle : (l.dropWhile (· != t)).length ≤ l.length := (List.dropWhile_sublist _).length_le
      have e : findI t (a :: l) = findI t l + 1 := by
        have : (a != t) = true := by simpa using ha
        simp only [findI, List.dropWhile, this, List.length_cons]
        omega
      rw [e]
      refine ⟨by simpa using h1, ?_⟩
      simpa [List.getD] using h2

theorem visitImpl_eq (ts : List Nat) (v : Var) (i n : Nat) :
    visitImpl ts v i n = if i ≤ n then call v (ts.getD i 0) else [] := by
  induction n with
  | zero => simp only [visitImpl, Nat.le_zero]; split <;> simp_all
  | succ n ih =>
    simp only [visitImpl]
    split
    · rename_i h; subst h; simp
    · rename_i h
      rw [ih]
      by_cases h2 : i ≤ n
      · have : i ≤ n + 1 := by omega
        simp [h2, this]
      · have : ¬ i ≤ n + 1 := by omega
        simp [h2, this]

theorem visitAt_eq (ts : List Nat) (hne : ts ≠ []) (v : Var) (i : Nat) :
    visitAt ts v i = if i < ts.length then call v (ts.getD i 0) else [] := by
  have : 0 < ts.length := List.length_pos_iff.2 hne
  rw [visitAt, visitImpl_eq]
  by_cases h : i < ts.length
  · have : i ≤ ts.length - 1 := by omega
    simp [h, this]
  · have : ¬ i ≤ ts.length - 1 := by omega
    simp [h, this]

/-- The members of a variant that holds `h`. -/
def Rel (ts : List Nat) (v : Var) : Option (Nat × Nat) → Prop
  | none        => v = raw
  | some (o, t) => v = { stor := some o, index := findI t ts } ∧ t ∈ ts

/-- What a visitor is called with. -/
def seenOf : Option (Nat × Nat) → List Ev
  | none        => []
  | some (o, t) => [.seen o t]

/-- What is seen of the end of what is held. -/
def endedOf (ep : Nat) : Option (Nat × Nat) → List Ev
  | none        => []
  | some (o, t) => if t = ep then [] else [.ended o t]

theorem rel_visit (ts : List Nat) (hn : ts.length ≤ npos) (hne : ts ≠ []) (v : Var) (h : Option (Nat × Nat)) (r : Rel ts v h) :
    visit ts v = seenOf h := by
  rw [visit, visitAt_eq ts hne]
  cases h with
  | none =>
    simp only [Rel] at r
    subst r
    have : ¬ npos < ts.length := by omega
    simp [raw, this, seenOf]
  | some p =>
    obtain ⟨o, t⟩ := p
    obtain ⟨rfl, hm⟩ := r
    obtain ⟨h1, h2⟩ := findI_lt t ts hm
    simp only [h1, if_true, h2, call, seenOf]

theorem rel_destroy (ep : Nat) (ts : List Nat) (hn : ts.length ≤ npos) (hne : ts ≠ []) (v : Var) (h : Option (Nat × Nat))
    (r : Rel ts v h) : destroy ep ts v = (raw, endedOf ep h) := by
  have hv := rel_visit ts hn hne v h r
  simp only [destroy, hv]
  cases h with
  | none => simp [seenOf, endedOf, raw]
  | some p =>
    obtain ⟨o, t⟩ := p
    obtain ⟨rfl, hm⟩ := r
    have h1 := (findI_lt t ts hm).1
    have : findI t ts ≠ npos := by omega
    simp [Var.holds, this, seenOf, endedOf, destroyer, raw]

/-- What is made by an operation. -/
def madeOf (o : Nat) : Op → List Ev
  | .emplace t th   => if th then [] else [.made o t]
  | .construct t th => if th then [] else [.made o t]
  | _               => []

/-- What is ended by an operation. -/
def endOf (ep : Nat) (h : Option (Nat × Nat)) : Op → List Ev
  | .emplace _ _ => endedOf ep h
  | .destroy     => endedOf ep h
  | _            => []

/-- What is seen by an operation. -/
def seeOf (h : Option (Nat × Nat)) : Op → List Ev
  | .visit => seenOf h
  | _      => []

theorem rel_step (ep : Nat) (ts : List Nat) (hn : ts.length ≤ npos) (hne : ts ≠ []) (v : Var) (h : Option (Nat × Nat)) (o : Nat) (p : Op)
    (r : Rel ts v h) (hp : Proper1 ts h p) :
    Rel ts (step ep ts v o p).1 (held1 h o p) ∧ (step ep ts v o p).2 = endOf ep h p ++ madeOf o p ++ seeOf h p := by
  cases p with
  | emplace t th =>
    simp only [step, emplace, rel_destroy ep ts hn hne v h r]
    cases th
    · exact ⟨⟨rfl, hp⟩, by simp [construct, endOf, madeOf, seeOf]⟩
    · exact ⟨rfl, by simp [construct, endOf, madeOf, seeOf]⟩
  | construct t th =>
    obtain ⟨hm, rfl⟩ := hp
    simp only [Rel] at r
    subst r
    cases th
    · exact ⟨⟨rfl, hm⟩, by simp [step, construct, endOf, madeOf, seeOf]⟩
    · exact ⟨rfl, by simp [step, construct, endOf, madeOf, seeOf]⟩
  | destroy =>
    simp only [step, rel_destroy ep ts hn hne v h r]
    exact ⟨rfl, by simp [endOf, madeOf, seeOf]⟩
  | visit =>
    exact ⟨r, by simp [step, rel_visit ts hn hne v h r, endOf, madeOf, seeOf]⟩

theorem rel_run (ep : Nat) (ts : List Nat) (hn : ts.length ≤ npos) (hne : ts ≠ []) (ps : List Op) :
    ∀ v h o, Rel ts v h → ProperFrom ts h o ps → Rel ts (run ep ts v o ps).1 (heldFrom h o ps) := by
  induction ps with
  | nil => intro v h o r _; exact r
  | cons p ps ih =>
    intro v h o r hp
    exact ih _ _ _ (rel_step ep ts hn hne v h o p r hp.1).1 hp.2

theorem rel_first (ep : Nat) (ts : List Nat) (hn : ts.length ≤ npos) (hne : ts ≠ []) :
    emplace ep ts raw (ts.getD 0 0) 0 false
      = ({ stor := some 0, index := findI (ts.getD 0 0) ts }, [.made 0 (ts.getD 0 0)]) ∧
    Rel ts { stor := some 0, index := findI (ts.getD 0 0) ts } (some (0, ts.getD 0 0)) := by
  refine ⟨?_, rfl, ?_⟩
  · rw [emplace, rel_destroy ep ts hn hne raw none rfl]
    simp [construct, endedOf]
  · cases ts with
    | nil => exact absurd rfl hne
    | cons a l => simp [List.getD]

theorem rel_after (ep : Nat) (ts : List Nat) (hn : ts.length ≤ npos) (hne : ts ≠ []) (ps : List Op) (hp : Proper ts ps) :
    Rel ts (after ep ts ps) (held ts ps) := by
  obtain ⟨h1, h2⟩ := rel_first ep ts hn hne
  rw [after, h1]
  exact rel_run ep ts hn hne ps _ _ _ h2 hp

/-- One for what is held. -/
def one (h : Option (Nat × Nat)) (o t : Nat) : Nat := if h = some (o, t) then 1 else 0

theorem count_ended_of (ep : Nat) (h : Option (Nat × Nat)) (o t : Nat) (ht : t ≠ ep) :
    (endedOf ep h).count (.ended o t) = one h o t := by
  cases h with
  | none => simp [endedOf, one]
  | some p =>
    obtain ⟨o', t'⟩ := p
    by_cases h1 : t' = ep
    · subst h1
      have : ¬ (o' = o ∧ t' = t) := fun h => ht h.2.symm
      simp [endedOf, one, this]
    · simp [endedOf, one, h1, List.count_cons]

theorem no_made_ended (ep : Nat) (h : Option (Nat × Nat)) (o t : Nat) : (endedOf ep h).count (.made o t) = 0 := by
  cases h with
  | none => simp [endedOf]
  | some p => simp only [endedOf]; split <;> simp

theorem no_made_seen (h : Option (Nat × Nat)) (o t : Nat) :
    (seenOf h).count (.made o t) = 0 ∧ (seenOf h).count (.ended o t) = 0 := by
  cases h <;> simp [seenOf]

theorem step_count (ep : Nat) (ts : List Nat) (hn : ts.length ≤ npos) (hne : ts ≠ []) (v : Var) (h : Option (Nat × Nat)) (o : Nat) (p : Op)
    (r : Rel ts v h) (hp : Proper1 ts h p) (b t : Nat) (ht : t ≠ ep) :
    (step ep ts v o p).2.count (.made b t) + one h b t = (step ep ts v o p).2.count (.ended b t) + one (held1 h o p) b t := by
  rw [(rel_step ep ts hn hne v h o p r hp).2]
  have c1 := count_ended_of ep h b t ht
  have c2 := no_made_ended ep h b t
  have c3 := no_made_seen h b t
  have c4 : ∀ b t, one none b t = 0 := fun _ _ => by simp [one]
  cases p with
  | emplace t' th =>
    cases th <;> simp [endOf, madeOf, seeOf, held1, c1, c2, c4, List.count_append, List.count_cons] <;> simp [one] <;> omega
  | construct t' th =>
    obtain ⟨_, rfl⟩ := hp
    cases th <;> simp [endOf, madeOf, seeOf, held1, c4, List.count_cons] <;> simp [one]
  | destroy => simp [endOf, madeOf, seeOf, held1, c1, c2, c4]
  | visit => simp [endOf, madeOf, seeOf, held1, c3]

theorem run_cons (ep : Nat) (ts : List Nat) (v : Var) (o : Nat) (p : Op) (ps : List Op) :
    (run ep ts v o (p :: ps)).2.2 = (step ep ts v o p).2 ++ (run ep ts (step ep ts v o p).1 (o + 1) ps).2.2 := rfl

theorem run_count (ep : Nat) (ts : List Nat) (hn : ts.length ≤ npos) (hne : ts ≠ []) (b t : Nat) (ht : t ≠ ep) (ps : List Op) :
    ∀ v h o, Rel ts v h → ProperFrom ts h o ps →
      (run ep ts v o ps).2.2.count (.made b t) + one h b t
        = (run ep ts v o ps).2.2.count (.ended b t) + one (heldFrom h o ps) b t := by
  induction ps with
  | nil => intro v h o _ _; simp [run, heldFrom]
  | cons p ps ih =>
    intro v h o r hp
    have h1 := step_count ep ts hn hne v h o p r hp.1 b t ht
    have h2 := ih _ _ (o + 1) (rel_step ep ts hn hne v h o p r hp.1).1 hp.2
    simp only [run_cons, heldFrom, List.count_append]
    omega

/-! ## C114 -/

/-- C114: after every proper history, a visitor is called exactly once, with the object that was made last and with its own type; and not at
all if the variant holds nothing, as after a constructor that has thrown. -/
theorem C114_visit (ep : Nat) (ts : List Nat) (hn : ts.length ≤ 2 ^ 32 - 1) (hne : ts ≠ []) (ps : List Op) (hp : Proper ts ps) :
    visit ts (after ep ts ps) = (match held ts ps with | none => [] | some (o, t) => [.seen o t]) ∧
    ((after ep ts ps).holds = true ↔ held ts ps ≠ none) := by
  have r := rel_after ep ts hn hne ps hp
  refine ⟨?_, ?_⟩
  · rw [rel_visit ts hn hne _ _ r]
    cases held ts ps <;> rfl
  · cases hh : held ts ps with
    | none => rw [hh] at r; simp only [Rel] at r; simp [r, raw, Var.holds]
    | some p =>
      rw [hh] at r
      obtain ⟨e, hm⟩ := r
      have h1 := (findI_lt p.2 ts hm).1
      have : findI p.2 ts ≠ npos := by simp only [npos]; omega
      simp [e, Var.holds, this]

/-- C114: at every moment of a proper history, an object that is not the tuple with an `exception_ptr` has been made as often as it has been
destroyed, but for the one that the variant holds. -/
theorem C114_alive (ep : Nat) (ts : List Nat) (hn : ts.length ≤ 2 ^ 32 - 1) (hne : ts ≠ []) (ps : List Op) (hp : Proper ts ps)
    (o t : Nat) (ht : t ≠ ep) :
    (trace ep ts ps).count (.made o t) = (trace ep ts ps).count (.ended o t) + if held ts ps = some (o, t) then 1 else 0 := by
  obtain ⟨h1, h2⟩ := rel_first ep ts hn hne
  have h3 := run_count ep ts hn hne o t ht ps _ _ 1 h2 hp
  simp only [trace, h1]
  change _ = _ + one (held ts ps) o t
  rw [held]
  by_cases hc : (0 = o ∧ ts.getD 0 0 = t)
  · obtain ⟨rfl, rfl⟩ := hc
    have z0 : one (some (0, ts.getD 0 0)) 0 (ts.getD 0 0) = 1 := by simp [one]
    have z1 : List.count (Ev.made 0 (ts.getD 0 0)) [Ev.made 0 (ts.getD 0 0)] = 1 := by simp
    have z2 : List.count (Ev.ended 0 (ts.getD 0 0)) [Ev.made 0 (ts.getD 0 0)] = 0 := by simp
    rw [List.count_append, List.count_append, z1, z2]
    omega
  · have hc' : ¬ (some (0, ts.getD 0 0) = some (o, t)) := by simpa using hc
    have z0 : one (some (0, ts.getD 0 0)) o t = 0 := by simp only [one, hc', if_false]
    rw [List.count_append, List.count_append]
    have z1 : List.count (Ev.made o t) [Ev.made 0 (ts.getD 0 0)] = 0 := by
      rw [List.count_cons]; simpa using hc
    have z2 : List.count (Ev.ended o t) [Ev.made 0 (ts.getD 0 0)] = 0 := by simp
    omega

/-- C114: once the variant is gone, every object that is not the tuple with an `exception_ptr` has been destroyed as often as it was made. -/
theorem C114_no_leak_partial (ep : Nat) (ts : List Nat) (hn : ts.length ≤ 2 ^ 32 - 1) (hne : ts ≠ []) (ps : List Op) (hp : Proper ts ps)
    (o t : Nat) (ht : t ≠ ep) :
    (life ep ts ps).count (.made o t) = (life ep ts ps).count (.ended o t) := by
  have h1 := C114_alive ep ts hn hne ps hp o t ht
  have r := rel_after ep ts hn hne ps hp
  have e : life ep ts ps = trace ep ts ps ++ (destroy ep ts (after ep ts ps)).2 := rfl
  rw [e, rel_destroy ep ts hn hne _ _ r, List.count_append, List.count_append, no_made_ended, count_ended_of ep _ o t ht]
  simp only [one]
  omega

theorem run_made_ge (ep : Nat) (ts : List Nat) (hn : ts.length ≤ npos) (hne : ts ≠ []) (b t : Nat) (ps : List Op) :
    ∀ v h o, Rel ts v h → ProperFrom ts h o ps →
      (run ep ts v o ps).2.2.count (.made b t) ≤ 1 ∧ (b < o → (run ep ts v o ps).2.2.count (.made b t) = 0) := by
  induction ps with
  | nil => intro v h o _ _; simp [run]
  | cons p ps ih =>
    intro v h o r hp
    obtain ⟨i1, i2⟩ := ih _ _ (o + 1) (rel_step ep ts hn hne v h o p r hp.1).1 hp.2
    have hs := (rel_step ep ts hn hne v h o p r hp.1).2
    have c2 := no_made_ended ep h b t
    have c3 := (no_made_seen h b t).1
    have key : (step ep ts v o p).2.count (.made b t) ≤ 1 ∧ (b ≠ o → (step ep ts v o p).2.count (.made b t) = 0) := by
      rw [hs]
      cases p with
      | emplace t' th =>
        cases th
        · refine ⟨?_, fun hb => ?_⟩
          · have z : List.count (Ev.made b t) [Ev.made o t'] ≤ 1 := List.count_le_length
            simp only [endOf, madeOf, seeOf, List.count_append, c2, List.count_nil, Bool.false_eq_true, if_false]
            omega
          · have : ¬ (o = b) := fun h => hb h.symm
            simp [endOf, madeOf, seeOf, List.count_append, c2, List.count_cons, this]
        · simp [endOf, madeOf, seeOf, c2]
      | construct t' th =>
        cases th
        · refine ⟨?_, fun hb => ?_⟩
          · have z : List.count (Ev.made b t) [Ev.made o t'] ≤ 1 := List.count_le_length
            simp only [endOf, madeOf, seeOf, List.count_append, List.count_nil, Bool.false_eq_true, if_false]
            omega
          · have : ¬ (o = b) := fun h => hb h.symm
            simp [endOf, madeOf, seeOf, List.count_append, List.count_cons, this]
        · simp [endOf, madeOf, seeOf]
      | destroy => simp [endOf, madeOf, seeOf, c2]
      | visit => simp [endOf, madeOf, seeOf, c3]
    simp only [run_cons, List.count_append]
    refine ⟨?_, fun hb => ?_⟩
    · by_cases hbo : b < o + 1
      · have := i2 hbo; have := key.1; omega
      · have := key.2 (by omega); omega
    · have := i2 (by omega); have := key.2 (by omega); omega

/-- C114: nothing is destroyed twice. -/
theorem C114_no_double_partial (ep : Nat) (ts : List Nat) (hn : ts.length ≤ 2 ^ 32 - 1) (hne : ts ≠ []) (ps : List Op) (hp : Proper ts ps)
    (o t : Nat) (ht : t ≠ ep) : (life ep ts ps).count (.ended o t) ≤ 1 := by
  rw [← C114_no_leak_partial ep ts hn hne ps hp o t ht]
  obtain ⟨h1, h2⟩ := rel_first ep ts hn hne
  have r := rel_after ep ts hn hne ps hp
  obtain ⟨i1, i2⟩ := run_made_ge ep ts hn hne o t ps _ _ 1 h2 hp
  have e : life ep ts ps = trace ep ts ps ++ (destroy ep ts (after ep ts ps)).2 := rfl
  rw [e, rel_destroy ep ts hn hne _ _ r, List.count_append, no_made_ended]
  simp only [trace, h1, List.count_append]
  by_cases ho : o = 0
  · have := i2 (by omega)
    have z : List.count (Ev.made o t) [Ev.made 0 (ts.getD 0 0)] ≤ 1 := List.count_le_length
    omega
  · have z : List.count (Ev.made o t) [Ev.made 0 (ts.getD 0 0)] = 0 := by
      have : ¬ (0 = o) := fun h => ho h.symm
      simp [List.count_cons, this]
    omega

/-- What the code does to the tuple with an `exception_ptr`: it is never destroyed, in no history whatever. -/
theorem C114_ep_never_ended (ep : Nat) (ts : List Nat) (v : Var) (o : Nat) : Ev.ended o ep ∉ (destroy ep ts v).2 := by
  simp only [destroy]
  split
  · intro h
    rw [List.mem_flatMap] at h
    obtain ⟨e, _, h⟩ := h
    cases e <;> simp only [destroyer] at h <;> (try split at h) <;> simp_all
  · simp

/-- The full statement is false of the code for a variant with such a tuple, of type 7 here: the object, and what its `exception_ptr` owns, is
leaked. -/
theorem C114_ep_leaks :
    Proper [1, 7] [.emplace 7 false] ∧
    (life 7 [1, 7] [.emplace 7 false]).count (.made 1 7) = 1 ∧ (life 7 [1, 7] [.emplace 7 false]).count (.ended 1 7) = 0 := by
  refine ⟨⟨by simp [Proper1], trivial⟩, by decide, by decide⟩

/-- `construct` on a variant that holds something leaks what it holds; and if the constructor throws, the index stays and the destructor is run
on nothing. -/
theorem C114_construct_over :
    (life 7 [1, 2] [.construct 2 false]).count (.made 0 1) = 1 ∧ (life 7 [1, 2] [.construct 2 false]).count (.ended 0 1) = 0 ∧
    Ev.endedNothing 1 ∈ life 7 [1, 2] [.construct 2 true] := by
  refine ⟨by decide, by decide, by decide⟩

/-- The copy constructor, which nothing forbids, copies the bytes: whatever is held is destroyed twice. -/
theorem C114_copy_double (ep : Nat) (ts : List Nat) (hn : ts.length ≤ 2 ^ 32 - 1) (hne : ts ≠ []) (ps : List Op) (hp : Proper ts ps)
    (o t : Nat) (ht : t ≠ ep) (hh : held ts ps = some (o, t)) :
    (destroy ep ts (copy (after ep ts ps))).2 ++ (destroy ep ts (after ep ts ps)).2 = [.ended o t, .ended o t] := by
  have r := rel_after ep ts hn hne ps hp
  rw [hh] at r
  simp [copy, rel_destroy ep ts hn hne _ _ r, endedOf, ht]

/-- C114: `visit` with an index takes the caller at his word: the visitor is called once if there is such a type, whatever the variant holds;
and not at all if there is not. -/
theorem C114_visit_index (ts : List Nat) (hne : ts ≠ []) (o i x : Nat) :
    visitAt ts { stor := some o, index := x } i = if h : i < ts.length then [.seen o ts[i]] else [] := by
  rw [visitAt_eq ts hne]
  split
  · rename_i h; simp [call, h]
  · simp

theorem foldl_umax (l : List Nat) : ∀ m, m ≤ l.foldl (fun m i => if m < i then i else m) m ∧
    (∀ x ∈ l, x ≤ l.foldl (fun m i => if m < i then i else m) m) ∧
    (l.foldl (fun m i => if m < i then i else m) m = m ∨ l.foldl (fun m i => if m < i then i else m) m ∈ l) := by
  induction l with
  | nil => intro m; simp
  | cons a l ih =>
    intro m
    obtain ⟨h1, h2, h3⟩ := ih (if m < a then a else m)
    simp only [List.foldl_cons]
    refine ⟨?_, ?_, ?_⟩
    · refine Nat.le_trans ?_ h1; split <;> omega
    · intro x hx
      rcases List.mem_cons.1 hx with rfl | hx
      · refine Nat.le_trans ?_ h1; split <;> omega
      · exact h2 x hx
    · rcases h3 with h3 | h3
      · by_cases hma : m < a
        · right; rw [h3]; simp [hma]
        · left; rw [h3]; simp [hma]
      · right; exact List.mem_cons_of_mem _ h3

/-- C114: the storage is large enough for every type, and no larger than the largest; and its alignment is a multiple of that of every type. -/
theorem C114_fits (sizes : List Nat) (hne : sizes ≠ []) (hs : ∀ x ∈ sizes, 0 < x) :
    (∀ x ∈ sizes, x ≤ umax sizes) ∧ umax sizes ∈ sizes ∧
    ((∀ x ∈ sizes, ∃ k, x = 2 ^ k) → ∀ x ∈ sizes, x ∣ umax sizes) := by
  obtain ⟨_, h2, h3⟩ := foldl_umax sizes 0
  have hm : umax sizes ∈ sizes := by
    rcases h3 with h3 | h3
    · exfalso
      cases sizes with
      | nil => exact hne rfl
      | cons a l =>
        have := h2 a List.mem_cons_self
        have := hs a List.mem_cons_self
        omega
    · exact h3
  refine ⟨h2, hm, fun hp x hx => ?_⟩
  obtain ⟨k, rfl⟩ := hp x hx
  obtain ⟨j, hj⟩ := hp _ hm
  have := h2 _ hx
  rw [show List.foldl (fun m i => if m < i then i else m) 0 sizes = umax sizes from rfl, hj] at this
  rw [hj]
  exact Nat.pow_dvd_pow 2 ((Nat.pow_le_pow_iff_right (by omega)).1 this)

/-- The hypotheses are met: a variant of three types, one of them twice, through a history with an exception. -/
example : Proper [4, 5, 4] [.visit, .emplace 5 false, .visit, .emplace 4 true, .construct 4 false, .visit] ∧
    held [4, 5, 4] [.visit, .emplace 5 false, .visit, .emplace 4 true, .construct 4 false, .visit] = some (5, 4) := by
  refine ⟨⟨trivial, by simp [Proper1], trivial, by simp [Proper1], ⟨by simp, rfl⟩, trivial, trivial⟩, by decide⟩

example : life 7 [4, 5] [.emplace 5 false, .visit] = [.made 0 4, .ended 0 4, .made 1 5, .seen 1 5, .ended 1 5] := by decide

end Verif.NvVariant
