import Verif.Nvtx.Model
/-!
# C115: what a user of ranges relies on

The specification: NVTX (`nvtx1`, `stacks`), what a closure is without its ranges (`Clo.plain`), and what closures run what is before them once
and stay on the thread (`Clo.Once`, `Clo.Stays`).
-/
namespace Verif.Nvtx

/-- The stacks of NVTX, one for every thread, after a call. -/
def nvtx1 (st : Nat → List Nat) (p : Nat × Ev) : Nat → List Nat :=
  match p.2 with
  | .push name => fun t => if t = p.1 then name :: st t else st t
  | .pop       => fun t => if t = p.1 then (st t).tail else st t
  | .work _    => st

/-- After all of them. -/
def stacks (st : Nat → List Nat) (l : List (Nat × Ev)) : Nat → List Nat := l.foldl nvtx1 st

/-- The closure runs what is before it once. -/
def Clo.Once : Clo → Prop
  | .again _    => False
  | .comp a b   => a.Once ∧ b.Once
  | .scope _ c => c.Once
  | _           => True

/-- The closure goes on on the thread that what is before it completes on. -/
def Clo.Stays : Clo → Prop
  | .onto _     => False
  | .comp a b   => a.Stays ∧ b.Stays
  | .scope _ c => c.Stays
  | _           => True

/-- There are no `push` and `pop` in the closure, except as `scoped`. -/
def Clo.Scopes : Clo → Prop
  | .push _     => False
  | .pop        => False
  | .comp a b   => a.Scopes ∧ b.Scopes
  | .scope _ c => c.Scopes
  | _           => True

/-- The closure without ranges. -/
def Clo.plain : Clo → Clo
  | .push _     => .map 0 (fun _ => false) id
  | .pop        => .map 0 (fun _ => false) id
  | .comp a b   => .comp a.plain b.plain
  | .scope _ c => c.plain
  | c           => c

/-- The functions of the user that are called, and on what thread. -/
def works (l : List (Nat × Ev)) : List (Nat × Nat) :=
  l.filterMap fun p => match p.2 with | .work k => some (p.1, k) | _ => none

/-- At every call of a function of the user, the range is on the stack of the thread that calls it. -/
def Covered (name : Nat) : (Nat → List Nat) → List (Nat × Ev) → Prop
  | _, []           => True
  | st, (t, e) :: l => (match e with | .work _ => name ∈ st t | _ => True) ∧ Covered name (nvtx1 st (t, e)) l

theorem stacks_append (st : Nat → List Nat) (l m : List (Nat × Ev)) : stacks st (l ++ m) = stacks (stacks st l) m := by
  simp [stacks, List.foldl_append]

/-- What is done by a closure that runs what is before it once. -/
theorem apply_run (c : Clo) (h : c.Once) : ∀ (s : Snd) (t : Nat), (c.apply s).run t =
    (((c.apply (.just (s.run t).1)).run (s.run t).2.1).1, ((c.apply (.just (s.run t).1)).run (s.run t).2.1).2.1,
      (s.run t).2.2 ++ ((c.apply (.just (s.run t).1)).run (s.run t).2.1).2.2) := by
  induction c with
  | map k on f =>
    intro s t
    by_cases ho : on (s.run t).1 = true <;> simp [Clo.apply, Snd.run, ho]
  | onto t' => intro s t; simp [Clo.apply, Snd.run]
  | again n => exact absurd h id
  | push name => intro s t; simp [Clo.apply, Snd.run]
  | pop => intro s t; simp [Clo.apply, Snd.run]
  | comp a b iha ihb =>
    intro s t
    simp only [Clo.apply]
    rw [ihb h.2 (a.apply s) t, iha h.1 s t]
    simp only
    rw [ihb h.2 (a.apply (.just (s.run t).1)) (s.run t).2.1]
    simp [List.append_assoc]
  | scope name c ih =>
    intro s t
    simp only [Clo.apply, Snd.run]
    rw [ih h (.nvtx (.push name) s) t, ih h (.nvtx (.push name) (.just (s.run t).1)) (s.run t).2.1]
    simp [Snd.run, complete, List.append_assoc]

/-- C115: the range is opened when the sender completes, whatever it completes with and where that is; then comes what the closure does, and then
the range is closed, whatever the closure completes with, where that is. -/
theorem C115_order (name : Nat) (c : Clo) (h : c.Once) (s : Snd) (t : Nat) :
    let r := s.run t
    let q := (c.apply (.just r.1)).run r.2.1
    ((Clo.scope name c).apply s).run t = (q.1, q.2.1, r.2.2 ++ [(r.2.1, .push name)] ++ q.2.2 ++ [(q.2.1, .pop)]) := by
  simp only [Clo.apply, Snd.run]
  rw [apply_run c h (.nvtx (.push name) s) t]
  simp [Snd.run, complete]

/-- C115: `push` and `pop` by themselves: one call, on the thread of the completion, whatever it is, and then that completion; so that a `push` and a
`pop` around a closure are a scope. -/
theorem C115_push_pop (name : Nat) (c : Clo) (s : Snd) (t : Nat) :
    ((Clo.push name).apply s).run t = ((s.run t).1, (s.run t).2.1, (s.run t).2.2 ++ [((s.run t).2.1, .push name)]) ∧
    (Clo.pop.apply s).run t = ((s.run t).1, (s.run t).2.1, (s.run t).2.2 ++ [((s.run t).2.1, .pop)]) ∧
    (Clo.comp (.comp (.push name) c) .pop).apply s = (Clo.scope name c).apply s := ⟨rfl, rfl, rfl⟩

/-- C115: ranges change nothing: the same completion, on the same thread, with the same functions called on the same threads in the same
order. -/
theorem C115_transparent (c : Clo) (s s' : Snd) (t : Nat)
    (hs : ∀ t, (s.run t).1 = (s'.run t).1 ∧ (s.run t).2.1 = (s'.run t).2.1 ∧ works (s.run t).2.2 = works (s'.run t).2.2) :
    ((c.apply s).run t).1 = ((c.plain.apply s').run t).1 ∧ ((c.apply s).run t).2.1 = ((c.plain.apply s').run t).2.1 ∧
    works ((c.apply s).run t).2.2 = works ((c.plain.apply s').run t).2.2 := by
  induction c generalizing s s' t with
  | map k on f =>
    obtain ⟨h1, h2, h3⟩ := hs t
    simp only [Clo.apply, Clo.plain, Snd.run]
    rw [h1, h2]
    split
    · exact ⟨rfl, rfl, by simpa [works, List.filterMap_append] using h3⟩
    · exact ⟨rfl, rfl, h3⟩
  | onto t' =>
    obtain ⟨h1, h2, h3⟩ := hs t
    exact ⟨h1, rfl, h3⟩
  | again n =>
    simp only [Clo.apply, Clo.plain, Snd.run]
    induction n generalizing t with
    | zero => exact ⟨rfl, rfl, rfl⟩
    | succ n ih =>
      obtain ⟨h1, h2, h3⟩ := hs t
      simp only [times]
      rw [← h1, ← h2]
      cases hc : (s.run t).1 with
      | value v =>
        obtain ⟨i1, i2, i3⟩ := ih (s.run t).2.1
        refine ⟨i1, i2, ?_⟩
        simp only [works, List.filterMap_append] at h3 i3 ⊢
        rw [h3, i3]
      | error e => exact ⟨rfl, rfl, h3⟩
      | stopped => exact ⟨rfl, rfl, h3⟩
  | push name =>
    obtain ⟨h1, h2, h3⟩ := hs t
    simp only [Clo.apply, Clo.plain, Snd.run]
    exact ⟨h1, h2, by simpa [works, complete, List.filterMap_append] using h3⟩
  | pop =>
    obtain ⟨h1, h2, h3⟩ := hs t
    simp only [Clo.apply, Clo.plain, Snd.run]
    exact ⟨h1, h2, by simpa [works, complete, List.filterMap_append] using h3⟩
  | comp a b iha ihb => exact ihb _ _ t (fun t => iha s s' t hs)
  | scope name c ih =>
    have := ih (.nvtx (.push name) s) s' t (fun t => by
      obtain ⟨h1, h2, h3⟩ := hs t
      exact ⟨h1, h2, by simpa [Snd.run, works, complete, List.filterMap_append] using h3⟩)
    obtain ⟨h1, h2, h3⟩ := this
    simp only [Clo.apply, Clo.plain, Snd.run] at h1 h2 h3 ⊢
    exact ⟨h1, h2, by simpa [works, complete, List.filterMap_append] using h3⟩

/-- C115: the same for a sender in a scope. -/
theorem C115_scoped_transparent (name : Nat) (c : Clo) (s : Snd) (t : Nat) :
    (((Clo.scope name c).apply s).run t).1 = ((c.plain.apply s).run t).1 ∧
    (((Clo.scope name c).apply s).run t).2.1 = ((c.plain.apply s).run t).2.1 ∧
    works (((Clo.scope name c).apply s).run t).2.2 = works ((c.plain.apply s).run t).2.2 :=
  C115_transparent (.scope name c) s s t (fun _ => ⟨rfl, rfl, rfl⟩)

/-- What a closure that stays does: on the one thread only. -/
theorem stays_run (c : Clo) (h : c.Once) (hs : c.Stays) : ∀ (sig : Sig) (t : Nat),
    ((c.apply (.just sig)).run t).2.1 = t ∧ ∀ p ∈ ((c.apply (.just sig)).run t).2.2, p.1 = t := by
  induction c with
  | map k on f =>
    intro sig t
    by_cases ho : on sig = true <;> simp [Clo.apply, Snd.run, ho]
  | onto t' => exact absurd hs id
  | again n => exact absurd h id
  | push name => intro sig t; simp [Clo.apply, Snd.run]
  | pop => intro sig t; simp [Clo.apply, Snd.run]
  | comp a b iha ihb =>
    intro sig t
    obtain ⟨a1, a2⟩ := iha h.1 hs.1 sig t
    simp only [Clo.apply]
    rw [apply_run b h.2]
    rw [a1]
    obtain ⟨b1, b2⟩ := ihb h.2 hs.2 ((a.apply (.just sig)).run t).1 t
    refine ⟨b1, ?_⟩
    intro p hp
    rcases List.mem_append.1 hp with hp | hp
    · exact a2 p hp
    · exact b2 p hp
  | scope name c ih =>
    intro sig t
    rw [C115_order name c h]
    obtain ⟨b1, b2⟩ := ih h hs sig t
    simp only [Snd.run]
    refine ⟨b1, ?_⟩
    intro p hp
    simp only [List.mem_append, List.mem_cons, List.not_mem_nil, or_false, List.nil_append] at hp
    rcases hp with (rfl | hp) | rfl
    · rfl
    · exact b2 p hp
    · exact b1

/-- What it does to the stacks, if it has only scopes. -/
theorem scopes_stacks (c : Clo) (h : c.Once) (hs : c.Stays) (hc : c.Scopes) : ∀ (sig : Sig) (t : Nat) (st : Nat → List Nat),
    stacks st ((c.apply (.just sig)).run t).2.2 = st := by
  induction c with
  | map k on f =>
    intro sig t st
    by_cases ho : on sig = true <;> simp [Clo.apply, Snd.run, ho, stacks, nvtx1]
  | onto t' => exact absurd hs id
  | again n => exact absurd h id
  | push name => exact absurd hc id
  | pop => exact absurd hc id
  | comp a b iha ihb =>
    intro sig t st
    simp only [Clo.apply]
    rw [apply_run b h.2]
    simp only [stacks_append, iha h.1 hs.1 hc.1, ihb h.2 hs.2 hc.2]
  | scope name c ih =>
    intro sig t st
    rw [C115_order name c h]
    simp only [Snd.run, stacks_append, ih h hs hc, (stays_run c h hs sig t).1]
    funext x
    simp only [stacks, List.foldl, nvtx1]
    split <;> simp

/-- C115: if the closure runs its sender once and stays on the thread, then a scope leaves all stacks as it found them, whatever sender it is
put behind and whatever the completions. -/
theorem C115_balanced_partial (name : Nat) (c : Clo) (h : c.Once) (hs : c.Stays) (hc : c.Scopes) (s : Snd) (t : Nat)
    (st : Nat → List Nat) :
    stacks st (((Clo.scope name c).apply s).run t).2.2 = stacks st (s.run t).2.2 := by
  rw [apply_run (.scope name c) h]
  simp only [stacks_append]
  exact scopes_stacks (.scope name c) h hs hc _ _ _

theorem covered_append (name : Nat) (l m : List (Nat × Ev)) : ∀ st, Covered name st l → Covered name (stacks st l) m →
    Covered name st (l ++ m) := by
  induction l with
  | nil => intro st _ h; exact h
  | cons p l ih =>
    obtain ⟨t, e⟩ := p
    intro st h1 h2
    exact ⟨h1.1, ih _ h1.2 h2⟩

theorem scopes_covered (name : Nat) (c : Clo) (h : c.Once) (hs : c.Stays) (hc : c.Scopes) : ∀ (sig : Sig) (t : Nat) (st : Nat → List Nat),
    name ∈ st t → Covered name st ((c.apply (.just sig)).run t).2.2 := by
  induction c with
  | map k on f =>
    intro sig t st hm
    by_cases ho : on sig = true <;> simp [Clo.apply, Snd.run, ho, Covered, hm]
  | onto t' => exact absurd hs id
  | again n => exact absurd h id
  | push name => exact absurd hc id
  | pop => exact absurd hc id
  | comp a b iha ihb =>
    intro sig t st hm
    simp only [Clo.apply]
    rw [apply_run b h.2]
    refine covered_append name _ _ st (iha h.1 hs.1 hc.1 sig t st hm) ?_
    rw [scopes_stacks a h.1 hs.1 hc.1, (stays_run a h.1 hs.1 sig t).1]
    exact ihb h.2 hs.2 hc.2 _ t st hm
  | scope name' c ih =>
    intro sig t st hm
    rw [C115_order name' c h]
    refine covered_append name _ _ st ?_ ⟨trivial, trivial⟩
    refine ⟨trivial, ih h hs hc sig t _ ?_⟩
    simp only [nvtx1, Snd.run, if_true]
    exact List.mem_cons_of_mem _ hm

/-- C115: and every function of the user that the closure calls is called with the range on the stack of the thread that calls it; none of
those that are called before. -/
theorem C115_covered_partial (name : Nat) (c : Clo) (h : c.Once) (hs : c.Stays) (hc : c.Scopes) (s : Snd) (t : Nat)
    (st : Nat → List Nat) :
    ∃ l, (((Clo.scope name c).apply s).run t).2.2 = (s.run t).2.2 ++ (l : List (Nat × Ev)) ∧
      works l = works ((c.plain.apply (.just (s.run t).1)).run (s.run t).2.1).2.2 ∧
      Covered name (stacks st (s.run t).2.2) l := by
  refine ⟨(((Clo.scope name c).apply (.just (s.run t).1)).run (s.run t).2.1).2.2, ?_, ?_, ?_⟩
  · rw [apply_run (.scope name c) h]
  · exact (C115_scoped_transparent name c (.just (s.run t).1) (s.run t).2.1).2.2
  · rw [C115_order name c h]
    refine covered_append name _ _ _ ?_ ⟨trivial, trivial⟩
    refine ⟨trivial, scopes_covered name c h hs hc _ _ _ ?_⟩
    simp [nvtx1, Snd.run]

/-- The full statement is false of the code: the stacks belong to the threads, and a closure that goes on on another thread leaves the range
open on the one and closes one that is not its own on the other; here, range 9 of somebody else on thread 2. -/
theorem C115_thread_violated :
    let l := (((Clo.scope 1 (.onto 2)).apply (.just (.value 0))).run 0).2.2
    let st := fun t => if t = 2 then [9] else []
    stacks st l 0 = [1] ∧ stacks st l 2 = [] := by
  refine ⟨by decide, by decide⟩

/-- And a closure that runs its sender `n` times opens the range `n` times, and closes it once. -/
theorem C115_again_violated (n name v : Nat) (t : Nat) (st : Nat → List Nat) :
    stacks st (((Clo.scope name (.again (n + 1))).apply (.just (.value v))).run t).2.2 t = List.replicate n name ++ st t := by
  have key : ∀ n, times ((Snd.nvtx (.push name) (.just (.value v))).run) n t
      = ((times ((Snd.nvtx (.push name) (.just (.value v))).run) n t).1, t, List.replicate n (t, Ev.push name)) := by
    intro n
    induction n with
    | zero => rfl
    | succ n ih =>
      simp only [times, Snd.run, complete, List.nil_append] at ih ⊢
      rw [ih]
      simp [List.replicate_succ]
  have hst : ∀ n st, stacks st (List.replicate n (t, Ev.push name)) t = List.replicate n name ++ st t := by
    intro n
    induction n with
    | zero => intro st; rfl
    | succ n ih =>
      intro st
      have := ih (nvtx1 st (t, .push name))
      simp only [stacks, List.replicate_succ, List.foldl_cons] at this ⊢
      rw [this]
      simp only [nvtx1, if_true]
      rw [← List.replicate_succ, List.replicate_succ']
      simp
  simp only [Clo.apply, Snd.run]
  have k := key (n + 1)
  simp only [Snd.run] at k
  rw [k]
  simp only [stacks_append, complete]
  have := hst (n + 1) st
  simp only [stacks, List.foldl, nvtx1, if_true] at this ⊢
  rw [this]
  simp [List.replicate_succ]

/-- The hypotheses are met: a scope in a scope, with functions on two channels, behind a sender that changes threads and fails. -/
example : let c := Clo.comp (.map 1 (fun s => s == .error 3) (fun _ => .value 7)) (.scope 5 (.map 2 (fun _ => true) (fun _ => .stopped)))
    c.Once ∧ c.Stays ∧ c.Scopes ∧
    (((Clo.scope 4 c).apply (.onto 6 (.just (.error 3)))).run 0)
      = (.stopped, 6, [(6, .push 4), (6, .work 1), (6, .push 5), (6, .work 2), (6, .pop), (6, .pop)]) := by
  refine ⟨⟨trivial, trivial⟩, ⟨trivial, trivial⟩, ⟨trivial, trivial⟩, by decide⟩

end Verif.Nvtx
