import Verif.Sender.Live
/-!
# Sequential senders: the properties (C25–C33, C45)

Vocabulary (see `Model.lean`): `S` sender expressions, `init e s x` the started operation, `step` the
machine, `Runs e s x l c y` = "started on context `x` in environment `e`, `s` can run with log `l` and
complete with `c` on context `y`".
-/
namespace Verif.Sender

/-! ## Examples used below -/

/-- An environment without a stop token that answers query 7. -/
def exEnv : Env := fun q => if q = 7 then some (.bool true) else none
/-- A leaf that sends an `int` (type 1) or an `exception_ptr`. -/
def exLeaf : Leaf := { id := 1, sigs := [⟨.value, [.base 1 true]⟩, sigEptr, ⟨.stopped, []⟩] }
/-- A scheduler's schedule sender, completing on context 5. -/
def exSched : Leaf := { id := 2, sigs := [⟨.value, []⟩, ⟨.stopped, []⟩], on := some 5 }
def exInt (n : Nat) : Val := .base 1 true n
/-- A value whose copy constructor may throw. -/
def exBad (n : Nat) : Val := .base 2 false n
/-- A function that throws exception 9 on 0 and returns `void` otherwise. -/
def exFn : Fn := { id := 3, noexc := fun _ => false, ret := fun _ => []
                   run := fun vs => if vs = [exInt 0] then .error 9 else .ok [] }

/-! ## C25 exactly one completion -/

/-- The receiver is never completed twice, whatever the expression and the throwing behaviour. -/
theorem completes_at_most_once (e : Env) (s : S) (x : Nat) (m : St) (h : Reach (init e s x) step m) :
    m.done.length ≤ 1 := by
  obtain ⟨_, ⟨_, h0⟩ | ⟨_, _, ⟨it, _, h0, _⟩ | ⟨c', y', hT, _, _, h3⟩⟩⟩ := shape e s x m h
  · simp [h0]
  · simp [h0]
  · simp [h3]

/-- Until it completes, the operation is always held by exactly one pending call or leaf in flight:
a completion is never lost and there is never a second one under way. -/
theorem exactly_one_pending (e : Env) (s : S) (x : Nat) (m : St) (h : Reach (init e s x) step m)
    (ht : m.term = false) (hu : m.ub = false) :
    m.tasks.length + m.wait.length + m.done.length = 1 := by
  obtain ⟨_, ⟨h0, _⟩ | ⟨_, _, ⟨it, _, h0, hit⟩ | ⟨c', y', hT, h1, h2, h3⟩⟩⟩ := shape e s x m h
  · simp [ht, hu] at h0
  · rcases it with t | p
    · simp only at hit; simp [h0, hit.1, hit.2]
    · simp only at hit; simp [h0, hit.1, hit.2]
  · simp [h1, h2, h3]

/-- **C25**. A well-formed expression whose functions honour `noexcept` (`WT`, `NoTerm`): in every
reachable state in which nothing can happen any more, the receiver has been completed exactly once
(provided a leaf in flight always has a way to complete). -/
theorem completes_exactly_once {e : Env} {s : S} {x : Nat} (hw : WT e s) (hn : NoTerm s)
    {m : St} (h : Reach (init e s x) step m) (hq : ∀ a, step m a = none)
    (hl : ∀ p ∈ m.wait, ∃ c y, p.1.allows c y = true) : m.done.length = 1 := by
  have hbad := bad_shape e s x m h
  have ht : m.term = false := by
    cases h1 : m.term with
    | false => rfl
    | true => obtain ⟨l, it, hT, hb⟩ := hbad.1 h1; exact absurd hb ((clean_term s e hn).t1s _ hT)
  have hu : m.ub = false := by
    cases h1 : m.ub with
    | false => rfl
    | true => obtain ⟨l, it, hT, hb⟩ := hbad.2 h1; exact absurd hb ((clean_ub s e hw).t1s _ hT)
  obtain ⟨_, ⟨h0, _⟩ | ⟨_, _, ⟨it, _, h0, hit⟩ | ⟨c', y', hT, h1, h2, h3⟩⟩⟩ := shape e s x m h
  · simp [ht, hu] at h0
  · exfalso
    rcases it with t | ⟨lf, k⟩
    · simp only at hit
      have := hq (.run 0 [])
      rcases t with ⟨_, _, _⟩ | ⟨_, _ | ⟨_, _⟩, _⟩ <;> simp [step, ht, hu, hit.1] at this
    · simp only at hit
      obtain ⟨c, y, hal⟩ := hl (lf, k) (by simp [hit.2])
      have := hq (.leaf 0 c y)
      simp only at hal
      simp [step, ht, hu, hit.2, hal] at this
  · simp [h3]

/-- **C25**, termination: without `repeat_until` there is no infinite execution, so such a final
state is always reached. -/
theorem always_terminates {s : S} (hn : NoLoop s) (e : Env) (x : Nat) :
    ¬ ∃ f : Nat → St, f 0 = init e s x ∧ ∀ n, ∃ a, step (f n) a = some (f (n + 1)) := by
  rintro ⟨f, h0, hf⟩
  exact no_infinite (acc_init hn e x) f h0 hf

/-- A non-trivial expression for which all hypotheses hold:
`finally(then(continues_on(leaf, sched), f), just())`. -/
def exS : S := .fin (.upon .value exFn (.contOn exSched (.leaf exLeaf))) (.just (cvalue []))

theorem exS_ok : WT exEnv exS ∧ NoTerm exS ∧ NoLoop exS := by
  refine ⟨⟨⟨trivial, ?_⟩, trivial, ?_⟩, ⟨⟨trivial, ?_⟩, trivial⟩, trivial, trivial⟩
  · intro vs r _ h
    simp only [exFn] at h
    split at h
    · cases h
    · injection h with h; subst h; rfl
  · intro _ g hg _
    revert g; decide
  · intro vs h; simp [exFn] at h

/-- … and it does complete (here the function throws 9 after the hop to context 5). -/
example : ∃ m, Reach (init exEnv exS 0) step m ∧ (m.done.length == 1) = true :=
  Reach.witness [.run 0 [], .run 0 [], .run 0 [], .run 0 [], .leaf 0 (cvalue [exInt 0]) 3, .run 0 [],
    .run 0 [], .leaf 0 (cvalue []) 5, .run 0 [], .run 0 [], .run 0 [], .run 0 [], .run 0 [], .run 0 []] _
    (by decide)

/-! ## C26 then / upon_error / upon_stopped -/

/-- **C26**. See `upon_runs` for the reading; restated for the three adaptors together. -/
theorem upon_spec (e : Env) (ch : Chan) (f : Fn) (s : S) (x : Nat) (l : List Ev) (c : Comp) (y : Nat) :
    Runs e (.upon ch f s) x l c y ↔
      (c.ch ≠ ch ∧ Runs e s x l c y) ∨
      (∃ l0 vs, Runs e s x l0 ⟨ch, vs⟩ y ∧
        ((∃ r, f.run vs = .ok r ∧ c = ⟨.value, r⟩ ∧ l = l0 ++ [.call f.id vs]) ∨
         (∃ ex, f.run vs = .error ex ∧ f.noexc (tys vs) = false ∧ c = ⟨.error, [.eptr ex]⟩ ∧
            l = l0 ++ [.call f.id vs, .threw ex]))) := upon_runs

/-- The function is called at most once per run, and not at all unless the predecessor completed on
its channel (calls by the predecessor itself are in `l0`). -/
theorem upon_calls_once {e : Env} {ch : Chan} {f : Fn} {s : S} {x l c y}
    (hrun : Runs e (.upon ch f s) x l c y) (hid : ∀ l c y vs, Runs e s x l c y → Ev.call f.id vs ∉ l) :
    (∃ vs, l.countP (fun ev => match ev with | .call i _ => i == f.id | _ => false) = 1 ∧
      ∃ l0, Runs e s x l0 ⟨ch, vs⟩ y) ∨
    (l.countP (fun ev => match ev with | .call i _ => i == f.id | _ => false) = 0 ∧ c.ch ≠ ch ∧
      Runs e s x l c y) := by
  have h0 : ∀ l0 c0 y0, Runs e s x l0 c0 y0 →
      l0.countP (fun ev => match ev with | .call i _ => i == f.id | _ => false) = 0 := by
    intro l0 c0 y0 hr
    rw [List.countP_eq_zero]
    intro ev hev hc
    cases ev <;> simp at hc
    subst hc
    exact hid _ _ _ _ hr hev
  rcases upon_runs.1 hrun with ⟨hc, h⟩ | ⟨l0, vs, h, ⟨r, hr, rfl, rfl⟩ | ⟨ex, hr, hn, rfl, rfl⟩⟩
  · exact .inr ⟨h0 _ _ _ h, hc, h⟩
  · exact .inl ⟨vs, by rw [List.countP_append, h0 _ _ _ h]; simp, l0, h⟩
  · exact .inl ⟨vs, by rw [List.countP_append, h0 _ _ _ h]; simp, l0, h⟩

/-- `then(just(0), f)`: `f` throws and the exception is delivered. -/
example : Runs exEnv (.upon .value exFn (.just (cvalue [exInt 0]))) 4
    [.call 3 [exInt 0], .threw 9] (cerror 9) 4 :=
  upon_runs.2 (.inr ⟨[], [exInt 0], just_runs.2 ⟨rfl, rfl, rfl⟩, .inr ⟨9, rfl, rfl, rfl, rfl⟩⟩)

/-! ## C27 let_* -/

/-- **C27**. -/
theorem let_spec (e : Env) (ch : Chan) (f : LFn) (kk : List Val → S) (s : S) (x l c y) :
    Runs e (.letc ch f kk s) x l c y ↔
      (c.ch ≠ ch ∧ Runs e s x l c y) ∨
      (∃ l0 vs z, Runs e s x l0 ⟨ch, vs⟩ z ∧
        ((f.thr vs = none ∧ ∃ l1, Runs e (kk vs) z l1 c y ∧ l = l0 ++ .call f.id vs :: l1) ∨
         (∃ ex, CopyThrows vs ∧ c = cerror ex ∧ y = z ∧ l = l0 ++ [.threw ex]) ∨
         (∃ ex, f.thr vs = some ex ∧ f.noexc (tys vs) = false ∧ c = cerror ex ∧ y = z ∧
            l = l0 ++ [.call f.id vs, .threw ex]) ∨
         (∃ ex, f.thr vs = none ∧ ConnectThrows (kk vs) ex ∧ c = cerror ex ∧ y = z ∧
            l = l0 ++ [.call f.id vs, .threw ex]))) := letc_runs

/-- Monad law, left identity: `let_value(just(vs...), f)` is `f(vs...)` after one call of `f`, when
nothing throws. -/
theorem let_just (e : Env) (f : LFn) (kk : List Val → S) (vs : List Val) (x l c y)
    (hf : f.thr vs = none) (hcopy : ¬ CopyThrows vs) (hconn : ∀ ex, ¬ ConnectThrows (kk vs) ex) :
    Runs e (.letc .value f kk (.just ⟨.value, vs⟩)) x l c y ↔
      ∃ l1, l = .call f.id vs :: l1 ∧ Runs e (kk vs) x l1 c y := by
  rw [letc_runs]
  simp only [just_runs]
  constructor
  · rintro (⟨hc, rfl, _⟩ | ⟨l0, vs', z, ⟨h, rfl, rfl⟩, hh⟩)
    · exact absurd rfl hc
    · injection h with _ h; subst h
      rcases hh with ⟨_, l1, h1, rfl⟩ | ⟨ex, h, _⟩ | ⟨ex, h, _⟩ | ⟨ex, _, h, _⟩
      · exact ⟨l1, rfl, h1⟩
      · exact absurd h hcopy
      · rw [hf] at h; cases h
      · exact absurd h (hconn ex)
  · rintro ⟨l1, rfl, h1⟩
    exact .inr ⟨[], vs, x, ⟨rfl, rfl, rfl⟩, .inl ⟨hf, l1, h1, rfl⟩⟩

/-- Monad law, right identity: `let_value(s, just)` is `s`, apart from the call, when nothing throws. -/
theorem let_right_just (e : Env) (f : LFn) (s : S) (x l c y) (hf : ∀ vs, f.thr vs = none)
    (hcopy : ∀ l vs z, Runs e s x l ⟨.value, vs⟩ z → ¬ CopyThrows vs) :
    Runs e (.letc .value f (fun vs => .just ⟨.value, vs⟩) s) x l c y ↔
      ∃ l0, Runs e s x l0 c y ∧ l = l0 ++ (if c.ch = .value then [.call f.id c.args] else []) := by
  rw [letc_runs]
  simp only [just_runs]
  constructor
  · rintro (⟨hc, h⟩ | ⟨l0, vs, z, h, ⟨_, l1, ⟨rfl, rfl, rfl⟩, rfl⟩ | ⟨ex, hn, _⟩ | ⟨ex, hn, _⟩ | ⟨ex, _, ⟨o, hn⟩, _⟩⟩)
    · exact ⟨l, h, by simp [hc]⟩
    · exact ⟨l0, h, by simp⟩
    · exact absurd hn (hcopy _ _ _ h)
    · rw [hf] at hn; cases hn
    · simp [connectM, M.pure] at hn
  · rintro ⟨l0, h, rfl⟩
    by_cases hc : c.ch = .value
    · right
      rw [comp_eta hc] at h ⊢
      exact ⟨l0, c.args, y, h, .inl ⟨hf _, [], ⟨rfl, rfl, rfl⟩, by simp⟩⟩
    · left; simp only [hc, ↓reduceIte, List.append_nil]; exact ⟨hc, h⟩

/-- Monad law, associativity (also `let_stopped`): the two groupings have exactly the same runs —
same events, same completion, same contexts — even when things throw. -/
theorem let_assoc (e : Env) (ch : Chan) (hch : ch ≠ .error) (f g : LFn) (kf kg : List Val → S) (s : S)
    (x l c y) :
    Runs e (.letc ch g kg (.letc ch f kf s)) x l c y ↔
      Runs e (.letc ch f (fun vs => .letc ch g kg (kf vs)) s) x l c y := by
  have hconn : ∀ t ex, ConnectThrows (.letc ch g kg t) ex ↔ ConnectThrows t ex := by
    intro t ex; rfl
  have herr : ∀ ex, (cerror ex).ch ≠ ch := fun ex h => hch h.symm
  have hne : ∀ ex vs, (⟨ch, vs⟩ : Comp) ≠ cerror ex := fun ex vs h => herr ex (by rw [← h])
  constructor
  · intro h
    rcases letc_runs.1 h with ⟨hc, h1⟩ | ⟨l0, vs, z, h1, h2⟩
    · rcases letc_runs.1 h1 with ⟨hc', h1⟩ | ⟨l0, vs, z, h1, hh⟩
      · exact letc_runs.2 (.inl ⟨hc', h1⟩)
      · refine letc_runs.2 (.inr ⟨l0, vs, z, h1, ?_⟩)
        rcases hh with ⟨hf, l1, h2, rfl⟩ | h2 | h2 | h2
        · exact .inl ⟨hf, l1, letc_runs.2 (.inl ⟨hc, h2⟩), rfl⟩
        · exact .inr (.inl h2)
        · exact .inr (.inr (.inl h2))
        · exact .inr (.inr (.inr h2))
    · rcases letc_runs.1 h1 with ⟨hc', _⟩ | ⟨l2, ws, u, h3, hh⟩
      · exact absurd rfl hc'
      · refine letc_runs.2 (.inr ⟨l2, ws, u, h3, ?_⟩)
        rcases hh with ⟨hf, l1, h4, rfl⟩ | ⟨ex, _, h4, _⟩ | ⟨ex, _, _, h4, _⟩ | ⟨ex, _, _, h4, _⟩
        · rcases h2 with ⟨hg, l3, h5, rfl⟩ | ⟨ex, h5, rfl, rfl, rfl⟩ | ⟨ex, h5, h6, rfl, rfl, rfl⟩ |
            ⟨ex, h5, h6, rfl, rfl, rfl⟩
          · exact .inl ⟨hf, l1 ++ .call g.id vs :: l3, letc_runs.2 (.inr ⟨l1, vs, z, h4,
              .inl ⟨hg, l3, h5, rfl⟩⟩), by simp⟩
          · exact .inl ⟨hf, l1 ++ [.threw ex], letc_runs.2 (.inr ⟨l1, vs, _, h4,
              .inr (.inl ⟨ex, h5, rfl, rfl, rfl⟩)⟩), by simp⟩
          · exact .inl ⟨hf, l1 ++ [.call g.id vs, .threw ex], letc_runs.2 (.inr ⟨l1, vs, _, h4,
              .inr (.inr (.inl ⟨ex, h5, h6, rfl, rfl, rfl⟩))⟩), by simp⟩
          · exact .inl ⟨hf, l1 ++ [.call g.id vs, .threw ex], letc_runs.2 (.inr ⟨l1, vs, _, h4,
              .inr (.inr (.inr ⟨ex, h5, h6, rfl, rfl, rfl⟩))⟩), by simp⟩
        · exact absurd h4 (hne ex vs)
        · exact absurd h4 (hne ex vs)
        · exact absurd h4 (hne ex vs)
  · intro h
    rcases letc_runs.1 h with ⟨hc, h1⟩ | ⟨l0, vs, z, h1, h2⟩
    · exact letc_runs.2 (.inl ⟨hc, letc_runs.2 (.inl ⟨hc, h1⟩)⟩)
    · rcases h2 with ⟨hf, l1, h3, rfl⟩ | ⟨ex, h2, rfl, rfl, rfl⟩ | ⟨ex, h2, h3, rfl, rfl, rfl⟩ |
        ⟨ex, h2, h3, rfl, rfl, rfl⟩
      · rcases letc_runs.1 h3 with ⟨hc, h4⟩ | ⟨l2, ws, u, h4, h5⟩
        · exact letc_runs.2 (.inl ⟨hc, letc_runs.2 (.inr ⟨l0, vs, z, h1, .inl ⟨hf, l1, h4, rfl⟩⟩)⟩)
        · refine letc_runs.2 (.inr ⟨l0 ++ .call f.id vs :: l2, ws, u,
            letc_runs.2 (.inr ⟨l0, vs, z, h1, .inl ⟨hf, l2, h4, rfl⟩⟩), ?_⟩)
          rcases h5 with ⟨hg, l3, h5, rfl⟩ | ⟨ex, h5, rfl, rfl, rfl⟩ | ⟨ex, h5, h6, rfl, rfl, rfl⟩ |
            ⟨ex, h5, h6, rfl, rfl, rfl⟩
          · exact .inl ⟨hg, l3, h5, by simp⟩
          · exact .inr (.inl ⟨ex, h5, rfl, rfl, by simp⟩)
          · exact .inr (.inr (.inl ⟨ex, h5, h6, rfl, rfl, by simp⟩))
          · exact .inr (.inr (.inr ⟨ex, h5, h6, rfl, rfl, by simp⟩))
      · exact letc_runs.2 (.inl ⟨herr ex, letc_runs.2 (.inr ⟨l0, vs, _, h1, .inr (.inl ⟨ex, h2, rfl, rfl, rfl⟩)⟩)⟩)
      · exact letc_runs.2 (.inl ⟨herr ex, letc_runs.2 (.inr ⟨l0, vs, _, h1,
          .inr (.inr (.inl ⟨ex, h2, h3, rfl, rfl, rfl⟩))⟩)⟩)
      · exact letc_runs.2 (.inl ⟨herr ex, letc_runs.2 (.inr ⟨l0, vs, _, h1,
          .inr (.inr (.inr ⟨ex, h2, (hconn _ _).1 h3, rfl, rfl, rfl⟩))⟩)⟩)

/-- `let_value(just(1), n ↦ just_stopped())`. -/
example : Runs exEnv (.letc .value { id := 8, noexc := fun _ => true, thr := fun _ => none, sigs := fun _ => [], ct := fun _ => false }
    (fun _ => .just cstopped) (.just (cvalue [exInt 1]))) 4 [.call 8 [exInt 1]] cstopped 4 :=
  letc_runs.2 (.inr ⟨[], [exInt 1], 4, just_runs.2 ⟨rfl, rfl, rfl⟩,
    .inl ⟨rfl, [], just_runs.2 ⟨rfl, rfl, rfl⟩, rfl⟩⟩)

/-! ## C28 completion signatures -/

/-- **C28** (partial: `WT` contains the three conditions marked (!) which the library does not
enforce; the witnesses below show they are needed). -/
theorem signatures_sound_partial {e : Env} {s : S} {x : Nat} {l : List Ev} {c : Comp} {y : Nat}
    (hw : WT e s) (h : Runs e s x l c y) : sigOf c ∈ sigs e s := sound s e hw h

/-- A well-formed expression never executes a call that would not compile. -/
theorem never_ill_formed {e : Env} {s : S} {x : Nat} (hw : WT e s) (m : St)
    (h : Reach (init e s x) step m) : m.ub = false := by
  cases h1 : m.ub with
  | false => rfl
  | true =>
      obtain ⟨l, it, hT, hb⟩ := (bad_shape e s x m h).2 h1
      exact absurd hb ((clean_ub s e hw).t1s _ hT)

example : WT exEnv exS := exS_ok.1

/-- Defect: `finally(just_error(E), just())` with a throwing copy of `E` completes with an
`exception_ptr` that is not declared. -/
theorem finally_undeclared : ∃ (e : Env) (s : S) (l : List Ev) (c : Comp),
    Runs e s 0 l c 0 ∧ sigOf c ∉ sigs e s :=
  ⟨exEnv, .fin (.just ⟨.error, [exBad 1]⟩) (.just (cvalue [])), [.threw 3], cerror 3,
    fin_runs.2 ⟨[], ⟨.error, [exBad 1]⟩, 0, just_runs.2 ⟨rfl, rfl, rfl⟩,
      .inr ⟨3, ⟨_, List.mem_singleton.2 rfl, rfl⟩, rfl, rfl, rfl, rfl⟩⟩, by decide⟩

/-- Defect: `repeat_until` of a child whose copy may throw but whose connect does not can complete
with an undeclared `exception_ptr`. -/
theorem repeat_until_undeclared : ∃ (e : Env) (s : S) (l : List Ev) (c : Comp),
    Runs e s 0 l c 0 ∧ sigOf c ∉ sigs e s := by
  let lf : Leaf := { id := 1, sigs := [⟨.value, [.bool]⟩], cpt := true }
  refine ⟨exEnv, .repU (.leaf lf), [.start 1 0, .finish 1 (cvalue [.bool false]) 0] ++ [.threw 3], cerror 3,
    repeatUntil_runs.2 ⟨1, [.start 1 0, .finish 1 (cvalue [.bool false]) 0], 0, [.threw 3],
      ?_, rfl, .inr (.inr (.inr (.inr (.inr ⟨by omega, rfl, 3, rfl, rfl, rfl⟩))))⟩, by decide⟩
  simpa using Chain.cons (e := exEnv) (s := .leaf lf) (leaf_runs.2 ⟨by decide, rfl⟩) (.inl rfl)
    (Chain.nil (x := 0))

/-- Defect: `repeat_n(just_stopped(), 0)` sends a value although none is declared. -/
theorem repeat_n_undeclared : ∃ (e : Env) (s : S) (l : List Ev) (c : Comp),
    Runs e s 0 l c 0 ∧ sigOf c ∉ sigs e s :=
  ⟨exEnv, .repN 0 (.just cstopped), [], cvalue [], repeatN_runs.2 (.inl ⟨.nil, rfl⟩), by decide⟩

/-! ## C29 exceptions -/

theorem loopRes_no_threw (f : BFn) (ex : Nat) : ∀ (n b : Nat) (vs : List Val),
    Ev.threw ex ∉ (loopRes f vs b n).1 := by
  intro n
  induction n with
  | zero => intro b vs; simp [loopRes]
  | succ n ih =>
      intro b vs
      simp only [loopRes]
      split <;> simp [ih]

theorem bulkRes_no_threw (kd : BKind) (n : Nat) (f : BFn) (vs : List Val) (ex : Nat) :
    Ev.threw ex ∉ (bulkRes kd n f vs).1 := by
  cases kd
  · simp only [bulkRes]; split <;> simp
  · exact loopRes_no_threw f ex n 0 vs
  · exact loopRes_no_threw f ex n 0 vs

theorem cstep_threw {k x c f l t ex} (h : CStep k x c f l t) (hm : Ev.threw ex ∈ l) :
    t = .compl (cerror ex) k x ∧ ∃ l', l = l' ++ [.threw ex] ∧ ∀ ex', Ev.threw ex' ∉ l' := by
  cases h with
  | uponThr _ f e => simp at hm; subst hm; exact ⟨rfl, [.call f.id c.args], rfl, by simp⟩
  | letCopy => simp at hm; subst hm; exact ⟨rfl, [], rfl, by simp⟩
  | letCall _ f => simp at hm; subst hm; exact ⟨rfl, [.call f.id c.args], rfl, by simp⟩
  | letConn _ f => simp at hm; subst hm; exact ⟨rfl, [.call f.id c.args], rfl, by simp⟩
  | contThr => simp at hm; subst hm; exact ⟨rfl, [], rfl, by simp⟩
  | finThr => simp at hm; subst hm; exact ⟨rfl, [], rfl, by simp⟩
  | seqThr => simp at hm; subst hm; exact ⟨rfl, [], rfl, by simp⟩
  | saoThr => simp at hm; subst hm; exact ⟨rfl, [], rfl, by simp⟩
  | ivarThr => simp at hm; subst hm; exact ⟨rfl, [], rfl, by simp⟩
  | repNThr => simp at hm; subst hm; exact ⟨rfl, [], rfl, by simp⟩
  | repNErrThr => simp at hm; subst hm; exact ⟨rfl, [], rfl, by simp⟩
  | repUThr => simp at hm; subst hm; exact ⟨rfl, [], rfl, by simp⟩
  | repUErrThr => simp at hm; subst hm; exact ⟨rfl, [], rfl, by simp⟩
  | bulkOk kd n f _ vs _ hb =>
      exact absurd hm (by have := bulkRes_no_threw kd n f c.args ex; rw [hb] at this; exact this)
  | bulkThr kd n f l e _ hb _ =>
      have hno : ∀ ex, Ev.threw ex ∉ l := fun ex => by
        have := bulkRes_no_threw kd n f c.args ex; rw [hb] at this; exact this
      rcases List.mem_append.1 hm with h | h
      · exact absurd h (hno ex)
      · simp at h; subst h; exact ⟨rfl, l, rfl, hno⟩
  | _ => simp at hm

theorem sstep_no_threw {e k x s l it ex} (h : SStep e k x s l it) : Ev.threw ex ∉ l := by
  cases h <;> simp

/-- **C29**. Whenever, in any reachable state, user code throws `ex` inside a call made by the machine
(and the program is not terminated), that call was a completion of some receiver `f` with downstream
receivers `k`, it threw exactly this once, and its one and only effect is
`set_error(exception_ptr(ex))` on the downstream receiver, on the same context. -/
theorem exception_delivered {e : Env} {s : S} {x : Nat} {m m' : St} {a : Act} {l : List Ev} {ex : Nat}
    (h : Reach (init e s x) step m) (hs : step m a = some m') (ht : m'.term = false) (hu : m'.ub = false)
    (hl : m'.log = m.log ++ l) (hex : Ev.threw ex ∈ l) :
    ∃ c f k y, m.tasks = [.compl c (f :: k) y] ∧ m'.tasks = [.compl (cerror ex) k y] ∧
      m'.wait = [] ∧ m'.done = [] ∧
      ∃ l', l = l' ++ [.threw ex] ∧ ∀ ex', Ev.threw ex' ∉ l' := by
  obtain ⟨_, ⟨h0, _⟩ | ⟨hmt, hmu, ⟨it, _, hh⟩ | ⟨c', y', hT, h1, h2, h3⟩⟩⟩ := shape e s x m h
  · unfold step at hs; rw [if_pos (by simpa using h0)] at hs; cases hs
  · obtain ⟨_, h1 | ⟨l1, it', h1, h2, _, _, h3⟩ | ⟨c, y, _, _, _, _, h3⟩⟩ := step_item hh hmt hmu hs
    · simp [ht, hu] at h1
    · rw [hl] at h3
      have := List.append_cancel_left h3; subst this
      cases h1 with
      | start h1 => exact absurd hex (sstep_no_threw h1)
      | @compl c f k y _ t h1 =>
          obtain ⟨rfl, l', h4, h5⟩ := cstep_threw h1 hex
          exact ⟨c, f, k, y, hh.2.1, h2.2.1, h2.2.2, h2.1, l', h4, h5⟩
      | leaf => simp at hex
    · rw [hl] at h3; simp at h3; subst h3; cases hex
  · exfalso
    unfold step at hs
    split at hs
    · cases hs
    · cases a <;> simp [h1, h2] at hs

/-- **C29**, never escapes (partial: `NoTerm` excludes run-time connects of a `finally` with throwing
child connects, for which the claim is false: `finally_terminates`). -/
theorem never_terminates_partial {e : Env} {s : S} {x : Nat} (hn : NoTerm s) (m : St)
    (h : Reach (init e s x) step m) : m.term = false := by
  cases h1 : m.term with
  | false => rfl
  | true =>
      obtain ⟨l, it, hT, hb⟩ := (bad_shape e s x m h).1 h1
      exact absurd hb ((clean_term s e hn).t1s _ hT)

example : NoTerm exS := exS_ok.2.1

/-- Such a step exists: `f` throws 9 while `exS` runs. -/
example : ∃ m, Reach (init exEnv exS 0) step m ∧ (m.log.getLast? == some (.threw 9)) = true :=
  Reach.witness [.run 0 [], .run 0 [], .run 0 [], .run 0 [], .leaf 0 (cvalue [exInt 0]) 3, .run 0 [],
    .run 0 [], .leaf 0 (cvalue []) 5, .run 0 [], .run 0 []] _ (by decide)

/-- Defect: `sequence(just(), finally(s, just()))` where connecting `s` throws terminates the program
instead of completing with the exception. -/
theorem finally_terminates : ∃ m, Reach (init exEnv
    (.seq (.just (cvalue [])) (.fin (.leaf { exLeaf with ct := true }) (.just (cvalue [])))) 0) step m ∧
    m.term = true :=
  Reach.witness [Act.run 0 [], Act.run 0 [], Act.run 0 [some 3]] (fun m : St => m.term) (by decide)

/-! ## C30 where things run -/

/-- **C30** continues_on (partial: if storing the predecessor's result throws, the exception is
delivered on the *predecessor's* context, see `continues_on_wrong_context`). Otherwise: whatever the
predecessor completed with is delivered on the scheduler's context, or — if scheduling failed or was
stopped — that completion is. -/
theorem continues_on_partial (e : Env) (sch : Leaf) (ctx : Nat) (hctx : sch.on = some ctx) (s : S) (x l c y)
    (hnt : ∀ l0 c0 z, Runs e s x l0 c0 z → ¬ CopyThrows c0.args) :
    Runs e (.contOn sch s) x l c y ↔
      ∃ l0 c0 z d, Runs e s x l0 c0 z ∧ l = l0 ++ [.start sch.id z, .finish sch.id d y] ∧
        sigOf d ∈ sch.sigs ∧
        ((d.ch = .value ∧ y = ctx ∧ c = c0) ∨ (d.ch ≠ .value ∧ c = d)) := by
  have hal : ∀ d, sch.allows d y = true ↔ sigOf d ∈ sch.sigs ∧ (d.ch = .value → y = ctx) := by
    intro d
    unfold Leaf.allows
    rw [hctx]
    cases d.ch <;> simp
  rw [contOn_runs]
  constructor
  · rintro ⟨l0, c0, z, h, ⟨d, h1, rfl, rfl⟩ | ⟨ex, hn, _⟩⟩
    · obtain ⟨h2, h3⟩ := (hal d).1 h1
      refine ⟨l0, c0, z, d, h, rfl, h2, ?_⟩
      by_cases hd : d.ch = .value
      · exact .inl ⟨hd, h3 hd, by simp [hd]⟩
      · exact .inr ⟨hd, by simp [hd]⟩
    · exact absurd hn (hnt _ _ _ h)
  · rintro ⟨l0, c0, z, d, h, rfl, h2, ⟨hd, rfl, rfl⟩ | ⟨hd, rfl⟩⟩
    · exact ⟨l0, c, z, h, .inl ⟨d, (hal d).2 ⟨h2, fun _ => rfl⟩, by simp [hd], rfl⟩⟩
    · exact ⟨l0, c0, z, h, .inl ⟨c, (hal c).2 ⟨h2, fun h => absurd h hd⟩, by simp [hd], rfl⟩⟩

/-- Without the hypothesis: the complete behaviour. -/
theorem continues_on_full (e : Env) (sch : Leaf) (s : S) (x l c y) :
    Runs e (.contOn sch s) x l c y ↔
      ∃ l0 c0 z, Runs e s x l0 c0 z ∧
        ((∃ d, sch.allows d y = true ∧ c = (if d.ch = .value then c0 else d) ∧
            l = l0 ++ [.start sch.id z, .finish sch.id d y]) ∨
         (∃ ex, CopyThrows c0.args ∧ c = cerror ex ∧ y = z ∧ l = l0 ++ [.threw ex])) := contOn_runs

/-- Defect: a completion that is neither on the scheduler's context nor the scheduler's own. -/
theorem continues_on_wrong_context : ∃ (s : S) (l : List Ev) (c : Comp),
    exSched.on = some 5 ∧ Runs exEnv (.contOn exSched s) 0 l c 0 ∧ ∀ d y, Ev.finish exSched.id d y ∉ l :=
  ⟨.just (cvalue [exBad 1]), [.threw 3], cerror 3, rfl,
    contOn_runs.2 ⟨[], cvalue [exBad 1], 0, just_runs.2 ⟨rfl, rfl, rfl⟩,
      .inr ⟨3, ⟨_, List.mem_singleton.2 rfl, rfl⟩, rfl, rfl, rfl⟩⟩, by simp⟩

/-- `leaf` completes on context 3, its value is delivered on 5. -/
example : Runs exEnv (.contOn exSched (.leaf exLeaf)) 0
    ([.start 1 0, .finish 1 (cvalue [exInt 8]) 3] ++ [.start 2 3, .finish 2 (cvalue []) 5])
    (cvalue [exInt 8]) 5 :=
  contOn_runs.2 ⟨_, cvalue [exInt 8], 3, leaf_runs.2 ⟨by decide, rfl⟩,
    .inl ⟨cvalue [], by decide, rfl, rfl⟩⟩

/-- **C30** starts_on: the sender is started exactly where scheduling completed, i.e. on the
scheduler's context; if scheduling fails or is stopped that is the completion and the sender is never
started. -/
theorem starts_on_spec (e : Env) (sch : Leaf) (ctx : Nat) (hctx : sch.on = some ctx) (s : S) (x l c y) :
    Runs e (.startsOn sch s) x l c y ↔
      (∃ l1 d, d.ch = .value ∧ sigOf d ∈ sch.sigs ∧ Runs e s ctx l1 c y ∧
        l = [.start sch.id x, .finish sch.id d ctx] ++ l1) ∨
      (c.ch ≠ .value ∧ sigOf c ∈ sch.sigs ∧ l = [.start sch.id x, .finish sch.id c y]) ∨
      (∃ ex d, d.ch = .value ∧ sigOf d ∈ sch.sigs ∧ ConnectThrows s ex ∧ c = cerror ex ∧ y = ctx ∧
        l = [.start sch.id x, .finish sch.id d ctx, .threw ex]) := by
  have hal : ∀ d y, sch.allows d y = true ↔ sigOf d ∈ sch.sigs ∧ (d.ch = .value → y = ctx) := by
    intro d y
    unfold Leaf.allows
    rw [hctx]
    cases d.ch <;> simp
  have hcont : ∀ l c y, Runs e (.contOn sch (.just (cvalue []))) x l c y ↔
      ∃ d, sch.allows d y = true ∧ c = (if d.ch = .value then cvalue [] else d) ∧
            l = [.start sch.id x, .finish sch.id d y] := by
    intro l c y
    rw [contOn_runs]
    simp only [just_runs]
    constructor
    · rintro ⟨l0, c0, z, ⟨rfl, rfl, rfl⟩, ⟨d, h1, h2, h3⟩ | ⟨ex, hn, _⟩⟩
      · exact ⟨d, h1, h2, h3⟩
      · simp [CopyThrows] at hn
    · rintro ⟨d, h1, h2, h3⟩
      exact ⟨[], _, x, ⟨rfl, rfl, rfl⟩, .inl ⟨d, h1, h2, h3⟩⟩
  rw [S.startsOn, seq_runs]
  simp only [hcont, hal]
  constructor
  · rintro (⟨hc, d, ⟨h1, h2⟩, h3, rfl⟩ | ⟨l0, vs, z, ⟨d, ⟨h1, h2⟩, h3, rfl⟩, ⟨l1, h4, rfl⟩ | ⟨ex, h4, rfl, rfl, rfl⟩⟩)
    · by_cases hd : d.ch = .value
      · simp [hd] at h3; subst h3; exact absurd rfl hc
      · simp only [hd, ↓reduceIte] at h3; subst h3; exact .inr (.inl ⟨hc, h1, rfl⟩)
    · by_cases hd : d.ch = .value
      · obtain rfl := h2 hd
        exact .inl ⟨l1, d, hd, h1, h4, rfl⟩
      · simp only [hd, ↓reduceIte] at h3; rw [← h3] at hd; exact absurd rfl hd
    · by_cases hd : d.ch = .value
      · obtain rfl := h2 hd
        exact .inr (.inr ⟨ex, d, hd, h1, h4, rfl, rfl, rfl⟩)
      · simp only [hd, ↓reduceIte] at h3; rw [← h3] at hd; exact absurd rfl hd
  · rintro (⟨l1, d, hd, h1, h4, rfl⟩ | ⟨hc, h1, rfl⟩ | ⟨ex, d, hd, h1, h4, rfl, rfl, rfl⟩)
    · exact .inr ⟨_, [], ctx, ⟨d, ⟨h1, fun _ => rfl⟩, by simp [hd], rfl⟩, .inl ⟨l1, h4, rfl⟩⟩
    · exact .inl ⟨hc, c, ⟨h1, fun h => absurd h hc⟩, by simp [hc], rfl⟩
    · exact .inr ⟨_, [], _, ⟨d, ⟨h1, fun _ => rfl⟩, by simp [hd], rfl⟩, .inr ⟨ex, h4, rfl, rfl, rfl⟩⟩

/-- The sender of `starts_on(sched, leaf)` starts on context 5. -/
example : Runs exEnv (.startsOn exSched (.leaf exLeaf)) 0
    ([.start 2 0, .finish 2 (cvalue []) 5] ++ [.start 1 5, .finish 1 cstopped 6]) cstopped 6 :=
  (starts_on_spec exEnv exSched 5 rfl _ _ _ _ _).2
    (.inl ⟨_, cvalue [], rfl, by decide, leaf_runs.2 ⟨by decide, rfl⟩, rfl⟩)

/-! ## C31 finally -/

/-- **C31** (partial: results whose copy may throw are excluded, see `finally_skips_final`). -/
theorem finally_partial (e : Env) (a b : S) (x l c y)
    (hnt : ∀ l0 c0 z, Runs e a x l0 c0 z → ¬ CopyThrows c0.args) :
    Runs e (.fin a b) x l c y ↔
      ∃ l0 c0 z l1 d, Runs e a x l0 c0 z ∧ Runs e b z l1 d y ∧ l = l0 ++ l1 ∧
        ((d.ch = .value ∧ c = c0) ∨ (d.ch ≠ .value ∧ c = d)) := by
  rw [fin_runs]
  constructor
  · rintro ⟨l0, c0, z, h, ⟨l1, d, h1, rfl, rfl⟩ | ⟨ex, hn, _⟩⟩
    · refine ⟨l0, c0, z, l1, d, h, h1, rfl, ?_⟩
      by_cases hd : d.ch = .value <;> simp [hd]
    · exact absurd hn (hnt _ _ _ h)
  · rintro ⟨l0, c0, z, l1, d, h, h1, rfl, ⟨hd, rfl⟩ | ⟨hd, rfl⟩⟩
    · exact ⟨l0, c, z, h, .inl ⟨l1, d, h1, by simp [hd], rfl⟩⟩
    · exact ⟨l0, c0, z, h, .inl ⟨l1, c, h1, by simp [hd], rfl⟩⟩

/-- Without the hypothesis: the complete behaviour. -/
theorem finally_full (e : Env) (a b : S) (x l c y) :
    Runs e (.fin a b) x l c y ↔
      ∃ l0 c0 z, Runs e a x l0 c0 z ∧
        ((∃ l1 d, Runs e b z l1 d y ∧ c = (if d.ch = .value then c0 else d) ∧ l = l0 ++ l1) ∨
         (∃ ex, CopyThrows c0.args ∧ sendsValue (sigs e b) = true ∧ c = cerror ex ∧ y = z ∧
            l = l0 ++ [.threw ex])) := fin_runs

/-- Defect: the final sender (leaf 6) is never started. -/
theorem finally_skips_final : ∃ (l : List Ev) (c : Comp),
    Runs exEnv (.fin (.just (cvalue [exBad 1])) (.leaf { id := 6, sigs := [⟨.value, []⟩] })) 0 l c 0 ∧
    ∀ z, Ev.start 6 z ∉ l :=
  ⟨[.threw 3], cerror 3, fin_runs.2 ⟨[], cvalue [exBad 1], 0, just_runs.2 ⟨rfl, rfl, rfl⟩,
    .inr ⟨3, ⟨_, List.mem_singleton.2 rfl, rfl⟩, rfl, rfl, rfl, rfl⟩⟩, by simp⟩

/-- `finally(just_error(2), leaf)`: the leaf runs, then the error is delivered where it completed. -/
example : Runs exEnv (.fin (.just (cerror 2)) (.leaf { id := 6, sigs := [⟨.value, []⟩] })) 0
    [.start 6 0, .finish 6 (cvalue []) 3] (cerror 2) 3 :=
  fin_runs.2 ⟨[], cerror 2, 0, just_runs.2 ⟨rfl, rfl, rfl⟩, .inl ⟨_, cvalue [],
    leaf_runs.2 ⟨by decide, rfl⟩, rfl, rfl⟩⟩

/-! ## C32 reifying adaptors -/

/-- **C32**: `dematerialize(materialize(s))` has exactly the runs of `s`. -/
theorem demat_mat (e : Env) (s : S) (x l c y) :
    Runs e (.demat (.mat s)) x l c y ↔ Runs e s x l c y := by
  rw [demat_runs]
  simp only [mat_runs]
  constructor
  · rintro (⟨hc, c0, _, rfl⟩ | ⟨c0, h, h1⟩)
    · exact absurd rfl hc
    · injection h1 with _ h1; injection h1 with h1 h2; injection h1 with h1
      cases c; cases c0; simp only at h1 h2; subst h1 h2; exact h
  · intro h
    exact .inr ⟨c, h, rfl⟩

theorem tupVal_inj : ∀ {vs ws : List Val}, tupVal vs = tupVal ws → vs = ws
  | [], [], _ => rfl
  | [], _ :: _, h => by simp [tupVal] at h
  | _ :: _, [], h => by simp [tupVal] at h
  | v :: vs, w :: ws, h => by
      simp only [tupVal, Val.cons.injEq] at h
      rw [h.1, tupVal_inj h.2]

/-- **C32** into_variant: a value completion of `s` arrives as one variant from which the values can
be recovered (`dec`); errors and stopped arrive unchanged; nothing else arrives except the exception
of a throwing copy. -/
theorem into_variant_lossless (e : Env) (s : S) : ∃ dec : Comp → Option (List Val),
    ∀ x l c y, Runs e (.ivar s) x l c y →
      (∃ vs, Runs e s x l ⟨.value, vs⟩ y ∧ c.ch = .value ∧ dec c = some vs) ∨
      (c.ch ≠ .value ∧ Runs e s x l c y) ∨
      (∃ l0 vs ex, Runs e s x l0 ⟨.value, vs⟩ y ∧ CopyThrows vs ∧ c = cerror ex ∧ l = l0 ++ [.threw ex]) := by
  classical
  refine ⟨fun c => if h : ∃ vs, ∃ t u, c = ⟨.value, [.alt t u (tupVal vs)]⟩ then some h.choose else none, ?_⟩
  intro x l c y hrun
  rcases ivar_runs.1 hrun with ⟨hc, h⟩ | ⟨vs, h, rfl⟩ | ⟨l0, vs, ex, h, hn, rfl, rfl⟩
  · exact .inr (.inl ⟨hc, h⟩)
  · refine .inl ⟨vs, h, rfl, ?_⟩
    have hex : ∃ ws, ∃ t u, (cvalue [.alt (tupTy ((valueTys (sigs e s)).map tupTy)) (tupTy (tys vs)) (tupVal vs)]) =
      (⟨.value, [.alt t u (tupVal ws)]⟩ : Comp) := ⟨vs, _, _, rfl⟩
    show dite _ _ _ = _
    rw [dif_pos hex]
    obtain ⟨t, u, h1⟩ := hex.choose_spec
    injection h1 with _ h1; injection h1 with h1 _; injection h1 with _ _ h1
    rw [← tupVal_inj h1]
  · exact .inr (.inr ⟨l0, vs, ex, h, hn, rfl, rfl⟩)

/-- … and every completion of `s` is so represented. -/
theorem into_variant_complete (e : Env) (s : S) (x l c y) (h : Runs e s x l c y) :
    (c.ch ≠ .value → Runs e (.ivar s) x l c y) ∧
    (c.ch = .value → ∃ t u, Runs e (.ivar s) x l ⟨.value, [.alt t u (tupVal c.args)]⟩ y) := by
  refine ⟨fun hc => ivar_runs.2 (.inl ⟨hc, h⟩), fun hc => ⟨_, _, ivar_runs.2 (.inr (.inl ⟨c.args, ?_, rfl⟩))⟩⟩
  rw [comp_eta hc] at h; exact h

/-- **C32** stopped_as_optional: engaged optional for values, empty optional for stopped, errors
unchanged. -/
theorem stopped_as_optional_spec (e : Env) (s : S) (x l c y) :
    Runs e (.sao s) x l c y ↔
      (c.ch = .error ∧ Runs e s x l c y) ∨
      (∃ vs, Runs e s x l ⟨.value, vs⟩ y ∧ c = ⟨.value, [.some (singleTy (sigs e s)) (tupVal vs)]⟩) ∨
      (∃ vs, Runs e s x l ⟨.stopped, vs⟩ y ∧ c = ⟨.value, [.null (singleTy (sigs e s))]⟩) ∨
      (∃ l0 vs ex, Runs e s x l0 ⟨.value, vs⟩ y ∧ CopyThrows vs ∧ c = cerror ex ∧
        l = l0 ++ [.threw ex]) := sao_runs

/-- **C32** stopped_as_error: stopped becomes the given error, everything else passes. (`.call 0 []`
is the library's own lambda.) -/
theorem stopped_as_error_spec (e : Env) (v : Val) (s : S) (x l c y)
    (hst : ∀ l vs z, Runs e s x l ⟨.stopped, vs⟩ z → vs = []) :
    Runs e (.stoppedAsError v s) x l c y ↔
      (c.ch ≠ .stopped ∧ Runs e s x l c y) ∨
      (∃ l0, Runs e s x l0 ⟨.stopped, []⟩ y ∧ c = ⟨.error, [v]⟩ ∧ l = l0 ++ [.call 0 []]) := by
  rw [S.stoppedAsError, letc_runs]
  simp only [just_runs]
  constructor
  · rintro (⟨hc, h⟩ | ⟨l0, vs, z, h, hh⟩)
    · exact .inl ⟨hc, h⟩
    · obtain rfl := hst _ _ _ h
      rcases hh with ⟨_, l1, ⟨rfl, rfl, rfl⟩, rfl⟩ | ⟨ex, hn, _⟩ | ⟨ex, hn, _⟩ | ⟨ex, _, ⟨o, hn⟩, _⟩
      · exact .inr ⟨l0, h, rfl, rfl⟩
      · simp [CopyThrows] at hn
      · cases hn
      · simp [connectM, M.pure] at hn
  · rintro (⟨hc, h⟩ | ⟨l0, h, rfl, rfl⟩)
    · exact .inl ⟨hc, h⟩
    · exact .inr ⟨l0, [], y, h, .inl ⟨trivial, [], ⟨rfl, rfl, rfl⟩, rfl⟩⟩

example : Runs exEnv (.demat (.mat (.just cstopped))) 0 [] cstopped 0 :=
  (demat_mat ..).2 (just_runs.2 ⟨rfl, rfl, rfl⟩)

/-! ## C33 repetition -/

/-- **C33** repeat_n. -/
theorem repeat_n_spec (e : Env) (s : S) (n x l c y) :
    Runs e (.repN n s) x l c y ↔
      (Chain e s (fun _ => True) n x l y ∧ c = ⟨.value, []⟩) ∨
      ∃ m l0 z l1, m < n ∧ Chain e s (fun _ => True) m x l0 z ∧
        RoundEnds e s (0 < m) z l1 c y ∧ l = l0 ++ l1 := repeatN_runs

/-- In particular: a value completion means exactly `n` successful runs. -/
theorem repeat_n_value {e : Env} {s : S} {n x l vs y} (h : Runs e (.repN n s) x l ⟨.value, vs⟩ y) :
    Chain e s (fun _ => True) n x l y ∧ vs = [] := by
  rcases repeatN_runs.1 h with ⟨h, h1⟩ | ⟨m, l0, z, l1, _, _, hr, _⟩
  · exact ⟨h, by injection h1⟩
  · rcases hr with ⟨hc, _⟩ | ⟨_, _, _, _, _, hc, _⟩ | ⟨_, hc, _⟩ | ⟨_, _, hc, _⟩ | ⟨_, _, _, hc, _⟩
    · exact absurd rfl hc
    all_goals (injection hc with hc; cases hc)

/-- **C33** repeat_until. -/
theorem repeat_until_spec (e : Env) (s : S) (x l c y) :
    Runs e (.repU s) x l c y ↔
      ∃ m l0 z l1, Chain e s (IsBool false) m x l0 z ∧ l = l0 ++ l1 ∧
        ((∃ vs, Runs e s z l1 ⟨.value, vs⟩ y ∧ IsBool true vs ∧ c = ⟨.value, []⟩) ∨
         RoundEnds e s (0 < m) z l1 c y) := repeatUntil_runs

/-- `repeat(s)` never completes with values. -/
theorem repeat_never_value {e : Env} {s : S} {x l vs y} : ¬ Runs e (.repeat s) x l ⟨.value, vs⟩ y := by
  intro h
  obtain ⟨m, l0, z, l1, _, _, ⟨ws, h1, hb, _⟩ | hr⟩ := repeatUntil_runs.1 h
  · rcases upon_runs.1 h1 with ⟨hc, _⟩ | ⟨l2, us, _, ⟨r, h2, h3, _⟩ | ⟨ex, h2, _⟩⟩
    · exact absurd rfl hc
    · simp only [neverFn, Except.ok.injEq] at h2; subst h2
      injection h3 with _ h3; subst h3
      rcases hb with hb | hb <;> simp at hb
    · simp [neverFn] at h2
  · rcases hr with ⟨hc, _⟩ | ⟨_, _, _, _, _, hc, _⟩ | ⟨_, hc, _⟩ | ⟨_, _, hc, _⟩ | ⟨_, _, _, hc, _⟩
    · exact absurd rfl hc
    all_goals (injection hc with hc; cases hc)

/-- `repeat_n(leaf, 2)`: two runs, the second started where the first completed. -/
example : Runs exEnv (.repN 2 (.leaf { id := 6, sigs := [⟨.value, []⟩] })) 0
    ([.start 6 0, .finish 6 (cvalue []) 3] ++ ([.start 6 3, .finish 6 (cvalue []) 1] ++ [])) (cvalue []) 1 :=
  repeatN_runs.2 (.inl ⟨.cons (leaf_runs.2 ⟨by decide, rfl⟩) trivial
    (.cons (leaf_runs.2 ⟨by decide, rfl⟩) trivial .nil), rfl⟩)

/-! ## C45 sequence, default bulk, environments -/

/-- **C45** sequence of two. -/
theorem sequence_spec (e : Env) (a b : S) (x l c y) :
    Runs e (.seq a b) x l c y ↔
      (c.ch ≠ .value ∧ Runs e a x l c y) ∨
      (∃ l0 vs z, Runs e a x l0 ⟨.value, vs⟩ z ∧
        ((∃ l1, Runs e b z l1 c y ∧ l = l0 ++ l1) ∨
         (∃ ex, ConnectThrows b ex ∧ c = cerror ex ∧ y = z ∧ l = l0 ++ [.threw ex]))) := seq_runs

/-- **C45** default bulk. -/
theorem bulk_spec (e : Env) (kd : BKind) (n : Nat) (f : BFn) (s : S) (x l c y) :
    Runs e (.bulk kd n f s) x l c y ↔
      (c.ch ≠ .value ∧ Runs e s x l c y) ∨
      (∃ l0 vs, Runs e s x l0 ⟨.value, vs⟩ y ∧
        ((∃ lb vs', BulkSpec kd n f vs lb (.ok vs') ∧ c = ⟨.value, vs'⟩ ∧ l = l0 ++ lb) ∨
         (∃ lb ex, BulkSpec kd n f vs lb (.error ex) ∧ f.noexc = false ∧ c = cerror ex ∧
            l = l0 ++ lb ++ [.threw ex]))) := bulk_runs

/-- The indices passed to a `bulk` function that does not throw are exactly `0, …, n-1`, in order. -/
theorem bulk_indices {f : BFn} {b n : Nat} {vs vs' : List Val} {l : List Ev}
    (h : BulkCalls f b n vs l (.ok vs')) :
    l.map (fun ev => match ev with | .callB _ i _ _ => i | _ => 0) = List.range' b (n - b) ∧ b ≤ n := by
  generalize hr : (Except.ok vs' : Except Nat (List Val)) = r at h
  induction h with
  | done => simp
  | @next b n _ _ _ _ h1 _ _ ih =>
      obtain ⟨h2, h3⟩ := ih hr
      refine ⟨?_, by omega⟩
      rw [List.map_cons, h2, show n - b = n - (b + 1) + 1 by omega, List.range'_succ]
  | throw => cases hr

/-- **C45** `write_env` changes one query of the environment its child sees; `read_env` reads it. -/
theorem read_write_env (e : Env) (q : Nat) (v : Val) (q' : Nat) (x l c y) :
    Runs e (.writeEnv q v (.readEnv q')) x l c y ↔
      ∃ w, (if q' = q then w = v else e q' = some w) ∧ c = ⟨.value, [w]⟩ ∧ y = x ∧ l = [] := by
  rw [writeEnv_runs, readEnv_runs]
  simp only [upd_apply]
  constructor
  · rintro ⟨w, h, rfl, rfl, rfl⟩
    refine ⟨w, ?_, rfl, rfl, rfl⟩
    split at h
    · rename_i hq; simp only [hq, ↓reduceIte]; injection h with h; exact h.symm
    · rename_i hq; simp only [hq, ↓reduceIte]; exact h
  · rintro ⟨w, h, rfl, rfl, rfl⟩
    refine ⟨w, ?_, rfl, rfl, rfl⟩
    split at h
    · rename_i hq; simp [hq, h]
    · rename_i hq; simp [hq, h]

example : Runs exEnv (.writeEnv 3 (exInt 4) (.readEnv 3)) 0 [] (cvalue [exInt 4]) 0 :=
  (read_write_env ..).2 ⟨exInt 4, rfl, rfl, rfl, rfl⟩

end Verif.Sender
