import Verif.Sender.Small
/-!
# Runs: the machine as a single thread of control (proof tool)

At any moment exactly one call is pending or one leaf is in flight (`Item`). `T1` is one move of
that item, `T1s` many. `Runs e s x l c y` (the notion used in the property statements) is defined
from the machine of `Model.lean` only; `runs_iff` connects the two.
-/
namespace Verif.Sender

abbrev Item := Task ⊕ (Leaf × List Frame)

/-- One move of the pending item. -/
inductive T1 (root : Env) : Item → List Ev → Item → Prop
  | start {s k x l it} : SStep (envOf root k) k x s l it → T1 root (.inl (.start s k x)) l it
  | compl {c f k x l t} : CStep k x c f l t → T1 root (.inl (.compl c (f :: k) x)) l (.inl t)
  | leaf {l : Leaf} {k c x} : l.allows c x = true →
      T1 root (.inr (l, k)) [.finish l.id c x] (.inl (.compl c k x))

/-- Many moves, concatenating the logs. -/
inductive T1s (root : Env) : Item → List Ev → Item → Prop
  | refl it : T1s root it [] it
  | head {a l b l' c} : T1 root a l b → T1s root b l' c → T1s root a (l ++ l') c

theorem T1s.trans {root : Env} {a b c : Item} {l l' : List Ev} (h : T1s root a l b)
    (h' : T1s root b l' c) : T1s root a (l ++ l') c := by
  induction h with
  | refl it => exact h'
  | head h1 _ ih => rw [List.append_assoc]; exact .head h1 (ih h')

theorem T1s.one {root : Env} {a b : Item} {l : List Ev} (h : T1 root a l b) : T1s root a l b := by
  simpa using T1s.head h (.refl b)

theorem T1s.snoc {root : Env} {a b c : Item} {l l' : List Ev} (h : T1s root a l b)
    (h' : T1 root b l' c) : T1s root a (l ++ l') c := h.trans (.one h')

/-! ### framing -/

/-- Append to the item's continuation. -/
def Item.app (k : List Frame) : Item → Item
  | .inl (.start s j x) => .inl (.start s (j ++ k) x)
  | .inl (.compl c j x) => .inl (.compl c (j ++ k) x)
  | .inr (l, j) => .inr (l, j ++ k)

theorem envOf_append (root : Env) (j k : List Frame) :
    envOf root (j ++ k) = envOf (envOf root k) j := by
  induction j with
  | nil => rfl
  | cons f j ih => simp [envOf, ih]

theorem SStep.app {e : Env} {j : List Frame} {x : Nat} {s : S} {l : List Ev} {it : Item}
    (k : List Frame) (h : SStep e j x s l it) : SStep e (j ++ k) x s l (it.app k) := by
  cases h <;> simp only [Item.app]
  case leaf => exact .leaf _
  case just => exact .just _
  case trampV => exact .trampV
  case trampS h => exact .trampS h
  case readEnv h => exact .readEnv _ _ h
  case writeEnv => exact .writeEnv ..
  case upon => exact .upon ..
  case letc => exact .letc ..
  case contOn => exact .contOn ..
  case fin => exact .fin ..
  case seq => exact .seq ..
  case sao => exact .sao ..
  case ivar => exact .ivar ..
  case mat => exact .mat ..
  case demat => exact .demat ..
  case repN0 => exact .repN0 ..
  case repN h => exact .repN _ _ h
  case repU => exact .repU ..
  case bulk => exact .bulk ..
  case unlessStop h => exact .unlessStop _ h
  case unlessGo h => exact .unlessGo _ h
  case unlessNo h => exact .unlessNo _ h

theorem SStep.unapp {e : Env} {j : List Frame} {x : Nat} {s : S} {l : List Ev} {it : Item}
    {k : List Frame} (h : SStep e (j ++ k) x s l it) :
    ∃ it0 : Item, it = it0.app k ∧ SStep e j x s l it0 := by
  cases h
  case leaf => exact ⟨_, (by simp only [Item.app]), .leaf _⟩
  case just => exact ⟨.inl (.compl _ j x), rfl, .just _⟩
  case trampV => exact ⟨.inl (.compl _ j x), rfl, .trampV⟩
  case trampS h => exact ⟨.inl (.compl _ j x), rfl, .trampS h⟩
  case readEnv h => exact ⟨.inl (.compl _ j x), rfl, .readEnv _ _ h⟩
  case repN0 => exact ⟨.inl (.compl _ j x), rfl, .repN0 ..⟩
  case unlessStop h => exact ⟨.inl (.compl _ j x), rfl, .unlessStop _ h⟩
  case unlessGo h => exact ⟨.inl (.start _ (_ :: j) x), rfl, .unlessGo _ h⟩
  case unlessNo h => exact ⟨.inl (.start _ j x), rfl, .unlessNo _ h⟩
  case repN h => exact ⟨.inl (.start _ (_ :: j) x), rfl, .repN _ _ h⟩
  case writeEnv => exact ⟨.inl (.start _ (_ :: j) x), rfl, .writeEnv ..⟩
  case upon => exact ⟨.inl (.start _ (_ :: j) x), rfl, .upon ..⟩
  case letc => exact ⟨.inl (.start _ (_ :: j) x), rfl, .letc ..⟩
  case contOn => exact ⟨.inl (.start _ (_ :: j) x), rfl, .contOn ..⟩
  case fin => exact ⟨.inl (.start _ (_ :: j) x), rfl, .fin ..⟩
  case seq => exact ⟨.inl (.start _ (_ :: j) x), rfl, .seq ..⟩
  case sao => exact ⟨.inl (.start _ (_ :: j) x), rfl, .sao ..⟩
  case ivar => exact ⟨.inl (.start _ (_ :: j) x), rfl, .ivar ..⟩
  case mat => exact ⟨.inl (.start _ (_ :: j) x), rfl, .mat ..⟩
  case demat => exact ⟨.inl (.start _ (_ :: j) x), rfl, .demat ..⟩
  case repU => exact ⟨.inl (.start _ (_ :: j) x), rfl, .repU ..⟩
  case bulk => exact ⟨.inl (.start _ (_ :: j) x), rfl, .bulk ..⟩

/-- A `CStep` result as a function of the continuation. -/
def Task.app (k : List Frame) : Task → Task
  | .start s j x => .start s (j ++ k) x
  | .compl c j x => .compl c (j ++ k) x

set_option hygiene false in
macro "csolve" : tactic => `(tactic| first
  | exact .env _ _ | exact .fwd | exact .mat
  | exact .uponPass _ _ (by assumption) | exact .uponOk _ _ _ (by assumption) (by assumption)
  | exact .uponThr _ _ _ (by assumption) (by assumption) (by assumption)
  | exact .letPass _ _ _ (by assumption) | exact .letCopy _ _ _ _ (by assumption) (by assumption)
  | exact .letCall _ _ _ _ (by assumption) (by assumption) (by assumption)
  | exact .letConn _ _ _ _ (by assumption) (by assumption) (by assumption)
  | exact .letOk _ _ _ (by assumption) (by assumption)
  | exact .contThr _ _ (by assumption) | exact .contOk _
  | exact .cont2V _ (by assumption) | exact .cont2E _ (by assumption)
  | exact .finThr _ _ (by assumption) | exact .finOk _ _
  | exact .fin2V _ (by assumption) | exact .fin2E _ (by assumption)
  | exact .seqPass _ (by assumption) | exact .seqThr _ _ (by assumption) (by assumption)
  | exact .seqOk _ (by assumption)
  | exact .saoThr _ _ (by assumption) (by assumption) | exact .saoV _ (by assumption)
  | exact .saoE _ (by assumption) | exact .saoS _ (by assumption)
  | exact .ivarPass _ (by assumption) | exact .ivarThr _ _ (by assumption) (by assumption)
  | exact .ivarV _ (by assumption)
  | exact .dematPass (by assumption) | exact .dematV _ _ (by assumption) (by assumption)
  | exact .repNDone _ _ (by assumption) (by assumption)
  | exact .repNThr _ _ _ (by assumption) (by assumption) (by assumption)
  | exact .repNMore _ _ (by assumption) (by assumption)
  | exact .repNErrThr _ _ _ (by assumption) (by assumption)
  | exact .repNErr _ _ (by assumption) | exact .repNStop _ _ (by assumption)
  | exact .repUDone _ (by assumption) (by assumption)
  | exact .repUThr _ _ (by assumption) (by assumption) (by assumption)
  | exact .repUMore _ (by assumption) (by assumption)
  | exact .repUErrThr _ _ (by assumption) (by assumption)
  | exact .repUErr _ (by assumption) | exact .repUStop _ (by assumption)
  | exact .bulkPass _ _ _ (by assumption)
  | exact .bulkOk _ _ _ _ _ (by assumption) (by assumption)
  | exact .bulkThr _ _ _ _ _ (by assumption) (by assumption) (by assumption))

theorem CStep.app {j : List Frame} {x : Nat} {c : Comp} {f : Frame} {l : List Ev} {t : Task}
    (k : List Frame) (h : CStep j x c f l t) : CStep (j ++ k) x c f l (t.app k) := by
  cases h <;> simp only [Task.app, List.cons_append] <;> csolve

theorem CStep.unapp {j k : List Frame} {x : Nat} {c : Comp} {f : Frame} {l : List Ev} {t : Task}
    (h : CStep (j ++ k) x c f l t) : ∃ t0 : Task, t = t0.app k ∧ CStep j x c f l t0 := by
  cases h <;> first
    | (refine ⟨.compl _ j x, rfl, ?_⟩; csolve)
    | (refine ⟨.start _ (_ :: j) x, rfl, ?_⟩; csolve)

theorem T1.app {root : Env} {a b : Item} {l : List Ev} (k : List Frame)
    (h : T1 (envOf root k) a l b) : T1 root (a.app k) l (b.app k) := by
  cases h with
  | start h => rw [← envOf_append] at h; exact .start (h.app k)
  | @compl c f j x l t h =>
      have := h.app k
      cases t <;> exact .compl this
  | leaf h => exact .leaf h

theorem T1s.app {root : Env} {a b : Item} {l : List Ev} (k : List Frame)
    (h : T1s (envOf root k) a l b) : T1s root (a.app k) l (b.app k) := by
  induction h with
  | refl it => exact .refl _
  | head h1 _ ih => exact .head (h1.app k) ih

theorem T1.unapp {root : Env} {a b : Item} {l : List Ev} {k : List Frame}
    (h : T1 root (a.app k) l b) :
    (∃ c x, a = .inl (.compl c [] x)) ∨
    ∃ b0 : Item, b = b0.app k ∧ T1 (envOf root k) a l b0 := by
  rcases a with (⟨s, j, x⟩ | ⟨c, j, x⟩) | ⟨lf, j⟩
  · right
    cases h with
    | start h =>
        obtain ⟨it0, rfl, h0⟩ := h.unapp
        exact ⟨it0, rfl, .start (by rw [← envOf_append]; exact h0)⟩
  · cases j with
    | nil => exact .inl ⟨c, x, rfl⟩
    | cons f j =>
        right
        cases h with
        | compl h =>
            obtain ⟨t0, rfl, h0⟩ := CStep.unapp h
            refine ⟨.inl t0, ?_, .compl h0⟩
            cases t0 <;> rfl
  · right
    cases h with
    | leaf h => exact ⟨.inl (.compl _ j _), rfl, .leaf h⟩

/-- A run through a continuation splits at the moment that continuation is completed. -/
theorem T1s.split {root : Env} {it : Item} {l : List Ev} {d : Comp} {y : Nat} {k : List Frame}
    {a : Item} (h : T1s root it l (.inl (.compl d [] y))) (ha : it = a.app k) :
    ∃ l1 c x l2, T1s (envOf root k) a l1 (.inl (.compl c [] x)) ∧
      T1s root (.inl (.compl c k x)) l2 (.inl (.compl d [] y)) ∧ l = l1 ++ l2 := by
  generalize hb : (Sum.inl (.compl d [] y) : Item) = b at h
  induction h generalizing a with
  | refl it =>
      subst hb
      rcases a with (⟨s, j, x⟩ | ⟨c, j, x⟩) | ⟨lf, j⟩
      · cases ha
      · injection ha with ha; injection ha with h1 h2 h3
        cases j with
        | nil =>
          simp only [List.nil_append] at h2
          subst h1 h2 h3
          exact ⟨[], _, _, [], .refl _, .refl _, rfl⟩
        | cons f j => cases h2
      · cases ha
  | head h1 h2 ih =>
      subst ha
      rcases h1.unapp with ⟨c, x, rfl⟩ | ⟨b0, rfl, h0⟩
      · subst hb; exact ⟨[], c, x, _, .refl _, .head h1 h2, rfl⟩
      · obtain ⟨l1, c, x, l2, hA, hB, rfl⟩ := ih rfl hb
        exact ⟨_, c, x, l2, .head h0 hA, hB, (List.append_assoc ..).symm⟩

/-! ### Runs -/

/-- In environment `e`, started on context `x`, the sender can run with the log `l` and complete
its receiver with `c` on context `y`. -/
def Runs (e : Env) (s : S) (x : Nat) (l : List Ev) (c : Comp) (y : Nat) : Prop :=
  ∃ m, Reach (init e s x) step m ∧ m.done = [(c, y)] ∧ m.log = l

/-- Configurations of the machine and the item they hold. -/
def Holds (m : St) (it : Item) : Prop :=
  m.done = [] ∧ match it with
    | .inl t => m.tasks = [t] ∧ m.wait = []
    | .inr p => m.tasks = [] ∧ m.wait = [p]

/-- The shape of every reachable state. -/
def Shape (e : Env) (s : S) (x : Nat) (m : St) : Prop :=
  m.env = e ∧ (((m.term = true ∨ m.ub = true) ∧ m.done = []) ∨
    (m.term = false ∧ m.ub = false ∧
      ((∃ it, T1s e (.inl (.start s [] x)) m.log it ∧ Holds m it) ∨
       (∃ c y, T1s e (.inl (.start s [] x)) m.log (.inl (.compl c [] y)) ∧
         m.tasks = [] ∧ m.wait = [] ∧ m.done = [(c, y)]))))

theorem shape (e : Env) (s : S) (x : Nat) : ∀ m, Reach (init e s x) step m → Shape e s x m := by
  apply Reach.inv
  · exact ⟨rfl, .inr ⟨rfl, rfl, .inl ⟨_, .refl _, rfl, rfl, rfl⟩⟩⟩
  · intro m a m' ⟨he, h⟩ hs
    unfold step at hs
    split at hs
    · cases hs
    · rename_i htu
      rcases h with ⟨h, _⟩ | ⟨ht, hu, h⟩
      · exact absurd h (by simpa using htu)
      cases a with
      | run i orc =>
          simp only at hs
          rcases h with ⟨it, hT, hd, hit⟩ | ⟨c, y, _, h1, h2, h3⟩
          · rcases it with t | p
            · obtain ⟨h1, h2⟩ := hit
              rw [h1] at hs
              cases i with
              | succ i => simp at hs
              | zero =>
                simp only [List.getElem?_cons_zero] at hs
                rcases t with ⟨sn, k, z⟩ | ⟨c, k, z⟩
                · simp only [Option.some.injEq] at hs
                  rcases startS_sound (envOf m.env k) k z sn orc with ⟨w, l, t, hw, hst, hi⟩ | ⟨_, w, hw⟩
                  · rw [hw] at hs; subst hs
                    refine ⟨he, .inr ⟨ht, hu, .inl ⟨t, ?_, hd, ?_⟩⟩⟩
                    · rcases t with t | p
                      · rw [he] at hst; rw [show (m.after 0 (.ok (), w)).log = m.log ++ l from by simp [St.after, hi.1]]
                        exact hT.snoc (.start hst)
                      · rw [he] at hst; rw [show (m.after 0 (.ok (), w)).log = m.log ++ l from by simp [St.after, hi.1]]
                        exact hT.snoc (.start hst)
                    · rcases t with t | p
                      · simp [St.after, h1, h2, hi.2.1, hi.2.2]
                      · simp [St.after, h1, h2, hi.2.1, hi.2.2]
                  · rw [hw] at hs; subst hs
                    exact ⟨he, .inl ⟨.inr rfl, hd⟩⟩
                · rcases k with _ | ⟨f, k⟩
                  · simp only [Option.some.injEq] at hs; subst hs
                    refine ⟨he, .inr ⟨ht, hu, .inr ⟨c, z, hT, ?_, h2, ?_⟩⟩⟩
                    · simp
                    · simp [hd]
                  · simp only [Option.some.injEq] at hs
                    rcases complF_sound k z c f orc with ⟨w, l, t, hw, hst, hi⟩ | ⟨_, w, hw⟩ | ⟨_, w, hw⟩
                    · rw [hw] at hs; subst hs
                      refine ⟨he, .inr ⟨ht, hu, .inl ⟨.inl t, ?_, hd, ?_⟩⟩⟩
                      · rw [show (m.after 0 (.ok (), w)).log = m.log ++ l from by simp [St.after, hi.1]]
                        exact hT.snoc (.compl hst)
                      · simp [St.after, h1, h2, hi.2.1, hi.2.2]
                    · rw [hw] at hs; subst hs
                      exact ⟨he, .inl ⟨.inl rfl, hd⟩⟩
                    · rw [hw] at hs; subst hs
                      exact ⟨he, .inl ⟨.inr rfl, hd⟩⟩
            · obtain ⟨h1, h2⟩ := hit
              rw [h1] at hs; simp at hs
          · rw [h1] at hs; simp at hs
      | leaf i c z =>
          simp only at hs
          rcases h with ⟨it, hT, hd, hit⟩ | ⟨c', y, _, h1, h2, h3⟩
          · rcases it with t | ⟨lf, k⟩
            · obtain ⟨h1, h2⟩ := hit
              rw [h2] at hs; simp at hs
            · obtain ⟨h1, h2⟩ := hit
              rw [h2] at hs
              cases i with
              | succ i => simp at hs
              | zero =>
                simp only [List.getElem?_cons_zero] at hs
                split at hs
                · rename_i hal
                  simp only [Option.some.injEq] at hs; subst hs
                  exact ⟨he, .inr ⟨ht, hu, .inl ⟨_, hT.snoc (.leaf hal), hd, by simp [h1], by simp⟩⟩⟩
                · cases hs
          · rw [h2] at hs; simp at hs

/-- Every item move is a machine step. -/
theorem step_real {m : St} {a b : Item} {l : List Ev} (ht : m.term = false) (hu : m.ub = false)
    (h : Holds m a) (hst : T1 m.env a l b) :
    ∃ act m', step m act = some m' ∧ m'.env = m.env ∧ m'.term = false ∧ m'.ub = false ∧
      m'.log = m.log ++ l ∧ Holds m' b := by
  cases hst with
  | @start s k x _ _ h1 =>
      obtain ⟨hd, h2, h3⟩ := h
      obtain ⟨o, h4, h5⟩ := startS_real h1
      refine ⟨.run 0 o, m.after 0 (startS (envOf m.env k) k x s { orc := o }), ?_, ?_⟩
      · simp [step, ht, hu, h2]
      · rcases hr : startS (envOf m.env k) k x s { orc := o } with ⟨r, w⟩
        rw [hr] at h4 h5; simp only at h4 h5; subst h4
        rcases b with t | p
        · obtain ⟨h5, h6, h7⟩ := h5
          simp [St.after, Holds, ht, hu, hd, h2, h3, h5, h6, h7]
        · obtain ⟨h5, h6, h7⟩ := h5
          simp [St.after, Holds, ht, hu, hd, h2, h3, h5, h6, h7]
  | @compl c f k x l t h1 =>
      obtain ⟨hd, h2, h3⟩ := h
      obtain ⟨o, h4, h5⟩ := complF_real h1
      refine ⟨.run 0 o, m.after 0 (complF k x c f { orc := o }), ?_, ?_⟩
      · simp [step, ht, hu, h2]
      · rcases hr : complF k x c f { orc := o } with ⟨r, w⟩
        rw [hr] at h4 h5; simp only at h4 h5; subst h4
        obtain ⟨h5, h6, h7⟩ := h5
        simp [St.after, Holds, ht, hu, hd, h2, h3, h5, h6, h7]
  | @leaf lf k c x hal =>
      obtain ⟨hd, h2, h3⟩ := h
      refine ⟨.leaf 0 c x, { m with wait := [], tasks := [.compl c k x]
                                    log := m.log ++ [.finish lf.id c x] }, ?_, ?_⟩
      · simp [step, ht, hu, h2, h3, hal]
      · simp [Holds, ht, hu, hd]

theorem run_real {e : Env} {s : S} {x : Nat} {a b : Item} {l : List Ev} (h : T1s e a l b) :
    ∀ m, Reach (init e s x) step m → m.env = e → m.term = false → m.ub = false → Holds m a →
      ∃ m', Reach (init e s x) step m' ∧ m'.env = e ∧ m'.term = false ∧ m'.ub = false ∧
        m'.log = m.log ++ l ∧ Holds m' b := by
  induction h with
  | refl it => intro m hr he ht hu hh; exact ⟨m, hr, he, ht, hu, by simp, hh⟩
  | head h1 _ ih =>
      intro m hr he ht hu hh
      obtain ⟨act, m1, hs, he1, ht1, hu1, hl1, hh1⟩ := step_real ht hu hh (by rw [he]; exact h1)
      obtain ⟨m2, hr2, he2, ht2, hu2, hl2, hh2⟩ := ih m1 (.tail act hr hs) (he1.trans he) ht1 hu1 hh1
      exact ⟨m2, hr2, he2, ht2, hu2, by rw [hl2, hl1, List.append_assoc], hh2⟩

theorem runs_iff {e : Env} {s : S} {x : Nat} {l : List Ev} {c : Comp} {y : Nat} :
    Runs e s x l c y ↔ T1s e (.inl (.start s [] x)) l (.inl (.compl c [] y)) := by
  constructor
  · rintro ⟨m, hr, hd, hl⟩
    obtain ⟨_, ⟨_, h0⟩ | ⟨_, _, ⟨it, _, h0, _⟩ | ⟨c', y', hT, _, _, h3⟩⟩⟩ := shape e s x m hr
    · rw [h0] at hd; cases hd
    · rw [h0] at hd; cases hd
    · rw [h3] at hd; injection hd with hd; injection hd with h1 h2; subst h1 h2
      exact hl ▸ hT
  · intro h
    obtain ⟨m, hr, _, ht, hu, hl, hd, h1, h2⟩ :=
      run_real (s := s) (x := x) h (init e s x) .refl rfl rfl rfl ⟨rfl, rfl, rfl⟩
    refine ⟨{ m with tasks := [], done := [(c, y)] }, .tail (.run 0 []) hr ?_, rfl, ?_⟩
    · simp [step, ht, hu, h1, hd]
    · simpa [init] using hl

/-- A receiver's reaction, as a run. -/
def FR (e : Env) (f : Frame) (c : Comp) (x : Nat) (l : List Ev) (d : Comp) (y : Nat) : Prop :=
  T1s e (.inl (.compl c [f] x)) l (.inl (.compl d [] y))

/-- Run of a sender under one receiver. -/
theorem under_iff {e : Env} {s : S} {f : Frame} {x : Nat} {l : List Ev} {d : Comp} {y : Nat} :
    T1s e (.inl (.start s [f] x)) l (.inl (.compl d [] y)) ↔
    ∃ l1 c z l2, Runs (f.env' e) s x l1 c z ∧ FR e f c z l2 d y ∧ l = l1 ++ l2 := by
  constructor
  · intro h
    obtain ⟨l1, c, z, l2, h1, h2, h3⟩ := T1s.split (k := [f]) (a := .inl (.start s [] x)) h rfl
    exact ⟨l1, c, z, l2, runs_iff.2 h1, h2, h3⟩
  · rintro ⟨l1, c, z, l2, h1, h2, rfl⟩
    exact T1s.trans (T1s.app (root := e) [f] (runs_iff.1 h1)) h2

theorem T1s.start_inv {e : Env} {s : S} {k : List Frame} {x : Nat} {l : List Ev} {d : Comp} {y : Nat}
    (h : T1s e (.inl (.start s k x)) l (.inl (.compl d [] y))) :
    ∃ l1 it l2, SStep (envOf e k) k x s l1 it ∧ T1s e it l2 (.inl (.compl d [] y)) ∧ l = l1 ++ l2 := by
  cases h with
  | head h1 h2 => cases h1 with
    | start h1 => exact ⟨_, _, _, h1, h2, rfl⟩

theorem FR.inv {e : Env} {f : Frame} {c : Comp} {x : Nat} {l : List Ev} {d : Comp} {y : Nat}
    (h : FR e f c x l d y) :
    ∃ l1 t l2, CStep [] x c f l1 t ∧ T1s e (.inl t) l2 (.inl (.compl d [] y)) ∧ l = l1 ++ l2 := by
  cases h with
  | head h1 h2 => cases h1 with
    | compl h1 => exact ⟨_, _, _, h1, h2, rfl⟩

theorem FR.of {e : Env} {f : Frame} {c : Comp} {x : Nat} {l1 l2 : List Ev} {d : Comp} {y : Nat} {t : Task}
    (h1 : CStep [] x c f l1 t) (h2 : T1s e (.inl t) l2 (.inl (.compl d [] y))) :
    FR e f c x (l1 ++ l2) d y := .head (.compl h1) h2

theorem FR.of' {e : Env} {f : Frame} {c : Comp} {x : Nat} {l1 : List Ev} {d : Comp} {y : Nat}
    (h1 : CStep [] x c f l1 (.compl d [] y)) : FR e f c x l1 d y := by
  simpa using FR.of (e := e) h1 (.refl _)

/-- A finished run makes no further moves. -/
theorem T1s.done {e : Env} {c : Comp} {x : Nat} {l : List Ev} {d : Comp} {y : Nat}
    (h : T1s e (.inl (.compl c [] x)) l (.inl (.compl d [] y))) : l = [] ∧ d = c ∧ y = x := by
  cases h with
  | refl => exact ⟨rfl, rfl, rfl⟩
  | head h1 _ => cases h1

theorem SStep.run {e : Env} {s : S} {x : Nat} {l1 l2 : List Ev} {it : Item} {c : Comp} {y : Nat}
    (h : SStep e [] x s l1 it) (h2 : T1s e it l2 (.inl (.compl c [] y))) :
    Runs e s x (l1 ++ l2) c y := runs_iff.2 (.head (.start h) h2)

end Verif.Sender
