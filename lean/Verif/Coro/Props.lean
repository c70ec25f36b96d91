import Verif.Coro.Good
/-!
# C58: task coroutines, exit actions, reschedule
-/
namespace Verif.Coro
set_option maxHeartbeats 4000000

/-! ## The machine does what the specification says -/

/-- Whatever the body of the outermost task — nested tasks, exit actions registered anywhere, exit
    actions that are tasks themselves, reschedules —: if the specification says that the task is seen
    to do `t`, ends with `o` and completes on context `c'`, then so does the machine, and then no
    coroutine frame or operation state is left. -/
theorem runs_as_specified (b : Body) (c : Ctx) (t : List Ev) (o : Out) (c' : Ctx)
    (h : task b c c = some (t, o, c')) :
    ∃ s, Steps (init b c) s ∧ s.ctl = .halt o ∧ s.trace = t ∧ s.ctx = c' ∧ ∀ a, s.heap a = none := by
  have hT := (task_run (good b) (init b c) 0 c none rfl (by simp [init, launch, upd])
    (by simp [init, launch, upd]) (by simp [init])
    (by
      intro a ha
      have h1 : 2 ≤ a := ha
      have h2 : a ≠ 0 := by omega
      have h3 : a ≠ 1 := by omega
      simp [init, launch, upd, h2, h3])).2 t o c' h
  obtain ⟨s2, d', rest', σ2, rs', D, k1, k2, k3, k4, k5, k6, k7, k8, k9, k10, k11, k12⟩ := hT
  have hn : (init b c).next = 2 := rfl
  rw [hn] at k9 k10 k11 k12
  have hop : s2.heap (0 + 1) = some (.opc none 0) := by
    rw [k10 1 (by omega) (by omega)]; simp [init, launch, upd]
  have hgone : ∀ a, a ≠ 0 → a ≠ 1 → a ∉ D → s2.heap a = none := fun a h0 h1 hD =>
    k12 a (by omega) hD
  have htr : s2.trace = t := by rw [k5]; simp [init]
  have hend : ∀ r, o = r → dataOf r = some r → s2.ctl = .resume (0 + 1) → D = [] →
      ∃ s, Steps (init b c) s ∧ s.ctl = .halt o ∧ s.trace = t ∧ s.ctx = c' ∧ ∀ a, s.heap a = none := by
    intro r ho hr hctl hD
    subst ho; subst hD
    rw [hr] at k3
    refine ⟨{ s2 with heap := upd (upd s2.heap 0 none) (0 + 1) none, ctl := .halt o },
      k1.trans (.one (by simp only [step, hctl, hop, stepOpcResume, k3])), rfl, htr, k4, ?_⟩
    intro a
    simp only [upd]
    by_cases h1 : a = 0 + 1
    · simp [h1]
    · rw [if_neg h1]
      by_cases h0 : a = 0
      · simp [h0]
      · rw [if_neg h0]; exact hgone a h0 h1 (by simp)
  cases o with
  | val v => exact hend _ rfl rfl k2 (k7 (by simp))
  | err e => exact hend _ rfl rfl k2 (k7 (by simp))
  | stop =>
      have hctl : s2.ctl = .stopped (0 + 1) := k2
      let s3 : St := { s2 with ctl := .destroy 0 (.halt .stop) }
      have st3 : step s2 = some s3 := by
        simp only [step, hctl, stepStopped, hop, stepOpcStopped, s3]
      obtain ⟨s4, d1, d2, d3, d4, d5, d6⟩ := destroy_run D rest' s3 0 (.halt .stop) none d' σ2 rs' none k6
        rfl k3 hop (by
          simp only [List.nodup_cons, List.mem_cons, not_or]
          exact ⟨⟨by omega, fun h => by have := (k9 _ h).1; omega⟩,
            fun h => by have := (k9 _ h).1; omega, k8⟩)
      refine ⟨s4, k1.trans (.cons st3 d1), d2, d4.trans htr, d3.trans k4, ?_⟩
      intro a
      rw [d6]
      split
      · rfl
      · rename_i hin
        simp only [List.mem_cons, not_or] at hin
        exact hgone a hin.1 hin.2.1 hin.2.2

/-- … and if the specification says that the program is terminated, it is. -/
theorem terminates_as_specified (b : Body) (c : Ctx) (h : task b c c = none) :
    ∃ s, Steps (init b c) s ∧ s.ctl = .dead :=
  (task_run (good b) (init b c) 0 c none rfl (by simp [init, launch, upd])
    (by simp [init, launch, upd]) (by simp [init])
    (by
      intro a ha
      have h1 : 2 ≤ a := ha
      have h2 : a ≠ 0 := by omega
      have h3 : a ≠ 1 := by omega
      simp [init, launch, upd, h2, h3])).1 h

/-- The machine is deterministic: whatever state a run has reached, it goes on to the same end. -/
theorem Steps.confluent {s t u : St} (h : Steps s t) (g : Steps s u) (hu : step u = none) : Steps t u := by
  induction h with
  | refl => exact g
  | cons h1 _ ih =>
      cases g with
      | refl => rw [h1] at hu; cases hu
      | cons g1 g2 => rw [h1] at g1; cases g1; exact ih g2

/-- Every partial run of a program is a prefix of a run to completion or to `std::terminate`: the
    machine never gets stuck, i.e. no frame is used after it was freed or freed twice. -/
theorem never_stuck (b : Body) (c : Ctx) (s : St) (h : Steps (init b c) s) :
    ∃ u, Steps s u ∧ ((∃ o, u.ctl = .halt o) ∨ u.ctl = .dead) := by
  cases ht : task b c c with
  | none =>
      obtain ⟨u, h1, h2⟩ := terminates_as_specified b c ht
      exact ⟨u, h.confluent h1 (by simp [step, h2]), .inr h2⟩
  | some toc =>
      obtain ⟨t, o, c'⟩ := toc
      obtain ⟨u, h1, h2, _⟩ := runs_as_specified b c t o c' ht
      exact ⟨u, h.confluent h1 (by simp [step, h2]), .inl ⟨o, h2⟩⟩

/-! ## Exit actions: once each, in reverse order, before the completion, according to the outcome -/

/-- A body that first registers the given actions (each is seen as its number), then goes on as `b`. -/
def registering : List (Option Disp × Nat) → Body → Body
  | [], b => b
  | (cond, n) :: as, b => .reg cond (.emit n (.ret 0)) (registering as b)

/-- Ordinary code seen in a trace. -/
def codes (t : List Ev) : List (Ctx × Nat) :=
  t.filterMap fun e => match e with
    | .code c n => some (c, n)
    | _ => none

theorem codes_append (a b : List Ev) : codes (a ++ b) = codes a ++ codes b := by simp [codes]

theorem codes_flag (p : Prop) [Decidable p] (l : List Ev) :
    codes ((if p then Ev.late else Ev.freed) :: l) = codes l := by
  split <;> rfl

/-- The actions that apply to an outcome. -/
def applies (o : Out) (a : Option Disp × Nat) : Bool := a.1 == none || a.1 == some o.disp

theorem runExits_append (xs ys : List Exit) (d : Disp) : ∀ (c : Ctx) (t : List Ev) (c' : Ctx),
    runExits (xs ++ ys) d c = some (t, c') →
    ∃ t1 c1 t2, runExits xs d c = some (t1, c1) ∧ runExits ys d c1 = some (t2, c') ∧
      codes t = codes t1 ++ codes t2 := by
  induction xs with
  | nil => intro c t c' h; exact ⟨[], c, t, rfl, h, by simp [codes]⟩
  | cons x xs ih =>
      intro c t c' h
      rw [List.cons_append, runExits] at h
      cases hx : x d c with
      | none => simp [hx] at h
      | some tc =>
          obtain ⟨t1, c1⟩ := tc
          cases hr : runExits (xs ++ ys) d c1 with
          | none => simp [hx, hr] at h
          | some tc2 =>
              obtain ⟨t2, c2⟩ := tc2
              simp only [hx, hr, Option.bind_eq_bind, Option.bind_some, Option.pure_def,
                Option.some.injEq, Prod.mk.injEq] at h
              obtain ⟨rfl, rfl⟩ := h
              obtain ⟨t3, c3, t4, e1, e2, e3⟩ := ih c1 t2 c2 hr
              refine ⟨t1 ++ (if d = .stopped ∧ xs = [] then Ev.late else Ev.freed) :: t3, c3, t4, ?_, e2, ?_⟩
              · rw [runExits]; simp [hx, e1]
              · simp only [codes_append, List.append_assoc]
                congr 1
                rw [codes_flag, codes_flag, e3]

theorem runExits_append_some (xs ys : List Exit) (d : Disp) : ∀ (c : Ctx) (t1 : List Ev) (c1 : Ctx)
    (t2 : List Ev) (c' : Ctx), runExits xs d c = some (t1, c1) → runExits ys d c1 = some (t2, c') →
    ∃ t, runExits (xs ++ ys) d c = some (t, c') ∧ codes t = codes t1 ++ codes t2 := by
  induction xs with
  | nil =>
      intro c t1 c1 t2 c' h1 h2
      simp only [runExits, Option.some.injEq, Prod.mk.injEq] at h1
      obtain ⟨rfl, rfl⟩ := h1
      exact ⟨t2, h2, by simp [codes]⟩
  | cons x xs ih =>
      intro c t1 c1 t2 c' h1 h2
      rw [runExits] at h1
      cases hx : x d c with
      | none => simp [hx] at h1
      | some tc =>
          obtain ⟨u1, e1⟩ := tc
          cases hr : runExits xs d e1 with
          | none => simp [hx, hr] at h1
          | some tc2 =>
              obtain ⟨u2, e2⟩ := tc2
              simp only [hx, hr, Option.bind_eq_bind, Option.bind_some, Option.pure_def,
                Option.some.injEq, Prod.mk.injEq] at h1
              obtain ⟨rfl, rfl⟩ := h1
              obtain ⟨t, q1, q2⟩ := ih e1 u2 e2 t2 c' hr h2
              refine ⟨u1 ++ (if d = .stopped ∧ xs ++ ys = [] then Ev.late else Ev.freed) :: t, ?_, ?_⟩
              · rw [List.cons_append, runExits]; simp [hx, q1]
              · simp only [codes_append, List.append_assoc]
                congr 1
                rw [codes_flag, codes_flag, q2]

theorem registering_spec (as : List (Option Disp × Nat)) (b : Body) (σ : Ctx) :
    ∀ (c : Ctx) (t : List Ev) (o : Out) (c' : Ctx), task b σ c = some (t, o, c') →
    ∃ t', task (registering as b) σ c = some (t', o, c') ∧
      codes t' = codes t ++ (as.reverse.filter (applies o)).map fun a => (c', a.2) := by
  induction as with
  | nil => intro c t o c' h; exact ⟨t, h, by simp⟩
  | cons a as ih =>
      intro c t o c' h
      obtain ⟨cond, n⟩ := a
      obtain ⟨t', h1, h2⟩ := ih c t o c' h
      rw [task] at h1
      cases hd : den (registering as b) σ false c with
      | none => simp [hd] at h1
      | some r =>
          simp only [hd, Option.bind_some, finish] at h1
          cases hr : runExits r.exits r.out.disp r.ctx with
          | none => simp [hr] at h1
          | some tc =>
              obtain ⟨t1, c1⟩ := tc
              simp only [hr, Option.bind_eq_bind, Option.bind_some, Option.pure_def, Option.some.injEq,
                Prod.mk.injEq] at h1
              obtain ⟨rfl, rfl, rfl⟩ := h1
              have hx : ∃ t2, runExits [exitOf cond fun c => (den (.emit n (.ret 0)) σ false c).bind finish]
                  r.out.disp c1 = some (t2, c1) ∧
                  codes t2 = ([(cond, n)].filter (applies r.out)).map fun a => (c1, a.2) := by
                by_cases hw : cond = none ∨ cond = some r.out.disp
                · have ha : applies r.out (cond, n) = true := by
                    rcases hw with hw | hw <;> simp [applies, hw]
                  refine ⟨Ev.code c1 n :: [if r.out.disp = .stopped then Ev.late else Ev.freed], ?_, ?_⟩
                  · simp [runExits, exitOf, hw, den, finish]
                  · simp only [List.filter_cons, ha, if_true, List.filter_nil, List.map_cons, List.map_nil]
                    by_cases hs : r.out.disp = .stopped <;> simp [codes, hs]
                · have ha : applies r.out (cond, n) = false := by
                    cases cond <;> simp_all [applies]
                  refine ⟨[if r.out.disp = .stopped then Ev.late else Ev.freed], ?_, ?_⟩
                  · simp [runExits, exitOf, hw]
                  · simp only [List.filter_cons, ha, List.filter_nil]
                    by_cases hs : r.out.disp = .stopped <;> simp [codes, hs]
              obtain ⟨t2, hx1, hx2⟩ := hx
              obtain ⟨t3, q1, q2⟩ := runExits_append_some _ _ _ _ _ _ _ _ hr hx1
              refine ⟨r.trace ++ t3, ?_, ?_⟩
              · simp [task, registering, den, hd, finish] at q1 ⊢
                simp [q1]
              · simp only [List.reverse_cons, List.filter_append, List.map_append]
                rw [codes_append] at h2 ⊢
                rw [q2, hx2, ← List.append_assoc, h2, List.append_assoc]

/-- **Exit actions.**  Let a coroutine body `b` end with `o` after having been seen to do `t`.
    Register any number of actions first, some of them conditional on the outcome: then the outcome and
    the completing context are the same, `b` is seen to do what it did, and after it — before the
    completion — each action that applies to the outcome has run exactly once, the last registered
    first, and none of the others. -/
theorem exit_actions (as : List (Option Disp × Nat)) (b : Body) (c : Ctx) (t : List Ev) (o : Out) (c' : Ctx)
    (h : task b c c = some (t, o, c')) :
    ∃ s, Steps (init (registering as b) c) s ∧ s.ctl = .halt o ∧ s.ctx = c' ∧
      codes s.trace = codes t ++ (as.reverse.filter (applies o)).map fun a => (c', a.2) := by
  obtain ⟨t', h1, h2⟩ := registering_spec as b c c t o c' h
  obtain ⟨s, k1, k2, k3, k4, _⟩ := runs_as_specified _ c t' o c' h1
  exact ⟨s, k1, k2, k4, by rw [k3]; exact h2⟩

/-- Non-vacuity: a coroutine that is stopped while it awaits on another context, with actions for every
    outcome; those for success and failure are skipped. -/
example : task (registering [(none, 1), (some .succeeded, 2), (some .stopped, 3), (some .failed, 4)]
    (.emit 10 (.await 7 .stop .ret .throw))) 5 5 =
    some ([.code 5 10, .freed, .code 5 3, .freed, .freed, .code 5 1, .late], .stop, 5) := by rfl

/-! ## Exit actions are transparent -/

/-- A body without its exit actions: none is registered, in it or in the tasks it awaits. -/
def strip : Body → Body
  | .ret v => .ret v
  | .throw e => .throw e
  | .emit n k => .emit n (strip k)
  | .await c o kv ke => .await c o (fun v => strip (kv v)) (fun e => strip (ke e))
  | .reg _ _ k => strip k
  | .regOp _ _ _ k => strip k
  | .resched c o k => .resched c o (strip k)
  | .call child g kv ke ks =>
      .call (strip child) g (fun v => strip (kv v)) (fun e => strip (ke e)) (strip ks)

theorem finish_some {r : BRes} {t o c'} (h : finish r = some (t, o, c')) :
    ∃ t1, runExits r.exits r.out.disp r.ctx = some (t1, c') ∧ t = r.trace ++ t1 ∧ o = r.out := by
  simp only [finish] at h
  cases hr : runExits r.exits r.out.disp r.ctx with
  | none => simp [hr] at h
  | some tc =>
      obtain ⟨t1, c1⟩ := tc
      simp only [hr, Option.bind_eq_bind, Option.bind_some, Option.pure_def, Option.some.injEq,
        Prod.mk.injEq] at h
      obtain ⟨rfl, rfl, rfl⟩ := h
      exact ⟨t1, rfl, rfl, rfl⟩

/-- The exit actions of a stripped body are the ways back of `reschedule_coroutine_on` only. -/
def OnlyHops (xs : List Exit) : Prop :=
  ∀ d c, ∃ t c', runExits xs d c = some (t, c') ∧ codes t = []

theorem OnlyHops.nil : OnlyHops [] := fun _ c => ⟨[], c, rfl, rfl⟩

theorem OnlyHops.snoc {xs} (h : OnlyHops xs) (σ : Ctx) : OnlyHops (xs ++ [exitOp none σ (.val 0)]) := by
  intro d c
  obtain ⟨t, c', h1, h2⟩ := h d c
  have h3 : runExits [exitOp none σ (.val 0)] d c' = some ([if d = .stopped then Ev.late else Ev.freed], σ) := by
    simp [runExits, exitOp]
  obtain ⟨t3, q1, q2⟩ := runExits_append_some _ _ _ _ _ _ _ _ h1 h3
  refine ⟨t3, σ, q1, ?_⟩
  rw [q2, h2]
  by_cases hs : d = .stopped <;> simp [codes, hs]

theorem strip_den (b : Body) : ∀ (σ : Ctx) (rs : Bool) (c : Ctx) (r : BRes), den b σ rs c = some r →
    ∃ r0, den (strip b) σ rs c = some r0 ∧ r0.out = r.out ∧ r0.ctx = r.ctx ∧
      (codes r0.trace).Sublist (codes r.trace) ∧ OnlyHops r0.exits := by
  induction b with
  | ret v =>
      intro σ rs c r h
      simp only [den, Option.some.injEq] at h; subst h
      exact ⟨_, rfl, rfl, rfl, List.Sublist.refl _, OnlyHops.nil⟩
  | throw v =>
      intro σ rs c r h
      simp only [den, Option.some.injEq] at h; subst h
      exact ⟨_, rfl, rfl, rfl, List.Sublist.refl _, OnlyHops.nil⟩
  | emit n k ih =>
      intro σ rs c r h
      simp only [den] at h
      cases hk : den k σ rs c with
      | none => simp [hk] at h
      | some r1 =>
          simp [hk] at h; subst h
          obtain ⟨r0, e1, e2, e3, e4, e5⟩ := ih σ rs c r1 hk
          refine ⟨{ r0 with trace := Ev.code c n :: r0.trace }, by simp [strip, den, e1], e2, e3, ?_, e5⟩
          simpa [codes] using e4
  | await c1 o kv ke ihv ihe =>
      intro σ rs c r h
      cases o with
      | val v => exact ihv v σ rs σ r (by simpa only [den] using h)
      | err v => exact ihe v σ rs σ r (by simpa only [den] using h)
      | stop =>
          simp only [den, Option.some.injEq] at h; subst h
          exact ⟨_, rfl, rfl, rfl, List.Sublist.refl _, OnlyHops.nil⟩
  | reg cond act k _ ih =>
      intro σ rs c r h
      simp only [den] at h
      cases hk : den k σ rs c with
      | none => simp [hk] at h
      | some r1 =>
          simp [hk] at h; subst h
          obtain ⟨r0, e1, e2, e3, e4, e5⟩ := ih σ rs c r1 hk
          exact ⟨r0, e1, e2, e3, e4, e5⟩
  | regOp cond c1 o k ih =>
      intro σ rs c r h
      simp only [den] at h
      cases hk : den k σ rs c with
      | none => simp [hk] at h
      | some r1 =>
          simp [hk] at h; subst h
          obtain ⟨r0, e1, e2, e3, e4, e5⟩ := ih σ rs c r1 hk
          exact ⟨r0, e1, e2, e3, e4, e5⟩
  | resched c1 o k ih =>
      intro σ rs c r h
      cases o with
      | val v =>
          simp only [den] at h
          cases hk : den k c1 true c1 with
          | none => simp [hk] at h
          | some r1 =>
              obtain ⟨r0, e1, e2, e3, e4, e5⟩ := ih c1 true c1 r1 hk
              cases rs with
              | true =>
                  simp [hk] at h; subst h
                  exact ⟨r0, by simp [strip, den, e1], e2, e3, e4, e5⟩
              | false =>
                  simp [hk] at h; subst h
                  exact ⟨{ r0 with exits := r0.exits ++ [exitOp none σ (.val 0)] }, by simp [strip, den, e1],
                    e2, e3, e4, e5.snoc σ⟩
      | err e => simp [den] at h
      | stop =>
          cases rs with
          | true =>
              simp [den] at h; subst h
              exact ⟨⟨[], .stop, c1, []⟩, by simp [strip, den], rfl, rfl, List.Sublist.refl _, OnlyHops.nil⟩
          | false =>
              simp [den] at h; subst h
              exact ⟨⟨[], .stop, c1, [exitOp none σ (.val 0)]⟩, by simp [strip, den], rfl, rfl,
                List.Sublist.refl _, OnlyHops.nil.snoc σ⟩
  | call child g kv ke ks ihc ihv ihe ihs =>
      intro σ rs c r h
      simp only [den] at h
      cases hk : (den child σ false c).bind finish with
      | none => simp [hk] at h
      | some toc =>
          obtain ⟨t, o, c'⟩ := toc
          cases hd : den child σ false c with
          | none => simp [hd] at hk
          | some rc =>
              simp only [hd, Option.bind_some] at hk
              obtain ⟨t1, f1, rfl, rfl⟩ := finish_some hk
              obtain ⟨r0, e1, e2, e3, e4, e5⟩ := ihc σ false c rc hd
              obtain ⟨t0, c0, g1, g2⟩ := e5 rc.out.disp rc.ctx
              have hfin : (den (strip child) σ false c).bind finish = some (r0.trace ++ t0, rc.out, c0) := by
                simp [e1, finish, g1, e2, e3]
              have hsub : (codes (r0.trace ++ t0)).Sublist (codes (rc.trace ++ t1)) := by
                rw [codes_append, codes_append, g2, List.append_nil]
                exact e4.trans (List.sublist_append_left _ _)
              have fin : ∀ (k k0 : Option BRes), (∀ r, k = some r → ∃ q, k0 = some q ∧ q.out = r.out ∧
                    q.ctx = r.ctx ∧ (codes q.trace).Sublist (codes r.trace) ∧ OnlyHops q.exits) →
                  (k.bind fun r => some { r with trace := (rc.trace ++ t1) ++ r.trace }) = some r →
                  ∃ q, (k0.bind fun r => some { r with trace := (r0.trace ++ t0) ++ r.trace }) = some q ∧
                    q.out = r.out ∧ q.ctx = r.ctx ∧ (codes q.trace).Sublist (codes r.trace) ∧
                    OnlyHops q.exits := by
                intro k k0 hkk hk
                cases k with
                | none => cases hk
                | some r1 =>
                    obtain ⟨q, q1, q2, q3, q4, q5⟩ := hkk r1 rfl
                    simp only [Option.bind_some, Option.some.injEq] at hk
                    subst hk; subst q1
                    refine ⟨_, rfl, q2, q3, ?_, q5⟩
                    show (codes ((r0.trace ++ t0) ++ q.trace)).Sublist (codes ((rc.trace ++ t1) ++ r1.trace))
                    rw [codes_append, codes_append (rc.trace ++ t1)]
                    exact hsub.append q4
              have hk' : (den child σ false c).bind finish = some (rc.trace ++ t1, rc.out, c') := by
                rw [hd]; exact hk
              rw [hd, Option.bind_some, hk] at h
              simp only [strip, den, hfin]
              cases ho : rc.out with
              | val v =>
                  simp only [ho] at h
                  exact fin _ _ (fun r1 h1 => ihv v σ rs σ r1 h1) h
              | err v =>
                  simp only [ho] at h
                  exact fin _ _ (fun r1 h1 => ihe v σ rs σ r1 h1) h
              | stop =>
                  simp only [ho] at h
                  cases g with
                  | true => exact fin _ _ (fun r1 h1 => ihs σ rs σ r1 h1) h
                  | false =>
                      refine fin (some ⟨[], .stop, σ, []⟩) (some ⟨[], .stop, σ, []⟩) ?_ h
                      intro r1 h1
                      exact ⟨r1, h1, rfl, rfl, List.Sublist.refl _, by
                        simp only [Option.some.injEq] at h1; subst h1; exact OnlyHops.nil⟩

/-- **Transparency.**  Unless an exit action terminates the program, a task with exit actions (its own
    and those of the tasks it awaits, whatever they do) ends exactly as it does without them, and its
    remaining code is seen in the same order, on the same contexts. -/
theorem exit_actions_transparent (b : Body) (c : Ctx) (s : St) (o : Out)
    (h : Steps (init b c) s) (ho : s.ctl = .halt o) :
    ∃ s0, Steps (init (strip b) c) s0 ∧ s0.ctl = .halt o ∧
      (codes s0.trace).Sublist (codes s.trace) := by
  cases ht : task b c c with
  | none =>
      obtain ⟨u, h1, h2⟩ := terminates_as_specified b c ht
      have h3 := h.confluent h1 (by simp [step, h2])
      cases h3 with
      | refl => rw [ho] at h2; cases h2
      | cons h4 _ => simp [step, ho] at h4
  | some toc =>
      obtain ⟨t, o', c'⟩ := toc
      obtain ⟨u, h1, h2, h2', _⟩ := runs_as_specified b c t o' c' ht
      have h3 := h.confluent h1 (by simp [step, h2])
      cases h3 with
      | cons h4 _ => simp [step, ho] at h4
      | refl =>
      rw [ho] at h2; cases h2
      rw [task] at ht
      cases hd : den b c false c with
      | none => simp [hd] at ht
      | some r =>
          simp only [hd, Option.bind_some] at ht
          obtain ⟨t1, f1, rfl, rfl⟩ := finish_some ht
          obtain ⟨r0, e1, e2, e3, e4, e5⟩ := strip_den b c false c r hd
          obtain ⟨t0, c0, g1, g2⟩ := e5 r.out.disp r.ctx
          have h0 : task (strip b) c c = some (r0.trace ++ t0, r.out, c0) := by
            simp [task, e1, finish, g1, e2, e3]
          obtain ⟨s0, q1, q2, q3, _⟩ := runs_as_specified (strip b) c _ _ _ h0
          refine ⟨s0, q1, q2, ?_⟩
          rw [q3, h2', codes_append, codes_append, g2, List.append_nil]
          exact e4.trans (List.sublist_append_left _ _)

example : (strip (.reg none (.emit 3 (.ret 0)) (.emit 4 (.ret 1)))) = .emit 4 (.ret 1) := rfl

/-! ## Affinity -/

/-- **Affinity.**  Whatever an awaited task does — suspend on other contexts, reschedule itself,
    register exit actions that complete elsewhere, complete on any context — the coroutine that awaits
    it goes on on its own scheduler. -/
theorem affinity (child : Body) (c n v : Nat) (t : List Ev) (c' : Ctx)
    (h : task child c c = some (t, .val v, c')) :
    ∃ s, Steps (init (.call child false (fun v => .emit n (.ret v)) .throw (.ret 0)) c) s ∧
      s.ctl = .halt (.val v) ∧ s.trace = t ++ [.code c n] ∧ s.ctx = c := by
  have h1 : task (.call child false (fun v => .emit n (.ret v)) .throw (.ret 0)) c c =
      some (t ++ [.code c n], .val v, c) := by
    rw [task] at h
    simp only [task, den, h]
    simp [finish, runExits]
  obtain ⟨s, k1, k2, k3, k4, _⟩ := runs_as_specified _ c _ _ _ h1
  exact ⟨s, k1, k2, k3, k4⟩

/-- The same when the child is stopped and the parent handles it. -/
theorem affinity_stopped (child : Body) (c n : Nat) (t : List Ev) (c' : Ctx)
    (h : task child c c = some (t, .stop, c')) :
    ∃ s, Steps (init (.call child true .ret .throw (.emit n (.ret 0))) c) s ∧
      s.ctl = .halt (.val 0) ∧ s.trace = t ++ [.code c n] ∧ s.ctx = c := by
  have h1 : task (.call child true .ret .throw (.emit n (.ret 0))) c c =
      some (t ++ [.code c n], .val 0, c) := by
    rw [task] at h
    simp only [task, den, h]
    simp [finish, runExits]
  obtain ⟨s, k1, k2, k3, k4, _⟩ := runs_as_specified _ c _ _ _ h1
  exact ⟨s, k1, k2, k3, k4⟩

/-- Non-vacuity of `affinity`: a child that reschedules itself to 8 and leaves by an exit action that
    completes on 9. -/
example : task (.regOp none 9 (.val 0) (.resched 8 (.val 0) (.emit 1 (.ret 2)))) 5 5 =
    some ([.code 8 1, .freed, .freed], .val 2, 9) := by rfl

/-- **Reschedule is undone.**  A task that starts by rescheduling itself, however it ends — and
    whatever exit actions it registers afterwards — completes on the scheduler it was started on. -/
theorem reschedule_undone (c d : Ctx) (ro : Out) (k : Body) (s : St) (o : Out)
    (h : Steps (init (.resched d ro k) c) s) (ho : s.ctl = .halt o) : s.ctx = c := by
  cases ht : task (.resched d ro k) c c with
  | none =>
      obtain ⟨u, h1, h2⟩ := terminates_as_specified _ c ht
      have h3 := h.confluent h1 (by simp [step, h2])
      cases h3 with
      | refl => rw [ho] at h2; cases h2
      | cons h4 _ => simp [step, ho] at h4
  | some toc =>
      obtain ⟨t, o', c'⟩ := toc
      obtain ⟨u, h1, h2, h2', h2'', _⟩ := runs_as_specified _ c t o' c' ht
      have h3 := h.confluent h1 (by simp [step, h2])
      cases h3 with
      | cons h4 _ => simp [step, ho] at h4
      | refl =>
      rw [h2'']
      rw [task] at ht
      cases hd : den (.resched d ro k) c false c with
      | none => simp [hd] at ht
      | some r =>
          simp only [hd, Option.bind_some] at ht
          obtain ⟨t1, f1, _, _⟩ := finish_some ht
          have hx : ∃ xs, r.exits = xs ++ [exitOp none c (.val 0)] := by
            cases ro with
            | val v =>
                simp only [den] at hd
                cases hq : den k d true d with
                | none => simp [hq] at hd
                | some r1 => simp [hq] at hd; exact ⟨r1.exits, by rw [← hd]⟩
            | err e => simp [den] at hd
            | stop => simp [den] at hd; exact ⟨[], by rw [← hd]; rfl⟩
          obtain ⟨xs, hx⟩ := hx
          rw [hx] at f1
          obtain ⟨u1, c1, u2, a1, a2, _⟩ := runExits_append _ _ _ _ _ _ f1
          simp [runExits, exitOp] at a2
          exact a2.2.symm

/-! ## When exit actions are destroyed -/

/-- Nothing in the body, the tasks it awaits or its exit actions is ever stopped. -/
def NoStop : Body → Prop
  | .ret _ => True
  | .throw _ => True
  | .emit _ k => NoStop k
  | .await _ o kv ke => o ≠ .stop ∧ (∀ v, NoStop (kv v)) ∧ ∀ e, NoStop (ke e)
  | .reg _ act k => NoStop act ∧ NoStop k
  | .regOp _ _ _ k => NoStop k
  | .resched _ o k => o ≠ .stop ∧ NoStop k
  | .call child _ kv ke ks => NoStop child ∧ (∀ v, NoStop (kv v)) ∧ (∀ e, NoStop (ke e)) ∧ NoStop ks

/-- An exit action in whose run nothing is destroyed late. -/
def Timely (x : Exit) : Prop := ∀ d c t c', x d c = some (t, c') → Ev.late ∉ t

theorem runExits_timely : ∀ (xs : List Exit) (d : Disp) (c : Ctx) (t : List Ev) (c' : Ctx), d ≠ .stopped →
    (∀ x ∈ xs, Timely x) → runExits xs d c = some (t, c') → Ev.late ∉ t := by
  intro xs
  induction xs with
  | nil => intro d c t c' _ _ h; simp [runExits] at h; obtain ⟨rfl, _⟩ := h; simp
  | cons x xs ih =>
      intro d c t c' hd hx h
      rw [runExits] at h
      cases hxd : x d c with
      | none => simp [hxd] at h
      | some tc =>
          obtain ⟨t1, c1⟩ := tc
          cases hr : runExits xs d c1 with
          | none => simp [hxd, hr] at h
          | some tc2 =>
              obtain ⟨t2, c2⟩ := tc2
              simp [hxd, hr, hd] at h
              rw [← h.1]
              have h1 := hx x (by simp) d c t1 c1 hxd
              have h2 := ih d c1 t2 c2 hd (fun y hy => hx y (by simp [hy])) hr
              simp [h1, h2]

theorem noStop_den (b : Body) : ∀ (σ : Ctx) (rs : Bool) (c : Ctx) (r : BRes), NoStop b →
    den b σ rs c = some r → r.out ≠ .stop ∧ Ev.late ∉ r.trace ∧ ∀ x ∈ r.exits, Timely x := by
  have finT : ∀ (r : BRes) t o c', (r.out ≠ .stop ∧ Ev.late ∉ r.trace ∧ ∀ x ∈ r.exits, Timely x) →
      finish r = some (t, o, c') → o ≠ .stop ∧ Ev.late ∉ t := by
    intro r t o c' ⟨h1, h2, h3⟩ hf
    obtain ⟨t1, f1, rfl, rfl⟩ := finish_some hf
    refine ⟨h1, ?_⟩
    have := runExits_timely r.exits r.out.disp r.ctx t1 c' (by cases ho : r.out <;> simp_all [Out.disp]) h3 f1
    simp [h2, this]
  have hopT : ∀ cond c o, Timely (exitOp cond c o) := by
    intro cond c o d c1 t c' h
    simp only [exitOp] at h
    split at h
    · cases o <;> simp at h
      obtain ⟨rfl, _⟩ := h; simp
    · simp at h; obtain ⟨rfl, _⟩ := h; simp
  induction b with
  | ret v => intro σ rs c r _ h; simp only [den, Option.some.injEq] at h; subst h; simp
  | throw v => intro σ rs c r _ h; simp only [den, Option.some.injEq] at h; subst h; simp
  | emit n k ih =>
      intro σ rs c r hn h
      simp only [den] at h
      cases hk : den k σ rs c with
      | none => simp [hk] at h
      | some r1 =>
          simp [hk] at h; subst h
          have := ih σ rs c r1 hn hk
          simpa using this
  | await c1 o kv ke ihv ihe =>
      intro σ rs c r hn h
      obtain ⟨h1, h2, h3⟩ := hn
      cases o with
      | val v => exact ihv v σ rs σ r (h2 v) (by simpa only [den] using h)
      | err v => exact ihe v σ rs σ r (h3 v) (by simpa only [den] using h)
      | stop => exact absurd rfl h1
  | reg cond act k iha ih =>
      intro σ rs c r hn h
      simp only [den] at h
      cases hk : den k σ rs c with
      | none => simp [hk] at h
      | some r1 =>
          simp [hk] at h; subst h
          obtain ⟨h1, h2, h3⟩ := ih σ rs c r1 hn.2 hk
          refine ⟨h1, h2, ?_⟩
          intro x hx
          simp only [List.mem_append, List.mem_singleton] at hx
          rcases hx with hx | rfl
          · exact h3 x hx
          · intro d c2 t c' ht
            simp only [exitOf] at ht
            split at ht
            · cases ha : den act σ false c2 with
              | none => simp [ha] at ht
              | some ra =>
                  cases hf : finish ra with
                  | none => simp [ha, hf] at ht
                  | some toc =>
                      obtain ⟨t1, o1, c3⟩ := toc
                      have := finT ra t1 o1 c3 (iha σ false c2 ra hn.1 ha) hf
                      cases o1 <;> simp [ha, hf] at ht
                      rw [← ht.1]; exact this.2
            · simp at ht; obtain ⟨rfl, _⟩ := ht; simp
  | regOp cond c1 o k ih =>
      intro σ rs c r hn h
      simp only [den] at h
      cases hk : den k σ rs c with
      | none => simp [hk] at h
      | some r1 =>
          simp [hk] at h; subst h
          obtain ⟨h1, h2, h3⟩ := ih σ rs c r1 hn hk
          refine ⟨h1, h2, ?_⟩
          intro x hx
          simp only [List.mem_append, List.mem_singleton] at hx
          rcases hx with hx | rfl
          · exact h3 x hx
          · exact hopT _ _ _
  | resched c1 o k ih =>
      intro σ rs c r hn h
      obtain ⟨h1, h2⟩ := hn
      cases o with
      | val v =>
          simp only [den] at h
          cases hk : den k c1 true c1 with
          | none => simp [hk] at h
          | some r1 =>
              obtain ⟨q1, q2, q3⟩ := ih c1 true c1 r1 h2 hk
              cases rs with
              | true => simp [hk] at h; subst h; exact ⟨q1, q2, q3⟩
              | false =>
                  simp [hk] at h; subst h
                  refine ⟨q1, q2, ?_⟩
                  intro x hx
                  simp only [List.mem_append, List.mem_singleton] at hx
                  rcases hx with hx | rfl
                  · exact q3 x hx
                  · exact hopT _ _ _
      | err e => simp [den] at h
      | stop => exact absurd rfl h1
  | call child g kv ke ks ihc ihv ihe ihs =>
      intro σ rs c r hn h
      obtain ⟨n1, n2, n3, n4⟩ := hn
      simp only [den] at h
      cases hd : den child σ false c with
      | none => simp [hd] at h
      | some rc =>
          cases hf : finish rc with
          | none => simp [hd, hf] at h
          | some toc =>
              obtain ⟨t1, o1, c3⟩ := toc
              have hT := finT rc t1 o1 c3 (ihc σ false c rc n1 hd) hf
              have fin : ∀ k : Option BRes, (∀ r, k = some r → r.out ≠ .stop ∧ Ev.late ∉ r.trace ∧ ∀ x ∈ r.exits, Timely x) →
                  (k.bind fun r => some { r with trace := t1 ++ r.trace }) = some r →
                  r.out ≠ .stop ∧ Ev.late ∉ r.trace ∧ ∀ x ∈ r.exits, Timely x := by
                intro k hk hr
                cases k with
                | none => cases hr
                | some r1 =>
                    obtain ⟨a1, a2, a3⟩ := hk r1 rfl
                    simp only [Option.bind_some, Option.some.injEq] at hr
                    subst hr
                    exact ⟨a1, by simp [hT.2, a2], a3⟩
              simp only [hd, hf, Option.bind_some] at h
              cases o1 with
              | val v => exact fin _ (fun r1 h1 => ihv v σ rs σ r1 (n2 v) h1) h
              | err v => exact fin _ (fun r1 h1 => ihe v σ rs σ r1 (n3 v) h1) h
              | stop => exact absurd rfl hT.1

/-- If nothing is stopped, every exit action has been destroyed, with its captures and arguments, before
    the coroutine that registered it completes.  Partial: false when the coroutine is stopped, see
    `action_outlives_stopped_task`. -/
theorem actions_destroyed_in_time_partial (b : Body) (c : Ctx) (hb : NoStop b) (s : St) (o : Out)
    (h : Steps (init b c) s) (ho : s.ctl = .halt o) : Ev.late ∉ s.trace := by
  cases ht : task b c c with
  | none =>
      obtain ⟨u, h1, h2⟩ := terminates_as_specified b c ht
      have h3 := h.confluent h1 (by simp [step, h2])
      cases h3 with
      | refl => rw [ho] at h2; cases h2
      | cons h4 _ => simp [step, ho] at h4
  | some toc =>
      obtain ⟨t, o', c'⟩ := toc
      obtain ⟨u, h1, h2, h2', _⟩ := runs_as_specified b c t o' c' ht
      have h3 := h.confluent h1 (by simp [step, h2])
      cases h3 with
      | cons h4 _ => simp [step, ho] at h4
      | refl =>
      rw [h2']
      rw [task] at ht
      cases hd : den b c false c with
      | none => simp [hd] at ht
      | some r =>
          simp only [hd, Option.bind_some] at ht
          obtain ⟨t1, f1, rfl, rfl⟩ := finish_some ht
          obtain ⟨q1, q2, q3⟩ := noStop_den b c false c r hb hd
          have := runExits_timely r.exits r.out.disp r.ctx t1 c' (by
            cases ho : r.out <;> simp_all [Out.disp]) q3 f1
          simp [q2, this]

example : NoStop (.reg none (.emit 1 (.ret 0)) (.call (.throw 3) false .ret .ret (.ret 0))) := by
  simp [NoStop]

/-- **Divergence 38.**  When a task with an exit action is stopped, its last exit action is destroyed
    only after the task has completed. -/
theorem action_outlives_stopped_task (c : Ctx) :
    ∃ s, Steps (init (.reg none (.emit 1 (.ret 0)) (.await c .stop .ret .throw)) c) s ∧
      s.ctl = .halt .stop ∧ s.trace = [.code c 1, .late] := by
  obtain ⟨s, k1, k2, k3, _⟩ := runs_as_specified
    (.reg none (.emit 1 (.ret 0)) (.await c .stop .ret .throw)) c [.code c 1, .late] .stop c
    (by simp [task, den, finish, runExits, exitOf, Out.disp])
  exact ⟨s, k1, k2, k3⟩

/-! ## What terminates the program -/

/-- An exit action that fails or is stopped terminates the program, whatever it is and however the
    coroutine ended. -/
theorem failing_action_terminates (act b : Body) (c : Ctx) (t : List Ev) (o : Out) (c' : Ctx)
    (h : task b c c = some (t, o, c'))
    (ha : ∀ ta v ca, task act c c' ≠ some (ta, .val v, ca)) :
    ∃ s, Steps (init (.reg none act b) c) s ∧ s.ctl = .dead := by
  refine terminates_as_specified _ c ?_
  cases hq : task (.reg none act b) c c with
  | none => rfl
  | some toc =>
      obtain ⟨t1, o1, c1⟩ := toc
      exfalso
      rw [task] at h hq
      cases hd : den b c false c with
      | none => simp [hd] at h
      | some r =>
          simp only [hd, Option.bind_some] at h
          obtain ⟨u1, f1, rfl, rfl⟩ := finish_some h
          simp only [den, hd, Option.bind_eq_bind, Option.bind_some, Option.pure_def] at hq
          obtain ⟨u2, f2, _, _⟩ := finish_some hq
          obtain ⟨v1, d1, v2, a1, a2, _⟩ := runExits_append _ _ _ _ _ _ f2
          simp only at a1
          rw [f1] at a1
          simp only [Option.some.injEq, Prod.mk.injEq] at a1
          obtain ⟨rfl, rfl⟩ := a1
          simp only [runExits, exitOf, true_or, if_true] at a2
          have ha' : ∀ ta v ca, (den act c false c').bind finish ≠ some (ta, .val v, ca) := ha
          cases hx : (den act c false c').bind finish with
          | none => simp [hx] at a2
          | some x =>
              obtain ⟨x1, x2, x3⟩ := x
              cases x2 with
              | val v => exact ha' _ _ _ hx
              | err v => simp [hx] at a2
              | stop => simp [hx] at a2

example : ∀ ta v ca, task (.throw 7) 5 5 ≠ some (ta, .val v, ca) := by
  intro ta v ca; simp [task, den, finish, runExits, Out.disp]

/-- **Divergence 39.**  When the scheduler given to `reschedule_coroutine_on` fails, the program is
    terminated: the error is never seen by the coroutine, not even as an exception. -/
theorem reschedule_error_terminates (c d : Ctx) (e : Nat) (k : Body) :
    ∃ s, Steps (init (.resched d (.err e) k) c) s ∧ s.ctl = .dead :=
  terminates_as_specified _ c (by simp [task, den])

end Verif.Coro
