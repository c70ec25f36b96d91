import Verif.Coro.Spec
/-! # The machine does what the specification says -/
namespace Verif.Coro
set_option maxHeartbeats 4000000

theorem upd_same (h : Addr → Option Frame) (a x) : upd h a x a = x := by simp [upd]
theorem upd_ne (h : Addr → Option Frame) {a b} (x) (hn : b ≠ a) : upd h a x b = h b := by simp [upd, hn]

/-- The addresses owned by a suspended task through the operation it awaits. -/
inductive Own (h : Addr → Option Frame) : Rest → List Addr → Prop
  | run (b) : Own h (.run b) []
  | aw {o g kv ke ks p rest d c σ rs D} :
      h (o + 1) = some (.opc p o) → h o = some (.task rest d c σ rs) → Own h rest D →
      Own h (.awaiting (o + 1) g kv ke ks) (o :: (o + 1) :: D)

theorem Own.congr {h h' : Addr → Option Frame} {r D} (ho : Own h r D) (he : ∀ a ∈ D, h' a = h a) :
    Own h' r D := by
  induction ho with
  | run b => exact .run b
  | aw h1 h2 _ ih =>
      exact .aw ((he _ (by simp)).trans h1) ((he _ (by simp)).trans h2)
        (ih fun a ha => he a (by simp [ha]))

/-- Destroying a suspended task frees exactly its frame, its operation state and what it owns. -/
theorem destroy_run (D : List Addr) (r : Rest) (s : St) (f : Addr) (nxt : Ctl) (d c σ rs p)
    (ho : Own s.heap r D) (hc : s.ctl = .destroy f nxt) (hf : s.heap f = some (.task r d c σ rs))
    (h1 : s.heap (f + 1) = some (.opc p f)) (hn : (f :: (f + 1) :: D).Nodup) :
    ∃ s', Steps s s' ∧ s'.ctl = nxt ∧ s'.ctx = s.ctx ∧ s'.trace = s.trace ∧ s'.next = s.next ∧
      ∀ a, s'.heap a = if a ∈ f :: (f + 1) :: D then none else s.heap a := by
  cases ho with
  | run b =>
      refine ⟨{ s with heap := upd (upd s.heap f none) (f + 1) none, ctl := nxt },
        .one (by simp only [step, hc, stepDestroy, hf, h1]), rfl, rfl, rfl, rfl, ?_⟩
      intro a
      simp only [upd, List.mem_cons, List.not_mem_nil, or_false]
      by_cases ha : a = f + 1
      · simp [ha]
      · by_cases hb : a = f <;> simp [ha, hb]
  | @aw o g kv ke ks p' rest d' c' σ' rs' D' e1 e2 ho =>
      simp only [List.nodup_cons, List.mem_cons, not_or] at hn
      obtain ⟨⟨hn1, hn2, hn3, hn4⟩, ⟨hn5, hn6, hn7⟩, ⟨hn8, hn9⟩, hn10, hn11⟩ := hn
      let s1 : St := { s with heap := upd (upd s.heap f none) (f + 1) none, ctl := .destroy o nxt }
      have st : step s = some s1 := by
        simp only [step, hc, stepDestroy, hf, h1, e1, s1]
      have keep : ∀ a, a ≠ f → a ≠ f + 1 → s1.heap a = s.heap a := by
        intro a h1 h2; simp [s1, upd, h1, h2]
      have ho' : Own s1.heap rest D' := ho.congr fun a ha => keep a
        (fun h => hn4 (h ▸ ha)) (fun h => hn7 (h ▸ ha))
      obtain ⟨s', k1, k2, k3, k4, k5, k6⟩ := destroy_run D' rest s1 o nxt d' c' σ' rs' p' ho' rfl
        (by rw [keep _ (fun h => hn2 h.symm) (fun h => hn5 h.symm)]; exact e2)
        (by rw [keep _ (fun h => hn3 h.symm) (fun h => hn6 h.symm)]; exact e1)
        (by simp only [List.nodup_cons, List.mem_cons, not_or]; exact ⟨⟨hn8, hn9⟩, hn10, hn11⟩)
      refine ⟨s', .cons st k1, k2, k3, k4, k5, ?_⟩
      intro a
      rw [k6]
      simp only [List.mem_cons]
      by_cases ha : a = f
      · simp [ha, s1, upd]
      · by_cases hb : a = f + 1
        · simp [hb, s1, upd]
        · rw [keep a ha hb]; simp [ha, hb]
termination_by D.length
decreasing_by simp_all <;> omega

/-- What it means for a cleanup coroutine with the given contents to have the effect `x`. -/
def Runs (cond : Option Disp) (act : Act) (sched : Ctx) (x : Exit) : Prop :=
  ∀ (s : St) (g p cont : Addr) (st : Bool) (rest : Rest) (data : Option Out) (c' : Addr) (σ' : Ctx)
    (rs : Bool), s.ctl = .resume g → s.heap g = some (.cleanup cond act p cont sched st none) →
    s.heap p = some (.task rest data c' σ' rs) → g ≠ p → g < s.next → p < s.next →
    (∀ a, s.next ≤ a → s.heap a = none) →
    (x (disp data) s.ctx = none → ∃ s', Steps s s' ∧ s'.ctl = .dead) ∧
    (∀ t c1, x (disp data) s.ctx = some (t, c1) →
      ∃ s' op, Steps s s' ∧ s'.ctl = .final g ∧
        s'.heap g = some (.cleanup cond act p cont sched st op) ∧
        (∀ a, a ≠ g → s'.heap a = s.heap a) ∧ s.next ≤ s'.next ∧ s'.ctx = c1 ∧
        s'.trace = s.trace ++ t)

/-- A chain of cleanup coroutines of the task `f`, from the continuation `c` down to `cont`. -/
inductive Chain (h : Addr → Option Frame) (f : Addr) : Addr → List Exit → Addr → List Addr → Prop
  | nil (c) : Chain h f c [] c []
  | cons {c d cont cond act sched x xs L} :
      h c = some (.cleanup cond act f d sched false none) → Runs cond act sched x →
      Chain h f d xs cont L → Chain h f c (x :: xs) cont (c :: L)

theorem Chain.congr {h h' : Addr → Option Frame} {f c xs cont L} (hc : Chain h f c xs cont L)
    (he : ∀ a ∈ L, h' a = h a) : Chain h' f c xs cont L := by
  induction hc with
  | nil c => exact .nil c
  | cons h1 h2 _ ih =>
      exact .cons (by rw [he _ (by simp)]; exact h1) h2 (ih fun a ha => he a (by simp [ha]))

theorem Chain.snoc {h : Addr → Option Frame} {f c xs cont L d cond act sched x}
    (hc : Chain h f c xs cont L) (h1 : h cont = some (.cleanup cond act f d sched false none))
    (h2 : Runs cond act sched x) : Chain h f c (xs ++ [x]) d (L ++ [cont]) := by
  induction hc with
  | nil c => exact .cons h1 h2 (.nil d)
  | cons e1 e2 _ ih => exact .cons e1 e2 (ih h1)

/-- Running a chain of cleanup coroutines, from the resumption of its first one. -/
theorem chain_run (f : Addr) (data : Option Out) (cont : Addr) (st : Bool)
    (hst : st = true ↔ disp data = .stopped) : ∀ (xs : List Exit) (x : Exit) (s : St) (c d : Addr)
    (L : List Addr) cond act sched rest c' σ' rs p q,
    s.ctl = .resume c → s.heap c = some (.cleanup cond act f d sched st none) →
    Runs cond act sched x → Chain s.heap f d xs cont L → (c :: L).Nodup → f ∉ c :: L →
    cont ∉ c :: L → (∀ a ∈ c :: L, a < s.next) → f < s.next →
    s.heap f = some (.task rest data c' σ' rs) → s.heap cont = some (.opc p q) →
    (∀ a, s.next ≤ a → s.heap a = none) →
    (runExits (x :: xs) (disp data) s.ctx = none → ∃ s', Steps s s' ∧ s'.ctl = .dead) ∧
    (∀ t c1, runExits (x :: xs) (disp data) s.ctx = some (t, c1) →
      ∃ s', Steps s s' ∧ s'.ctl = (if st then .stopped cont else .resume cont) ∧
        (∀ a, s'.heap a = if a ∈ c :: L then none else s.heap a) ∧ s.next ≤ s'.next ∧ s'.ctx = c1 ∧
        s'.trace = s.trace ++ t) := by
  intro xs
  induction xs with
  | nil =>
      intro x s c d L cond act sched rest c' σ' rs p q hctl hc hx hch hnd hf hcont hlt hfn hhf hhc hfr
      cases hch
      have hr := hx s c f cont st rest data c' σ' rs hctl hc hhf (by simp at hf; exact fun h => hf h.symm)
        (hlt c (by simp)) hfn hfr
      have hcc : cont ≠ c := by simpa using hcont
      constructor
      · intro hn
        refine hr.1 ?_
        cases hxd : x (disp data) s.ctx with
        | none => rfl
        | some tc => obtain ⟨t1, c1⟩ := tc; simp [runExits, hxd] at hn
      · intro t c1 hs
        cases hxd : x (disp data) s.ctx with
        | none => simp [runExits, hxd] at hs
        | some tc =>
            obtain ⟨t1, c2⟩ := tc
            obtain ⟨s1, op, k1, k2, k3, k4, k5, k6, k7⟩ := hr.2 t1 c2 hxd
            simp only [runExits, hxd, Option.bind_eq_bind, Option.bind_some, Option.pure_def,
              Option.some.injEq, Prod.mk.injEq] at hs
            obtain ⟨rfl, rfl⟩ := hs
            cases st with
            | false =>
                have hds : disp data ≠ .stopped := fun h => by simpa using hst.2 h
                refine ⟨{ s1 with heap := upd s1.heap c none, trace := s1.trace ++ [.freed], ctl := .resume cont },
                  k1.trans (.one (by simp [step, k2, stepFinal, k3])), rfl, ?_, k5, k6, ?_⟩
                · intro a
                  by_cases ha : a = c
                  · simp [ha, upd]
                  · simp [upd, ha, k4 a ha]
                · simp [k7, hds]
            | true =>
                have hds : disp data = .stopped := hst.1 rfl
                refine ⟨{ s1 with heap := upd s1.heap c none, trace := s1.trace ++ [.late], ctl := .stopped cont },
                  k1.trans (.one (by simp [step, k2, stepFinal, k3, k4 _ hcc, hhc])), rfl, ?_, k5, k6, ?_⟩
                · intro a
                  by_cases ha : a = c
                  · simp [ha, upd]
                  · simp [upd, ha, k4 a ha]
                · simp [k7, hds]
  | cons y ys ih =>
      intro x s c d L cond act sched rest c' σ' rs p q hctl hc hx hch hnd hf hcont hlt hfn hhf hhc hfr
      cases hch with
      | @cons _ d2 _ cond2 act2 sched2 _ _ L2 e1 e2 e3 =>
      have hr := hx s c f d st rest data c' σ' rs hctl hc hhf
        (by simp only [List.mem_cons, not_or] at hf; exact fun h => hf.1 h.symm) (hlt c (by simp)) hfn hfr
      have hnd' := hnd
      simp only [List.nodup_cons, List.mem_cons, not_or] at hnd hf hcont
      obtain ⟨⟨n1, n2⟩, n3, n4⟩ := hnd
      obtain ⟨f1, f2, f3⟩ := hf
      obtain ⟨c1', c2', c3'⟩ := hcont
      cases hxd : x (disp data) s.ctx with
      | none =>
          constructor
          · intro _; exact hr.1 hxd
          · intro t c1 hs; simp [runExits, hxd] at hs
      | some tc =>
          obtain ⟨t1, c2⟩ := tc
          obtain ⟨s1, op, k1, k2, k3, k4, k5, k6, k7⟩ := hr.2 t1 c2 hxd
          -- the step of the final awaiter
          obtain ⟨s2, m1, m2, m3, m4, m5, m6, m7⟩ : ∃ s2, step s1 = some s2 ∧ s2.ctl = .resume d ∧
              s2.heap d = some (.cleanup cond2 act2 f d2 sched2 st none) ∧
              (∀ a, a ≠ d → s2.heap a = if a = c then none else s.heap a) ∧ s2.next = s1.next ∧
              s2.ctx = s1.ctx ∧ s2.trace = s1.trace ++ [Ev.freed] := by
            cases st with
            | false =>
                refine ⟨{ s1 with heap := upd s1.heap c none, trace := s1.trace ++ [.freed], ctl := .resume d },
                  by simp [step, k2, stepFinal, k3], rfl, ?_, ?_, rfl, rfl, rfl⟩
                · simp only [upd]; rw [if_neg (fun h => n1 h.symm), k4 _ (fun h => n1 h.symm)]; exact e1
                · intro a _
                  by_cases ha : a = c
                  · simp [ha, upd]
                  · simp [upd, ha, k4 a ha]
            | true =>
                refine ⟨{ s1 with
                    heap := upd (upd s1.heap d (some (.cleanup cond2 act2 f d2 sched2 true none))) c none,
                    trace := s1.trace ++ [.freed], ctl := .resume d },
                  by simp [step, k2, stepFinal, k3, k4 d (fun h => n1 h.symm), e1], rfl, ?_, ?_, rfl, rfl, rfl⟩
                · simp only [upd]; rw [if_neg (fun h => n1 h.symm)]; simp
                · intro a had
                  by_cases ha : a = c
                  · simp [ha, upd]
                  · simp [upd, ha, had, k4 a ha]
          have keep : ∀ a, a ≠ c → a ≠ d → s2.heap a = s.heap a := by
            intro a h1 h2; rw [m4 a h2, if_neg h1]
          have hnx : s.next ≤ s2.next := by rw [m5]; exact k5
          have hch2 : Chain s2.heap f d2 ys cont L2 := e3.congr fun a ha =>
            keep a (fun h => n2 (h ▸ ha)) (fun h => n3 (h ▸ ha))
          have hI := ih y s2 d d2 L2 cond2 act2 sched2 rest c' σ' rs p q m2 m3 e2 hch2
            (by simp only [List.nodup_cons]; exact ⟨n3, n4⟩)
            (by simp only [List.mem_cons, not_or]; exact ⟨f2, f3⟩)
            (by simp only [List.mem_cons, not_or]; exact ⟨c2', c3'⟩)
            (fun a ha => Nat.lt_of_lt_of_le (hlt a (by
              simp only [List.mem_cons] at ha ⊢; exact .inr ha)) hnx)
            (Nat.lt_of_lt_of_le hfn hnx)
            (by rw [keep f f1 f2]; exact hhf) (by rw [keep cont c1' c2']; exact hhc)
            (by
              intro a ha
              have hca : a ≠ c := fun h => by
                have := hlt c (by simp); omega
              have hda : a ≠ d := fun h => by
                have := hlt d (by simp); omega
              rw [keep a hca hda]; exact hfr a (by omega))
          have hctx : s2.ctx = c2 := by rw [m6, k6]
          rw [hctx] at hI
          constructor
          · intro hn
            have : runExits (y :: ys) (disp data) c2 = none := by
              cases hq : runExits (y :: ys) (disp data) c2 with
              | none => rfl
              | some tc =>
                  rw [runExits] at hn
                  simp [hxd, hq] at hn
            obtain ⟨s', q1, q2⟩ := hI.1 this
            exact ⟨s', k1.trans (.cons m1 q1), q2⟩
          · intro t c1 hs
            cases hq : runExits (y :: ys) (disp data) c2 with
            | none => rw [runExits] at hs; simp [hxd, hq] at hs
            | some tc =>
                obtain ⟨t2, c3⟩ := tc
                obtain ⟨s', q1, q2, q3, q4, q5, q6⟩ := hI.2 t2 c3 hq
                rw [runExits] at hs
                simp only [hxd, hq, Option.bind_eq_bind, Option.bind_some, Option.pure_def,
                  Option.some.injEq, Prod.mk.injEq] at hs
                obtain ⟨rfl, rfl⟩ := hs
                refine ⟨s', k1.trans (.cons m1 q1), q2, ?_, Nat.le_trans hnx q4, q5, ?_⟩
                · intro a
                  rw [q3]
                  simp only [List.mem_cons]
                  by_cases ha : a = c
                  · subst ha
                    by_cases hd : a = d ∨ a ∈ L2
                    · simp [hd]
                    · rw [if_neg hd, m4 a (fun h => hd (.inl h)), if_pos rfl]; simp
                  · by_cases hb : a = d
                    · simp [hb]
                    · rw [keep a ha hb]; simp [ha, hb]
                · rw [q6, m7, k7]; simp

def dataOf : Out → Option Out
  | .stop => none
  | o => some o

theorem disp_dataOf (o : Out) : disp (dataOf o) = o.disp := by cases o <;> rfl

def ctlOf (o : Out) (a : Addr) : Ctl :=
  match o with
  | .stop => .stopped a
  | _ => .resume a

/-- Running the body `b` in the coroutine `f` up to the point where it passes control to its
    continuation. -/
def Good (b : Body) : Prop :=
  ∀ (s : St) (f cont : Addr) (σ : Ctx) (rs : Bool), s.ctl = .resume f →
    s.heap f = some (.task (.run b) none cont σ rs) → f < s.next →
    (∀ a, s.next ≤ a → s.heap a = none) →
    (den b σ rs s.ctx = none → ∃ s', Steps s s' ∧ s'.ctl = .dead) ∧
    (∀ r, den b σ rs s.ctx = some r →
      ∃ s' c' rest' σ' rs' L D, Steps s s' ∧ s'.ctl = ctlOf r.out c' ∧
        s'.heap f = some (.task rest' (dataOf r.out) c' σ' rs') ∧ s'.ctx = r.ctx ∧
        s'.trace = s.trace ++ r.trace ∧ Chain s'.heap f c' r.exits cont L ∧ Own s'.heap rest' D ∧
        (r.out ≠ .stop → D = []) ∧ (L ++ D).Nodup ∧ (∀ a ∈ L ++ D, s.next ≤ a ∧ a < s'.next) ∧
        (∀ a, a < s.next → a ≠ f → s'.heap a = s.heap a) ∧ s.next ≤ s'.next ∧
        (∀ a, s.next ≤ a → a ∉ L → a ∉ D → s'.heap a = none))

/-- Running a whole awaited task `f`, exit actions included, up to the operation state that awaits
    it. -/
theorem task_run {b : Body} (hb : Good b) (s : St) (f : Addr) (σ : Ctx) (p : Option Addr)
    (hctl : s.ctl = .resume f) (hf : s.heap f = some (.task (.run b) none (f + 1) σ false))
    (hop : s.heap (f + 1) = some (.opc p f)) (hlt : f + 1 < s.next)
    (hfr : ∀ a, s.next ≤ a → s.heap a = none) :
    (task b σ s.ctx = none → ∃ s', Steps s s' ∧ s'.ctl = .dead) ∧
    (∀ t o c, task b σ s.ctx = some (t, o, c) →
      ∃ s' c' rest' σ' rs' D, Steps s s' ∧ s'.ctl = ctlOf o (f + 1) ∧
        s'.heap f = some (.task rest' (dataOf o) c' σ' rs') ∧ s'.ctx = c ∧
        s'.trace = s.trace ++ t ∧ Own s'.heap rest' D ∧ (o ≠ .stop → D = []) ∧ D.Nodup ∧
        (∀ a ∈ D, s.next ≤ a ∧ a < s'.next) ∧ (∀ a, a < s.next → a ≠ f → s'.heap a = s.heap a) ∧
        s.next ≤ s'.next ∧ (∀ a, s.next ≤ a → a ∉ D → s'.heap a = none)) := by
  have hB := hb s f (f + 1) σ false hctl hf (by omega) hfr
  cases hd : den b σ false s.ctx with
  | none =>
      refine ⟨fun _ => hB.1 hd, ?_⟩
      intro t o c h; simp [task, hd] at h
  | some r =>
      obtain ⟨s1, c', rest', σ', rs', L, D, k1, k2, k3, k4, k5, k6, k7, k8, k9, k10, k11, k12, k13⟩ := hB.2 r hd
      have hop1 : s1.heap (f + 1) = some (.opc p f) := by rw [k11 _ hlt (by omega)]; exact hop
      have hfr1 : ∀ a, s1.next ≤ a → s1.heap a = none := by
        intro a ha
        refine k13 a (by omega) (fun h => ?_) (fun h => ?_)
        · have := (k10 a (by simp [h])).2; omega
        · have := (k10 a (by simp [h])).2; omega
      cases hx : r.exits with
      | nil =>
          rw [hx] at k6
          cases k6
          have ht : task b σ s.ctx = some (r.trace, r.out, r.ctx) := by
            simp [task, hd, finish, hx, runExits]
          refine ⟨fun h => (by rw [ht] at h; cases h), ?_⟩
          intro t o c h
          rw [ht] at h
          simp only [Option.some.injEq, Prod.mk.injEq] at h
          obtain ⟨rfl, rfl, rfl⟩ := h
          exact ⟨s1, f + 1, rest', σ', rs', D, k1, k2, k3, k4, k5, k7, k8, by simpa using k9,
            by simpa using k10, k11, k12, fun a h1 h2 => k13 a h1 (by simp) h2⟩
      | cons x xs =>
          rw [hx] at k6
          cases k6 with
          | @cons _ d _ cond act sched _ _ L' e1 e2 e3 =>
          -- set the flag of the first cleanup coroutine if stopped
          obtain ⟨s2, m1, m2, m3, m4, m5, m6, m7⟩ : ∃ s2, Steps s1 s2 ∧ s2.ctl = .resume c' ∧
              s2.heap c' = some (.cleanup cond act f d sched (r.out == .stop) none) ∧
              (∀ a, a ≠ c' → s2.heap a = s1.heap a) ∧ s2.next = s1.next ∧ s2.ctx = s1.ctx ∧
              s2.trace = s1.trace := by
            cases ho : r.out with
            | stop =>
                rw [ho] at k2
                refine ⟨{ s1 with heap := upd s1.heap c' (some (.cleanup cond act f d sched true none)), ctl := .resume c' },
                  .one (by simp only [step, k2, ctlOf, stepStopped, e1]), rfl, ?_, ?_, rfl, rfl, rfl⟩
                · simp only [upd, if_true]; rfl
                · intro a ha; simp [upd, ha]
            | val v => rw [ho] at k2; exact ⟨s1, .refl _, k2, e1, fun _ _ => rfl, rfl, rfl, rfl⟩
            | err v => rw [ho] at k2; exact ⟨s1, .refl _, k2, e1, fun _ _ => rfl, rfl, rfl, rfl⟩
          have hge : ∀ a ∈ c' :: L', s.next ≤ a ∧ a < s1.next := fun a ha =>
            k10 a (List.mem_append_left _ ha)
          have hfc : f ∉ c' :: L' := fun h => by have := (hge f h).1; omega
          have hcc : f + 1 ∉ c' :: L' := fun h => by have := (hge _ h).1; omega
          have hfc' : f ≠ c' := fun h => hfc (by simp [h])
          have hcc' : f + 1 ≠ c' := fun h => hcc (by simp [h])
          have hnd : (c' :: L').Nodup := (List.nodup_append.1 k9).1
          have hst : (r.out == .stop) = true ↔ disp (dataOf r.out) = .stopped := by
            cases r.out <;> simp [dataOf, disp]
          have hC := chain_run f (dataOf r.out) (f + 1) (r.out == .stop) hst xs x s2 c' d L' cond act
            sched rest' c' σ' rs' p f m2 m3 e2
            (e3.congr fun a ha => m4 a (fun h => (List.nodup_cons.1 hnd).1 (h ▸ ha))) hnd hfc hcc
            (fun a ha => by rw [m5]; exact (hge a ha).2) (by rw [m5]; omega)
            (by rw [m4 f hfc']; exact k3) (by rw [m4 _ hcc']; exact hop1)
            (by
              intro a ha
              rw [m5] at ha
              rw [m4 a (fun h => by have := (hge c' (by simp)).2; omega)]
              exact hfr1 a ha)
          rw [disp_dataOf, m6, k4] at hC
          have hfin : task b σ s.ctx = (runExits (x :: xs) r.out.disp r.ctx).bind
              fun tc => some (r.trace ++ tc.1, r.out, tc.2) := by
            simp [task, hd, finish, hx]
          cases hr : runExits (x :: xs) r.out.disp r.ctx with
          | none =>
              constructor
              · intro _
                obtain ⟨s', q1, q2⟩ := hC.1 hr
                exact ⟨s', (k1.trans m1).trans q1, q2⟩
              · intro t o c h; rw [hfin, hr] at h; simp at h
          | some tc =>
              obtain ⟨t1, c1⟩ := tc
              refine ⟨fun h => (by rw [hfin, hr] at h; simp at h), ?_⟩
              intro t o c h
              rw [hfin, hr] at h
              simp only [Option.bind_some, Option.some.injEq, Prod.mk.injEq] at h
              obtain ⟨rfl, rfl, rfl⟩ := h
              obtain ⟨s', q1, q2, q3, q4, q5, q6⟩ := hC.2 t1 c1 hr
              have keepD : ∀ a, a ∉ c' :: L' → s'.heap a = s1.heap a := by
                intro a ha
                rw [q3, if_neg ha, m4 a (fun h => ha (by simp [h]))]
              have hdis : ∀ a ∈ D, a ∉ c' :: L' := fun a ha hb =>
                (List.nodup_append.1 k9).2.2 a hb a ha rfl
              refine ⟨s', c', rest', σ', rs', D, (k1.trans m1).trans q1, ?_, ?_, q5, ?_, ?_, k8,
                (List.nodup_append.1 k9).2.1, ?_, ?_, ?_, ?_⟩
              · rw [q2]; cases r.out <;> simp [ctlOf]
              · rw [keepD f hfc]; exact k3
              · rw [q6, m7, k5]; simp
              · exact k7.congr fun a ha => keepD a (hdis a ha)
              · intro a ha
                have := k10 a (by simp [ha])
                omega
              · intro a ha hne
                rw [keepD a (fun h => by have := (hge a h).1; omega)]
                exact k11 a ha hne
              · omega
              · intro a ha hD
                rw [q3]
                split
                · rfl
                · rename_i hn
                  rw [m4 a (fun h => hn (by simp [h]))]
                  exact k13 a ha hn hD

theorem wanted_iff (cond : Option Disp) (d : Disp) :
    wanted cond d = true ↔ (cond = none ∨ cond = some d) := by
  cases cond <;> simp [wanted]

theorem runs_op (cond : Option Disp) (c' : Ctx) (o : Out) (σ : Ctx) :
    Runs cond (.op c' o) σ (exitOp cond c' o) := by
  intro s g p cont st rest data c1 σ' rs hctl hg hp hgp hgn hpn hfr
  by_cases hw : cond = none ∨ cond = some (disp data)
  · have hw' := (wanted_iff cond (disp data)).2 hw
    cases o with
    | val v =>
        refine ⟨fun h => (by simp [exitOp, hw] at h), ?_⟩
        intro t c2 h
        simp only [exitOp, if_pos hw, Option.some.injEq, Prod.mk.injEq] at h
        obtain ⟨rfl, rfl⟩ := h
        exact ⟨{ s with ctx := c', ctl := .final g }, none,
          .one (by simp only [step, hctl, hg, stepCleanup, hp, hw', if_true]), rfl, hg,
          fun _ _ => rfl, Nat.le_refl _, rfl, by simp⟩
    | err e =>
        refine ⟨fun _ => ⟨{ s with ctx := c', ctl := .dead },
          .one (by simp only [step, hctl, hg, stepCleanup, hp, hw', if_true]), rfl⟩, ?_⟩
        intro t c2 h
        simp only [exitOp, if_pos hw] at h
        cases h
    | stop =>
        refine ⟨fun _ => ⟨{ s with ctx := c', ctl := .dead },
          .one (by simp only [step, hctl, hg, stepCleanup, hp, hw', if_true]), rfl⟩, ?_⟩
        intro t c2 h
        simp only [exitOp, if_pos hw] at h
        cases h
  · have hw' : wanted cond (disp data) = false := by
      rw [Bool.eq_false_iff]; exact fun h => hw ((wanted_iff _ _).1 h)
    refine ⟨fun h => (by simp [exitOp, hw] at h), ?_⟩
    intro t c2 h
    simp only [exitOp, if_neg hw, Option.some.injEq, Prod.mk.injEq] at h
    obtain ⟨rfl, rfl⟩ := h
    exact ⟨{ s with ctl := .final g }, none,
      .one (by simp [step, hctl, hg, stepCleanup, hp, hw']), rfl, hg,
      fun _ _ => rfl, Nat.le_refl _, rfl, by simp⟩

theorem runs_task {b : Body} (hb : Good b) (cond : Option Disp) (σ : Ctx) :
    Runs cond (.task b) σ (exitOf cond fun c => task b σ c) := by
  intro s g p cont st rest data c1 σ' rs hctl hg hp hgp hgn hpn hfr
  by_cases hw : cond = none ∨ cond = some (disp data)
  · have hw' := (wanted_iff cond (disp data)).2 hw
    let s1 : St := { s with
      heap := upd (launch s.heap s.next (some g) b σ)
        g (some (.cleanup cond (.task b) p cont σ st (some (s.next + 1)))),
      next := s.next + 2, ctl := .resume s.next }
    have st1 : step s = some s1 := by
      simp only [step, hctl, hg, stepCleanup, hp, hw', if_true, s1]
    have hg1 : s1.heap g = some (.cleanup cond (.task b) p cont σ st (some (s.next + 1))) := by
      simp [s1, upd]
    have keep : ∀ a, a ≠ g → a ≠ s.next → a ≠ s.next + 1 → s1.heap a = s.heap a := by
      intro a h1 h2 h3; simp [s1, launch, upd, h1, h2, h3]
    have hT := task_run hb s1 s.next σ (some g) rfl
      (by
        have h1 : s.next ≠ g := by omega
        have h2 : s.next ≠ s.next + 1 := by omega
        simp only [s1, launch, upd, if_neg h1, if_neg h2, if_true])
      (by
        have h1 : s.next + 1 ≠ g := by omega
        simp only [s1, launch, upd, if_neg h1, if_true])
      (by simp only [s1]; omega)
      (by
        intro a ha
        simp only [s1] at ha
        rw [keep a (by omega) (by omega) (by omega)]
        exact hfr a (by omega))
    have hctx : s1.ctx = s.ctx := rfl
    rw [hctx] at hT
    cases ht : task b σ s.ctx with
    | none =>
        obtain ⟨s', q1, q2⟩ := hT.1 ht
        refine ⟨fun _ => ⟨s', .cons st1 q1, q2⟩, ?_⟩
        intro t c2 h
        simp [exitOf, hw, ht] at h
    | some toc =>
        obtain ⟨t1, o, c3⟩ := toc
        obtain ⟨s2, c', rest', σ2, rs', D, k1, k2, k3, k4, k5, k6, k7, k8, k9, k10, k11, k12⟩ :=
          hT.2 t1 o c3 ht
        have hn1 : s1.next = s.next + 2 := rfl
        have hg2 : s2.heap g = some (.cleanup cond (.task b) p cont σ st (some (s.next + 1))) := by
          rw [k10 g (by omega) (by omega)]; exact hg1
        have hop2 : s2.heap (s.next + 1) = some (.opc (some g) s.next) := by
          rw [k10 _ (by omega) (by omega)]
          have h1 : s.next + 1 ≠ g := by omega
          simp only [s1, launch, upd, if_neg h1, if_true]
        cases o with
        | val v =>
            have hD : D = [] := k7 (by simp)
            subst hD
            refine ⟨fun h => (by simp [exitOf, hw, ht] at h), ?_⟩
            intro t c2 h
            simp only [exitOf, if_pos hw, ht, Option.some.injEq, Prod.mk.injEq] at h
            obtain ⟨rfl, rfl⟩ := h
            refine ⟨{ s2 with heap := upd (upd s2.heap s.next none) (s.next + 1) none, ctl := .final g },
              some (s.next + 1), .cons st1 (k1.trans (.one ?_)), rfl, ?_, ?_, ?_, k4, k5⟩
            · rw [ctlOf] at k2
              rw [dataOf] at k3
              simp only [step, k2, hop2, stepOpcResume, k3, hg2]
              all_goals simp
            · have h1 : g ≠ s.next := by omega
              have h2 : g ≠ s.next + 1 := by omega
              simp only [upd, if_neg h1, if_neg h2]; exact hg2
            · intro a ha
              simp only [upd]
              by_cases h2 : a = s.next + 1
              · rw [if_pos h2]; exact (hfr a (by omega)).symm
              · rw [if_neg h2]
                by_cases h1 : a = s.next
                · rw [if_pos h1]; exact (hfr a (by omega)).symm
                · rw [if_neg h1]
                  by_cases h3 : a < s.next
                  · rw [k10 a (by omega) (by omega)]; exact keep a ha h1 h2
                  · rw [k12 a (by omega) (by simp)]; exact (hfr a (by omega)).symm
            · show s.next ≤ s2.next; omega
        | err e =>
            refine ⟨fun _ => ⟨{ s2 with ctl := .dead }, .cons st1 (k1.trans (.one ?_)), rfl⟩, ?_⟩
            · rw [ctlOf] at k2
              rw [dataOf] at k3
              simp only [step, k2, hop2, stepOpcResume, k3, hg2]
              all_goals simp
            · intro t c2 h
              simp [exitOf, hw, ht] at h
        | stop =>
            refine ⟨fun _ => ⟨{ s2 with ctl := .dead }, .cons st1 (k1.trans (.one ?_)), rfl⟩, ?_⟩
            · rw [ctlOf] at k2
              simp only [step, k2, stepStopped, hop2, stepOpcStopped, hg2]
            · intro t c2 h
              simp [exitOf, hw, ht] at h
  · have hw' : wanted cond (disp data) = false := by
      rw [Bool.eq_false_iff]; exact fun h => hw ((wanted_iff _ _).1 h)
    refine ⟨fun h => (by simp [exitOf, hw] at h), ?_⟩
    intro t c2 h
    simp only [exitOf, if_neg hw, Option.some.injEq, Prod.mk.injEq] at h
    obtain ⟨rfl, rfl⟩ := h
    exact ⟨{ s with ctl := .final g }, none,
      .one (by simp [step, hctl, hg, stepCleanup, hp, hw']), rfl, hg,
      fun _ _ => rfl, Nat.le_refl _, rfl, by simp⟩

/-- A step inside the body that leaves everything but the body's own frame alone. -/
theorem good_step {b k : Body} {s s1 : St} {f cont : Addr} {σ σ1 : Ctx} {rs rs1 : Bool} {pre : List Ev}
    (hk : Good k) (hfn : f < s.next) (hfr : ∀ a, s.next ≤ a → s.heap a = none)
    (hst : step s = some s1) (h1 : s1.ctl = .resume f)
    (h2 : s1.heap f = some (.task (.run k) none cont σ1 rs1)) (h3 : s1.next = s.next)
    (h4 : ∀ a, a ≠ f → s1.heap a = s.heap a) (h5 : s1.trace = s.trace ++ pre)
    (hd : den b σ rs s.ctx = (den k σ1 rs1 s1.ctx).bind fun r => some { r with trace := pre ++ r.trace }) :
    (den b σ rs s.ctx = none → ∃ s', Steps s s' ∧ s'.ctl = .dead) ∧
    (∀ r, den b σ rs s.ctx = some r →
      ∃ s' c' rest' σ' rs' L D, Steps s s' ∧ s'.ctl = ctlOf r.out c' ∧
        s'.heap f = some (.task rest' (dataOf r.out) c' σ' rs') ∧ s'.ctx = r.ctx ∧
        s'.trace = s.trace ++ r.trace ∧ Chain s'.heap f c' r.exits cont L ∧ Own s'.heap rest' D ∧
        (r.out ≠ .stop → D = []) ∧ (L ++ D).Nodup ∧ (∀ a ∈ L ++ D, s.next ≤ a ∧ a < s'.next) ∧
        (∀ a, a < s.next → a ≠ f → s'.heap a = s.heap a) ∧ s.next ≤ s'.next ∧
        (∀ a, s.next ≤ a → a ∉ L → a ∉ D → s'.heap a = none)) := by
  have hK := hk s1 f cont σ1 rs1 h1 h2 (by omega) (fun a ha => by
    rw [h4 a (by omega)]; exact hfr a (by omega))
  cases hq : den k σ1 rs1 s1.ctx with
  | none =>
      obtain ⟨s', q1, q2⟩ := hK.1 hq
      refine ⟨fun _ => ⟨s', .cons hst q1, q2⟩, ?_⟩
      intro r h; rw [hd, hq] at h; simp at h
  | some r1 =>
      refine ⟨fun h => (by rw [hd, hq] at h; simp at h), ?_⟩
      intro r h
      rw [hd, hq] at h
      simp only [Option.bind_some, Option.some.injEq] at h
      subst h
      obtain ⟨s', c', rest', σ', rs', L, D, k1, k2, k3, k4, k5, k6, k7, k8, k9, k10, k11, k12, k13⟩ :=
        hK.2 r1 hq
      rw [h3] at k10 k11 k12 k13
      refine ⟨s', c', rest', σ', rs', L, D, .cons hst k1, k2, k3, k4, ?_, k6, k7, k8, k9, k10, ?_, k12, k13⟩
      · rw [k5, h5]; simp
      · intro a ha hne
        rw [k11 a ha hne]; exact h4 a hne

/-- Registering an exit action. -/
theorem good_splice {b k : Body} {s s1 : St} {f cont : Addr} {σ σ1 : Ctx} {rs rs1 : Bool}
    {cond : Option Disp} {act : Act} {x : Exit}
    (hk : Good k) (hx : Runs cond act σ x) (hfn : f < s.next) (hfr : ∀ a, s.next ≤ a → s.heap a = none)
    (hst : step s = some s1) (h1 : s1.ctl = .resume f)
    (h2 : s1.heap f = some (.task (.run k) none s.next σ1 rs1)) (h3 : s1.next = s.next + 1)
    (h4 : ∀ a, a ≠ f → a ≠ s.next → s1.heap a = s.heap a)
    (h6 : s1.heap s.next = some (.cleanup cond act f cont σ false none)) (h5 : s1.trace = s.trace)
    (hd : den b σ rs s.ctx = (den k σ1 rs1 s1.ctx).bind fun r => some { r with exits := r.exits ++ [x] }) :
    (den b σ rs s.ctx = none → ∃ s', Steps s s' ∧ s'.ctl = .dead) ∧
    (∀ r, den b σ rs s.ctx = some r →
      ∃ s' c' rest' σ' rs' L D, Steps s s' ∧ s'.ctl = ctlOf r.out c' ∧
        s'.heap f = some (.task rest' (dataOf r.out) c' σ' rs') ∧ s'.ctx = r.ctx ∧
        s'.trace = s.trace ++ r.trace ∧ Chain s'.heap f c' r.exits cont L ∧ Own s'.heap rest' D ∧
        (r.out ≠ .stop → D = []) ∧ (L ++ D).Nodup ∧ (∀ a ∈ L ++ D, s.next ≤ a ∧ a < s'.next) ∧
        (∀ a, a < s.next → a ≠ f → s'.heap a = s.heap a) ∧ s.next ≤ s'.next ∧
        (∀ a, s.next ≤ a → a ∉ L → a ∉ D → s'.heap a = none)) := by
  have hK := hk s1 f s.next σ1 rs1 h1 h2 (by omega) (fun a ha => by
    rw [h4 a (by omega) (by omega)]; exact hfr a (by omega))
  cases hq : den k σ1 rs1 s1.ctx with
  | none =>
      obtain ⟨s', q1, q2⟩ := hK.1 hq
      refine ⟨fun _ => ⟨s', .cons hst q1, q2⟩, ?_⟩
      intro r h; rw [hd, hq] at h; simp at h
  | some r1 =>
      refine ⟨fun h => (by rw [hd, hq] at h; simp at h), ?_⟩
      intro r h
      rw [hd, hq] at h
      simp only [Option.bind_some, Option.some.injEq] at h
      subst h
      obtain ⟨s', c', rest', σ', rs', L, D, k1, k2, k3, k4, k5, k6, k7, k8, k9, k10, k11, k12, k13⟩ :=
        hK.2 r1 hq
      rw [h3] at k10 k11 k12 k13
      have hcl : s'.heap s.next = some (.cleanup cond act f cont σ false none) := by
        rw [k11 _ (by omega) (by omega)]; exact h6
      have hnL : s.next ∉ L := fun h => by have := (k10 _ (List.mem_append_left _ h)).1; omega
      have hnD : s.next ∉ D := fun h => by have := (k10 _ (List.mem_append_right _ h)).1; omega
      refine ⟨s', c', rest', σ', rs', L ++ [s.next], D, .cons hst k1, k2, k3, k4, by rw [k5, h5],
        k6.snoc hcl hx, k7, k8, ?_, ?_, ?_, by omega, ?_⟩
      · rw [List.nodup_append] at k9 ⊢
        obtain ⟨n1, n2, n3⟩ := k9
        refine ⟨?_, n2, ?_⟩
        · rw [List.nodup_append]
          refine ⟨n1, by simp, ?_⟩
          intro a ha b hb
          simp only [List.mem_singleton] at hb
          subst hb
          exact fun h => hnL (h ▸ ha)
        · intro a ha b hb
          simp only [List.mem_append, List.mem_singleton] at ha
          rcases ha with ha | rfl
          · exact n3 a ha b hb
          · exact fun h => hnD (h ▸ hb)
      · intro a ha
        simp only [List.mem_append, List.mem_singleton] at ha
        rcases ha with (ha | rfl) | ha
        · have := k10 a (by simp [ha]); omega
        · omega
        · have := k10 a (by simp [ha]); omega
      · intro a ha hne
        rw [k11 a (by omega) hne]; exact h4 a hne (by omega)
      · intro a ha hL hD
        simp only [List.mem_append, List.mem_singleton, not_or] at hL
        exact k13 a (by omega) hL.1 hD

end Verif.Coro
