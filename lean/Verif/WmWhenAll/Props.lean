import Verif.WmWhenAll.Res
/-!
# `when_all` under the C++ memory model — theorems (C92)
-/
namespace Verif.WmWhenAll

open Verif.WM

set_option maxHeartbeats 8000000 in
theorem both_step {c : Cfg} (ho : c.ordC = .ar) {s s' : St} {a : Nat × Nat} (h : Inv c s) (r : Res c s)
    (hs : step c s a = some s') : Inv c s' ∧ Res c s' := by
  obtain ⟨t, ts⟩ := a
  have far := h.far t
  cases hpc : s.pc t with
  | run =>
    simp only [step, hpc] at hs
    split at hs
    · exact complete_step h r (by assumption) hpc hs
    · split at hs
      · rename_i hn1 hn
        split at hs
        · rename_i g hg
          split at hs
          · rename_i hv
            cases hr : s.m.rmw conf c.ordI t .count ts (fun v => v + 1) (atom t) with
            | none => simp [hr] at hs
            | some x =>
              obtain ⟨v, m'⟩ := x
              simp only [hr, Option.map_some, Option.some.injEq] at hs
              subst hs
              obtain ⟨g0, t1, t2, t3, t4, t5, t6, t7, t8, t9, t10, g', t11, t12, t13, t14⟩ := rmw_spec hr
              have hv' : 1 ≤ v := by rw [hg] at t1; cases t1; omega
              refine ⟨(inv_inc h hn hpc hv' hr).2, ?_⟩
              have hh : ∀ j, m'.hist .state j = s.m.hist .state j := fun j => t10 .state j (by simp)
              clear hr t13 t14 t8 t9 t5 t6 t7 t3 h t10 far ho
              obtain ⟨r1, r2, r3, r4, r5, r6, r7, r8, r9, r10, r11, r12, r13, r14, r15, r16, r17⟩ := r
              have e1 : over .cas = false := rfl
              have e2 : over .run = false := rfl
              constructor <;> (try dsimp only) <;> first | assumption | grind | skip
              · intro hx; apply r14; intro u; have := hx u; by_cases hu : u = t <;> grind
          · cases hs
        · cases hs
      · cases hs
  | save =>
    simp only [step, hpc] at hs
    cases hs
    have hw := h.save1 t hpc
    have hp : pend c.n s.pc t = true := by simp [pend, hpc]
    have hno := not_over h hp
    refine ⟨inv_touch h (.inr hpc) (.inr ⟨rfl, hw⟩), ?_⟩
    obtain ⟨t1, -, -, -, -, -⟩ := touch_spec conf s.m t ⟨t, .errors, .write⟩
    generalize s.m.touch conf t ⟨t, .errors, .write⟩ = m' at *
    have hh : ∀ l j, m'.hist l j = s.m.hist l j := fun l j => by rw [t1]
    clear t1 h far ho
    obtain ⟨r1, r2, r3, r4, r5, r6, r7, r8, r9, r10, r11, r12, r13, r14, r15, r16, r17⟩ := r
    have e1 : over .arrive = false := rfl
    constructor <;> (try dsimp only) <;> first | assumption | grind | skip
  | cas =>
    simp only [step, hpc] at hs
    have hn := r.cas1 t hpc
    exact cas_step h r (by omega) (by simp [pend, hpc]) (.inl ⟨hpc, hn⟩) hs
  | arrive =>
    simp only [step, hpc, arrive] at hs
    have hn : t ≤ c.n := by
      by_cases hn : t ≤ c.n
      · exact hn
      · rw [far (by omega)] at hpc; cases hpc
    have hp : pend c.n s.pc t = true := by simp [pend, hpc]
    have hno := not_over h hp
    cases hr : s.m.rmw conf c.ordC t .count ts (fun v => v - 1) (atom t) with
    | none => simp [hr] at hs
    | some x =>
      obtain ⟨v, m'⟩ := x
      simp only [hr, Option.map_some, Option.some.injEq] at hs
      subst hs
      obtain ⟨g0, t1, t2, t3, t4, t5, t6, t7, t8, t9, t10, g', t11, t12, t13, t14⟩ := rmw_spec hr
      refine ⟨(inv_arrive h hn hpc (by rw [ho]; rfl) (by rw [ho]; rfl) hr).2, ?_⟩
      have hh : ∀ j, m'.hist .state j = s.m.hist .state j := fun j => t10 .state j (by simp)
      clear hr t13 t14 t8 t9 t5 t6 t7 t3 h t10 far ho
      obtain ⟨r1, r2, r3, r4, r5, r6, r7, r8, r9, r10, r11, r12, r13, r14, r15, r16, r17⟩ := r
      have e1 : over .load = false := rfl
      have e2 : over .gone = false := rfl
      constructor <;> (try dsimp only) <;> first | assumption | grind | skip
  | gone => simp [step, hpc] at hs
  | fin => simp [step, hpc] at hs
  | load =>
    simp only [step, hpc] at hs
    have hl : last (s.pc t) = true := by simp [hpc, last]
    have hno : ∀ u, over (s.pc u) = false := fun u => by
      cases hx : over (s.pc u) with
      | false => rfl
      | true =>
        have h1 : last (s.pc u) = true := by cases hy : s.pc u <;> simp_all [over, last]
        have := h.lastOne u t h1 hl; subst this; rw [hpc] at hx; cases hx
    have hu : ∀ u, last (s.pc u) = true → u = t := fun u h1 => h.lastOne u t h1 hl
    have hu1 : ∀ u, s.pc u = .error → u = t := fun u h1 => hu u (by simp [h1, last])
    have hu2 : ∀ u i, s.pc u = .values i → u = t := fun u i h1 => hu u (by simp [h1, last])
    cases hr : s.m.load conf c.ordL t .state ts (atom t) with
    | none => simp [hr] at hs
    | some x =>
      obtain ⟨v, m'⟩ := x
      simp only [hr, Option.map_some, Option.some.injEq] at hs
      subst hs
      obtain ⟨g0, t1, t2, t3, t4, t5, t6, t7, t8, t9⟩ := load_spec hr
      have hpl : last (if v = 1 then PC.error else if v = 0 then .values 0 else .free) = true := by
        by_cases h1 : v = 1
        · simp [h1, last]
        · by_cases h2 : v = 0 <;> simp [h1, h2, last]
      obtain ⟨hts, hi⟩ := inv_loadL (out := if v = 1 ∨ v = 0 then s.out else s.out ++ [.stopped]) h (by simp [hpc]) hl hpl hr
      refine ⟨hi, ?_⟩
      have hh : ∀ l j, m'.hist l j = s.m.hist l j := fun l j => by rw [t4]
      clear hr t8 t9 t5 t6 t7 t3 h t4 far hi ho
      subst hts
      obtain ⟨r1, r2, r3, r4, r5, r6, r7, r8, r9, r10, r11, r12, r13, r14, r15, r16, r17⟩ := r
      have e1 : over .error = false := rfl
      have e2 : over (.values 0) = false := rfl
      have e3 : over .free = true := rfl
      have ho := r14 hno
      constructor <;> (try dsimp only) <;> first | assumption | grind | skip
      · intro hx; have := hx t; rw [upd_same] at this
        by_cases h1 : v = 1
        · simp [h1, ho]
        · by_cases h2 : v = 0
          · simp [h2, ho]
          · simp [h1, h2, over] at this
  | values i =>
    simp only [step, hpc] at hs
    have hl : last (s.pc t) = true := by simp [hpc, last]
    have hno : ∀ u, over (s.pc u) = false := fun u => by
      cases hx : over (s.pc u) with
      | false => rfl
      | true =>
        have h1 : last (s.pc u) = true := by cases hy : s.pc u <;> simp_all [over, last]
        have := h.lastOne u t h1 hl; subst this; rw [hpc] at hx; cases hx
    split at hs
    · cases hs
      refine ⟨inv_touchL h (by simp [hpc]) hl (by rfl) (by simp), ?_⟩
      obtain ⟨t1, -, -, -, -, -⟩ := touch_spec conf s.m t ⟨t, .value i, .read⟩
      generalize s.m.touch conf t ⟨t, .value i, .read⟩ = m' at *
      have hh : ∀ l j, m'.hist l j = s.m.hist l j := fun l j => by rw [t1]
      clear t1 h far ho
      obtain ⟨r1, r2, r3, r4, r5, r6, r7, r8, r9, r10, r11, r12, r13, r14, r15, r16, r17⟩ := r
      have e1 : ∀ i, over (.values i) = false := fun _ => rfl
      constructor <;> (try dsimp only) <;> first | assumption | grind | skip
    · cases hs
      refine ⟨inv_moveL h (by simp [hpc]) hl (by rfl), ?_⟩
      clear h far ho
      obtain ⟨r1, r2, r3, r4, r5, r6, r7, r8, r9, r10, r11, r12, r13, r14, r15, r16, r17⟩ := r
      have e1 : over .free = true := rfl
      have ho := r14 hno
      have hv := r17 t i
      constructor <;> (try dsimp only) <;> first | assumption | grind | skip
      · intro hx; have := hx t; rw [upd_same] at this; cases this
  | error =>
    simp only [step, hpc] at hs
    have hl : last (s.pc t) = true := by simp [hpc, last]
    have hno : ∀ u, over (s.pc u) = false := fun u => by
      cases hx : over (s.pc u) with
      | false => rfl
      | true =>
        have h1 : last (s.pc u) = true := by cases hy : s.pc u <;> simp_all [over, last]
        have := h.lastOne u t h1 hl; subst this; rw [hpc] at hx; cases hx
    cases hs
    refine ⟨inv_touchL h (by simp [hpc]) hl (by rfl) (by simp), ?_⟩
    obtain ⟨t1, -, -, -, -, -⟩ := touch_spec conf s.m t ⟨t, .errors, .read⟩
    generalize s.m.touch conf t ⟨t, .errors, .read⟩ = m' at *
    have hh : ∀ l j, m'.hist l j = s.m.hist l j := fun l j => by rw [t1]
    clear t1 h far ho
    obtain ⟨r1, r2, r3, r4, r5, r6, r7, r8, r9, r10, r11, r12, r13, r14, r15, r16, r17⟩ := r
    have e1 : over .free = true := rfl
    have ho := r14 hno
    constructor <;> (try dsimp only) <;> first | assumption | grind | skip
    · intro hx; have := hx t; rw [upd_same] at this; cases this
  | free =>
    simp only [step, hpc] at hs
    have hl : last (s.pc t) = true := by simp [hpc, last]
    cases hs
    refine ⟨inv_touchL h (by simp [hpc]) hl (by rfl) (by simp), ?_⟩
    obtain ⟨t1, -, -, -, -, -⟩ := touch_spec conf s.m t ⟨t, .op, .free⟩
    generalize s.m.touch conf t ⟨t, .op, .free⟩ = m' at *
    have hh : ∀ l j, m'.hist l j = s.m.hist l j := fun l j => by rw [t1]
    clear t1 h far ho
    obtain ⟨r1, r2, r3, r4, r5, r6, r7, r8, r9, r10, r11, r12, r13, r14, r15, r16, r17⟩ := r
    have e1 : over .free = true := rfl
    have e2 : over .fin = true := rfl
    constructor <;> (try dsimp only) <;> first | assumption | grind | skip
    · intro hx; have := hx t; rw [upd_same] at this; cases this

theorem both_reach {c : Cfg} (ho : c.ordC = .ar) {s : St} (h : Reachable c s) : Inv c s ∧ Res c s :=
  Reach.inv (fun s => Inv c s ∧ Res c s) ⟨inv_init c, res_init c⟩ (fun _ _ _ hi he => both_step ho hi.1 hi.2 he) s h

/-- **C92**: under the C++ memory model, whatever the orders of all other atomic accesses, an acquire-release decrement of the
count suffices: no access to the values, the errors or the operation state races with another. -/
theorem C92_no_race {c : Cfg} (ho : c.ordC = .ar) {s : St} (h : Reachable c s) : s.m.race = false := (both_reach ho h).1.noRace

/-- **C92**: …the receiver is completed at most once… -/
theorem C92_once {c : Cfg} (ho : c.ordC = .ar) {s : St} (h : Reachable c s) : s.out.length ≤ 1 := by
  obtain ⟨hi, hr⟩ := both_reach ho h
  by_cases hx : ∀ t, over (s.pc t) = false
  · rw [hr.out0 hx]; simp
  · simp only [Classical.not_forall, Bool.not_eq_false] at hx
    obtain ⟨t, ht⟩ := hx
    cases hg : s.m.hist .state s.ks with
    | none => exact absurd hg (hi.hs1 _ (Nat.le_refl _))
    | some g => rw [hr.out1 t g ht hg]; simp

/-- **C92**: …nothing touches the operation state after the receiver has destroyed it… -/
theorem C92_no_uaf {c : Cfg} (ho : c.ordC = .ar) {s : St} (h : Reachable c s) (j k : Nat) (a b : Acc)
    (hj : s.m.log[j]? = some a) (hk : s.m.log[k]? = some b) (ha : a.how = .free) : k ≤ j :=
  (both_reach ho h).1.freeLast j k a b hj hk ha

/-- What the children's completions allow the receiver to get; `cb` says whether the stop callback was called. -/
def Allowed (c : Cfg) (cb : Prop) : Out → Prop
  | .error x => ∃ t, t < c.n ∧ ∃ e, c.kind t = .error e ∧ x = some e
  | .stopped => (∀ t, t < c.n → ∀ e, c.kind t ≠ .error e) ∧ ((∃ t, t < c.n ∧ c.kind t = .stopped) ∨ cb)
  | .values l => l.length = c.n ∧ ∀ t, t < c.n → ∃ v, c.kind t = .value v ∧ l[t]? = some (some v)

/-- **C92**: …and it gets what it should, although the last load is relaxed and everything else may be: the error of a child if
any child failed, stopped only if no child failed and one was stopped or stop was requested, otherwise all values. -/
theorem C92_result {c : Cfg} (ho : c.ordC = .ar) {s : St} (h : Reachable c s) (o : Out) (hout : o ∈ s.out) :
    Allowed c (s.pc c.n ≠ .run) o := by
  obtain ⟨hi, hr⟩ := both_reach ho h
  by_cases hx : ∀ t, over (s.pc t) = false
  · rw [hr.out0 hx] at hout; cases hout
  · simp only [Classical.not_forall, Bool.not_eq_false] at hx
    obtain ⟨t, ht⟩ := hx
    have hl : last (s.pc t) = true := by cases hy : s.pc t <;> simp_all [over, last]
    have hall : ∀ u, u < c.n → s.pc u ≠ .run ∧ s.pc u ≠ .save := fun u hu => by
      have := hi.lastAll t u hl
      constructor <;> intro hx <;> simp [pend, hx, hu] at this
    cases hg : s.m.hist .state s.ks with
    | none => exact absurd hg (hi.hs1 _ (Nat.le_refl _))
    | some g =>
      rw [hr.out1 t g ht hg] at hout
      have hout := List.mem_singleton.1 hout
      by_cases h1 : g.val = 1
      · rw [if_pos h1] at hout
        have hw := (hr.sv1 g hg).1 h1
        cases hx : s.win with
        | none => exact absurd hx hw
        | some w =>
          obtain ⟨w1, w2, w3⟩ := hr.win1 w hx
          have w4 := hr.win2 w hx (hall w w1).2
          cases hk : c.kind w with
          | value v => rw [hk] at w3; cases w3
          | stopped => rw [hk] at w3; cases w3
          | error e =>
            rw [hk] at w4
            rw [hout]
            exact ⟨w, w1, e, hk, w4⟩
      · rw [if_neg h1] at hout
        have noerr : ∀ u, u < c.n → ∀ e, c.kind u ≠ .error e := fun u hu e hk => by
          have := hr.win3 u hu (hall u hu).1 (by rw [hk]; rfl)
          exact h1 ((hr.sv1 g hg).2 this)
        by_cases h0 : g.val = 0
        · rw [if_pos h0] at hout
          rw [hout]
          refine ⟨by simp, fun u hu => ?_⟩
          cases hk : c.kind u with
          | error e => exact absurd hk (noerr u hu e)
          | stopped => exact absurd h0 (hr.stp2 u g hu (hall u hu).1 hk hg)
          | value v =>
            refine ⟨v, rfl, ?_⟩
            rw [List.getElem?_map, List.getElem?_range hu]
            simp [hr.val1 u v hu (hall u hu).1 hk]
        · rw [if_neg h0] at hout
          rw [hout]
          refine ⟨noerr, ?_⟩
          have h2 : g.val = 2 := by rcases hr.sv _ g hg with h3 | h3 | h3 <;> omega
          cases hx : s.stp with
          | none => exact absurd hx (hr.sv2 g hg h2)
          | some u =>
            rcases hr.stp1 u hx with h3 | h3
            · exact .inl ⟨u, h3⟩
            · right
              subst h3
              exact hr.stp4 hx

/-- Two children, the first fails, the second sends 8. -/
def exCfg (ordC : Ord) : Cfg :=
  { n := 2, kind := fun t => if t = 0 then .error 7 else .value 8, ordS := .ar, ordF := .ar, ordC, ordI := .ar, ordL := .ar }

/-- **C92**: the order is needed: with any weaker one, however strong the others, there is a data race, and the receiver may get
values although a child failed. -/
theorem C92_order_needed (o : Ord) (ho : o ≠ .ar) :
    ∃ s, Reachable (exCfg o) s ∧ s.m.race = true ∧ s.out = [.values [none, some 8]] := by
  have key : ((exec (step (exCfg o)) (init (exCfg o))
      [(0, 0), (0, 0), (0, 0), (1, 0), (1, 1), (1, 0), (1, 0), (1, 0), (1, 0), (1, 0)]).any
      fun s : St => decide (s.m.race = true ∧ s.out = [.values [none, some 8]])) = true := by
    cases o with
    | rlx => decide +kernel
    | acq => decide +kernel
    | rel => decide +kernel
    | ar => exact absurd rfl ho
  obtain ⟨s, hr, hp⟩ := Reach.witness (init := init (exCfg o)) (step := step (exCfg o)) _ _ key
  exact ⟨s, hr, of_decide_eq_true hp⟩

/-- Not vacuous: with the code's order the same children report the error, with a stop request in between. -/
example : ∃ s, Reachable { exCfg .ar with ordS := .rlx, ordF := .rlx, ordI := .rlx, ordL := .rlx } s ∧ s.out = [.error (some 7)] ∧
    s.pc 2 = .gone ∧ s.pc 1 = .fin ∧ s.m.log.length = 11 := by
  have := Reach.witness (init := init { exCfg .ar with ordS := .rlx, ordF := .rlx, ordI := .rlx, ordL := .rlx })
    (step := step { exCfg .ar with ordS := .rlx, ordF := .rlx, ordI := .rlx, ordL := .rlx })
    [(0, 0), (2, 0), (2, 1), (0, 0), (0, 1), (2, 2), (1, 0), (1, 3), (1, 1), (1, 0), (1, 0)]
    (fun s : St => decide (s.out = [.error (some 7)] ∧ s.pc 2 = .gone ∧ s.pc 1 = .fin ∧ s.m.log.length = 11)) (by decide +kernel)
  obtain ⟨s, hr, hp⟩ := this
  exact ⟨s, hr, of_decide_eq_true hp⟩

/-- Not vacuous: three children that succeed. -/
example : ∃ s, Reachable ⟨3, fun t => .value (t + 10), .rlx, .rlx, .ar, .rlx, .rlx⟩ s ∧
    s.out = [.values [some 10, some 11, some 12]] := by
  have := Reach.witness (init := init ⟨3, fun t => .value (t + 10), .rlx, .rlx, .ar, .rlx, .rlx⟩)
    (step := step ⟨3, fun t => .value (t + 10), .rlx, .rlx, .ar, .rlx, .rlx⟩)
    [(2, 0), (0, 0), (0, 0), (1, 0), (2, 1), (1, 2), (1, 0), (1, 0), (1, 0), (1, 0), (1, 0), (1, 0)]
    (fun s : St => decide (s.out = [.values [some 10, some 11, some 12]])) (by decide +kernel)
  obtain ⟨s, hr, hp⟩ := this
  exact ⟨s, hr, of_decide_eq_true hp⟩

end Verif.WmWhenAll
