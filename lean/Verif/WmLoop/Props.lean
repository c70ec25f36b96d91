import Verif.WmLoop.Inv
/-!
# The end of a `run_loop` under the C++ memory model — theorems (C98)
-/
namespace Verif.WmLoop

open Verif.WM

theorem inv_step {c : Cfg} (hc : c.good) {s s' : St} {a : Act} (h : Inv c s) (he : step c s a = some s') : Inv c s' := by
  obtain ⟨g1, g2, g3, g4, g5, g6⟩ := hc
  cases a with
  | start i ts =>
    simp only [step, stepStart] at he
    split at he
    · rename_i hp
      split at he
      · rename_i hi
        simp only [Option.map_eq_some_iff] at he
        obtain ⟨⟨v, m'⟩, hm, rfl⟩ := he
        exact i_sadd h hi.1 hi.2 hp hm
      · cases he
    · rename_i hp
      simp only [Option.map_eq_some_iff] at he
      obtain ⟨⟨v, m'⟩, hm, rfl⟩ := he
      have hi : i < c.n := by
        rcases Nat.lt_or_ge i c.n with hl | hl
        · exact hl
        · have := h.ctl.out i hl; rw [hp] at this; cases this
      exact i_spush h g1 hi hp hm
    · cases he
  | finish ts =>
    simp only [step, stepFinish] at he
    split at he
    · rename_i hp
      simp only [Option.map_eq_some_iff] at he
      obtain ⟨⟨v, m'⟩, hm, rfl⟩ := he
      exact i_fadd h hp hm
    · rename_i hp
      simp only [Option.map_eq_some_iff] at he
      obtain ⟨⟨v, m'⟩, hm, rfl⟩ := he
      exact i_fx h g2 hp hm
    · rename_i hp
      simp only [Option.map_eq_some_iff] at he
      obtain ⟨⟨v, m'⟩, hm, rfl⟩ := he
      exact i_fpush h g1 hp hm
    · rename_i hp; cases he; exact i_fnote h hp
    · rename_i hp
      simp only [Option.map_eq_some_iff] at he
      obtain ⟨⟨v, m'⟩, hm, rfl⟩ := he
      exact i_fsub h g3 hp hm
    · cases he
  | run ts =>
    simp only [step, stepRun] at he
    split at he
    · rename_i hp
      simp only [Option.map_eq_some_iff] at he
      obtain ⟨⟨v, m'⟩, hm, rfl⟩ := he
      by_cases hv : v = 0
      · simp only [hv, if_true]; exact i_top0 h hp hv hm
      · simp only [hv, if_false]; exact i_top1 h g4 hp hv hm
    · rename_i hp
      simp only [Option.map_eq_some_iff] at he
      obtain ⟨⟨v, m'⟩, hm, rfl⟩ := he
      exact i_wait h hp hm
    · rename_i hp
      simp only [Option.map_eq_some_iff] at he
      obtain ⟨⟨v, m'⟩, hm, rfl⟩ := he
      exact i_pop h g5 hp hm
    · rename_i hp
      split at he
      · rename_i hl; cases he; exact i_one h hp hl
      · rename_i hl
        split at he
        · cases he
        · rename_i hn
          simp only [Option.map_eq_some_iff] at he
          obtain ⟨⟨v, m'⟩, hm, rfl⟩ := he
          exact i_sub h hp (by omega) (by simpa using hn) hm
    · rename_i hp
      simp only [Option.map_eq_some_iff] at he
      obtain ⟨⟨v, m'⟩, hm, rfl⟩ := he
      exact i_chk h g6 hp hm
    · rename_i hp; cases he; exact i_exit h hp
    · cases he
  | nest ts =>
    simp only [step, stepNest] at he
    split at he
    · rename_i hp
      split at he
      · rename_i hn
        simp only [Option.map_eq_some_iff] at he
        obtain ⟨⟨v, m'⟩, hm, rfl⟩ := he
        exact i_npush h hp hn hm
      · rename_i hn
        simp only [Option.map_eq_some_iff] at he
        obtain ⟨⟨v, m'⟩, hm, rfl⟩ := he
        exact i_nadd h hp (by simpa using hn) hm
    · cases he

theorem inv_reach {c : Cfg} (hc : c.good) {s : St} (h : Reachable c s) : Inv c s :=
  Reach.inv (Inv c) (inv_init c) (fun _ _ _ hi he => inv_step hc hi he) s h

theorem code_good (n : Nat) : (code n).good := ⟨rfl, rfl, rfl, rfl, rfl, rfl⟩

/-- The destruction of the loop after `run` has returned races with nothing: not with what `finish` does, not with the counting and the push of
an operation. -/
theorem C98_no_race (c : Cfg) (hc : c.good) (s : St) (h : Reachable c s) : s.m.race = false := (inv_reach hc h).noRace

/-- Nothing uses the loop after it was destroyed. -/
theorem C98_no_use_after (c : Cfg) (hc : c.good) (s : St) (h : Reachable c s) (i j : Nat) (a b : Acc)
    (ha : s.m.logged i a) (hb : s.m.logged j b) (hd : a.what = .destroy) : j ≤ i :=
  (inv_reach hc h).k.last i j a b ha hb hd

/-- When `run` has returned, `finish` has returned, no thread is between counting and pushing, the queue is empty, and exactly the tasks that
were started, and the empty task of `finish`, have been executed. -/
theorem C98_drained (c : Cfg) (hc : c.good) (s : St) (h : Reachable c s) (hr : s.r = .exit ∨ s.r = .gone) :
    s.f = .done ∧ (∀ i, s.st i ≠ .push) ∧ (∀ g, s.m.hist .q s.kq = some g → g.val = 0) ∧ s.ran = s.started + 1 := by
  have hi := inv_reach hc h
  obtain ⟨h1, h2, h3⟩ := hi.ctl.ex hr
  have he := hi.ctl.e1 (by rcases hr with hr | hr <;> simp [hr])
  have ht := hi.ctl.tot
  refine ⟨h1, fun i => ?_, fun g hg => by rw [hi.v.vq g hg, h2], ?_⟩
  · simp only [np] at h3
    rw [cnt_zero_iff] at h3
    by_cases hl : i < c.n
    · simpa using h3 i hl
    · rw [hi.ctl.out i (by omega)]; simp
  · simp [h1, h2, h3, he, fb] at ht; omega

/-- No task is executed that was not started. -/
theorem C98_not_more (c : Cfg) (hc : c.good) (s : St) (h : Reachable c s) : s.ran ≤ s.started + 1 := by
  have := (inv_reach hc h).ctl.tot
  omega

/-- `run` does not sleep through `finish`: it is waiting for an item only if there is one, or `finish` has yet to push its empty task; and once it
has executed that task it cannot read the flag as it was before. -/
theorem C98_wakes (c : Cfg) (hc : c.good) (s : St) (h : Reachable c s) (hr : s.r = .wait) (hf : s.f = .note ∨ s.f = .sub ∨ s.f = .done) :
    ∃ g, s.m.hist .q s.kq = some g ∧ (∀ j, s.kq < j → s.m.hist .q j = none) ∧ g.val ≠ 0 := by
  have hi := inv_reach hc h
  obtain ⟨g, hg⟩ := Option.ne_none_iff_exists'.mp (hi.v.gq s.kq (Nat.le_refl _))
  have := hi.w.w1 hr (by rcases hf with e | e | e <;> simp [e, fb])
  exact ⟨g, hg, hi.v.aq, by rw [hi.v.vq g hg]; omega⟩

/-! ### Progress -/

theorem wf_step {c : Cfg} {s s' : St} {a : Act} (h : s.m.Wf) (he : step c s a = some s') : s'.m.Wf := by
  cases a <;> simp only [step, stepStart, stepFinish, stepRun, stepNest] at he <;> repeat' split at he
  all_goals first
    | (cases he; done)
    | (cases he; first | exact h | exact h.touch _ _; done)
    | (simp only [Option.map_eq_some_iff] at he
       obtain ⟨⟨v, m'⟩, hm, rfl⟩ := he
       first
         | exact h.rmw hm
         | exact h.load hm
         | (dsimp only; split <;> exact h.load hm))

theorem wf_reach {c : Cfg} {s : St} (h : Reachable c s) : s.m.Wf :=
  Reach.inv (fun s => s.m.Wf) (Mem.Wf.init _) (fun _ _ _ hi he => wf_step hi he) s h

def fR : FC → Nat
  | .idle => 5 | .exch => 4 | .push => 3 | .note => 2 | .sub => 1 | .done => 0

/-- How far `run` is from the end. -/
def rR (s : St) : Nat :=
  match s.r with
  | .top => 4
  | .wait => 6
  | .pop => if s.drain then 3 else 5
  | .exec => 10
  | .chk => if s.nq = 0 then 2 else 4
  | .exit => 1
  | .gone => 0

def mu (c : Cfg) (s : St) : Nat :=
  30 * fR s.f + 30 * np c s + (s.left + s.nq + (if s.nq = 0 then 0 else 20) + (if s.nest then 25 else 0) + rR s)

set_option maxHeartbeats 4000000 in
theorem better {c : Cfg} (hc : c.good) {s : St} (h : Reachable c s) (hr : s.r ≠ .gone) : ∃ a s', step c s a = some s' ∧ mu c s' < mu c s := by
  have hi := inv_reach hc h
  have hw := wf_reach h
  obtain ⟨gc, hgc⟩ := Option.ne_none_iff_exists'.mp (hi.v.gc s.kc (Nat.le_refl _))
  obtain ⟨gq, hgq⟩ := Option.ne_none_iff_exists'.mp (hi.v.gq s.kq (Nat.le_refl _))
  obtain ⟨gf, hgf⟩ := Option.ne_none_iff_exists'.mp (hi.v.gf s.kf (Nat.le_refl _))
  by_cases hx : s.r = .exit
  · refine ⟨.run 0, { s with m := s.m.touch conf 0 ⟨0, .destroy⟩, r := .gone }, by simp [step, stepRun, hx], ?_⟩
    simp [mu, np, rR, hx]
  by_cases hf : s.f = .done
  · by_cases hp : ∃ i, i < c.n ∧ s.st i = .push
    · obtain ⟨i, hl, hp⟩ := hp
      obtain ⟨m', e⟩ := rmw_ok (conf := conf) hw hi.v.aq hgq c.ordP (i + 2) (· + 1) (use (i + 2))
      refine ⟨.start i s.kq, _, by simp only [step, stepStart, hp, e]; rfl, ?_⟩
      have hn := np_sub (c := c) (s := s) (s' := { s with m := m', kq := s.kq + 1, nq := s.nq + 1, st := upd s.st i .done }) hl hp rfl
      simp only [mu]
      dsimp only [rR]
      rw [hn]
      cases s.r <;> simp <;> split <;> omega
    · have h0 : np c s = 0 := by
        simp only [np]; rw [cnt_zero_iff]
        intro i hl
        have : s.st i ≠ .push := fun e => hp ⟨i, hl, e⟩
        simpa using this
      cases hrr : s.r with
      | top =>
        obtain ⟨m', e⟩ := load_ok (conf := conf) hw hi.v.af hgf c.ordL 0 (use 0)
        have hk : s.kf = 1 := by have := hi.v.kf; simpa [hf] using this
        have hv : gf.val = 1 := hi.v.v1 _ _ hgf (by omega)
        refine ⟨.run s.kf, { s with m := m', drain := true, r := .pop }, by simp [step, stepRun, hrr, e, hv], ?_⟩
        simp [mu, np, rR, hrr]
      | wait =>
        obtain ⟨m', e⟩ := load_ok (conf := conf) hw hi.v.aq hgq c.ordW 0 (use 0)
        have hv : gq.val ≠ 0 := by
          have := hi.w.w1 hrr (by simp [hf, fb])
          rw [hi.v.vq _ hgq]; omega
        refine ⟨.run s.kq, { s with m := m', r := .pop }, by simp [step, stepRun, hrr, e, hv], ?_⟩
        simp only [mu, np, rR, hrr]; cases s.drain <;> simp
      | pop =>
        obtain ⟨m', e⟩ := rmw_ok (conf := conf) hw hi.v.aq hgq c.ordQ 0 (fun _ => 0) (use 0)
        refine ⟨.run s.kq, _, by simp only [step, stepRun, hrr, e]; rfl, ?_⟩
        have hv := hi.v.vq _ hgq
        have hl := hi.ctl.e1 (by simp [hrr])
        simp only [mu, np, rR, hrr, hv, hl]
        by_cases hq : s.nq = 0
        · simp only [hq]; cases s.drain <;> simp
        · simp only [hq]; cases s.drain <;> simp <;> omega
      | exec =>
        by_cases hl : 0 < s.left
        · refine ⟨.run 0, { s with left := s.left - 1, ran := s.ran + 1 }, by simp [step, stepRun, hrr, hl], ?_⟩
          simp only [mu, np, rR, hrr]; omega
        · cases hn : s.nest with
          | true =>
            obtain ⟨m', e⟩ := rmw_ok (conf := conf) hw hi.v.aq hgq c.ordP 0 (· + 1) (use 0)
            refine ⟨.nest s.kq, { s with m := m', kq := s.kq + 1, nq := s.nq + 1, nest := false }, by simp [step, stepNest, hrr, hn, e], ?_⟩
            simp only [mu, np, rR, hrr, hn]; split <;> simp <;> omega
          | false =>
            obtain ⟨m', e⟩ := rmw_ok (conf := conf) hw hi.v.ac hgc c.ordS 0 (· - s.b) (use 0)
            refine ⟨.run s.kc, { s with m := m', kc := s.kc + 1, b := 0, r := if s.drain then .pop else .top },
              by simp [step, stepRun, hrr, hn, hl, e], ?_⟩
            simp only [mu, np, rR, hrr, hn]; cases hd : s.drain <;> simp
      | chk =>
        obtain ⟨m', e⟩ := load_ok (conf := conf) hw hi.v.ac hgc c.ordC 0 (use 0)
        refine ⟨.run s.kc, { s with m := m', r := if gc.val = 0 then .exit else .pop }, by simp [step, stepRun, hrr, e], ?_⟩
        have hv := hi.v.vc _ hgc
        have hl := hi.ctl.e1 (by simp [hrr])
        have hd := hi.ctl.ck hrr
        simp [h0, hl, hf, fw] at hv
        by_cases hq : s.nq = 0
        · simp [mu, np, rR, hrr, hv, hq]
        · simp [mu, np, rR, hrr, hv, hq, hd]
      | exit => exact absurd hrr hx
      | gone => exact absurd hrr hr
  · have fin : ∃ s', (∃ ts, step c s (.finish ts) = some s') ∧ fR s'.f + 1 ≤ fR s.f ∧ s'.st = s.st ∧ s'.left = s.left ∧ s'.nest = s.nest ∧
        s'.r = s.r ∧ s'.drain = s.drain ∧ (s'.nq = s.nq ∨ s'.nq = s.nq + 1) := by
      cases hff : s.f with
      | idle =>
        obtain ⟨m', e⟩ := rmw_ok (conf := conf) hw hi.v.ac hgc c.ordF 1 (· + 2) (use 1)
        exact ⟨{ s with m := m', kc := s.kc + 1, p2 := s.kc + 1, f := .exch }, ⟨s.kc, by simp [step, stepFinish, hff, e]⟩, by simp [fR], rfl, rfl, rfl, rfl, rfl, Or.inl rfl⟩
      | exch =>
        obtain ⟨m', e⟩ := rmw_ok (conf := conf) hw hi.v.af hgf c.ordX 1 (fun _ => 1) (use 1)
        exact ⟨{ s with m := m', kf := s.kf + 1, f := .push }, ⟨s.kf, by simp [step, stepFinish, hff, e]⟩, by simp [fR], rfl, rfl, rfl, rfl, rfl, Or.inl rfl⟩
      | push =>
        obtain ⟨m', e⟩ := rmw_ok (conf := conf) hw hi.v.aq hgq c.ordP 1 (· + 1) (use 1)
        exact ⟨{ s with m := m', kq := s.kq + 1, nq := s.nq + 1, f := .note }, ⟨s.kq, by simp [step, stepFinish, hff, e]⟩, by simp [fR], rfl, rfl, rfl, rfl, rfl, Or.inr rfl⟩
      | note =>
        exact ⟨{ s with m := s.m.touch conf 1 (use 1), f := .sub }, ⟨0, by simp [step, stepFinish, hff]⟩, by simp [fR], rfl, rfl, rfl, rfl, rfl, Or.inl rfl⟩
      | sub =>
        obtain ⟨m', e⟩ := rmw_ok (conf := conf) hw hi.v.ac hgc c.ordU 1 (· - 1) (use 1)
        exact ⟨{ s with m := m', kc := s.kc + 1, f := .done }, ⟨s.kc, by simp [step, stepFinish, hff, e]⟩, by simp [fR], rfl, rfl, rfl, rfl, rfl, Or.inl rfl⟩
      | done => exact absurd hff hf
    obtain ⟨s', ⟨ts, e⟩, h1, h2, h3, h4, h5, h6, h7⟩ := fin
    refine ⟨_, _, e, ?_⟩
    have hn : np c s' = np c s := np_eq h2
    have hm : rR s' ≤ rR s + 2 := by
      simp only [rR, h5, h6]
      cases s.r <;> simp
      split <;> split <;> omega
    simp only [mu, hn, h3, h4]
    rcases h7 with e | e <;> rw [e]
    · have hm2 : rR s' = rR s := by simp only [rR, h5, h6, e]
      rw [hm2]; omega
    · by_cases hq : s.nq = 0
      · simp only [hq]; simp; omega
      · simp only [hq]; simp; omega

/-- Nothing is ever stuck: from every reachable state, whatever has happened, `finish` and `run` can go on, reading newest messages, until `run` has
returned (and by `C98_drained` everything was executed). -/
theorem C98_returns (c : Cfg) (hc : c.good) (s : St) (h : Reachable c s) : ∃ acts s', exec (step c) s acts = some s' ∧ s'.r = .gone := by
  generalize hn : mu c s = n
  induction n using Nat.strongRecOn generalizing s with
  | _ n ih =>
    by_cases hr : s.r = .gone
    · exact ⟨[], s, rfl, hr⟩
    · obtain ⟨a, s', he, hl⟩ := better hc h hr
      obtain ⟨acts, s2, h2, h3⟩ := ih (mu c s') (by omega) s' (Reach.tail a h he) rfl
      exact ⟨a :: acts, s2, by simp only [exec, he]; exact h2, h3⟩

/-! ### Examples, and the orders that are needed -/

/-- A whole run: a task from another thread that starts another one, then `finish`. -/
def whole : List Act :=
  [.run 0, .start 0 0, .start 0 0, .run 1, .run 1, .nest 1, .nest 2, .run 0, .run 2, .finish 3, .finish 0, .finish 3, .run 0, .run 4, .run 4, .run 0,
   .run 0, .run 4, .finish 0, .finish 5, .run 1, .run 5, .run 6, .run 0]

example : (exec (step (code 1)) init whole).map (fun s => (s.r, s.started, s.ran, s.m.race)) = some (.gone, 2, 3, false) := by decide +kernel

example : ∃ s, Reachable (code 1) s ∧ s.r = .wait ∧ s.f = .note := by
  obtain ⟨s, h, e⟩ := Reach.witness (init := init) (step := step (code 1)) [.run 0, .finish 0, .finish 0, .finish 0]
    (fun x : St => decide (x.r = .wait ∧ x.f = .note)) (by decide +kernel)
  exact ⟨s, h, of_decide_eq_true e⟩

/-- `run` reads the flag, but the count as it was at first. -/
def early : List Act := [.finish 0, .finish 0, .run 1, .run 0, .run 0]

/-- An operation started by another thread, `finish`, and `run` to the end. -/
def full : List Act :=
  [.start 0 0, .finish 1, .finish 0, .finish 0, .start 0 1, .finish 0, .finish 2, .run 1, .run 2, .run 0, .run 0, .run 3, .run 3, .run 4, .run 0]

example : (exec (step (code 1)) init full).map (fun s => (s.r, s.started, s.ran, s.m.race)) = some (.gone, 1, 2, false) := by decide +kernel

/-- Each of the six orders is needed. With the exchange of the flag or its load relaxed, `run` can return while `finish` has yet to push;
with another one relaxed, the destruction can race. -/
theorem C98_orders_needed :
    (∃ s, Reachable { code 1 with ordX := .rlx } s ∧ s.r = .exit ∧ s.f = .push) ∧
    (∃ s, Reachable { code 1 with ordL := .rlx } s ∧ s.r = .exit ∧ s.f = .push) ∧
    (∃ s, Reachable { code 1 with ordU := .rlx } s ∧ s.m.race = true) ∧
    (∃ s, Reachable { code 1 with ordC := .rlx } s ∧ s.m.race = true) ∧
    (∃ s, Reachable { code 1 with ordP := .rlx } s ∧ s.m.race = true) ∧
    (∃ s, Reachable { code 1 with ordQ := .rlx } s ∧ s.m.race = true) := by
  have w1 : ∀ c : Cfg, ((exec (step c) init early).any fun x => decide (x.r = .exit ∧ x.f = .push)) = true →
      ∃ s, Reachable c s ∧ s.r = .exit ∧ s.f = .push := fun c hc => by
    obtain ⟨s, h, e⟩ := Reach.witness (init := init) (step := step c) early (fun x : St => decide (x.r = .exit ∧ x.f = .push)) hc
    exact ⟨s, h, of_decide_eq_true e⟩
  refine ⟨w1 _ (by decide +kernel), w1 _ (by decide +kernel), ?_, ?_, ?_, ?_⟩
  all_goals exact Reach.witness (init := init) (step := step _) full (fun x : St => x.m.race) (by decide +kernel)

end Verif.WmLoop
