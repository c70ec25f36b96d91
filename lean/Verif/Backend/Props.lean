import Verif.Backend.Spec
/-!
# C61: the backend of `parallel_scheduler`
-/
namespace Verif.Backend
set_option maxHeartbeats 4000000

structure Inv (s : St) : Prop where
  lk : s.lock = true → ∃ t, (s.pc t).crit = true
  kl : ∀ t, (s.pc t).crit = true → s.lock = true
  one : ∀ t u, (s.pc t).crit = true → (s.pc u).crit = true → t = u
  g3 : ∀ t v, s.pc t = .g3 v → s.inst = v
  g8 : ∀ t v, s.pc t = .g8 v → s.inst = some v
  chain : Chain s.sets s.fac
  kfac : Known s.sets s.fac
  kmade : ∀ v, v < s.next → Known s.sets (s.made v)
  kg5 : ∀ t f, s.pc t = .g5 f → Known s.sets f
  ks2 : ∀ t f o, s.pc t = .s2 f o → (f, o) ∈ s.sets
  os3 : ∀ t v o, s.pc t = .s3 v o → ∃ f, (f, o) ∈ s.sets
  os4 : ∀ t v o, s.pc t = .s4 v o → ∃ f, (f, o) ∈ s.sets
  os5 : ∀ t o, s.pc t = .s5 o → ∃ f, (f, o) ∈ s.sets
  lg6 : ∀ t v, s.pc t = .g6 v → v < s.next
  lg7 : ∀ t v, s.pc t = .g7 v → v < s.next
  ls3 : ∀ t v o, s.pc t = .s3 v o → v < s.next
  ls4 : ∀ t v o, s.pc t = .s4 v o → v < s.next
  linst : ∀ v, s.inst = some v → v < s.next
  lgot : ∀ v, v ∈ s.got → v < s.next
  rets : ∀ o, o ∈ s.rets → ∃ f, (f, o) ∈ s.sets

theorem known_mono (l : List (Nat × Nat)) (x : Nat × Nat) (f : Nat) (h : Known l f) : Known (x :: l) f := by
  rcases h with h | ⟨o, h⟩
  · exact .inl h
  · exact .inr ⟨o, by simp [h]⟩

theorem inv_init : Inv init := by
  constructor <;> simp [init, PC.crit, Chain, Known]

set_option hygiene false in
macro "fields" : tactic => `(tactic| (
  have e1 := h.lk; have e2 := h.kl; have e3 := h.one; have e4 := h.g3; have e5 := h.g8; have e6 := h.chain; have e7 := h.kfac
  have e8 := h.kmade; have e9 := h.kg5; have e10 := h.ks2; have e11 := h.os3; have e12 := h.os4; have e13 := h.os5
  have e14 := h.lg6; have e15 := h.lg7; have e16 := h.ls3; have e17 := h.ls4; have e18 := h.linst; have e19 := h.lgot; have e20 := h.rets))

theorem inv_step (s : St) (a : Act) (s' : St) (h : Inv s) (hs : step s a = some s') : Inv s' := by
  fields
  cases a with
  | get t =>
    simp only [step] at hs; split at hs <;> cases hs
    clear h
    constructor <;> first | assumption | (intro hl; simp at hl; done) | (intro hl; refine ⟨t, ?_⟩; simp [PC.crit]; done) | (intro hl; obtain ⟨u, hu⟩ := e1 hl; refine ⟨u, ?_⟩; grind [PC.crit]) | grind [PC.crit] | skip
  | set t f =>
    simp only [step] at hs; split at hs <;> cases hs
    clear h
    constructor <;> first | assumption | (intro hl; simp at hl; done) | (intro hl; refine ⟨t, ?_⟩; simp [PC.crit]; done) | (intro hl; obtain ⟨u, hu⟩ := e1 hl; refine ⟨u, ?_⟩; grind [PC.crit]) | grind [PC.crit] | skip
  | throw t =>
    simp only [step] at hs; split at hs <;> cases hs
    all_goals clear h
    all_goals constructor <;> first | assumption | (intro hl; simp at hl; done) | (intro hl; refine ⟨t, ?_⟩; simp [PC.crit]; done) | (intro hl; obtain ⟨u, hu⟩ := e1 hl; refine ⟨u, ?_⟩; grind [PC.crit]) | grind [PC.crit] | skip
  | go t =>
    simp only [step] at hs
    split at hs
    all_goals try (split at hs)
    all_goals cases hs
    all_goals clear h
    all_goals constructor <;> first | assumption | (intro hl; simp at hl; done) | (intro hl; refine ⟨t, ?_⟩; simp [PC.crit]; done) | (intro hl; obtain ⟨u, hu⟩ := e1 hl; refine ⟨u, ?_⟩; grind [PC.crit]) | grind [PC.crit, Known, Chain] | skip

theorem inv_reach (s : St) (hr : Reach init step s) : Inv s := Reach.inv Inv inv_init (fun s a s' h hs => inv_step s a s' h hs) s hr

/-- **C61 (mutual exclusion)**: at most one thread is inside the lock. -/
theorem C61_mutex (s : St) (hr : Reach init step s) (t u : Nat) (ht : (s.pc t).crit = true) (hu : (s.pc u).crit = true) : t = u :=
  (inv_reach s hr).one t u ht hu

/-- **C61 (the result)**: every call returns an instance that was made, by a factory that had been installed. -/
theorem C61_result (s : St) (hr : Reach init step s) (v : Nat) (hv : v ∈ s.got) : v < s.next ∧ Known s.sets (s.made v) :=
  ⟨(inv_reach s hr).lgot v hv, (inv_reach s hr).kmade v ((inv_reach s hr).lgot v hv)⟩

/-- **C61 (the previous factory)**: the exchanges of the factory are linked into one chain, whatever the interleaving, and every call of
`set` returns the result of an exchange. -/
theorem C61_chain (s : St) (hr : Reach init step s) : Chain s.sets s.fac ∧ ∀ o ∈ s.rets, ∃ f, (f, o) ∈ s.sets :=
  ⟨(inv_reach s hr).chain, (inv_reach s hr).rets⟩

/-- Remaining steps of a thread's call. -/
def rank : PC → Nat
  | .idle => 0 | .g1 => 8 | .g2 => 7 | .g3 _ => 6 | .g4 => 5 | .g5 _ => 4 | .g6 _ => 3 | .g7 _ => 2 | .g8 _ => 1
  | .s1 _ => 5 | .s2 _ _ => 4 | .s3 _ _ => 3 | .s4 _ _ => 2 | .s5 _ => 1

/-- **C61 (calls return)**: every call takes at most eight steps of its own thread, and is not set back by the others. -/
theorem C61_returns (s s' : St) (a : Act) (t : Nat) (hs : step s a = some s') (hb : s.pc t ≠ .idle) :
    rank (s'.pc t) ≤ rank (s.pc t) ∧ rank (s.pc t) ≤ 8 ∧ (a = .go t → rank (s'.pc t) < rank (s.pc t)) := by
  refine ⟨?_, by cases s.pc t <;> simp [rank], ?_⟩
  · cases a with
    | get u => simp only [step] at hs; split at hs <;> cases hs; grind [rank]
    | set u f => simp only [step] at hs; split at hs <;> cases hs; grind [rank]
    | throw u => simp only [step] at hs; split at hs <;> cases hs <;> grind [rank]
    | go u =>
      simp only [step] at hs; split at hs
      all_goals try (split at hs)
      all_goals cases hs
      all_goals grind [rank]
  · rintro rfl
    simp only [step] at hs; split at hs
    all_goals try (split at hs)
    all_goals cases hs
    all_goals (rename_i hp; simp only [upd_same, rank]; simp_all [rank])

/-- **C61 (no deadlock)**: while some call has not returned, some thread can make its next step. -/
theorem C61_no_deadlock (s : St) (hr : Reach init step s) (t : Nat) (hb : s.pc t ≠ .idle) : ∃ u s', step s (.go u) = some s' := by
  have h := inv_reach s hr
  cases hl : s.lock with
  | false =>
    refine ⟨t, Option.isSome_iff_exists.1 ?_⟩
    cases hp : s.pc t with
    | idle => exact absurd hp hb
    | g3 v => cases v <;> simp [step, hp]
    | _ => simp [step, hp, hl]
  | true =>
    obtain ⟨u, hu⟩ := h.lk hl
    refine ⟨u, Option.isSome_iff_exists.1 ?_⟩
    cases hp : s.pc u with
    | g3 v => cases v <;> simp [step, hp]
    | g2 => simp [step, hp]
    | g7 v => simp [step, hp]
    | g8 v => simp [step, hp]
    | s4 v o => simp [step, hp]
    | s5 o => simp [step, hp]
    | _ => rw [hp] at hu; simp [PC.crit] at hu

/-- **C61 (one backend), partial**: once there is an instance `v` and no call is still making or replacing one, every call of `get` that
returns later — whenever it started — returns `v`, as long as `set` is not called. -/
theorem C61_settled_partial (s : St) (hr : Reach init step s) (v : Nat) (hi : s.inst = some v)
    (hq : ∀ t, (s.pc t).replacing = false) (s' : St) (hr' : Reach s stepGet s') :
    s'.inst = some v ∧ ∃ l, s'.got = l ++ s.got ∧ ∀ g ∈ l, g = v := by
  suffices hmain : Reach init step s' ∧ s'.inst = some v ∧ (∀ t, (s'.pc t).replacing = false) ∧ ∃ l, s'.got = l ++ s.got ∧ ∀ g ∈ l, g = v from
    ⟨hmain.2.1, hmain.2.2.2⟩
  refine Reach.inv (fun s' => Reach init step s' ∧ s'.inst = some v ∧ (∀ t, (s'.pc t).replacing = false) ∧ ∃ l, s'.got = l ++ s.got ∧ ∀ g ∈ l, g = v)
    ⟨hr, hi, hq, [], by simp, by simp⟩ ?_ s' hr'
  rintro s1 a s2 ⟨h1, h2, h3, l, h4, h5⟩ hs
  have hstep : step s1 a = some s2 := by
    cases a <;> simp_all [stepGet]
  have h := inv_reach s1 h1
  refine ⟨.tail a h1 hstep, ?_⟩
  have e4 := h.g3
  have e5 := h.g8
  clear h hr hr' hq hi h1
  cases a with
  | set t f => simp [stepGet] at hs
  | get t =>
    simp only [step] at hstep; split at hstep <;> cases hstep
    exact ⟨h2, by grind [PC.replacing], l, h4, h5⟩
  | throw t =>
    simp only [step] at hstep; split at hstep <;> cases hstep
    all_goals exact ⟨h2, by grind [PC.replacing], l, h4, h5⟩
  | go t =>
    have hq := h3 t
    simp only [step] at hstep
    split at hstep
    all_goals try (split at hstep)
    all_goals cases hstep
    all_goals (rename_i hp; try rw [hp] at hq; try simp [PC.replacing] at hq)
    all_goals first | exact ⟨h2, by grind [PC.replacing], l, h4, h5⟩ | skip
    case h_4.refl w =>
      refine ⟨h2, by grind [PC.replacing], w :: l, by rw [h4]; rfl, ?_⟩
      have := e4 t _ hp
      grind
    case h_10.refl w =>
      refine ⟨h2, by grind [PC.replacing], w :: l, by rw [h4]; rfl, ?_⟩
      have := e5 t _ hp
      grind

/-- **C61 (replacement), partial**: a call `set(f)` during which no other call is in progress installs an instance made by `f`, and returns
the factory installed before. With `C61_settled_partial`, every later `get` returns that instance. -/
theorem C61_set_partial (s : St) (hr : Reach init step s) (t f : Nat) (hq : ∀ u, s.pc u = .idle) :
    ∃ s', exec step s [.set t f, .go t, .go t, .go t, .go t, .go t] = some s' ∧ (∃ v, s'.inst = some v ∧ s'.made v = f) ∧
      s'.rets = s.fac :: s.rets ∧ ∀ u, s'.pc u = .idle := by
  have hl : s.lock = false := by
    cases hl : s.lock with
    | false => rfl
    | true => obtain ⟨u, hu⟩ := (inv_reach s hr).lk hl; rw [hq u] at hu; simp [PC.crit] at hu
  refine ⟨_, by simp [exec, step, hq, hl]; rfl, ⟨s.next, by simp⟩, by simp, ?_⟩
  intro u
  simp only [upd_apply]
  split
  · rfl
  · exact hq u

/-! ## What the code does not guarantee -/

/-- Two first calls at the same time return different instances, although the factory was never replaced. -/
theorem C61_violated_two_backends : ∃ s, Reach init step s ∧ decide (s.got = [0, 1] ∧ s.sets = []) = true :=
  Reach.witness [.get 1, .get 2, .go 1, .go 1, .go 1, .go 2, .go 2, .go 2, .go 1, .go 2, .go 1, .go 2, .go 2, .go 2, .go 2, .go 1, .go 1, .go 1]
    (fun s : St => decide (s.got = [0, 1] ∧ s.sets = [])) (by rfl)

/-- A `get` that started before `set(7)` overwrites the new instance: after both have returned, the instance is one the default factory made,
and a new `get` returns it. -/
theorem C61_violated_set_lost : ∃ s, Reach init step s ∧
    decide (s.rets = [0] ∧ s.fac = 7 ∧ s.inst = some 0 ∧ s.made 0 = 0 ∧ s.got = [0, 0] ∧ s.pc 1 = .idle ∧ s.pc 2 = .idle) = true :=
  Reach.witness [.get 1, .go 1, .go 1, .go 1, .go 1, .go 1, .set 2 7, .go 2, .go 2, .go 2, .go 2, .go 2, .go 1, .go 1, .go 1,
      .get 2, .go 2, .go 2, .go 2]
    (fun s : St => decide (s.rets = [0] ∧ s.fac = 7 ∧ s.inst = some 0 ∧ s.made 0 = 0 ∧ s.got = [0, 0] ∧ s.pc 1 = .idle ∧ s.pc 2 = .idle))
    (by rfl)

/-! ### The hypotheses are met -/

/-- A settled state with a thread waiting for the lock and one inside. -/
example : ∃ s, Reach init step s ∧ decide (s.inst = some 0 ∧ s.got = [0] ∧ s.pc 1 = .idle ∧ s.pc 2 = .g3 (some 0) ∧ s.pc 3 = .g1 ∧
    s.lock = true) = true :=
  Reach.witness [.get 1, .go 1, .go 1, .go 1, .go 1, .go 1, .go 1, .go 1, .go 1, .get 2, .get 3, .go 2, .go 2]
    (fun s : St => decide (s.inst = some 0 ∧ s.got = [0] ∧ s.pc 1 = .idle ∧ s.pc 2 = .g3 (some 0) ∧ s.pc 3 = .g1 ∧ s.lock = true)) (by rfl)
/-- Two replacements, the second by a thread whose factory throws. -/
example : ∃ s, Reach init step s ∧ decide (s.sets = [(8, 7), (7, 0)] ∧ s.rets = [0] ∧ s.fac = 8) = true :=
  Reach.witness [.set 1 7, .go 1, .set 2 8, .go 2, .throw 2, .go 1, .go 1, .go 1, .go 1]
    (fun s : St => decide (s.sets = [(8, 7), (7, 0)] ∧ s.rets = [0] ∧ s.fac = 8)) (by rfl)

end Verif.Backend
