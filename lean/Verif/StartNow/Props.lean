import Verif.StartNow.Model
import Verif.Count
/-!
# C64: `start_now`
-/
namespace Verif.StartNow
set_option maxHeartbeats 4000000

/-- Child `i` has not called its receiver. -/
def St.open_ (x : St) (i : Nat) : Bool := decide (x.child i = .idle) || decide (x.child i = .run)

/-- Between the last child's `fetch_sub` and the end of its call. -/
def CPC.late : CPC → Bool
  | .last => true | .join _ => true
  | _ => false

/-- Started and not completed. -/
def WPC.act : WPC → Bool
  | .cas => true | .self => true | .wait => true
  | _ => false

structure Inv (x : St) : Prop where
  bad : x.bad = false
  kn : x.k ≤ x.n
  out : ∀ i, x.k ≤ i → x.child i = .idle
  in_ : ∀ i, i < x.k → x.child i ≠ .idle
  pend : x.pending = cnt x.open_ x.n
  late0 : ∀ i, (x.child i).late = true → x.pending = 0
  late1 : ∀ i j, (x.child i).late = true → (x.child j).late = true → i = j
  null_ : x.joiner = .null → x.pending = 0 ∧ ∀ i, x.child i ≠ .last
  nonnull : x.joiner ≠ .null → x.pending ≠ 0 ∨ ∃ i, x.child i = .last
  jop : ∀ w, x.joiner = .op w → x.waiter w = .wait
  cjoin : ∀ i w, x.child i = .join w → x.joiner = .null
  cjw : ∀ i w, x.child i = .join (some w) → x.waiter w = .wait
  ww : ∀ w, x.waiter w = .wait → x.joiner = .op w ∨ ∃ i, x.child i = .join (some w)
  selfE : ∀ w, x.waiter w = .self ∨ x.waiter w = .done → x.joiner ≠ .empty
  act : ∀ w, w ∈ x.active ↔ (x.waiter w).act = true
  wk : ∀ w, x.waiter w ≠ .idle → x.k = x.n
  comps : ∀ w, x.comps w = if x.waiter w = .done then 1 else 0
  dead : x.alive = false → x.active = [] ∧ x.k = x.n ∧ x.joiner = .null

theorem inv_init (n : Nat) : Inv (init n) := by
  have hp : (init n).pending = cnt (init n).open_ n := by
    symm; rw [show (init n).pending = n from rfl, cnt_eq_iff]; intro i _; simp [St.open_, init]
  constructor
  case pend => exact hp
  case jop => intro w h; simp only [init] at h; split at h <;> cases h
  all_goals simp [init, CPC.late, WPC.act]

theorem open_lt {x : St} (h : Inv x) {i : Nat} (hi : x.child i = .run) : i < x.n := by
  have := h.out i; have := h.kn
  by_cases hk : x.k ≤ i
  · rw [h.out i hk] at hi; cases hi
  · omega

set_option hygiene false in
macro "fields" : tactic => `(tactic|
  (have e1 := h.bad; have e2 := h.kn; have e3 := h.out; have e4 := h.in_; have e5 := h.pend; have e6 := h.late0; have e7 := h.late1; have e8 := h.null_
   have e9 := h.nonnull; have e10 := h.jop; have e11 := h.cjoin; have e12 := h.cjw; have e13 := h.ww; have e14 := h.selfE; have e15 := h.act
   have e16 := h.wk; have e17 := h.comps; have e18 := h.dead))

theorem cnt_upd_same (f : Nat → CPC) (i : Nat) (c : CPC) (n : Nat)
    (h : (decide (f i = .idle) || decide (f i = .run)) = (decide (c = .idle) || decide (c = .run))) :
    cnt (fun j => decide (upd f i c j = .idle) || decide (upd f i c j = .run)) n = cnt (fun j => decide (f j = .idle) || decide (f j = .run)) n := by
  apply cnt_congr; intro j _; by_cases hj : j = i
  · subst hj; simp [← h]
  · simp [upd_other _ _ hj]

theorem inv_step (e : Bool) (x : St) (a : Act) (y : St) (h : Inv x) (hs : step e x a = some y) : Inv y := by
  cases a with
  | ctor =>
    simp only [step] at hs
    split at hs <;> cases hs
    rename_i hk
    have hc : cnt (fun j => decide (upd x.child x.k .run j = .idle) || decide (upd x.child x.k .run j = .run)) x.n = cnt x.open_ x.n := by
      apply cnt_upd_same; simp [h.out x.k (Nat.le_refl _)]
    fields
    clear h
    constructor
    case pend => simp only [St.acc]; rw [e5, ← hc]; rfl
    case nonnull =>
      intro hj
      rcases e9 hj with h1 | ⟨i, h1⟩
      · exact .inl h1
      · right
        refine ⟨i, ?_⟩
        have : i ≠ x.k := by rintro rfl; rw [e3 _ (Nat.le_refl _)] at h1; cases h1
        simp [upd_other _ _ this, St.acc, h1]
    all_goals (try simp only [St.acc])
    all_goals first | assumption | grind [CPC.late, WPC.act] | skip
  | wait w =>
    simp only [step] at hs
    split at hs <;> cases hs
    fields
    clear h
    constructor
    case pend => exact e5
    all_goals (try simp only [St.acc])
    all_goals first | assumption | grind [CPC.late, WPC.act]
  | destroy w =>
    simp only [step] at hs
    split at hs <;> cases hs
    fields
    clear h
    constructor
    case pend => exact e5
    case dead => 
      have := e14 w
      cases hj : x.joiner <;> grind [WPC.act]
    all_goals (try simp only [St.acc])
    all_goals first | assumption | grind [CPC.late, WPC.act] | skip
  | waiter w =>
    cases hw : x.waiter w <;> simp only [step, hw] at hs <;> (try split at hs) <;> cases hs
    all_goals fields
    all_goals clear h
    all_goals constructor
    case pend => exact e5
    case pend => exact e5
    case pend => exact e5
    all_goals simp only [St.acc, St.complete]
    all_goals first | assumption | grind [CPC.late, WPC.act] | skip
  | child i =>
    cases hw : x.child i with
    | idle => simp [step, hw] at hs
    | fin => simp [step, hw] at hs
    | run =>
      have hin := open_lt h hw
      simp only [step, hw] at hs
      cases hs
      have hflip : cnt x.open_ x.n = cnt (fun j => decide (upd x.child i (if x.pending = 1 then CPC.last else .fin) j = .idle) ||
          decide (upd x.child i (if x.pending = 1 then CPC.last else .fin) j = .run)) x.n + 1 := by
        apply cnt_flip hin
        · split <;> simp
        · simp [St.open_, hw]
        · intro j hj; simp [St.open_, upd_other _ _ hj]
      fields
      have hpos : x.pending ≠ 0 := by omega
      clear h
      constructor
      case pend => exact Nat.sub_eq_of_eq_add (e5.trans hflip)
      case nonnull =>
        intro hj
        by_cases hp : x.pending = 1
        · right; exact ⟨i, by simp [hp]⟩
        · left; show x.pending - 1 ≠ 0; omega
      all_goals simp only [St.acc]
      all_goals first | assumption | grind [CPC.late, WPC.act] | skip
    | last =>
      simp only [step, hw] at hs
      cases hs
      fields
      clear h
      cases hj : x.joiner <;> constructor
      case empty.pend | op.pend | null.pend => exact e5.trans (cnt_upd_same _ _ _ _ (by simp [hw])).symm
      case op.ww w =>
        intro v hv
        rcases e13 v hv with h1 | ⟨m, h1⟩
        · rw [hj] at h1; cases h1; exact .inr ⟨i, by simp⟩
        · have := e7 i m (by simp [hw, CPC.late]) (by simp [h1, CPC.late]); subst this; rw [hw] at h1; cases h1
      all_goals simp only [St.acc]
      all_goals first | assumption | grind [CPC.late, WPC.act] | skip
    | join w =>
      cases w with
      | none =>
        simp only [step, hw] at hs
        cases hs
        fields
        clear h
        constructor
        case pend => exact e5.trans (cnt_upd_same _ _ _ _ (by simp [hw])).symm
        all_goals simp only [St.acc]
        all_goals first | assumption | grind [CPC.late, WPC.act] | skip
      | some w =>
        simp only [step, hw] at hs
        cases hs
        fields
        clear h
        constructor
        case pend => exact e5.trans (cnt_upd_same _ _ _ _ (by simp [hw])).symm
        all_goals simp only [St.acc, St.complete]
        all_goals first | assumption | grind [CPC.late, WPC.act] | skip

theorem inv_reach (e : Bool) (n : Nat) (x : St) (hr : Reach (init n) (step e) x) : Inv x := Reach.inv Inv (inv_init n) (inv_step e) x hr

/-- Child `i` has completed: it has called `set_value` or `set_stopped`. -/
def Completed (x : St) (i : Nat) : Prop := x.child i ≠ .idle ∧ x.child i ≠ .run

theorem n_const (e : Bool) (n : Nat) (x : St) (hr : Reach (init n) (step e) x) : x.n = n := by
  refine Reach.inv (fun x => x.n = n) rfl ?_ x hr
  intro s a s' hi he
  cases a <;> simp only [step] at he <;> (repeat' split at he) <;> cases he <;> first | exact hi | simpa [St.acc, St.complete] using hi

theorem all_completed {x : St} (h : Inv x) (hp : x.pending = 0) : ∀ i < x.n, Completed x i := by
  intro i hi
  have h1 := h.pend; rw [hp] at h1
  have h2 := (cnt_zero_iff.1 h1.symm) i hi
  simp only [St.open_, Bool.or_eq_false_iff, decide_eq_false_iff_not] at h2
  exact h2

/-- Invariant when only one `async_wait` operation is going on at a time. -/
structure InvE (x : St) : Prop where
  inv : Inv x
  one : ∀ v w, v ∈ x.active → w ∈ x.active → v = w
  fin : ∀ w, x.waiter w = .self ∨ x.waiter w = .done → x.joiner = .null

theorem invE_step (x : St) (a : Act) (y : St) (h : InvE x) (hs : step true x a = some y) : InvE y := by
  have hi := inv_step true x a y h.inv hs
  obtain ⟨h, o, f⟩ := h
  fields
  refine ⟨hi, ?_, ?_⟩
  · clear hi h f
    cases a with
    | ctor => simp only [step] at hs; split at hs <;> cases hs; exact o
    | wait w => simp only [step] at hs; split at hs <;> cases hs; grind
    | destroy w => simp only [step] at hs; split at hs <;> cases hs; exact o
    | waiter w =>
      cases hw : x.waiter w <;> simp only [step, hw] at hs <;> (try split at hs) <;> cases hs
      all_goals simp only [St.acc, St.complete]
      all_goals grind
    | child i =>
      cases hw : x.child i with
      | join w => cases w <;> simp only [step, hw] at hs <;> cases hs <;> simp only [St.complete] <;> grind
      | _ => simp only [step, hw] at hs <;> cases hs <;> exact o
  · clear hi h
    cases a with
    | ctor => simp only [step] at hs; split at hs <;> cases hs; exact f
    | wait w => simp only [step] at hs; split at hs <;> cases hs; grind
    | destroy w => simp only [step] at hs; split at hs <;> cases hs; exact f
    | waiter w =>
      cases hw : x.waiter w <;> simp only [step, hw] at hs <;> (try split at hs) <;> cases hs
      all_goals simp only [St.acc, St.complete]
      · grind
      · cases hj : x.joiner <;> grind [WPC.act]
      · grind
    | child i =>
      cases hw : x.child i with
      | join w => cases w <;> simp only [step, hw] at hs <;> cases hs <;> simp only [St.complete] <;> grind
      | _ => simp only [step, hw] at hs <;> cases hs <;> simp only [St.acc] <;> grind

theorem invE_reach (n : Nat) (x : St) (hr : Reach (init n) (step true) x) : InvE x :=
  Reach.inv InvE ⟨inv_init n, by simp [init], by simp [init]⟩ invE_step x hr

/-- **C64 (once)**: an `async_wait` operation is completed at most once, and exactly once if it counts as completed. -/
theorem C64_once (e : Bool) (n : Nat) (x : St) (hr : Reach (init n) (step e) x) (w : Nat) :
    x.comps w ≤ 1 ∧ (x.waiter w = .done ↔ x.comps w = 1) := by
  rw [(inv_reach e n x hr).comps w]; split <;> simp_all

/-- **C64 (not before)**: if the user waits with one `async_wait` operation at a time, it completes only after all operations have completed.
Missing: several at a time, see `C64_violated_early`. -/
theorem C64_not_before_partial (n : Nat) (x : St) (hr : Reach (init n) (step true) x) (w : Nat) (hw : x.comps w ≠ 0) :
    ∀ i < n, Completed x i := by
  have h := invE_reach n x hr
  have hd : x.waiter w = .done := by
    have := h.inv.comps w; by_cases hd : x.waiter w = .done
    · exact hd
    · simp [hd] at this; exact absurd this hw
  have := (h.inv.null_ (h.fin w (.inr hd))).1
  have hn := n_const true n x hr
  intro i hi; exact all_completed h.inv this i (by omega)

/-- **C64 (first waiter)**: however many `async_wait` operations are used, one that has to wait (its `start` returns without completing it) is
completed only after all operations. -/
theorem C64_waiting (e : Bool) (n : Nat) (x : St) (hr : Reach (init n) (step e) x) (w : Nat) (hw : x.waiter w = .wait) (a : Act) (y : St)
    (hs : step e x a = some y) (hd : y.waiter w ≠ .wait) : ∀ i < n, Completed y i := by
  have h := inv_reach e n x hr
  have h' := inv_step e x a y h hs
  have hn := n_const e n y (.tail a hr hs)
  suffices hp : y.pending = 0 by intro i hi; exact all_completed h' hp i (by omega)
  fields
  clear h
  cases a with
  | ctor => simp only [step] at hs; split at hs <;> cases hs; exact absurd hw hd
  | wait v => simp only [step] at hs; split at hs <;> cases hs; grind
  | destroy v => simp only [step] at hs; split at hs <;> cases hs; exact absurd hw hd
  | waiter v => cases hv : x.waiter v <;> simp only [step, hv] at hs <;> (try split at hs) <;> cases hs <;> simp only [St.acc, St.complete] at * <;> grind
  | child i =>
    cases hc : x.child i with
    | join v => cases v <;> simp only [step, hc] at hs <;> cases hs <;> simp only [St.complete] at * <;> grind [CPC.late]
    | _ => simp only [step, hc] at hs <;> cases hs <;> exact absurd hw hd

/-- **C64 (safe)**: if the user destroys the object only when an `async_wait` operation has completed and none is going on, it is never used after
its destruction (also with several `async_wait` operations at a time), and only waiting operations are completed. -/
theorem C64_safe (e : Bool) (n : Nat) (x : St) (hr : Reach (init n) (step e) x) :
    x.bad = false ∧ (x.alive = false → ∀ i < n, Completed x i) := by
  have h := inv_reach e n x hr
  have hn := n_const e n x hr
  exact ⟨h.bad, fun ha i hi => all_completed h (h.null_ (h.dead ha).2.2).1 i (by omega)⟩

/-- **C64 (completes)**: when all operations have completed and their completion calls and the calls of `start` have returned, no `async_wait` operation is
left waiting. -/
theorem C64_completes (e : Bool) (n : Nat) (x : St) (hr : Reach (init n) (step e) x) (hc : ∀ i < n, x.child i = .fin) (w : Nat) :
    x.waiter w ≠ .wait := by
  intro hw
  have h := inv_reach e n x hr
  have hn := n_const e n x hr
  have hf : ∀ i, x.child i = .fin ∨ x.child i = .idle := by
    intro i
    by_cases hi : i < n
    · exact .inl (hc i hi)
    · exact .inr (h.out i (by have := h.kn; omega))
  rcases h.ww w hw with h1 | ⟨i, h1⟩
  · rcases h.nonnull (by simp [h1]) with h2 | ⟨i, h2⟩
    · apply h2; rw [h.pend, cnt_zero_iff]; intro i hi; simp [St.open_, hc i (by omega)]
    · rcases hf i with h3 | h3 <;> rw [h3] at h2 <;> cases h2
  · rcases hf i with h3 | h3 <;> rw [h3] at h1 <;> cases h1

/-- **C64 (wait-free)**: a completion call or a call of `start` can always take its next step, and makes at most three. -/
theorem C64_wait_free (e : Bool) (x : St) :
    (∀ i, x.child i ≠ .idle → x.child i ≠ .fin → (step e x (.child i)).isSome = true) ∧
    (∀ w, x.waiter w = .cas ∨ x.waiter w = .self → (step e x (.waiter w)).isSome = true) ∧
    (∀ i as y, (∀ a ∈ as, a = .child i) → exec (step e) x as = some y → as.length ≤ 3) ∧
    (∀ w as y, (∀ a ∈ as, a = .waiter w) → exec (step e) x as = some y → as.length ≤ 2) := by
  let rc : CPC → Nat := fun c => match c with | .idle => 0 | .fin => 0 | .join _ => 1 | .last => 2 | .run => 3
  let rw_ : WPC → Nat := fun c => match c with | .cas => 2 | .self => 1 | _ => 0
  have hc : ∀ (i : Nat) (s s' : St), step e s (.child i) = some s' → rc (s'.child i) < rc (s.child i) := by
    intro i s s' hs
    cases hc : s.child i with
    | join v => cases v <;> simp only [step, hc] at hs <;> cases hs <;> simp [rc]
    | idle => simp [step, hc] at hs
    | fin => simp [step, hc] at hs
    | run => simp only [step, hc] at hs; cases hs; by_cases hp : s.pending = 1 <;> simp [rc, hp]
    | last => simp only [step, hc] at hs; cases hs; cases hj : s.joiner <;> simp [rc]
  have hw : ∀ (i : Nat) (s s' : St), step e s (.waiter i) = some s' → rw_ (s'.waiter i) < rw_ (s.waiter i) := by
    intro i s s' hs
    cases hc : s.waiter i <;> simp only [step, hc] at hs <;> (try split at hs) <;> cases hs <;> simp [rw_, St.complete]
  refine ⟨?_, ?_, ?_, ?_⟩
  · intro i h1 h2
    cases hcc : x.child i with
    | join v => cases v <;> simp [step, hcc]
    | idle => exact absurd hcc h1
    | fin => exact absurd hcc h2
    | _ => simp [step, hcc]
  · rintro w (h | h) <;> simp only [step, h]
    · split <;> rfl
    · rfl
  · intro i as y hall hex
    suffices hb : as.length ≤ rc (x.child i) by
      have : rc (x.child i) ≤ 3 := by cases x.child i <;> simp [rc]
      omega
    induction as generalizing x with
    | nil => simp
    | cons a as ih =>
      have ha := hall a (by simp); subst ha
      simp only [exec] at hex
      cases hst : step e x (.child i) with
      | none => simp [hst] at hex
      | some z =>
        simp only [hst] at hex
        have h1 := ih z (fun a h => hall a (by simp [h])) (by simpa using hex)
        have h2 := hc i x z hst
        simp only [List.length_cons]; omega
  · intro i as y hall hex
    suffices hb : as.length ≤ rw_ (x.waiter i) by
      have : rw_ (x.waiter i) ≤ 2 := by cases x.waiter i <;> simp [rw_]
      omega
    induction as generalizing x with
    | nil => simp
    | cons a as ih =>
      have ha := hall a (by simp); subst ha
      simp only [exec] at hex
      cases hst : step e x (.waiter i) with
      | none => simp [hst] at hex
      | some z =>
        simp only [hst] at hex
        have h1 := ih z (fun a h => hall a (by simp [h])) (by simpa using hex)
        have h2 := hw i x z hst
        simp only [List.length_cons]; omega

/-- **C64 (violated)**: with two `async_wait` operations at a time, the second one completes at once, although an operation is still running. -/
theorem C64_violated_early : ∃ x, Reach (init 1) (step false) x ∧ x.comps 1 = 1 ∧ x.child 0 = .run := by
  obtain ⟨x, h1, h2⟩ := Reach.witness (init := init 1) (step := step false) [.ctor, .wait 0, .waiter 0, .wait 1, .waiter 1, .waiter 1]
    (fun x : St => decide (x.comps 1 = 1 ∧ x.child 0 = .run)) (by rfl)
  simp only [decide_eq_true_eq] at h2
  exact ⟨x, h1, h2⟩

/-- The last of two operations completes the waiting `async_wait` operation; the object is destroyed afterwards. -/
example : ∃ x, Reach (init 2) (step true) x ∧ x.comps 7 = 1 ∧ x.alive = false := by
  obtain ⟨x, h1, h2⟩ := Reach.witness (init := init 2) (step := step true)
    [.ctor, .child 0, .ctor, .wait 7, .waiter 7, .child 1, .child 1, .child 1, .destroy 7]
    (fun x : St => decide (x.comps 7 = 1 ∧ x.alive = false)) (by rfl)
  simp only [decide_eq_true_eq] at h2
  exact ⟨x, h1, h2⟩

/-- The race: `async_wait` starts between the last `fetch_sub` and the `exchange`; two waits one after the other. -/
example : ∃ x, Reach (init 1) (step true) x ∧ x.comps 0 = 1 ∧ x.comps 1 = 1 ∧ x.child 0 = .fin := by
  obtain ⟨x, h1, h2⟩ := Reach.witness (init := init 1) (step := step true)
    [.ctor, .child 0, .wait 0, .waiter 0, .child 0, .child 0, .wait 1, .waiter 1, .waiter 1]
    (fun x : St => decide (x.comps 0 = 1 ∧ x.comps 1 = 1 ∧ x.child 0 = .fin)) (by rfl)
  simp only [decide_eq_true_eq] at h2
  exact ⟨x, h1, h2⟩

end Verif.StartNow
