import Verif.Dispatch.Model
import Mathlib.Tactic.ByContra
/-! # `bulk` on `libdispatch_queue` — invariant -/
namespace Verif.Dispatch

def isDone : Pc → Bool
  | .done => true
  | _ => false

def called : Pc → Bool
  | .waiting | .ready => false
  | _ => true

@[simp, grind =] theorem isDone_waiting : isDone .waiting = false := rfl
@[simp, grind =] theorem isDone_ready : isDone .ready = false := rfl
@[simp, grind =] theorem isDone_threw (e) : isDone (.threw e) = false := rfl
@[simp, grind =] theorem isDone_owner (e) : isDone (.owner e) = false := rfl
@[simp, grind =] theorem isDone_fin : isDone .fin = false := rfl
@[simp, grind =] theorem isDone_done : isDone .done = true := rfl
@[simp, grind =] theorem called_waiting : called .waiting = false := rfl
@[simp, grind =] theorem called_ready : called .ready = false := rfl
@[simp, grind =] theorem called_threw (e) : called (.threw e) = true := rfl
@[simp, grind =] theorem called_owner (e) : called (.owner e) = true := rfl
@[simp, grind =] theorem called_fin : called .fin = true := rfl
@[simp, grind =] theorem called_done : called .done = true := rfl

def ncall : List Ev → Nat → Nat
  | [], _ => 0
  | .call j :: l, i => (if j = i then 1 else 0) + ncall l i
  | .value :: l, i => ncall l i
  | .error _ :: l, i => ncall l i
  | .stopped :: l, i => ncall l i

def ncomp : List Ev → Nat
  | [] => 0
  | .call _ :: l => ncomp l
  | .value :: l => 1 + ncomp l
  | .error _ :: l => 1 + ncomp l
  | .stopped :: l => 1 + ncomp l

attribute [grind =] ncall ncomp

theorem ncall_eq (l : List Ev) (i : Nat) : ncall l i = l.count (.call i) := by
  induction l with
  | nil => rfl
  | cons e l ih => cases e <;> simp [ncall, ih, List.count_cons]; split <;> omega

theorem ncomp_eq (l : List Ev) : ncomp l = l.countP isCompletion := by
  induction l with
  | nil => rfl
  | cons e l ih => cases e <;> simp [ncomp, ih, isCompletion, List.countP_cons] <;> omega

/-- Number of tasks submitted so far. -/
def sub (shape : Nat) : Lp → Nat
  | .idle => 0
  | .test i | .body i => i
  | .exited => shape
@[simp, grind =] theorem sub_idle (n) : sub n .idle = 0 := rfl
@[simp, grind =] theorem sub_test (n i) : sub n (.test i) = i := rfl
@[simp, grind =] theorem sub_body (n i) : sub n (.body i) = i := rfl
@[simp, grind =] theorem sub_exited (n) : sub n .exited = n := rfl

structure Inv (shape : Nat) (s : St) : Prop where
  lt : shape < M
  lpT : ∀ i, s.lp = .test i → i ≤ shape
  lpB : ∀ i, s.lp = .body i → i < shape
  wait1 : ∀ a, sub shape s.lp ≤ a → s.pc a = .waiting
  zero : ∀ a, s.pc a ≠ .waiting → s.pc 0 ≠ .waiting
  lpE : s.lp ≠ .exited → ∀ a < sub shape s.lp, s.pc a ≠ .waiting
  exE : s.lp = .exited → (∀ a < shape, s.pc a ≠ .waiting) ∨
    (s.pc 0 = .waiting ∧ s.alive = false)
  idle : s.lp = .idle → s.log = [] ∧ s.alive = true ∧ s.thrown = []
  fin : s.finished = cnt (fun a => isDone (s.pc a)) shape
  aliveNe : s.pc 0 ≠ .waiting → (s.alive = true ↔ s.finished < shape)
  aliveW : s.pc 0 = .waiting → s.lp ≠ .exited → s.alive = true
  early : Ev.value ∈ s.log → shape = 0 ∨ s.pc 0 ≠ .waiting
  thrW : s.pc 0 = .waiting → s.lp ≠ .exited → s.thrown = []
  vAlive : Ev.value ∈ s.log → s.alive = false
  sAlive : Ev.stopped ∈ s.log → s.alive = false
  comp : ncomp s.log = if s.alive then 0 else 1
  calls : ∀ a, ncall s.log a = if called (s.pc a) then 1 else 0
  midThrew : ∀ a e, s.pc a = .threw e → e ∈ s.thrown
  midOwner : ∀ a e, s.pc a = .owner e → s.owner = a ∧ e ∈ s.thrown
  ownerExc : s.owner ≠ shape → s.owner < shape ∧ (s.exc ≠ none ∨ ∃ e, s.pc s.owner = .owner e)
  excThrown : ∀ e, s.exc = some e → e ∈ s.thrown
  thrownOwner : s.pc 0 ≠ .waiting → s.thrown ≠ [] →
    s.owner ≠ shape ∨ ∃ a e, s.pc a = .threw e
  logErr : ∀ e, Ev.error e ∈ s.log → e ∈ s.thrown
  logVal : Ev.value ∈ s.log → s.thrown = []
  logStop : Ev.stopped ∈ s.log → s.pc 0 = .waiting ∧ s.lp = .exited
  exZero : shape = 0 → s.lp = .exited → s.alive = false
  tZero : ∀ i, s.lp = .test i → shape ≠ 0
  stopThrown : Ev.stopped ∈ s.log → s.thrown = []
  noub : s.ubTask = false
  ubl : s.ubLoop = true → s.lp = .exited

theorem inv_init {shape : Nat} (hM : shape < M) : Inv shape (init shape) := by
  constructor <;> simp [init, ncall, ncomp, hM, Nat.mod_eq_of_lt]
  case fin => exact (cnt_zero_iff.2 (by simp)).symm

variable {shape : Nat} {s s' : St}

theorem live (h : Inv shape s) {a} (hp : s.pc a ≠ .waiting) (hd : isDone (s.pc a) = false) :
    a < shape ∧ s.alive = true ∧ s.finished < shape ∧ s.lp ≠ .idle := by
  have ha : a < shape := by
    have h1 := h.wait1 a
    have h2 := h.lpT; have h3 := h.lpB
    cases hl : s.lp <;> grind
  have h1 := cnt_le (fun a => isDone (s.pc a)) shape
  have h2 := h.fin
  have hlt : s.finished < shape := by
    by_cases hc : s.finished = shape
    · have := cnt_eq_iff.1 (h2 ▸ hc) a ha
      simp_all
    · omega
  refine ⟨ha, (h.aliveNe (h.zero a hp)).2 hlt, hlt, ?_⟩
  intro hi
  exact hp (h.wait1 a (by simp [hi]))

theorem fin_same {pc : Nat → Pc} {a : Nat} {n total : Nat} {q : Pc}
    (h : n = cnt (fun b => isDone (pc b)) total) (hp : isDone (pc a) = false)
    (hq : isDone q = false) : n = cnt (fun b => isDone (upd pc a q b)) total := by
  rw [h]
  apply cnt_congr
  intro i _
  by_cases hi : i = a
  · subst hi; simp [hp, hq]
  · simp [upd_other _ _ hi]

theorem fin_flip {pc : Nat → Pc} {a : Nat} {n total : Nat} {q : Pc}
    (h : n = cnt (fun b => isDone (pc b)) total) (ha : a < total) (hp : isDone (pc a) = false)
    (hq : isDone q = true) : n + 1 = cnt (fun b => isDone (upd pc a q b)) total := by
  rw [h]
  refine (cnt_flip (a := a) ha (by simp [hp]) (by simp [hq]) ?_).symm
  intro j hj; simp [upd_other _ _ hj]


set_option hygiene false in
macro "fields" h:ident : tactic => `(tactic|
  obtain ⟨e1, e2, e3, e4, e5, e6, e7, e8, e9, e10, e11, e12, e13, e14, e15, e16, e17, e18, e19, e20,
    e21, e22, e23, e24, e25, e26, e27, e28, e29, e30⟩ := $h)

set_option maxHeartbeats 4000000
attribute [local irreducible] M

theorem inv_pre (h : Inv shape s) (a : Act)
    (ha : a = .pred ∨ (∃ e, a = .predThrow e) ∨ (∃ e, a = .predError e) ∨ a = .predStopped)
    (hs : step shape s a = some s') : Inv shape s' := by
  have hw : s.lp = .idle → ∀ a, s.pc a = .waiting := fun hl a => h.wait1 a (by simp [hl])
  fields h
  rcases ha with rfl | ⟨e, rfl⟩ | ⟨e, rfl⟩ | rfl <;> simp only [step] at hs <;>
    (repeat' split at hs) <;> cases hs <;> (constructor <;> first | assumption | grind | skip)

theorem thrown_keep {pc : Nat → Pc} {a : Nat} {q : Pc} {P : Prop}
    (h : P ∨ ∃ b e, pc b = .threw e) (hn : ∀ e, pc a ≠ .threw e) :
    P ∨ ∃ b e, upd pc a q b = .threw e := by
  rcases h with h1 | ⟨b, e, h1⟩
  · exact Or.inl h1
  · refine Or.inr ⟨b, e, ?_⟩
    have : b ≠ a := by rintro rfl; exact hn e h1
    rw [upd_other _ _ this]; exact h1

theorem inv_loop (h : Inv shape s) (hs : step shape s .loop = some s') : Inv shape s' := by
  have hcnt := cnt_le (fun a => isDone (s.pc a)) shape
  have hlive := fun a => live h (a := a)
  have hfin := fun a => fin_same (a := a) (q := .ready) h.fin
  have hall : ∀ i < shape, isDone (s.pc i) = false → s.finished < shape := by
    intro i hi hd
    rcases Nat.lt_or_ge s.finished shape with h1 | h1
    · exact h1
    · have h2 := h.fin
      have := cnt_eq_iff.1 (show cnt (fun a => isDone (s.pc a)) shape = shape by omega) i hi
      simp [hd] at this
  have halive : ∀ i, s.lp = .test i → i ≠ shape → s.alive = true := by
    intro i hl hne
    have h1 := h.lpT i hl
    have h2 := h.wait1 i (by simp [hl])
    have h3 := hall i (by omega) (by simp [h2])
    by_cases h0 : s.pc 0 = .waiting
    · exact h.aliveW h0 (by simp [hl])
    · exact (h.aliveNe h0).2 h3
  have hthr := fun a (ho : s.pc 0 ≠ .waiting) (ht : s.thrown ≠ []) =>
    thrown_keep (a := a) (q := .ready) (h.thrownOwner ho ht)
  have hthr2 : ∀ i e, s.lp = .body i → s.pc i ≠ .threw e := by
    intro i e hl hc; have := h.wait1 i (by simp [hl]); simp [hc] at this
  fields h
  simp only [step] at hs
  repeat' split at hs
  all_goals cases hs
  all_goals (constructor <;> first | assumption | grind |
    (intro _ ht; exact hthr _ (by grind) ht (by grind)) | skip)

theorem inv_task (h : Inv shape s) (a : Nat) (act : Act)
    (ha : act = .call a ∨ (∃ e, act = .throws a e) ∨ act = .cas a ∨ act = .store a)
    (hs : step shape s act = some s') : Inv shape s' := by
  have hlive := fun a => live h (a := a)
  have hf := h.fin
  have hthr := fun q (ho : s.pc 0 ≠ .waiting) (ht : s.thrown ≠ []) =>
    thrown_keep (a := a) (q := q) (h.thrownOwner ho ht)
  fields h
  have hmod : shape % M = shape := Nat.mod_eq_of_lt e1
  have hmoda : a < shape → a % M = a := fun h => Nat.mod_eq_of_lt (by omega)
  rcases ha with rfl | ⟨e, rfl⟩ | rfl | rfl <;> simp only [step] at hs <;>
    (repeat' split at hs) <;> cases hs <;>
    (constructor <;> first | assumption | (apply fin_same hf <;> grind) | grind |
      (intro _ ht; exact hthr _ (by grind) ht (by grind)) |
      (intro _ _; exact Or.inr ⟨a, _, upd_same _ _ _⟩) | skip)

theorem mod_pred {n m : Nat} (h : n < m) (h0 : 0 < n) : (n + m - 1) % m = n - 1 := by
  rw [show n + m - 1 = n - 1 + m by omega, Nat.add_mod_right, Nat.mod_eq_of_lt (by omega)]

theorem mod_succ {n m k : Nat} (h : n < m) (h0 : k < n) : (k + 1) % m = k + 1 :=
  Nat.mod_eq_of_lt (by omega)

theorem inv_finish (h : Inv shape s) (a : Nat)
    (hs : step shape s (.finish a) = some s') : Inv shape s' := by
  have hlive := live h (a := a)
  have hf := h.fin
  have hflip : s.pc a = .fin → s.finished + 1 = cnt (fun b => isDone (upd s.pc a .done b)) shape :=
    fun hp => fin_flip hf (hlive (by simp [hp]) (by simp [hp])).1 (by simp [hp]) rfl
  have hthr := fun (ho : s.pc 0 ≠ .waiting) (ht : s.thrown ≠ []) =>
    thrown_keep (a := a) (q := .done) (h.thrownOwner ho ht)
  have hall : s.finished + 1 = shape → s.pc a = .fin → ∀ b, b ≠ a → s.pc b = .waiting ∨ s.pc b = .done := by
    intro he hp b hne
    by_cases hb : b < shape
    · have h1 := cnt_eq_iff.1 ((hflip hp).symm.trans he) b hb
      rw [upd_other _ _ hne] at h1
      cases hb : s.pc b <;> simp [hb] at h1 ⊢
    · left; exact (Classical.byContradiction fun hc => by
        by_cases hd : isDone (s.pc b) = false
        · exact hb (live h hc hd).1
        · have h1 := h.wait1 b; have h2 := h.lpT; have h3 := h.lpB
          cases hl : s.lp <;> grind)
  fields h
  have hmod : shape % M = shape := Nat.mod_eq_of_lt e1
  simp only [step] at hs
  split at hs
  · rename_i hp
    have hl := hlive (by simp [hp]) (by simp [hp])
    have hm1 := mod_pred e1 (Nat.lt_of_le_of_lt (Nat.zero_le _) hl.1)
    have hm2 := mod_succ e1 hl.2.2.1
    rw [hm1, hm2] at hs
    split at hs <;> cases hs
    · have hexc : s.exc = none → s.thrown = [] := by grind
      cases hx : s.exc <;> simp only [] <;>
      constructor <;> first | assumption | exact hflip hp | grind | skip
    · constructor <;> first | assumption | exact hflip hp | grind |
        (intro _ ht; exact hthr (by grind) ht (by grind))
  · cases hs

theorem inv_reach (hM : shape < M) (h : Reachable shape s) : Inv shape s := by
  refine Reach.inv (Inv shape) (inv_init hM) ?_ s h
  intro s a s' hi hs
  cases a with
  | pred => exact inv_pre hi _ (by simp) hs
  | predThrow e => exact inv_pre hi _ (by simp) hs
  | predError e => exact inv_pre hi _ (by simp) hs
  | predStopped => exact inv_pre hi _ (by simp) hs
  | loop => exact inv_loop hi hs
  | call a => exact inv_task hi a _ (by simp) hs
  | throws a e => exact inv_task hi a _ (by simp) hs
  | cas a => exact inv_task hi a _ (by simp) hs
  | store a => exact inv_task hi a _ (by simp) hs
  | finish a => exact inv_finish hi a hs

end Verif.Dispatch
