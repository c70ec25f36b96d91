import Verif.Bulk.Pool
import Mathlib.Tactic.ByContra
/-! # `bulk` on `static_thread_pool` — C37 -/
namespace Verif.Bulk

/-- How far agent `a` got: indices `[begin a, prog)` of its range have been called. -/
def prog (lo : Nat) : Pc → Nat
  | .waiting | .ready => lo
  | .run i | .fin i | .done i => i
  | .threw i _ | .owner i _ => i + 1

def isDone : Pc → Bool
  | .done _ => true
  | _ => false

@[simp, grind =] theorem isDone_waiting : isDone .waiting = false := rfl
@[simp, grind =] theorem isDone_ready : isDone .ready = false := rfl
@[simp, grind =] theorem isDone_run (i) : isDone (.run i) = false := rfl
@[simp, grind =] theorem isDone_threw (i e) : isDone (.threw i e) = false := rfl
@[simp, grind =] theorem isDone_owner (i e) : isDone (.owner i e) = false := rfl
@[simp, grind =] theorem isDone_fin (i) : isDone (.fin i) = false := rfl
@[simp, grind =] theorem isDone_done (i) : isDone (.done i) = true := rfl
@[simp, grind =] theorem prog_waiting (lo) : prog lo .waiting = lo := rfl
@[simp, grind =] theorem prog_ready (lo) : prog lo .ready = lo := rfl
@[simp, grind =] theorem prog_run (lo i) : prog lo (.run i) = i := rfl
@[simp, grind =] theorem prog_threw (lo i e) : prog lo (.threw i e) = i + 1 := rfl
@[simp, grind =] theorem prog_owner (lo i e) : prog lo (.owner i e) = i + 1 := rfl
@[simp, grind =] theorem prog_fin (lo i) : prog lo (.fin i) = i := rfl
@[simp, grind =] theorem prog_done (lo i) : prog lo (.done i) = i := rfl

/-- Specification: is this event a completion of the receiver? -/
def isCompletion : Ev → Bool
  | .value | .error _ => true
  | .call _ => false

/-- Proof-side counters (equal to `List.count`/`List.countP`, see below). -/
def ncall : List Ev → Nat → Nat
  | [], _ => 0
  | .call j :: l, i => (if j = i then 1 else 0) + ncall l i
  | .value :: l, i => ncall l i
  | .error _ :: l, i => ncall l i

def ncomp : List Ev → Nat
  | [] => 0
  | .call _ :: l => ncomp l
  | .value :: l => 1 + ncomp l
  | .error _ :: l => 1 + ncomp l

attribute [grind =] ncall ncomp

theorem ncall_eq (l : List Ev) (i : Nat) : ncall l i = l.count (.call i) := by
  induction l with
  | nil => rfl
  | cons e l ih => cases e <;> simp [ncall, ih, List.count_cons]; split <;> omega

theorem ncomp_eq (l : List Ev) : ncomp l = l.countP isCompletion := by
  induction l with
  | nil => rfl
  | cons e l ih => cases e <;> simp [ncomp, ih, isCompletion, List.countP_cons] <;> omega

abbrev lo (shape total a : Nat) := (share shape a total).1
abbrev hi (shape total a : Nat) := (share shape a total).2

structure Inv (shape total : Nat) (s : St) : Prop where
  enqLe : s.enq ≤ total
  wait1 : ∀ a, s.enq ≤ a → s.pc a = .waiting
  wait2 : ∀ a, s.pc a ≠ .waiting → a < total
  nstart : s.started = false → s.enq = 0 ∧ s.log = [] ∧ s.alive = true
  fin : s.finished = cnt (fun a => isDone (s.pc a)) total
  aliveEq : shape ≠ 0 → (s.alive = true ↔ s.finished < total)
  zero : shape = 0 → (∀ a, s.pc a = .waiting) ∧ s.thrown = [] ∧
    (s.alive = true ↔ s.started = false) ∧ (s.started = true → s.log = [.value] ∧ s.enq = total)
  comp : ncomp s.log = if s.alive then 0 else 1
  calls : ∀ a < total, ∀ i, lo shape total a ≤ i → i < hi shape total a →
    ncall s.log i = if i < prog (lo shape total a) (s.pc a) then 1 else 0
  range : ∀ i, Ev.call i ∈ s.log → i < shape
  progOk : ∀ a < total, lo shape total a ≤ prog (lo shape total a) (s.pc a) ∧
    prog (lo shape total a) (s.pc a) ≤ hi shape total a
  midThrew : ∀ a i e, s.pc a = .threw i e → i < hi shape total a ∧ e ∈ s.thrown
  midOwner : ∀ a i e, s.pc a = .owner i e → s.owner = some a ∧ i < hi shape total a ∧ e ∈ s.thrown
  finOk : ∀ a i, (s.pc a = .fin i ∨ s.pc a = .done i) → i = hi shape total a ∨ s.owner ≠ none
  ownerExc : ∀ a, s.owner = some a → a < total ∧ (s.exc ≠ none ∨ ∃ i e, s.pc a = .owner i e)
  excThrown : ∀ e, s.exc = some e → e ∈ s.thrown
  thrownOwner : s.thrown ≠ [] → s.owner ≠ none ∨ ∃ a i e, s.pc a = .threw i e
  ownerThrown : s.owner ≠ none → s.thrown ≠ []
  logErr : ∀ e, Ev.error e ∈ s.log → e ∈ s.thrown
  logVal : Ev.value ∈ s.log → s.thrown = []
  noub : s.ub = false

theorem inv_init (shape total : Nat) (ht : shape ≠ 0 → 0 < total) : Inv shape total init := by
  constructor <;> simp [init, ncall, ncomp]
  case fin => exact (cnt_zero_iff.2 (by simp)).symm
  case aliveEq => omega
  case calls => intro a _ i h1 _; symm; exact if_neg (Nat.not_lt.2 h1)
  case progOk => intro a _; exact share_le _ _ _

set_option hygiene false in
/-- Try each field of the invariant with the same field of the pre-state. -/
macro "std" h:ident : tactic => `(tactic| (
  constructor
  case' enqLe => (first | exact Inv.enqLe $h | (have hkp := Inv.enqLe $h; clear $h; grind) | skip)
  case' wait1 => (first | exact Inv.wait1 $h | (have hkp := Inv.wait1 $h; clear $h; grind) | skip)
  case' wait2 => (first | exact Inv.wait2 $h | (have hkp := Inv.wait2 $h; clear $h; grind) | skip)
  case' nstart => (first | exact Inv.nstart $h | (have hkp := Inv.nstart $h; clear $h; grind) | skip)
  case' fin => (first | exact Inv.fin $h | (have hkp := Inv.fin $h; clear $h; grind) | skip)
  case' aliveEq => (first | exact Inv.aliveEq $h | (have hkp := Inv.aliveEq $h; clear $h; grind) | skip)
  case' zero => (first | exact Inv.zero $h | (have hkp := Inv.zero $h; clear $h; grind) | skip)
  case' comp => (first | exact Inv.comp $h | (have hkp := Inv.comp $h; clear $h; grind) | skip)
  case' calls => (first | exact Inv.calls $h | (have hkp := Inv.calls $h; clear $h; grind) | skip)
  case' range => (first | exact Inv.range $h | (have hkp := Inv.range $h; clear $h; grind) | skip)
  case' progOk => (first | exact Inv.progOk $h | (have hkp := Inv.progOk $h; clear $h; grind) | skip)
  case' midThrew => (first | exact Inv.midThrew $h | (have hkp := Inv.midThrew $h; clear $h; grind) | skip)
  case' midOwner => (first | exact Inv.midOwner $h | (have hkp := Inv.midOwner $h; clear $h; grind) | skip)
  case' finOk => (first | exact Inv.finOk $h | (have hkp := Inv.finOk $h; clear $h; grind) | skip)
  case' ownerExc => (first | exact Inv.ownerExc $h | (have hkp := Inv.ownerExc $h; clear $h; grind) | skip)
  case' excThrown => (first | exact Inv.excThrown $h | (have hkp := Inv.excThrown $h; clear $h; grind) | skip)
  case' thrownOwner => (first | exact Inv.thrownOwner $h | (have hkp := Inv.thrownOwner $h; clear $h; grind) | skip)
  case' ownerThrown => (first | exact Inv.ownerThrown $h | (have hkp := Inv.ownerThrown $h; clear $h; grind) | skip)
  case' logErr => (first | exact Inv.logErr $h | (have hkp := Inv.logErr $h; clear $h; grind) | skip)
  case' logVal => (first | exact Inv.logVal $h | (have hkp := Inv.logVal $h; clear $h; grind) | skip)
  case' noub => (first | exact Inv.noub $h | (have hkp := Inv.noub $h; clear $h; grind) | skip)
  ))

variable {shape total : Nat} {s s' : St}

theorem notDone_finished (h : Inv shape total s) {a} (ha : a < total) (hp : isDone (s.pc a) = false) :
    s.finished < total := by
  have h1 := cnt_le (fun a => isDone (s.pc a)) total
  have h2 := h.fin
  by_cases hc : s.finished = total
  · have := cnt_eq_iff.1 (h2 ▸ hc) a ha
    simp_all
  · omega

theorem inv_pred (ht : shape ≠ 0 → 0 < total) (h : Inv shape total s)
    (hs : step shape total s .pred = some s') : Inv shape total s' := by
  simp only [step] at hs
  have hn := h.nstart
  split at hs
  · cases hs
  · split at hs
    · cases hs
      have hz := h.zero
      std h
    · cases hs
      std h

/-- An agent that is not done: `alive`, so no use after completion. -/
theorem inv_alive (h : Inv shape total s) {a} (hp : s.pc a ≠ .waiting)
    (hd : isDone (s.pc a) = false) : a < total ∧ s.alive = true ∧ shape ≠ 0 ∧ s.started = true := by
  have ha := h.wait2 a hp
  have h0 : shape ≠ 0 := fun h0 => hp ((h.zero h0).1 a)
  refine ⟨ha, (h.aliveEq h0).2 (notDone_finished h ha hd), h0, ?_⟩
  by_contra hc
  have := h.nstart (by simpa using hc)
  exact hp (h.wait1 a (by omega))

theorem fin_same {pc pc' : Nat → Pc} {a : Nat} {n total : Nat} {q : Pc}
    (h : n = cnt (fun b => isDone (pc b)) total) (hp : isDone (pc a) = false)
    (hq : isDone q = false) (he : pc' = upd pc a q) : n = cnt (fun b => isDone (pc' b)) total := by
  rw [h, he]
  apply cnt_congr
  intro i _
  by_cases hi : i = a
  · subst hi; simp [hp, hq]
  · simp [upd_other _ _ hi]

theorem thrown_keep {P : Prop} {pc : Nat → Pc} {a : Nat} {q : Pc} {o : Option Nat}
    (h : P → o ≠ none ∨ ∃ b i e, pc b = .threw i e) (hn : ∀ i e, pc a ≠ .threw i e) :
    P → o ≠ none ∨ ∃ b i e, upd pc a q b = .threw i e := by
  intro hp
  rcases h hp with h1 | ⟨b, i, e, h1⟩
  · exact Or.inl h1
  · refine Or.inr ⟨b, i, e, ?_⟩
    have : b ≠ a := by rintro rfl; exact hn i e h1
    rw [upd_other _ _ this]; exact h1

theorem inv_enqueue (h : Inv shape total s)
    (hs : step shape total s .enqueue = some s') : Inv shape total s' := by
  simp only [step] at hs
  split at hs
  · rename_i hg
    cases hs
    have hw := h.wait1 s.enq (Nat.le_refl _)
    have hz := h.zero
    have h0 : shape ≠ 0 := by clear h; grind
    have hal : s.alive = true := (h.aliveEq h0).2 (notDone_finished h hg.2 (by simp [hw]))
    std h
    case thrownOwner => exact thrown_keep h.thrownOwner (by simp [hw])
  · cases hs

theorem inv_start {a} (h : Inv shape total s)
    (hs : step shape total s (.start a) = some s') : Inv shape total s' := by
  simp only [step] at hs
  split at hs
  · rename_i hg
    cases hs
    have hal := inv_alive h (a := a) (by simp [hg]) (by simp [hg])
    have hsl := share_le shape a total
    std h
    case thrownOwner => exact thrown_keep h.thrownOwner (by simp [hg])
  · cases hs

theorem inv_call {a} (h : Inv shape total s)
    (hs : step shape total s (.call a) = some s') : Inv shape total s' := by
  simp only [step] at hs
  split at hs
  · rename_i i hg
    have hal := inv_alive h (a := a) (by simp [hg]) (by simp [hg])
    have hse := share_end_le shape total a hal.1
    have hp := h.progOk a hal.1
    split at hs
    · cases hs
      have hu := share_unique shape total i a
      std h
      case thrownOwner => exact thrown_keep h.thrownOwner (by simp [hg])
    · cases hs
      std h
      case thrownOwner => exact thrown_keep h.thrownOwner (by simp [hg])
  · cases hs

theorem inv_throws {a e} (h : Inv shape total s)
    (hs : step shape total s (.throws a e) = some s') : Inv shape total s' := by
  simp only [step] at hs
  split at hs
  · rename_i i hg
    have hal := inv_alive h (a := a) (by simp [hg]) (by simp [hg])
    have hse := share_end_le shape total a hal.1
    have hp := h.progOk a hal.1
    split at hs
    · cases hs
      have hu := share_unique shape total i a
      have hc := h.comp
      have hnv : Ev.value ∉ s.log := by
        rw [hal.2.1] at hc
        intro hm
        have : 0 < s.log.countP isCompletion := List.countP_pos_iff.2 ⟨_, hm, rfl⟩
        rw [← ncomp_eq] at this; simp at hc; omega
      std h
      case thrownOwner => exact fun _ => Or.inr ⟨a, i, e, by simp⟩
    · cases hs
  · cases hs

theorem inv_cas {a} (h : Inv shape total s)
    (hs : step shape total s (.cas a) = some s') : Inv shape total s' := by
  simp only [step] at hs
  split at hs
  · rename_i i e hg
    have hal := inv_alive h (a := a) (by simp [hg]) (by simp [hg])
    have hm := h.midThrew a i e hg
    split at hs
    · cases hs
      std h
      case ownerExc =>
        intro b hb
        cases hb
        exact ⟨hal.1, Or.inr ⟨i, e, by simp⟩⟩
    · cases hs
      std h
  · cases hs

theorem inv_store {a} (h : Inv shape total s)
    (hs : step shape total s (.store a) = some s') : Inv shape total s' := by
  simp only [step] at hs
  split at hs
  · rename_i i e hg
    have hal := inv_alive h (a := a) (by simp [hg]) (by simp [hg])
    have hm := h.midOwner a i e hg
    cases hs
    std h
  · cases hs

theorem inv_finish {a} (h : Inv shape total s)
    (hs : step shape total s (.finish a) = some s') : Inv shape total s' := by
  simp only [step] at hs
  split at hs
  · rename_i i hg
    have hal := inv_alive h (a := a) (by simp [hg]) (by simp [hg])
    have hflip : ∀ q, isDone q = true →
        s.finished + 1 = cnt (fun b => isDone (upd s.pc a q b)) total := by
      intro q hq
      rw [h.fin]
      refine (cnt_flip (a := a) hal.1 (by simp [hg]) (by simp [hq]) ?_).symm
      intro j hj; simp [upd_other _ _ hj]
    have hle := notDone_finished h hal.1 (by simp [hg])
    have hal2 := h.aliveEq hal.2.2.1
    have hc := h.comp
    rw [hal.2.1] at hc
    split at hs
    · rename_i hlast
      cases hs
      have hall : ∀ b < total, b ≠ a → isDone (s.pc b) = true := by
        intro b hb hne
        have h1 := cnt_eq_iff.1 ((hflip (.done i) rfl).symm.trans hlast) b hb
        simpa [upd_other _ _ hne] using h1
      have hexc : s.exc = none → s.thrown = [] := by
        intro he
        by_contra ht
        have hnothrew : ∀ b i e, s.pc b ≠ .threw i e ∧ s.pc b ≠ .owner i e := by
          intro b i e
          by_cases hba : b = a
          · subst hba; simp [hg]
          · by_cases hbt : b < total
            · have := hall b hbt hba
              constructor <;> intro h' <;> simp [h'] at this
            · constructor <;> intro h' <;> exact hbt (h.wait2 b (by simp [h']))
        rcases h.thrownOwner ht with h1 | ⟨b, j, e, h1⟩
        · cases ho : s.owner with
          | none => exact h1 ho
          | some b =>
            rcases (h.ownerExc b ho).2 with h2 | ⟨j, e, h2⟩
            · exact h2 he
            · exact (hnothrew b j e).2 h2
        · exact (hnothrew b j e).1 h1
      have het := h.excThrown
      std h
      case fin => exact hflip _ rfl
      case thrownOwner => exact thrown_keep h.thrownOwner (by simp [hg])
    · cases hs
      std h
      case fin => exact hflip _ rfl
      case thrownOwner => exact thrown_keep h.thrownOwner (by simp [hg])
  · cases hs

theorem inv_reach (ht : shape ≠ 0 → 0 < total) (h : Reachable shape total s) :
    Inv shape total s := by
  refine Reach.inv (Inv shape total) (inv_init shape total ht) ?_ s h
  intro s a s' hi hs
  cases a with
  | pred => exact inv_pred ht hi hs
  | enqueue => exact inv_enqueue hi hs
  | start a => exact inv_start hi hs
  | call a => exact inv_call hi hs
  | throws a e => exact inv_throws hi hs
  | cas a => exact inv_cas hi hs
  | store a => exact inv_store hi hs
  | finish a => exact inv_finish hi hs

theorem not_waiting (h : Reachable shape total s) (a : Nat) (ha : a < s.enq) (h0 : shape ≠ 0) :
    s.pc a ≠ .waiting := by
  revert a
  refine Reach.inv (fun s => ∀ a < s.enq, s.pc a ≠ .waiting) (by simp [init]) ?_ s h
  intro s act s' ih hs a ha
  have := ih a
  cases act <;> simp only [step] at hs <;> (repeat' split at hs) <;>
    first | (cases hs; done) | (exact absurd ‹shape = 0› h0) | (cases hs; grind)

end Verif.Bulk
