import Verif.Task.Model
namespace Verif.Task
set_option maxHeartbeats 4000000

/-- The frame at the top of the chain of suspended coroutines. -/
def top : Ctl → Option Nat
  | .start i => some i
  | .run i => some i
  | .sus i _ => some i
  | .done i => some i
  | .resume i => some i
  | .cancel i => some i
  | .cancel2 i => some i
  | .fin _ => none

/-- The top frame's callback is not registered. -/
def noCb : Ctl → Bool
  | .start _ => true
  | .resume _ => true
  | .cancel2 _ => true
  | _ => false

def cancelling : Ctl → Bool
  | .cancel _ => true
  | .cancel2 _ => true
  | _ => false

/-- The top frame has not completed. -/
def going : Ctl → Bool
  | .start _ => true
  | .run _ => true
  | .sus _ _ => true
  | _ => false

def tokOf (fr : Nat → Fr) (i : Nat) (t : Option Nat) : Prop :=
  (fr i).tok = if (fr i).cfg.own then some i else t

/-- The chain of continuations. -/
def Link (fr : Nat → Fr) : List Nat → Prop
  | [] => True
  | [i] => (fr i).parent = none ∧ tokOf fr i none
  | i :: p :: l => (fr i).parent = some p ∧ tokOf fr i (fr p).tok ∧ (fr p).child = some i ∧ Link fr (p :: l)

/-- Completing the top of a chain with `o`. -/
def up (fr : Nat → Fr) : List Nat → Out → List Ev → Option (Out × List Ev)
  | [], o, r => some (o, r)
  | _ :: t, .stopped, r => up fr t .stopped r
  | p :: t, o, r => (den ((fr p).k o) r).bind fun x => up fr t x.1 x.2

def recOf (f : Fr) : Out :=
  if f.stopped then .stopped else match f.errors with
    | some e => .error e
    | none => .value (f.result.getD 0)

/-- What the machine will do, given what the environment decides. -/
def sem (fr : Nat → Fr) (c : Ctl) (t : List Nat) (r : List Ev) : Option (Out × List Ev) :=
  match c with
  | .start i =>
    match r with
    | .reg (some e) :: r => up fr t (.error e) r
    | .reg none :: r => (den (fr i).body r).bind fun x => up fr t x.1 x.2
    | _ => none
  | .run i => (den (fr i).body r).bind fun x => up fr t x.1 x.2
  | .sus i a => (den (.aw a (fr i).k) r).bind fun x => up fr t x.1 x.2
  | .done i => up fr t (recOf (fr i)) r
  | .resume i => up fr t (recOf (fr i)) r
  | .cancel _ => up fr t .stopped r
  | .cancel2 _ => up fr t .stopped r
  | .fin o => some (o, r)

structure Inv (b0 : Body) (s : St) (l : List Nat) : Prop where
  bad : s.bad = false
  hd : l.head? = top s.ctl
  srt : l.Pairwise (fun a b => b < a)
  lt : ∀ i ∈ l, i < s.n
  live : ∀ i ∈ l, (s.fr i).alive = true ∧ (s.fr i).destroyed = 0 ∧ (s.fr i).owns = true ∧
    (s.fr i).awAlive = true
  gone : ∀ i, i < s.n → i ∉ l → (s.fr i).alive = false ∧ (s.fr i).destroyed = 1 ∧
    (s.fr i).owns = false ∧ (s.fr i).cb = false
  fresh : ∀ i, s.n ≤ i → (s.fr i).alive = false ∧ (s.fr i).destroyed = 0 ∧ (s.fr i).owns = false ∧
    (s.fr i).cb = false ∧ (s.fr i).awAlive = false
  aws : ∀ i, (s.fr i).awAlive = true → i ∉ l → ∃ p, top s.ctl = some p ∧ (s.fr p).child = some i
  link : Link s.fr l
  child : ∀ p c, top s.ctl = some p → (s.fr p).child = some c →
    cancelling s.ctl = true ∧ c ∉ l ∧ c < s.n ∧ (s.fr c).awAlive = true
  cbs : ∀ i ∈ l, (s.fr i).cb = ((s.fr i).cfg.own && !(decide (top s.ctl = some i) && noCb s.ctl))
  regs : ∀ i ∈ l, (s.fr i).cb = true → (s.fr i).reg = outer s i
  flags : ∀ i ∈ l, (top s.ctl = some i → going s.ctl = true) →
    (s.fr i).errors = none ∧ (s.fr i).stopped = false
  rst : ∀ i, s.ctl = .resume i → (s.fr i).stopped = false
  sem : ∀ r, denRoot b0 (s.log ++ r) = sem s.fr s.ctl l.tail r
  stk : ∀ stk, s.stop = .act stk → ∀ j ∈ stk, (s.fr j).cb = true ∧ (s.fr j).req = true
  same : s.same = true → s.inlineStop = true
  req1 : ∀ i ∈ l, (s.fr i).cb = true → (s.fr i).req = true → reqOf s (outer s i) = true
  req2 : ∀ i ∈ l, (s.fr i).cb = true → (s.fr i).req = false → reqOf s (outer s i) = true →
    ∃ stk, s.stop = .act stk ∧ ∀ j, outer s i = some j → j ∈ stk

theorem Link_congr {fr fr' : Nat → Fr} : ∀ {l : List Nat},
    (∀ j ∈ l, (fr' j).parent = (fr j).parent ∧ (fr' j).tok = (fr j).tok ∧ (fr' j).cfg = (fr j).cfg) →
    (∀ j ∈ l.tail, (fr' j).child = (fr j).child) → Link fr l → Link fr' l
  | [], _, _, _ => trivial
  | [i], h, _, hl => by
      have := h i (by simp)
      unfold Link tokOf at *
      rw [this.1, this.2.1, this.2.2]; exact hl
  | i :: p :: l, h, hc, hl => by
      have h1 := h i (by simp)
      have h2 := h p (by simp)
      have h3 := hc p (by simp)
      unfold Link at hl ⊢
      unfold tokOf at *
      rw [h1.1, h1.2.1, h1.2.2, h2.2.1, h3]
      exact ⟨hl.1, hl.2.1, hl.2.2.1, Link_congr (fun j hj => h j (by simp at hj ⊢; right; exact hj))
        (fun j hj => hc j (by simp at hj ⊢; right; exact hj)) hl.2.2.2⟩

theorem Link_tail {fr : Nat → Fr} {i : Nat} {l : List Nat} (h : Link fr (i :: l)) : Link fr l := by
  cases l with
  | nil => trivial
  | cons p l => exact h.2.2.2

theorem Link_parent {fr : Nat → Fr} {i : Nat} {l : List Nat} (h : Link fr (i :: l)) :
    (fr i).parent = l.head? := by
  cases l with
  | nil => exact h.1
  | cons p l => exact h.1

/-- A token of the chain belongs to a source in the chain. -/
theorem Link_tok {fr : Nat → Fr} : ∀ {l : List Nat}, Link fr l → ∀ i ∈ l, ∀ j, (fr i).tok = some j → j ∈ l
  | [], _, i, hi, _, _ => by simp at hi
  | [a], h, i, hi, j, hj => by
      simp at hi; subst hi
      have := h.2
      unfold tokOf at this
      rw [this] at hj
      split at hj <;> simp at hj
      simp [hj]
  | a :: p :: l, h, i, hi, j, hj => by
      rcases List.mem_cons.1 hi with hi | hi
      · subst hi
        have := h.2.1
        unfold tokOf at this
        rw [this] at hj
        split at hj
        · simp at hj; simp [hj]
        · exact List.mem_cons_of_mem _ (Link_tok h.2.2.2 p (by simp) j hj)
      · exact List.mem_cons_of_mem _ (Link_tok h.2.2.2 i hi j hj)

theorem Link_parent_mem {fr : Nat → Fr} : ∀ {l : List Nat}, Link fr l → ∀ i ∈ l, ∀ p,
    (fr i).parent = some p → p ∈ l.tail
  | [], _, i, hi, _, _ => by simp at hi
  | [a], h, i, hi, j, hj => by
      simp at hi; subst hi; rw [h.1] at hj; cases hj
  | a :: p :: l, h, i, hi, j, hj => by
      rcases List.mem_cons.1 hi with hi | hi
      · subst hi; rw [h.1] at hj; cases hj; simp
      · have := Link_parent_mem h.2.2.2 i hi j hj
        simp at this ⊢; right; exact this

theorem up_congr {fr fr' : Nat → Fr} : ∀ {l : List Nat}, (∀ j ∈ l, (fr' j).k = (fr j).k) →
    ∀ o r, up fr' l o r = up fr l o r
  | [], _, o, r => rfl
  | p :: t, h, o, r => by
      have h1 := h p (by simp)
      have h2 := up_congr (fr := fr) (fr' := fr') (l := t) (fun j hj => h j (by simp [hj]))
      cases o <;> simp only [up, h1, h2]

theorem sem_congr {fr fr' : Nat → Fr} {c : Ctl} {t : List Nat} (h : ∀ j ∈ t, (fr' j).k = (fr j).k)
    (ht : ∀ i, top c = some i → (fr' i).body = (fr i).body ∧ (fr' i).k = (fr i).k ∧
      recOf (fr' i) = recOf (fr i)) (r : List Ev) : sem fr' c t r = sem fr c t r := by
  have hu := up_congr h
  cases c <;> simp only [sem, hu] <;> first | rfl | (rw [(ht _ rfl).1]) | (rw [(ht _ rfl).2.1]) | (rw [(ht _ rfl).2.2])

theorem not_mem_tail {i : Nat} {t : List Nat} (h : (i :: t).Pairwise (fun a b => b < a)) : i ∉ t := by
  intro hi
  have := (List.pairwise_cons.1 h).1 i hi
  omega

theorem mem_lt {i : Nat} {t : List Nat} (h : (i :: t).Pairwise (fun a b => b < a)) {j : Nat} (hj : j ∈ t) :
    j < i := (List.pairwise_cons.1 h).1 j hj

end Verif.Task
