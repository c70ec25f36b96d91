import Verif.Asio.Spec
set_option maxHeartbeats 4000000
namespace Verif.Asio

/-! ## Invariant -/

def nOwn : List Rec → Nat
  | [] => 0
  | .frame _ _ true :: rs => nOwn rs + 1
  | _ :: rs => nOwn rs
def nUn : List Rec → Nat
  | [] => 0
  | .frame _ _ false :: rs => nUn rs + 1
  | _ :: rs => nUn rs
def nEmit : List Rec → Nat
  | [] => 0
  | .emit :: rs => nEmit rs + 1
  | _ :: rs => nEmit rs
def nWant : List Rec → Nat
  | [] => 0
  | .want :: rs => nWant rs + 1
  | _ :: rs => nWant rs
def nFin0 : List Rec → Nat
  | [] => 0
  | .fin false :: rs => nFin0 rs + 1
  | _ :: rs => nFin0 rs
def nFin1 : List Rec → Nat
  | [] => 0
  | .fin true :: rs => nFin1 rs + 1
  | _ :: rs => nFin1 rs
def nCall0 : List Rec → Nat
  | [] => 0
  | .call false :: rs => nCall0 rs + 1
  | _ :: rs => nCall0 rs
def nCall1 : List Rec → Nat
  | [] => 0
  | .call true :: rs => nCall1 rs + 1
  | _ :: rs => nCall1 rs
/-- frames of `start` that have not been released and have not registered the stop callback -/
def nSt : List Rec → Nat
  | [] => 0
  | .frame .init _ true :: rs => nSt rs + 1
  | .frame .post _ true :: rs => nSt rs + 1
  | _ :: rs => nSt rs
def nPost : List Rec → Nat
  | [] => 0
  | .frame .post _ _ :: rs => nPost rs + 1
  | _ :: rs => nPost rs
def nPU : List Rec → Nat
  | [] => 0
  | .frame .post _ false :: rs => nPU rs + 1
  | _ :: rs => nPU rs
def ids : List Rec → List Nat
  | [] => []
  | .frame _ i true :: rs => i :: ids rs
  | _ :: rs => ids rs


/-- records that may only be innermost -/
def nTop (l : List Rec) : Nat := nWant l + nFin0 l + nFin1 l + nCall0 l + nCall1 l + nPost l
def nTail : List Rec → Nat
  | [] => 0
  | _ :: rs => nTop rs

/-- Where the operation is. -/
inductive Ph | unborn | live | calling (t : Nat) | called | dropping (t : Nat) | finishing (t : Nat) | dropped
  deriving DecidableEq

structure InvP (s : St) (p : Ph) : Prop where
  bad : s.bad = false
  asrt : s.asrt = false
  notown : ∀ t, s.owner ≠ some t → nOwn (s.stk t) = 0 ∧ nEmit (s.stk t) = 0
  dep : ∀ t, s.owner = some t → s.depth = nOwn (s.stk t) + nEmit (s.stk t) ∧ 0 < s.depth
  dep0 : s.owner = none → s.depth = 0 ∧ s.frames = []
  fr : ∀ t, s.owner = some t → s.frames = ids (s.stk t)
  run1 : ∀ t, s.cb = .running t → nWant (s.stk t) + nEmit (s.stk t) = 1
  run0 : ∀ t, s.cb ≠ .running t → nWant (s.stk t) + nEmit (s.stk t) = 0
  tl : ∀ t, nTail (s.stk t) = 0
  pu : ∀ t, nPU (s.stk t) = 0
  st1 : ∀ t, nSt (s.stk t) ≤ 1
  st0 : ∀ t, 0 < nSt (s.stk t) → s.cb = .off ∧ s.emits = 0
  arm : s.cb = .armed → s.stopReq = false ∧ s.emits = 0
  runE : ∀ t, s.cb = .running t → s.emits = nEmit (s.stk t)
  ranE : s.cb = .ran → s.emits = 1
  emE : s.emits ≤ 1
  off1 : ∀ t, 0 < nCall1 (s.stk t) + nFin1 (s.stk t) → s.cb = .off
  self : ∀ t, 0 < nCall0 (s.stk t) + nFin0 (s.stk t) → s.cb ≠ .running t
  nc0 : ∀ t, p ≠ .calling t → nCall0 (s.stk t) + nCall1 (s.stk t) = 0
  nc1 : ∀ t, p = .calling t → nCall0 (s.stk t) + nCall1 (s.stk t) = 1
  nf0 : ∀ t, p ≠ .finishing t → nFin0 (s.stk t) + nFin1 (s.stk t) = 0
  nf1 : ∀ t, p = .finishing t → nFin0 (s.stk t) + nFin1 (s.stk t) = 1
  exq : s.done = [] → s.ex = s.thrown.head?
  offS : p = .live ∨ (∃ t, p = .dropping t) → s.cb = .off → ∃ t, 0 < nSt (s.stk t)
  p0 : p = .unborn → s.h = .unborn ∧ s.alive = true ∧ s.done = [] ∧ s.abandoned = false ∧ (∀ t, s.stk t = []) ∧
    s.cb = .off ∧ s.thrown = [] ∧ s.emits = 0
  p1 : p = .live → s.h = .live ∧ s.alive = true ∧ s.done = [] ∧ s.abandoned = false ∧ (∀ t, nUn (s.stk t) = 0)
  p2 : ∀ t, p = .calling t → s.h = .called ∧ s.alive = true ∧ s.done = [] ∧ s.abandoned = false ∧
    (∀ u, nOwn (s.stk u) = 0)
  p3 : p = .called → s.h = .called ∧ s.alive = false ∧ s.abandoned = false ∧ (∃ x, s.done = [x] ∧ Expected s.h s.thrown x) ∧
    (∀ u, nOwn (s.stk u) = 0) ∧ s.cb = .off
  p4 : ∀ t, p = .dropping t → s.h = .dropped ∧ s.alive = true ∧ s.done = [] ∧ s.abandoned = true ∧ s.owner = some t ∧
    bottom (s.stk t) = some true ∧ (∀ t, nUn (s.stk t) = 0)
  p5 : ∀ t, p = .finishing t → s.h = .dropped ∧ s.alive = true ∧ s.done = [] ∧ s.abandoned = true ∧
    (∀ u, nOwn (s.stk u) = 0) ∧ (∀ t, nUn (s.stk t) = 0)
  p6 : p = .dropped → s.h = .dropped ∧ s.alive = false ∧ s.abandoned = true ∧ (∃ x, s.done = [x] ∧ Expected s.h s.thrown x) ∧
    (∀ u, nOwn (s.stk u) = 0) ∧ s.cb = .off ∧ (∀ t, nUn (s.stk t) = 0)

theorem inv_init : InvP {} .unborn := by
  constructor <;> simp [nOwn, nEmit, nWant, nTail, nPU, nSt, nCall0, nCall1, nFin0, nFin1]

/-! ## Counting lemmas -/

theorem nPU_le (l : List Rec) : nPU l ≤ nPost l := by
  induction l with
  | nil => simp [nPU, nPost]
  | cons r rs ih => rcases r with ⟨k, i, o⟩ | _ | _ | b | b <;> (try cases k) <;> (try cases o) <;> simp [nPU, nPost] <;> omega
theorem nPost_le (l : List Rec) : nPost l ≤ nOwn l + nPU l := by
  induction l with
  | nil => simp [nPU, nPost]
  | cons r rs ih =>
    rcases r with ⟨k, i, o⟩ | _ | _ | b | b <;> (try cases k) <;> (try cases o) <;> simp [nPU, nPost, nOwn] <;> omega
theorem nSt_le (l : List Rec) : nSt l ≤ nOwn l := by
  induction l with
  | nil => simp [nSt, nOwn]
  | cons r rs ih =>
    rcases r with ⟨k, i, o⟩ | _ | _ | b | b <;> (try cases k) <;> (try cases o) <;> simp [nSt, nOwn] <;> omega
theorem userTop_nTop (l : List Rec) (h : userTop l = true) (ht : nTail l = 0) : nTop l = 0 := by
  rcases l with _ | ⟨r, rs⟩
  · rfl
  · rcases r with ⟨k, i, o⟩ | _ | _ | b | b <;> (try cases k) <;>
      simp_all [userTop, nTail, nTop, nWant, nFin0, nFin1, nCall0, nCall1, nPost]
theorem nOwn_ids (l : List Rec) : (ids l).length = nOwn l := by
  induction l with
  | nil => rfl
  | cons r rs ih => rcases r with ⟨k, i, o⟩ | _ | _ | b | b <;> (try cases o) <;> simp [ids, nOwn] <;> omega
theorem any_owned (l : List Rec) : l.any Rec.isOwned = true ↔ 0 < nOwn l := by
  induction l with
  | nil => simp [nOwn]
  | cons r rs ih =>
    rcases r with ⟨k, i, o⟩ | _ | _ | b | b <;> (try cases o) <;> simp [Rec.isOwned, nOwn] <;>
      (try (simp at ih; exact ih))
theorem mem_emit (l : List Rec) : Rec.emit ∈ l ↔ 0 < nEmit l := by
  induction l with
  | nil => simp [nEmit]
  | cons r rs ih => rcases r with ⟨k, i, o⟩ | _ | _ | b | b <;> simp [nEmit] <;> exact ih
theorem bottom_none (l : List Rec) : bottom l = none ↔ nOwn l = 0 ∧ nEmit l = 0 := by
  induction l with
  | nil => simp [bottom, nOwn, nEmit]
  | cons r rs ih =>
    rcases r with ⟨k, i, o⟩ | _ | _ | b | b <;> (try cases o) <;> simp only [bottom, nOwn, nEmit] <;>
      (cases hb : bottom rs <;> simp [hb] at ih ⊢ <;> (try omega))
theorem bottom_true (l : List Rec) (h : bottom l = some true) : 0 < nOwn l := by
  induction l with
  | nil => simp [bottom] at h
  | cons r rs ih =>
    rcases r with ⟨k, i, o⟩ | _ | _ | b | b <;> (try cases o) <;> simp only [bottom, nOwn] at h ⊢ <;>
      (cases hb : bottom rs <;> simp [hb] at ih h ⊢ <;> (try (subst h; simp at ih)) <;> (try omega))
theorem bottom_noemit (l : List Rec) (h : nEmit l = 0) (h2 : 0 < nOwn l) : bottom l = some true := by
  induction l with
  | nil => simp [nOwn] at h2
  | cons r rs ih =>
    rcases r with ⟨k, i, o⟩ | _ | _ | b | b <;> (try cases o) <;> simp only [bottom, nOwn, nEmit] at h h2 ⊢ <;>
      first
        | (rw [ih h h2]; done)
        | (cases hb : bottom rs with
           | none => rfl
           | some b =>
             by_cases h3 : 0 < nOwn rs
             · rw [ih h h3] at hb; simpa using hb
             · exact absurd ((bottom_none rs).2 ⟨by omega, by omega⟩) (by simp [hb]))
        | omega
theorem bottom_cons (r : Rec) (l : List Rec) (b : Bool) (h : bottom l = some b) : bottom (r :: l) = some b := by
  simp [bottom, h]

theorem rel_nOwn (fs : List Nat) (l : List Rec) (h : ∀ i ∈ ids l, i ∈ fs) : nOwn (l.map (relRec fs)) = 0 := by
  induction l with
  | nil => rfl
  | cons r rs ih =>
    rcases r with ⟨k, i, o⟩ | _ | _ | b | b <;> (try cases o) <;> simp only [ids, List.map, relRec] at h ⊢ <;>
      (try split) <;> simp_all [nOwn]
theorem rel_cnt (fs : List Nat) (l : List Rec) :
    nEmit (l.map (relRec fs)) = nEmit l ∧ nWant (l.map (relRec fs)) = nWant l ∧ nFin0 (l.map (relRec fs)) = nFin0 l ∧
    nFin1 (l.map (relRec fs)) = nFin1 l ∧ nCall0 (l.map (relRec fs)) = nCall0 l ∧ nCall1 (l.map (relRec fs)) = nCall1 l ∧
    nPost (l.map (relRec fs)) = nPost l := by
  induction l with
  | nil => simp
  | cons r rs ih =>
    rcases r with ⟨k, i, o⟩ | _ | _ | b | b <;> (try cases k) <;> (try cases b) <;> simp only [List.map, relRec] <;>
      (try split) <;> simp_all [nEmit, nWant, nFin0, nFin1, nCall0, nCall1, nPost]
theorem rel_tail (fs : List Nat) (l : List Rec) : nTail (l.map (relRec fs)) = nTail l := by
  cases l with
  | nil => rfl
  | cons r rs => have := rel_cnt fs rs; simp only [List.map, nTail, nTop]; omega
theorem rel_len (l : List Rec) (fs : List Nat) : (l.map (relRec fs)).length = l.length := by simp

end Verif.Asio
