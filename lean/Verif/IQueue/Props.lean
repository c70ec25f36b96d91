import Verif.IQueue.Lemmas
import Mathlib.Logic.Function.Iterate
/-! # `__intrusive_queue` — C10 -/
namespace Verif.IQueue

/-! ## Specification: a family of sequences -/

/-- Abstract state: the sequence held by each queue object. -/
abbrev Abs := Nat → List Node

/-- What each operation means on sequences (and what it returns). -/
def Abs.run (A : Abs) : Op → Abs × Option Node
  | .pushFront k x => (upd A k (x :: A k), none)
  | .pushBack k x => (upd A k (A k ++ [x]), none)
  | .popFront k => (upd A k (A k).tail, (A k).head?)
  | .append k j => (upd (upd A j []) k (A k ++ A j), none)
  | .prepend k j => (upd (upd A j []) k (A j ++ A k), none)
  | .clear k => (upd A k [], none)
  | .reverse k => (upd A k (A k).reverse, none)
  | .moveAssign k j => (upd (upd A j []) k (A j), none)

/-- Preconditions the API documents by assertions: a pushed node is in no queue, `pop_front` needs a
    non-empty queue, moved-from and moved-to objects differ, and the overwritten queue is empty. -/
def Abs.legal (A : Abs) : Op → Prop
  | .pushFront _ x | .pushBack _ x => ∀ j, x ∉ A j
  | .popFront k => A k ≠ []
  | .append k j | .prepend k j => j ≠ k
  | .clear _ | .reverse _ => True
  | .moveAssign k j => j ≠ k ∧ A k = []

/-- Every queue object represents its sequence — head, tail and all next links consistent — and no
    node is in two queues. -/
def SysRep (s : Sys) (A : Abs) : Prop :=
  (∀ k, Rep s.mem (s.qs k) (A k)) ∧ ∀ j k, j ≠ k → ∀ x ∈ A j, x ∉ A k

theorem step_refines {s : Sys} {A : Abs} {op : Op} {fuel : Nat} (h : SysRep s A)
    (hl : A.legal op) (hf : ∀ k, op = .reverse k → (A k).length ≤ fuel) :
    ∃ s', s.run fuel op = some (s', (A.run op).2) ∧ SysRep s' (A.run op).1 := by
  obtain ⟨hr, hd⟩ := h
  -- replacing queue `k` (contents `l`) in a memory that agrees outside `A k`
  have one : ∀ (k : Nat) (m' : Mem) (q' : Q) (l : List Node), Rep m' q' l →
      (∀ j, j ≠ k → ∀ y ∈ A j, m' y = s.mem y) → (∀ x ∈ l, ∀ j, j ≠ k → x ∉ A j) →
      SysRep ⟨m', upd s.qs k q'⟩ (upd A k l) := by
    intro k m' q' l h1 h2 h3
    constructor
    · intro j
      by_cases hj : j = k
      · subst hj; simpa using h1
      · simp only [upd_other _ _ hj]; exact (hr j).congr (h2 j hj)
    · intro a b hab x hx
      by_cases ha : a = k
      · subst ha
        have hb : b ≠ a := Ne.symm hab
        simp only [upd_same, upd_other _ _ hb] at hx ⊢
        exact h3 x hx b hb
      · simp only [upd_other _ _ ha] at hx
        by_cases hb : b = k
        · subst hb; simp only [upd_same]; intro hx2; exact h3 x hx2 a ha hx
        · simp only [upd_other _ _ hb]; exact hd a b hab x hx
  -- moving everything from `j` to `k`
  have two : ∀ (k j : Nat) (m' : Mem) (q' : Q) (l : List Node), j ≠ k → Rep m' q' l →
      (∀ i, i ≠ k → i ≠ j → ∀ y ∈ A i, m' y = s.mem y) → (∀ x ∈ l, x ∈ A k ∨ x ∈ A j) →
      SysRep ⟨m', upd (upd s.qs j Q.empty) k q'⟩ (upd (upd A j []) k l) := by
    intro k j m' q' l hjk h1 h2 h3
    constructor
    · intro i
      by_cases hi : i = k
      · subst hi; simpa using h1
      · simp only [upd_other _ _ hi]
        by_cases hij : i = j
        · subst hij; simpa using rep_empty m'
        · simp only [upd_other _ _ hij]; exact (hr i).congr (h2 i hi hij)
    · intro a b hab x hx
      by_cases ha : a = k
      · subst ha
        have hb : b ≠ a := Ne.symm hab
        simp only [upd_same, upd_other _ _ hb] at hx ⊢
        by_cases hbj : b = j
        · subst hbj; simp
        · simp only [upd_other _ _ hbj]
          rcases h3 x hx with h4 | h4
          · exact hd a b hab x h4
          · exact hd j b (Ne.symm hbj) x h4
      · simp only [upd_other _ _ ha] at hx
        by_cases haj : a = j
        · subst haj; simp at hx
        · simp only [upd_other _ _ haj] at hx
          by_cases hb : b = k
          · subst hb; simp only [upd_same]
            intro hx2
            rcases h3 x hx2 with h4 | h4
            · exact hd a b hab x hx h4
            · exact hd a j haj x hx h4
          · simp only [upd_other _ _ hb]
            by_cases hbj : b = j
            · subst hbj; simp
            · simp only [upd_other _ _ hbj]; exact hd a b hab x hx
  cases op with
  | pushFront k x =>
    have hx : ∀ j, x ∉ A j := hl
    obtain ⟨h1, h2⟩ := pushFront_spec (hr k) (hx k)
    refine ⟨_, rfl, one k _ _ _ h1 ?_ ?_⟩
    · intro j _ y hy; exact h2 y (by rintro rfl; exact hx j hy)
    · intro y hy j hj
      rcases List.mem_cons.1 hy with rfl | hy
      · exact hx j
      · exact hd k j (Ne.symm hj) y hy
  | pushBack k x =>
    have hx : ∀ j, x ∉ A j := hl
    obtain ⟨h1, h2⟩ := pushBack_spec (hr k) (hx k)
    refine ⟨_, rfl, one k _ _ _ h1 ?_ ?_⟩
    · intro j hj y hy
      exact h2 y (by rintro rfl; exact hx j hy) (hd j k hj y hy)
    · intro y hy j hj
      rcases List.mem_append.1 hy with hy | hy
      · exact hd k j (Ne.symm hj) y hy
      · simp at hy; subst hy; exact hx j
  | popFront k =>
    have hne : A k ≠ [] := hl
    cases hk : A k with
    | nil => exact absurd hk hne
    | cons x l =>
      obtain ⟨q', h1, h2⟩ := popFront_spec (hk ▸ hr k)
      refine ⟨⟨s.mem, upd s.qs k q'⟩, by simp [Sys.run, h1, Abs.run, hk], ?_⟩
      simp only [Abs.run, hk, List.tail_cons]
      refine one k _ _ _ h2 (fun _ _ _ _ => rfl) ?_
      intro y hy j hj; exact hd k j (Ne.symm hj) y (by simp [hk, hy])
  | append k j =>
    have hjk : j ≠ k := hl
    obtain ⟨m', q', h1, h2, h3⟩ := append_spec (hr k) (hr j) (hd k j (Ne.symm hjk))
    refine ⟨_, by simp only [Sys.run, h1, Abs.run]; rfl, two k j _ _ _ hjk h2 ?_ ?_⟩
    · intro i hik _ y hy; exact h3 y (hd i k hik y hy)
    · intro x hx; exact List.mem_append.1 hx
  | prepend k j =>
    have hjk : j ≠ k := hl
    obtain ⟨m', q', h1, h2, h3⟩ := prepend_spec (hr k) (hr j) (hd j k hjk)
    refine ⟨_, by simp only [Sys.run, h1, Abs.run]; rfl, two k j _ _ _ hjk h2 ?_ ?_⟩
    · intro i _ hij y hy; exact h3 y (hd i j hij y hy)
    · intro x hx; exact (List.mem_append.1 hx).symm
  | clear k =>
    exact ⟨_, rfl, one k _ _ _ (rep_empty _) (fun _ _ _ _ => rfl) (by simp)⟩
  | reverse k =>
    obtain ⟨m', q', h1, h2, h3⟩ := makeReversed_spec (hr k).1 (hr k).2.2 (hf k rfl)
    refine ⟨_, by simp only [Sys.run, h1, Abs.run]; rfl, one k _ _ _ h2 ?_ ?_⟩
    · intro j hj y hy; exact h3 y (hd j k hj y hy)
    · intro x hx j hj; exact hd k j (Ne.symm hj) x (List.mem_reverse.1 hx)
  | moveAssign k j =>
    obtain ⟨hjk, he⟩ := (hl : j ≠ k ∧ A k = [])
    refine ⟨_, by simp only [Sys.run, (hr k).isEmpty, he]; rfl,
      two k j _ _ _ hjk (hr j) (fun _ _ _ _ _ => rfl) ?_⟩
    intro x hx; exact Or.inr hx

/-- A whole program run on sequences: legality at every step, and the list of results. -/
def Abs.runAll (A : Abs) : List Op → Abs × List (Option Node)
  | [] => (A, [])
  | op :: ops => let r := A.run op
                 let r' := Abs.runAll r.1 ops
                 (r'.1, r.2 :: r'.2)

def Abs.legalAll (A : Abs) : List Op → Prop
  | [] => True
  | op :: ops => A.legal op ∧ Abs.legalAll (A.run op).1 ops

def Sys.runAll (fuel : Nat) (s : Sys) : List Op → Option (Sys × List (Option Node))
  | [] => some (s, [])
  | op :: ops =>
      match s.run fuel op with
      | none => none
      | some (s', r) => (Sys.runAll fuel s' ops).map fun x => (x.1, r :: x.2)

/-- **C10.** Every legal program of queue operations, on any number of queues and nodes, runs without
    undefined behaviour (for every sufficiently large bound on loop iterations, i.e. all loops
    terminate), returns the nodes the same program on sequences returns, and leaves every queue
    object consistent with its sequence. -/
theorem C10_queue_is_list (ops : List Op) (s : Sys) (A : Abs) (h : SysRep s A)
    (hl : A.legalAll ops) :
    ∃ N, ∀ fuel, N ≤ fuel →
      ∃ s', s.runAll fuel ops = some (s', (A.runAll ops).2) ∧ SysRep s' (A.runAll ops).1 := by
  induction ops generalizing s A with
  | nil => exact ⟨0, fun _ _ => ⟨s, rfl, h⟩⟩
  | cons op ops ih =>
    -- any two large enough iteration bounds give the same successor, so pick one
    obtain ⟨N0, hN0⟩ : ∃ N0, ∀ k, op = .reverse k → (A k).length ≤ N0 := by
      cases op with
      | reverse k => exact ⟨(A k).length, by rintro _ ⟨⟩; exact Nat.le_refl _⟩
      | _ => exact ⟨0, by rintro _ ⟨⟩⟩
    obtain ⟨s1, e1, r1⟩ := step_refines h hl.1 hN0
    have huniq : ∀ fuel, N0 ≤ fuel → s.run fuel op = some (s1, (A.run op).2) := by
      intro fuel hfu
      rw [← e1]
      cases op with
      | reverse k =>
        have h1 := makeReversed_mono (h.1 k).1 (h.1 k).2.2 (hN0 k rfl) (Nat.le_trans (hN0 k rfl) hfu)
        simp only [Sys.run, h1]
      | _ => rfl
    obtain ⟨N, hN⟩ := ih s1 _ r1 hl.2
    refine ⟨max N0 N, fun fuel hfu => ?_⟩
    obtain ⟨s', e2, r2⟩ := hN fuel (by omega)
    exact ⟨s', by simp [Sys.runAll, huniq fuel (by omega), e2, Abs.runAll],
      by simpa [Abs.runAll] using r2⟩

/-- Iteration: incrementing `begin()` `n` times stands at the `n`-th element, and reaches `end()`
    after exactly `length` increments. -/
theorem C10_iteration {m : Mem} {q : Q} {l : List Node} (h : Rep m q l) :
    (∀ n ≤ l.length, ((Iter.incr m)^[n] (begin_ q)).item = l[n]?) ∧
    (Iter.incr m)^[l.length] (begin_ q) = end_ q := by
  obtain ⟨h1, h2, _⟩ := h
  have key : ∀ (l : List Node) (p : Ptr) (pr : Ptr), Chain m p l →
      (∀ n ≤ l.length, ((Iter.incr m)^[n] ⟨pr, p⟩).item = l[n]?) ∧
      (Iter.incr m)^[l.length] ⟨pr, p⟩ = ⟨l.getLast?.or pr, none⟩ := by
    intro l
    induction l with
    | nil => intro p pr hc; cases hc; simp
    | cons x l ih =>
      intro p pr hc
      obtain ⟨rfl, hc⟩ := hc
      obtain ⟨i1, i2⟩ := ih (m x) (some x) hc
      constructor
      · intro n hn
        cases n with
        | zero => simp
        | succ n =>
          simp only [Function.iterate_succ, Function.comp]
          rw [show Iter.incr m ⟨pr, some x⟩ = ⟨some x, m x⟩ from rfl]
          simpa using i1 n (by simpa using hn)
      · simp only [List.length_cons, Function.iterate_succ, Function.comp]
        rw [show Iter.incr m ⟨pr, some x⟩ = ⟨some x, m x⟩ from rfl, i2]
        cases l <;> simp [List.getLast?_cons]
  obtain ⟨k1, k2⟩ := key l q.head none h1
  refine ⟨k1, ?_⟩
  rw [begin_, k2, end_, h2]; simp

/-! ## `splice`

Notation: `*this` holds `A ++ B` with `pos` between `A` and `B`; `other` holds `P ++ M ++ S` with
`first` at the start and `last` at the end of `M`. The specified effect is `*this = A ++ M ++ B`,
`other = P ++ S`. -/

/-- The iterator standing between `l` and `r` of a queue holding `l ++ r`. -/
def between (l r : List Node) : Iter := ⟨l.getLast?, r.head?⟩

/-- What `splice` must achieve. -/
def SpliceSpec (m : Mem) (q o : Q) (A B P M S : List Node) : Prop :=
  ∃ m' q' o', splice m q (between A B) o (between P (M ++ S)) (between (P ++ M) S)
      = some (m', q', o') ∧ Rep m' q' (A ++ M ++ B) ∧ Rep m' o' (P ++ S)


/-- The code's `splice` is correct when the moved range is strictly inside `other` and the insertion
    point is not the front of a non-empty queue, or when it moves all of `other` to the back; see the
    counterexamples below for the remaining cases, where the code misbehaves. -/
theorem C10_splice_partial {m : Mem} {q o : Q} {A B P M S : List Node}
    (hq : Rep m q (A ++ B)) (ho : Rep m o (P ++ M ++ S)) (hM : M ≠ [])
    (hd : ∀ x ∈ A ++ B, x ∉ P ++ M ++ S)
    (hA : A ≠ [] ∨ B = [])
    (hPS : (P ≠ [] ∧ S ≠ []) ∨ (P = [] ∧ S = [] ∧ B = [])) :
    SpliceSpec m q o A B P M S := by
  obtain ⟨M0, z, rfl⟩ : ∃ M0 z, M = M0 ++ [z] := by
    obtain ⟨z, hz⟩ := Option.ne_none_iff_exists'.1 (show M.getLast? ≠ none by simpa using hM)
    obtain ⟨M0, h⟩ := getLast_split hz; exact ⟨M0, z, h⟩
  obtain ⟨hqc, hqt, hqn⟩ := hq
  obtain ⟨hoc, hot, hon⟩ := ho
  rw [chain_iff_seg] at hqc hoc
  obtain ⟨pS, hoc1, hS⟩ := seg_append.1 hoc
  obtain ⟨pM, hP, hMs⟩ := seg_append.1 hoc1
  obtain ⟨pB, hAs, hB⟩ := seg_append.1 hqc
  have ePS : pS = S.head? := by simpa using hS.head
  have ePB : pB = B.head? := by simpa using hB.head
  have hMh : (M0 ++ [z]).head? ≠ none := by simp
  have ePM : pM = (M0 ++ [z]).head? := by
    have := hMs.head
    cases h : (M0 ++ [z]).head? with
    | none => exact absurd h hMh
    | some w => rw [h] at this; simpa using this
  subst ePS ePB ePM
  have hnd := hon
  simp only [List.nodup_append, List.mem_append, List.mem_singleton] at hnd hqn hd
  obtain ⟨⟨nP, ⟨nM0, -, dM0z⟩, dPM⟩, nS, dS⟩ := hnd
  obtain ⟨nA, nB, dAB⟩ := hqn
  have nMz : (M0 ++ [z]).Nodup := by
    rw [List.nodup_append]; exact ⟨nM0, by simp, by simpa using dM0z⟩
  -- `first ≠ last`
  have hne : between P (M0 ++ [z] ++ S) ≠ between (P ++ (M0 ++ [z])) S := by
    intro he
    have h1 : (M0 ++ [z] ++ S).head? = S.head? := congrArg Iter.item he
    cases S with
    | nil => cases M0 <;> simp at h1
    | cons y S =>
      have hy : y ∈ M0 ++ [z] := by
        cases M0 with
        | nil => simp at h1; simp [h1]
        | cons w M0 => simp at h1; simp [h1]
      exact dS y (Or.inr (by simpa using hy)) y (by simp) rfl
  have hfi : (M0 ++ [z] ++ S).head? = (M0 ++ [z]).head? := by cases M0 <;> simp
  have hlp : (P ++ (M0 ++ [z])).getLast? = some z := by simp
  unfold SpliceSpec splice
  rw [if_neg hne]
  simp only [between, hfi, hlp]
  rcases hPS with ⟨hP0, hS0⟩ | ⟨rfl, rfl, rfl⟩
  · -- strictly inside
    obtain ⟨P0, y, rfl⟩ : ∃ P0 y, P = P0 ++ [y] := by
      obtain ⟨z, hz⟩ := Option.ne_none_iff_exists'.1 (show P.getLast? ≠ none by simpa using hP0)
      obtain ⟨M0, h⟩ := getLast_split hz; exact ⟨M0, z, h⟩
    have hh : ¬ o.head = (M0 ++ [z]).head? := by
      intro he
      have h1 := hP.head
      have : ∃ w, w ∈ P0 ++ [y] ∧ w ∈ M0 ++ [z] := by
        rw [he] at h1
        cases P0 with
        | nil => cases M0 with
          | nil => simp at h1; exact ⟨y, by simp, by simp [h1]⟩
          | cons w M0 => simp at h1; exact ⟨y, by simp, by simp [h1]⟩
        | cons v P0 => cases M0 with
          | nil => simp at h1; exact ⟨v, by simp, by simp [h1]⟩
          | cons w M0 => simp at h1; exact ⟨v, by simp, by simp [h1]⟩
      obtain ⟨w, hw1, hw2⟩ := this
      exact dPM w (by simpa using hw1) w (by simpa using hw2) rfl
    rw [if_neg hh]
    simp only [store, List.getLast?_append, List.getLast?_singleton, Option.some_or,
      Option.map_some, Option.bind_eq_bind, Option.bind_some]
    have hyz : y ≠ z := fun h => dPM y (by simp) z (by simp) h
    have hyS : ∀ x ∈ S, x ≠ y ∧ x ≠ z := fun x hx =>
      ⟨fun h => dS y (Or.inl (by simp)) x hx h.symm, fun h => dS z (by simp) x hx h.symm⟩
    have hyM : ∀ x ∈ M0 ++ [z], x ≠ y := fun x hx h =>
      dPM y (by simp) x (by simpa using hx) h.symm
    have hzP : ∀ x ∈ P0 ++ [y], x ≠ z := fun x hx h =>
      dPM x (by simpa using hx) z (by simp) h
    have hAB : ∀ x, (x ∈ A ∨ x ∈ B) → x ≠ y ∧ x ≠ z := fun x hx =>
      ⟨fun h => hd x hx (by simp [h]), fun h => hd x hx (by simp [h])⟩
    generalize hm2 : upd (upd m y S.head?) z B.head? = m2
    have e2 : ∀ x, x ≠ y → x ≠ z → m2 x = m x := by
      intro x h1 h2; subst hm2; simp [upd_other _ _ h1, upd_other _ _ h2]
    have sP : Seg m2 o.head (P0 ++ [y]) S.head? := by
      subst hm2
      exact (hP.setLast nP).congr (fun x hx => upd_other _ _ (hzP x hx))
    have sM : Seg m2 (M0 ++ [z]).head? (M0 ++ [z]) B.head? := by
      subst hm2
      refine Seg.setLast (e := S.head?) (hMs.congr (fun x hx => upd_other _ _ (hyM x hx))) nMz
    have sS : Seg m2 S.head? S none := hS.congr (fun x hx => e2 x (hyS x hx).1 (hyS x hx).2)
    have sA : Seg m2 q.head A B.head? :=
      hAs.congr (fun x hx => e2 x (hAB x (Or.inl hx)).1 (hAB x (Or.inl hx)).2)
    have sB : Seg m2 B.head? B none :=
      hB.congr (fun x hx => e2 x (hAB x (Or.inr hx)).1 (hAB x (Or.inr hx)).2)
    have tO : o.tail = (P0 ++ [y] ++ S).getLast? := by
      rw [hot]
      cases S with
      | nil => exact absurd rfl hS0
      | cons w S => simp [List.getLast?_append, List.getLast?_cons]
    have nO : (P0 ++ [y] ++ S).Nodup := by
      rw [List.nodup_append]
      exact ⟨nP, nS, fun a ha b hb => dS a (Or.inl (by simpa using ha)) b hb⟩
    by_cases hA0 : A = []
    · subst hA0
      have hB0 : B = [] := by simpa using hA
      subst hB0
      have hq0 : q.isEmpty = true := by
        have : q.head = none := by simpa [Seg] using hAs
        simp [Q.isEmpty, this]
      rw [if_pos hq0]
      refine ⟨_, _, _, rfl, ⟨?_, by simp, by simpa using nMz⟩, ⟨?_, tO, nO⟩⟩
      · rw [chain_iff_seg]; simpa using sM
      · rw [chain_iff_seg, seg_append]; exact ⟨_, sP, sS⟩
    · obtain ⟨A0, a, rfl⟩ : ∃ A0 a, A = A0 ++ [a] := by
        obtain ⟨z, hz⟩ := Option.ne_none_iff_exists'.1 (show A.getLast? ≠ none by simpa using hA0)
        obtain ⟨M0, h⟩ := getLast_split hz; exact ⟨M0, z, h⟩
      have hq0 : q.isEmpty = false := by
        have := hAs.head
        cases A0 <;> simp at this <;> simp [Q.isEmpty, this]
      have haO : ∀ x, x ∈ (P0 ++ [y]) ∨ x ∈ (M0 ++ [z]) ∨ x ∈ S → x ≠ a := by
        intro x hx h
        refine hd a (Or.inl (by simp)) ?_
        rw [← h]
        rcases hx with hx | hx | hx
        · exact Or.inl (Or.inl (by simpa using hx))
        · exact Or.inl (Or.inr (by simpa using hx))
        · exact Or.inr hx
      have haB : ∀ x ∈ B, x ≠ a := fun x hx h => dAB a (by simp) x hx h.symm
      simp only [hq0, Bool.false_eq_true, if_false, List.getLast?_append,
        List.getLast?_singleton, Option.some_or, Option.map_some]
      refine ⟨_, _, _, rfl, ⟨?_, ?_, ?_⟩, ⟨?_, ?_, nO⟩⟩
      · rw [chain_iff_seg, seg_append]
        refine ⟨B.head?, seg_append.2 ⟨(M0 ++ [z]).head?, ?_, ?_⟩, ?_⟩
        · have hqh : (if B.head? = none then ({ head := q.head, tail := some z } : Q) else q).head
            = q.head := by split <;> rfl
          rw [hqh]
          exact sA.setLast nA
        · exact sM.congr (fun x hx => upd_other _ _ (haO x (Or.inr (Or.inl hx))))
        · exact sB.congr (fun x hx => upd_other _ _ (haB x hx))
      · cases B with
        | nil => simp [List.getLast?_cons]
        | cons b B =>
          simp only [List.head?_cons, reduceCtorEq, if_false, hqt]
          simp [List.getLast?_append, List.getLast?_cons]
      · simp only [List.nodup_append, List.mem_append, List.mem_singleton]
        refine ⟨⟨by simpa [List.nodup_append] using nA, by simpa [List.nodup_append] using nMz, ?_⟩,
          nB, ?_⟩
        · intro u hu v hv h
          exact hd u (Or.inl (by simpa using hu)) (by subst h; exact Or.inl (Or.inr hv))
        · intro u hu v hv h
          rcases hu with hu | hu
          · exact dAB u (by simpa using hu) v hv h
          · exact hd v (Or.inr hv) (by subst h; exact Or.inl (Or.inr hu))
      · rw [chain_iff_seg, seg_append]
        exact ⟨_, sP.congr (fun x hx => upd_other _ _ (haO x (Or.inl hx))),
          sS.congr (fun x hx => upd_other _ _ (haO x (Or.inr (Or.inr hx))))⟩
      · exact tO
  · -- everything, to the back
    have hh : o.head = (M0 ++ [z]).head? := by simpa [Seg] using hP
    rw [if_pos hh]
    simp only [List.head?_nil, if_true, List.append_nil, List.nil_append]
    have sM : Seg m (M0 ++ [z]).head? (M0 ++ [z]) none := by simpa using hMs
    by_cases hA0 : A = []
    · subst hA0
      have hq0 : q.isEmpty = true := by
        have : q.head = none := by simpa [Seg] using hAs
        simp [Q.isEmpty, this]
      rw [if_pos hq0]
      refine ⟨_, _, _, rfl, ⟨?_, by simp, nMz⟩, rep_empty _⟩
      rw [chain_iff_seg]; exact sM
    · obtain ⟨A0, a, rfl⟩ : ∃ A0 a, A = A0 ++ [a] := by
        obtain ⟨z, hz⟩ := Option.ne_none_iff_exists'.1 (show A.getLast? ≠ none by simpa using hA0)
        obtain ⟨M0, h⟩ := getLast_split hz; exact ⟨M0, z, h⟩
      have hq0 : q.isEmpty = false := by
        have := hAs.head
        cases A0 <;> simp at this <;> simp [Q.isEmpty, this]
      have haO : ∀ x, x ∈ (M0 ++ [z]) → x ≠ a := by
        intro x hx h
        refine hd a (Or.inl (by simp)) ?_
        rw [← h]
        exact Or.inl (Or.inr (by simpa using hx))
      simp only [hq0, Bool.false_eq_true, if_false, store, List.getLast?_append,
        List.getLast?_singleton, Option.some_or, Option.map_some]
      refine ⟨_, _, _, rfl, ⟨?_, by simp [List.getLast?_cons], ?_⟩, rep_empty _⟩
      · rw [chain_iff_seg, seg_append]
        exact ⟨(M0 ++ [z]).head?, hAs.setLast nA,
          sM.congr (fun x hx => upd_other _ _ (haO x hx))⟩
      · rw [List.nodup_append]
        refine ⟨nA, nMz, ?_⟩
        intro u hu v hv h
        exact hd u (Or.inl (by simpa using hu)) (by subst h; exact Or.inl (Or.inr (by simpa using hv)))

/-- **Defect.** The full `splice` property fails: moving a proper prefix leaves the moved nodes linked
    into the rest of `other`, … -/
theorem C10_splice_prefix_false : ¬ ∀ (m : Mem) (q o : Q) (A B P M S : List Node),
    Rep m q (A ++ B) → Rep m o (P ++ M ++ S) → M ≠ [] → (∀ x ∈ A ++ B, x ∉ P ++ M ++ S) →
    (A ≠ [] ∨ B = []) → P = [] → SpliceSpec m q o A B P M S := by
  intro H
  -- other = [1,2]; move [1] into an empty queue
  let m : Mem := fun x => if x = 1 then some 2 else none
  obtain ⟨m', q', o', h1, h2, -⟩ := H m Q.empty ⟨some 1, some 2⟩ [] [] [] [1] [2]
    (rep_empty m) ⟨⟨rfl, ⟨rfl, rfl⟩⟩, rfl, by decide⟩ (by decide) (by decide) (by decide) rfl
  have h3 : splice m Q.empty (between [] []) ⟨some 1, some 2⟩ (between [] ([1] ++ [2]))
      (between ([] ++ [1]) [2]) = some (m, ⟨some 1, some 1⟩, ⟨some 2, some 2⟩) := rfl
  rw [h3] at h1
  cases h1
  have := h2.1
  simp [Chain, m] at this

/-- … moving a suffix leaves `other`'s tail pointing at a moved node, … -/
theorem C10_splice_suffix_false : ¬ ∀ (m : Mem) (q o : Q) (A B P M S : List Node),
    Rep m q (A ++ B) → Rep m o (P ++ M ++ S) → M ≠ [] → (∀ x ∈ A ++ B, x ∉ P ++ M ++ S) →
    (A ≠ [] ∨ B = []) → P ≠ [] → SpliceSpec m q o A B P M S := by
  intro H
  let m : Mem := fun x => if x = 1 then some 2 else none
  obtain ⟨m', q', o', h1, -, h2⟩ := H m Q.empty ⟨some 1, some 2⟩ [] [] [1] [2] []
    (rep_empty m) ⟨⟨rfl, ⟨rfl, rfl⟩⟩, rfl, by decide⟩ (by decide) (by decide) (by decide) (by decide)
  have h3 : ∃ m'', splice m Q.empty (between [] []) ⟨some 1, some 2⟩ (between [1] ([2] ++ []))
      (between ([1] ++ [2]) []) = some (m'', ⟨some 2, some 2⟩, ⟨some 1, some 2⟩) := ⟨_, rfl⟩
  obtain ⟨m'', h3⟩ := h3
  rw [h3] at h1
  cases h1
  have := h2.2.1
  simp at this

/-- … and inserting at the front of a non-empty queue dereferences a null pointer. -/
theorem C10_splice_front_false : ∃ (m : Mem) (q o : Q) (B P M S : List Node),
    Rep m q B ∧ Rep m o (P ++ M ++ S) ∧ M ≠ [] ∧ (∀ x ∈ B, x ∉ P ++ M ++ S) ∧ P ≠ [] ∧ S ≠ [] ∧
    splice m q (between [] B) o (between P (M ++ S)) (between (P ++ M) S) = none := by
  refine ⟨fun x => if x = 1 then some 2 else if x = 2 then some 3 else none, ⟨some 9, some 9⟩,
    ⟨some 1, some 3⟩, [9], [1], [2], [3], ⟨⟨rfl, rfl⟩, rfl, by decide⟩,
    ⟨⟨rfl, rfl, rfl, rfl⟩, rfl, by decide⟩, by decide, by decide, by decide, by decide, rfl⟩

/-- The library's only internal use (static_thread_pool.hpp lines 978-987: splice a prefix of
    `pending` into a temporary that is cleared right away) is unaffected: `other` is left holding
    exactly the remaining suffix. -/
theorem C10_splice_prefix_other {m : Mem} {o : Q} {M S : List Node} (ho : Rep m o (M ++ S))
    (hM : M ≠ []) :
    ∃ q' o', splice m Q.empty (begin_ Q.empty) o (begin_ o) (between M S) = some (m, q', o') ∧
      Rep m o' S := by
  obtain ⟨hc, ht, hn⟩ := ho
  rw [chain_iff_seg] at hc
  obtain ⟨pS, h1, h2⟩ := seg_append.1 hc
  have eS : pS = S.head? := by simpa using h2.head
  subst eS
  have hne : begin_ o ≠ between M S := by
    intro he
    have := congrArg Iter.pred he
    simp [begin_, between] at this
    exact hM (by simpa using this.symm)
  unfold splice
  rw [if_neg hne]
  simp only [begin_, Q.isEmpty, Q.empty, Option.isNone_none, if_true, between]
  refine ⟨_, _, rfl, ?_⟩
  cases S with
  | nil => simp; exact rep_empty m
  | cons y S =>
    simp only [List.head?_cons, reduceCtorEq, if_false]
    refine ⟨?_, ?_, ?_⟩
    · rw [chain_iff_seg]; exact h2
    · simp only [ht]; simp [List.getLast?_append, List.getLast?_cons]
    · rw [List.nodup_append] at hn; exact hn.2.1

/-! ## Non-vacuity -/

/-- The empty system represents empty sequences, and a legal program over three queues. -/
def sys0 : Sys := ⟨fun _ => none, fun _ => Q.empty⟩
example : SysRep sys0 (fun _ => []) := ⟨fun _ => rep_empty _, by simp⟩
def prog0 : List Op :=
  [.pushBack 0 1, .pushBack 0 2, .pushFront 0 3, .pushFront 1 4, .append 0 1, .popFront 0,
   .reverse 0, .pushBack 2 3, .prepend 0 2, .moveAssign 1 0, .popFront 1]
example : Abs.legalAll (fun _ => []) prog0 := by
  simp [prog0, Abs.legalAll, Abs.legal, Abs.run, upd]; grind
example : ((sys0.runAll 10 prog0).map (·.2)) =
    some [none, none, none, none, none, some 3, none, none, none, none, some 3] := by rfl
/-- Hypotheses of the splice theorem met: move 2,3 out of 1,2,3,4 to the back of 8,9. -/
example : ∃ (m : Mem) (q o : Q), Rep m q ([8] ++ [9]) ∧ Rep m o ([1] ++ [2, 3] ++ [4]) :=
  ⟨fun x => if x = 8 then some 9 else if x = 1 then some 2 else if x = 2 then some 3 else
    if x = 3 then some 4 else none, ⟨some 8, some 9⟩, ⟨some 1, some 4⟩,
    ⟨⟨rfl, rfl, rfl⟩, rfl, by decide⟩, ⟨⟨rfl, rfl, rfl, rfl, rfl⟩, rfl, by decide⟩⟩

end Verif.IQueue
