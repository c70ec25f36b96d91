import Verif.IQueue.Model
/-! # `__intrusive_queue` — representation predicate and per-operation lemmas -/
namespace Verif.IQueue

/-- The nodes reached from `p` by following `_Next` up to null are exactly `l`. -/
def Chain (m : Mem) : Ptr → List Node → Prop
  | p, [] => p = none
  | p, x :: xs => p = some x ∧ Chain m (m x) xs

/-- Queue object `q` in memory `m` represents the sequence `l`. -/
def Rep (m : Mem) (q : Q) (l : List Node) : Prop :=
  Chain m q.head l ∧ q.tail = l.getLast? ∧ l.Nodup

theorem Chain.congr {m m' : Mem} {l : List Node} {p : Ptr} (h : Chain m p l)
    (hm : ∀ x ∈ l, m' x = m x) : Chain m' p l := by
  induction l generalizing p with
  | nil => exact h
  | cons x xs ih =>
    refine ⟨h.1, ?_⟩
    rw [hm x (by simp)]
    exact ih h.2 (fun y hy => hm y (by simp [hy]))

theorem Chain.upd {m : Mem} {l : List Node} {p : Ptr} {x : Node} {v : Ptr} (h : Chain m p l)
    (hx : x ∉ l) : Chain (upd m x v) p l :=
  h.congr (fun y hy => upd_other _ _ (by rintro rfl; exact hx hy))

theorem Chain.head {m : Mem} {l : List Node} {p : Ptr} (h : Chain m p l) : p = l.head? := by
  cases l with
  | nil => exact h
  | cons x xs => exact h.1

/-- A segment from `p` through `l` ending at pointer `e`. -/
def Seg (m : Mem) : Ptr → List Node → Ptr → Prop
  | p, [], e => p = e
  | p, x :: xs, e => p = some x ∧ Seg m (m x) xs e

theorem chain_iff_seg {m : Mem} {l : List Node} {p : Ptr} : Chain m p l ↔ Seg m p l none := by
  induction l generalizing p with
  | nil => rfl
  | cons x xs ih => simp [Chain, Seg, ih]

theorem Seg.congr {m m' : Mem} {l : List Node} {p e : Ptr} (h : Seg m p l e)
    (hm : ∀ x ∈ l, m' x = m x) : Seg m' p l e := by
  induction l generalizing p with
  | nil => exact h
  | cons x xs ih =>
    refine ⟨h.1, ?_⟩
    rw [hm x (by simp)]
    exact ih h.2 (fun y hy => hm y (by simp [hy]))

theorem seg_append {m : Mem} {l l' : List Node} {p e : Ptr} :
    Seg m p (l ++ l') e ↔ ∃ q, Seg m p l q ∧ Seg m q l' e := by
  induction l generalizing p with
  | nil => simp [Seg]
  | cons x xs ih =>
    simp only [List.cons_append, Seg, ih]
    constructor
    · rintro ⟨h1, q, h2, h3⟩; exact ⟨q, ⟨h1, h2⟩, h3⟩
    · rintro ⟨q, ⟨h1, h2⟩, h3⟩; exact ⟨h1, q, h2, h3⟩

theorem Seg.head {m : Mem} {l : List Node} {p e : Ptr} (h : Seg m p l e) :
    p = l.head?.or e := by
  cases l with
  | nil => simpa [Seg] using h
  | cons x xs => simpa using h.1

/-- Re-link the last node of a non-empty segment. -/
theorem Seg.setLast {m : Mem} {l : List Node} {x : Node} {p e v : Ptr}
    (h : Seg m p (l ++ [x]) e) (hn : (l ++ [x]).Nodup) : Seg (upd m x v) p (l ++ [x]) v := by
  rw [seg_append] at h ⊢
  obtain ⟨q, h1, h2⟩ := h
  refine ⟨q, h1.congr ?_, ?_⟩
  · intro y hy
    refine upd_other _ _ ?_
    rintro rfl
    rw [List.nodup_append] at hn
    exact hn.2.2 y hy y (by simp) rfl
  · simp only [Seg] at h2 ⊢
    exact ⟨h2.1, by simp⟩

theorem Chain.append {m : Mem} {l l' : List Node} {p q : Ptr} {x : Node}
    (h : Chain m p (l ++ [x])) (h' : Chain m q l') (hn : (l ++ [x]).Nodup)
    (hd : x ∉ l') : Chain (Verif.upd m x q) p (l ++ [x] ++ l') := by
  rw [chain_iff_seg] at *
  rw [seg_append]
  exact ⟨q, h.setLast hn, h'.congr (fun y hy => upd_other _ _ (by rintro rfl; exact hd hy))⟩

theorem rep_empty (m : Mem) : Rep m Q.empty [] := ⟨rfl, rfl, List.nodup_nil⟩

theorem Rep.isEmpty {m : Mem} {q : Q} {l : List Node} (h : Rep m q l) : q.isEmpty = l.isEmpty := by
  have := h.1.head
  cases l <;> simp_all [Q.isEmpty]

theorem Rep.congr {m m' : Mem} {q : Q} {l : List Node} (h : Rep m q l)
    (hm : ∀ x ∈ l, m' x = m x) : Rep m' q l := ⟨h.1.congr hm, h.2⟩

theorem popFront_spec {m : Mem} {q : Q} {x : Node} {l : List Node} (h : Rep m q (x :: l)) :
    ∃ q', popFront m q = some (m, q', x) ∧ Rep m q' l := by
  obtain ⟨⟨h1, h2⟩, h3, h4⟩ := h
  have hh := h2.head
  simp only [popFront, h1]
  refine ⟨_, rfl, ?_⟩
  cases l with
  | nil => simp at hh; simp [hh, Rep, Chain]
  | cons y l =>
    simp at hh
    rw [if_neg (by simp [hh])]
    refine ⟨h2, ?_, (List.nodup_cons.1 h4).2⟩
    simpa using h3

theorem pushFront_spec {m : Mem} {q : Q} {x : Node} {l : List Node} (h : Rep m q l) (hx : x ∉ l) :
    Rep (pushFront m q x).1 (pushFront m q x).2 (x :: l) ∧
    ∀ y, y ≠ x → (pushFront m q x).1 y = m y := by
  obtain ⟨h1, h2, h3⟩ := h
  refine ⟨⟨⟨rfl, ?_⟩, ?_, ?_⟩, ?_⟩
  · simp only [pushFront, upd_same]; exact h1.upd hx
  · simp only [pushFront]
    cases l with
    | nil => simp at h2; simp [h2]
    | cons y l => simp [h2, List.getLast?_cons_cons]
  · exact List.nodup_cons.2 ⟨hx, h3⟩
  · intro y hy; exact upd_other _ _ hy

theorem getLast_split {l : List Node} {x : Node} (h : l.getLast? = some x) :
    ∃ l0, l = l0 ++ [x] := by
  rw [List.getLast?_eq_some_iff] at h; exact h

theorem pushBack_spec {m : Mem} {q : Q} {x : Node} {l : List Node} (h : Rep m q l) (hx : x ∉ l) :
    Rep (pushBack m q x).1 (pushBack m q x).2 (l ++ [x]) ∧
    ∀ y, y ≠ x → y ∉ l → (pushBack m q x).1 y = m y := by
  obtain ⟨h1, h2, h3⟩ := h
  cases ht : q.tail with
  | none =>
    have hl : l = [] := by rw [ht] at h2; simpa using h2.symm
    subst hl
    simp only [pushBack, ht]
    refine ⟨⟨⟨rfl, by simp [Chain]⟩, by simp, by simp⟩, ?_⟩
    intro y hy _; exact upd_other _ _ hy
  | some t =>
    obtain ⟨l0, rfl⟩ := getLast_split (h2.symm.trans ht)
    simp only [pushBack, ht]
    refine ⟨⟨?_, by simp, ?_⟩, ?_⟩
    · simp only
      have hc : Chain (Verif.upd m x none) q.head (l0 ++ [t]) := h1.upd hx
      have htx : t ≠ x := by rintro rfl; simp at hx
      exact hc.append (q := some x) (l' := [x]) ⟨rfl, by simp [Chain]⟩ h3 (by simpa using htx)
    · rw [List.nodup_append]; refine ⟨h3, by simp, ?_⟩
      intro a ha b hb; simp at hb; subst hb; rintro rfl; exact hx ha
    · intro y hy hyl
      simp at hyl
      simp [upd_other _ _ hyl.2, upd_other _ _ hy]

theorem append_spec {m : Mem} {q o : Q} {l l' : List Node} (h : Rep m q l) (h' : Rep m o l')
    (hd : ∀ x ∈ l, x ∉ l') :
    ∃ m' q', append m q o = some (m', q', Q.empty) ∧ Rep m' q' (l ++ l') ∧
      ∀ y, y ∉ l → m' y = m y := by
  unfold append
  rw [h'.isEmpty, h.isEmpty]
  cases l' with
  | nil =>
    have ho : o = Q.empty := by
      obtain ⟨h1, h2, _⟩ := h'
      cases o; simp_all [Chain, Q.empty]
    exact ⟨m, q, by simp [ho], by simpa using h, by simp⟩
  | cons y l' =>
    cases l with
    | nil =>
      refine ⟨m, o, by simp, by simpa using h', by simp⟩
    | cons z l =>
      obtain ⟨h1, h2, h3⟩ := h
      cases ht : q.tail with
      | none => rw [ht] at h2; simp [List.getLast?_cons] at h2
      | some t =>
        rw [ht] at h2
        obtain ⟨l0, hl0⟩ := getLast_split h2.symm
        rw [hl0] at h1 h3 hd ⊢
        refine ⟨_, _, by simp; exact ⟨rfl, rfl⟩, ⟨?_, ?_, ?_⟩, ?_⟩
        · exact h1.append h'.1 h3 (hd t (by simp))
        · simp only [h'.2.1]; simp [List.getLast?_append, List.getLast?_cons]
        · rw [List.nodup_append]
          exact ⟨h3, h'.2.2, fun a ha b hb hab => hd a ha (hab ▸ hb)⟩
        · intro y hy; refine upd_other _ _ ?_; rintro rfl; simp at hy

theorem prepend_spec {m : Mem} {q o : Q} {l l' : List Node} (h : Rep m q l) (h' : Rep m o l')
    (hd : ∀ x ∈ l', x ∉ l) :
    ∃ m' q', prepend m q o = some (m', q', Q.empty) ∧ Rep m' q' (l' ++ l) ∧
      ∀ y, y ∉ l' → m' y = m y := by
  unfold prepend
  rw [h'.isEmpty]
  cases l' with
  | nil =>
    have ho : o = Q.empty := by
      obtain ⟨h1, h2, _⟩ := h'
      cases o; simp_all [Chain, Q.empty]
    exact ⟨m, q, by simp [ho], by simpa using h, by simp⟩
  | cons z l' =>
    obtain ⟨h1, h2, h3⟩ := h'
    cases ht : o.tail with
    | none => rw [ht] at h2; simp [List.getLast?_cons] at h2
    | some t =>
      rw [ht] at h2
      obtain ⟨l0, hl0⟩ := getLast_split h2.symm
      rw [hl0] at h1 h3 hd ⊢
      refine ⟨_, _, by simp; exact ⟨rfl, rfl⟩, ⟨?_, ?_, ?_⟩, ?_⟩
      · exact h1.append h.1 h3 (hd t (by simp))
      · simp only [h.2.1]
        cases l with
        | nil => simp
        | cons a l => simp [List.getLast?_append, List.getLast?_cons]
      · rw [List.nodup_append]
        exact ⟨h3, h.2.2, fun a ha b hb hab => hd a ha (hab ▸ hb)⟩
      · intro y hy; refine upd_other _ _ ?_; rintro rfl; simp at hy

theorem revLoop_spec {fuel : Nat} {m : Mem} {p nh : Ptr} {l acc : List Node} (h : Chain m p l)
    (hacc : Chain m nh acc) (hn : (l ++ acc).Nodup) (hf : l.length ≤ fuel) :
    ∃ m' h', revLoop fuel m p nh = some (m', h') ∧ Chain m' h' (l.reverse ++ acc) ∧
      ∀ y, y ∉ l → m' y = m y := by
  induction l generalizing fuel m p nh acc with
  | nil => cases h; exact ⟨m, nh, by simp [revLoop], by simpa using hacc, fun _ _ => rfl⟩
  | cons x l ih =>
    obtain ⟨h1, h2⟩ := h
    subst h1
    cases fuel with
    | zero => simp at hf
    | succ fuel =>
      simp only [List.cons_append, List.nodup_cons, List.mem_append, not_or] at hn
      have ha : Chain (Verif.upd m x nh) (some x) (x :: acc) := by
        refine ⟨rfl, ?_⟩
        rw [upd_same]; exact hacc.upd hn.1.2
      obtain ⟨m', h', e1, e2, e3⟩ := ih (fuel := fuel) (m := Verif.upd m x nh) (p := m x)
        (nh := some x) (acc := x :: acc) (h2.upd hn.1.1) ha
        (by
          have := hn.2
          rw [List.nodup_append] at this ⊢
          refine ⟨this.1, List.nodup_cons.2 ⟨hn.1.2, this.2.1⟩, ?_⟩
          intro a ha b hb
          rcases List.mem_cons.1 hb with rfl | hb
          · rintro rfl; exact hn.1.1 ‹_›
          · exact this.2.2 a ha b hb)
        (by simpa using hf)
      refine ⟨m', h', by simp [revLoop, e1], by simpa using e2, ?_⟩
      intro y hy
      simp only [List.mem_cons, not_or] at hy
      rw [e3 y hy.2, upd_other _ _ hy.1]

theorem makeReversed_spec {fuel : Nat} {m : Mem} {p : Ptr} {l : List Node} (h : Chain m p l)
    (hn : l.Nodup) (hf : l.length ≤ fuel) :
    ∃ m' q, makeReversed fuel m p = some (m', q) ∧ Rep m' q l.reverse ∧
      ∀ y, y ∉ l → m' y = m y := by
  obtain ⟨m', h', e1, e2, e3⟩ := revLoop_spec (nh := none) (acc := []) h rfl (by simpa using hn) hf
  refine ⟨m', ⟨h', p⟩, by simp [makeReversed, e1], ⟨by simpa using e2, ?_, ?_⟩, e3⟩
  · simp [h.head]
  · exact (List.reverse_perm l).nodup_iff.2 hn

theorem revLoop_mono {f f' : Nat} {m : Mem} {p nh : Ptr} {l : List Node} (h : Chain m p l)
    (hn : l.Nodup) (h1 : l.length ≤ f) (h2 : l.length ≤ f') :
    revLoop f' m p nh = revLoop f m p nh := by
  induction l generalizing f f' m p nh with
  | nil => cases h; simp [revLoop]
  | cons x l ih =>
    obtain ⟨rfl, hc⟩ := h
    cases f with
    | zero => simp at h1
    | succ f =>
      cases f' with
      | zero => simp at h2
      | succ f' =>
        have hn' := List.nodup_cons.1 hn
        simp only [revLoop]
        exact ih (hc.upd hn'.1) hn'.2 (by simpa using h1) (by simpa using h2)

theorem makeReversed_mono {f f' : Nat} {m : Mem} {p : Ptr} {l : List Node} (h : Chain m p l)
    (hn : l.Nodup) (h1 : l.length ≤ f) (h2 : l.length ≤ f') :
    makeReversed f' m p = makeReversed f m p := by
  simp only [makeReversed, revLoop_mono h hn h1 h2]

theorem lastLoop_spec {fuel : Nat} {m : Mem} {x : Node} {l : List Node}
    (h : Chain m (some x) (x :: l)) (hf : (x :: l).length ≤ fuel) :
    lastLoop fuel m x = (x :: l).getLast? := by
  induction l generalizing fuel x with
  | nil =>
    cases fuel with
    | zero => simp at hf
    | succ fuel => have := h.2; simp [Chain] at this; simp [lastLoop, this]
  | cons y l ih =>
    cases fuel with
    | zero => simp at hf
    | succ fuel =>
      have h2 := h.2
      have hy : m x = some y := h2.1
      simp only [lastLoop, hy]
      rw [ih (by rw [hy] at h2; exact h2) (by simpa using hf)]
      simp [List.getLast?_cons]

theorem make_spec {fuel : Nat} {m : Mem} {p : Ptr} {l : List Node} (h : Chain m p l)
    (hn : l.Nodup) (hf : l.length ≤ fuel) : ∃ q, make fuel m p = some q ∧ Rep m q l := by
  cases l with
  | nil => cases h; exact ⟨_, rfl, rep_empty m⟩
  | cons x l =>
    have hp := h.1
    subst hp
    have := lastLoop_spec h hf
    cases hl : lastLoop fuel m x with
    | none => rw [hl] at this; simp [List.getLast?_cons] at this
    | some t =>
      refine ⟨⟨some x, some t⟩, by simp [make, hl], h, ?_, hn⟩
      rw [← this, hl]

end Verif.IQueue
