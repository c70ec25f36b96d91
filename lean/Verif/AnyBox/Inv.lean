import Verif.AnyBox.Spec
namespace Verif.AnyBox

/-- No type that fits the buffer has a constructor that throws. -/
def SmallNoThrow (p : P) : Prop := ∀ ty f, small p ty f = true → p.mayThrow ty = false

def okWord (p : P) (s : St) (i : Nat) (c : Cell) : Prop :=
  match c.word with
  | .null => True
  | .heap b o => o < s.nobj ∧ (s.obj o).dead = 0 ∧ (s.obj o).place = .blk b ∧
      b < s.nblk ∧ s.freed b = 0
  | .insitu o => o < s.nobj ∧ (s.obj o).dead = 0 ∧ (s.obj o).place = .buf i ∧
      small p (s.obj o).ty c.iface = true
  | .stale => False

structure Inv (p : P) (s : St) : Prop where
  bad : s.bad = false
  word : ∀ i c, s.cell i = some c → okWord p s i c
  dead1 : ∀ o, (s.obj o).dead ≤ 1
  freed1 : ∀ b, s.freed b ≤ 1
  freed0 : ∀ b, s.nblk ≤ b → s.freed b = 0
  owned : ∀ o, o < s.nobj → (s.obj o).dead = 0 → ∃ i c, s.cell i = some c ∧ objOf c.word = some o
  ownedB : ∀ b, b < s.nblk → s.freed b = 0 → ∃ i c o, s.cell i = some c ∧ c.word = .heap b o
  uniq : ∀ i j c c' o, s.cell i = some c → s.cell j = some c' → objOf c.word = some o →
    objOf c'.word = some o → i = j
  uniqB : ∀ i j c c' b o o', s.cell i = some c → s.cell j = some c' → c.word = .heap b o →
    c'.word = .heap b o' → i = j

theorem setWord_some {s : St} {i : Nat} {c : Cell} (h : s.cell i = some c) (w : Word) :
    setWord s i w = { s with cell := upd s.cell i (some { c with word := w }) } := by
  unfold setWord; rw [h]

theorem word_some {s : St} {i : Nat} {c : Cell} (h : s.cell i = some c) : word s i = c.word := by
  simp [word, h]

theorem iface_some {s : St} {i : Nat} {c : Cell} (h : s.cell i = some c) : ifaceOf s i = c.iface := by
  simp [ifaceOf, h]

/-- No value held by a variable -- except perhaps the one in cell `e` -- has been moved from. -/
def NMx (e : Option Nat) (s : St) : Prop :=
  ∀ k c o, s.cell k = some c → objOf c.word = some o → (s.obj o).moved = true → e = some k

/-- Resetting a variable keeps the invariant and touches nothing else. -/
theorem reset_ok {p : P} {s : St} (h : Inv p s) {i : Nat} {c : Cell} (hc : s.cell i = some c) :
    Inv p (reset s i) ∧ (reset s i).cell = upd s.cell i (some { c with word := .null }) ∧
    (∀ o, (reset s i).obj o = s.obj o ∨ objOf c.word = some o ∧ (reset s i).obj o = { s.obj o with dead := 1 }) := by
  have hw := h.word i c hc
  unfold okWord at hw
  unfold reset
  rw [word_some hc]
  cases hcw : c.word with
  | null =>
    refine ⟨h, ?_, fun o => .inl rfl⟩
    funext k
    show s.cell k = if k = i then _ else _
    by_cases hk : k = i
    · subst hk; rw [if_pos rfl, hc]; cases c; simp_all
    · rw [if_neg hk]
  | stale => rw [hcw] at hw; exact hw.elim
  | insitu o =>
    rw [hcw] at hw
    simp only
    rw [setWord_some (s := destroy s o) hc]
    refine ⟨?_, rfl, ?_⟩
    · constructor
      · simp [destroy, h.bad, hw]
      · intro k ck hk
        have h1 := h.word k
        have h2 := h.uniq i k c
        unfold okWord at h1 ⊢
        simp only [destroy] at hk ⊢
        grind [objOf, upd]
      · intro o'
        have := h.dead1 o'
        simp only [destroy]; grind [upd]
      · exact h.freed1
      · exact h.freed0
      · intro o' ho hd
        simp only [destroy] at ho hd ⊢
        obtain ⟨w, cw, h1, h2⟩ := h.owned o' ho (by grind [upd])
        exact ⟨w, cw, by grind [objOf, upd], h2⟩
      · intro b hb hf
        obtain ⟨w, cw, ow, h1, h2⟩ := h.ownedB b hb hf
        simp only [destroy]
        exact ⟨w, cw, ow, by grind [objOf, upd], h2⟩
      · intro a b c1 c2 o' h1 h2 h3 h4
        have := h.uniq a b
        simp only [destroy] at h1 h2
        grind [objOf, upd]
      · intro a b c1 c2 b1 o1 o2 h1 h2 h3 h4
        have := h.uniqB a b
        simp only [destroy] at h1 h2
        grind [objOf, upd]
    · intro o'
      simp only [destroy]; grind [objOf, upd]
  | heap b o =>
    rw [hcw] at hw
    simp only
    rw [setWord_some (s := free (destroy s o) b) hc]
    refine ⟨?_, rfl, ?_⟩
    · constructor
      · simp [destroy, free, h.bad, hw]
      · intro k ck hk
        have h1 := h.word k
        have h2 := h.uniq i k c
        have h3 := h.uniqB i k c
        unfold okWord at h1 ⊢
        simp only [destroy, free] at hk ⊢
        grind [objOf, upd]
      · intro o'
        have := h.dead1 o'
        simp only [destroy, free]; grind [upd]
      · intro b'
        have := h.freed1 b'
        simp only [destroy, free]; grind [upd]
      · intro b' hb'
        have := h.freed0 b'
        simp only [destroy, free] at hb' ⊢; grind [upd]
      · intro o' ho hd
        simp only [destroy, free] at ho hd ⊢
        obtain ⟨w, cw, h1, h2⟩ := h.owned o' ho (by grind [upd])
        exact ⟨w, cw, by grind [objOf, upd], h2⟩
      · intro b' hb hf
        simp only [destroy, free] at hb hf ⊢
        obtain ⟨w, cw, ow, h1, h2⟩ := h.ownedB b' hb (by grind [upd])
        exact ⟨w, cw, ow, by grind [objOf, upd], h2⟩
      · intro a b c1 c2 o' h1 h2 h3 h4
        have := h.uniq a b
        simp only [destroy, free] at h1 h2
        grind [objOf, upd]
      · intro a b c1 c2 b1 o1 o2 h1 h2 h3 h4
        have := h.uniqB a b
        simp only [destroy, free] at h1 h2
        grind [objOf, upd]
    · intro o'
      simp only [destroy, free]; grind [objOf, upd]


theorem seen_none {s : St} {i : Nat} (h : s.cell i = none) : seen s i = none := by simp [seen, h]

theorem seen_some {s : St} {i f : Nat} {v : Option (Nat × Nat)} (h : seen s i = some (f, v)) :
    ∃ c, s.cell i = some c ∧ c.iface = f ∧
      v = (objOf c.word).map (fun o => ((s.obj o).ty, (s.obj o).val)) := by
  unfold seen at h
  cases hc : s.cell i with
  | none => rw [hc] at h; simp at h
  | some c => rw [hc] at h; simp at h; exact ⟨c, rfl, h.1, h.2.symm⟩

/-- An empty variable has a null word. -/
theorem seen_empty {p : P} {s : St} (hi : Inv p s) {i f : Nat} (h : seen s i = some (f, none)) :
    ∃ c, s.cell i = some c ∧ c.iface = f ∧ c.word = .null := by
  obtain ⟨c, hc, hf, hv⟩ := seen_some h
  refine ⟨c, hc, hf, ?_⟩
  have := hi.word i c hc
  unfold okWord at this
  cases hw : c.word with
  | null => rfl
  | stale => rw [hw] at this; exact this.elim
  | insitu o => rw [hw] at hv; simp [objOf] at hv
  | heap b o => rw [hw] at hv; simp [objOf] at hv

theorem seen_full {s : St} {i f : Nat} {v : Nat × Nat} (h : seen s i = some (f, some v)) :
    ∃ c o, s.cell i = some c ∧ c.iface = f ∧ objOf c.word = some o ∧ v = ((s.obj o).ty, (s.obj o).val) := by
  obtain ⟨c, hc, hf, hv⟩ := seen_some h
  cases ho : objOf c.word with
  | none => rw [ho] at hv; simp at hv
  | some o => rw [ho] at hv; exact ⟨c, o, hc, hf, ho, by simpa using hv⟩

theorem obj_lt {p : P} {s : St} (hi : Inv p s) {i o : Nat} {c : Cell} (hc : s.cell i = some c)
    (ho : objOf c.word = some o) : o < s.nobj ∧ (s.obj o).dead = 0 := by
  have := hi.word i c hc
  unfold okWord at this
  cases hw : c.word <;> rw [hw] at this ho <;> simp [objOf] at ho <;> subst ho <;> exact ⟨this.1, this.2.1⟩

theorem touch_id {p : P} {s : St} (hi : Inv p s) (hn : NMx none s) {i o : Nat} {c : Cell}
    (hc : s.cell i = some c) (ho : objOf c.word = some o) : touch s o = s := by
  have h1 := obj_lt hi hc ho
  have h2 : (s.obj o).moved = false := by
    cases hm : (s.obj o).moved
    · rfl
    · exact absurd (hn i c o hc ho hm) (by simp)
  unfold touch
  simp [h1, h2]

theorem reset_seen {p : P} {s : St} (h : Inv p s) {i f : Nat} {v : Option (Nat × Nat)}
    (hs : seen s i = some (f, v)) :
    Inv p (reset s i) ∧ seen (reset s i) = (seen s).set i none ∧
    (∀ e, NMx e s → NMx (if e = some i then none else e) (reset s i)) := by
  obtain ⟨c, hc, hf, hv⟩ := seen_some hs
  obtain ⟨h1, h2, h3⟩ := reset_ok h hc
  refine ⟨h1, ?_, ?_⟩
  · funext k
    unfold Vars.set
    by_cases hk : k = i
    · subst hk; simp [seen, h2, hc, objOf]
    · simp only [seen, h2, hk, if_false, upd]
      cases hck : s.cell k with
      | none => rfl
      | some ck =>
        simp only [Option.map_some, Option.some.injEq, Prod.mk.injEq, true_and]
        cases ho : objOf ck.word with
        | none => rfl
        | some o =>
          simp only [Option.map_some, Option.some.injEq]
          rcases h3 o with h4 | ⟨_, h4⟩ <;> rw [h4]
  · intro e hn k ck o hk ho hm
    rw [h2] at hk
    by_cases hki : k = i
    · subst hki; simp at hk; subst hk; simp [objOf] at ho
    · rw [upd_other _ _ hki] at hk
      have hm' : (s.obj o).moved = true := by
        rcases h3 o with h4 | ⟨_, h4⟩ <;> rw [h4] at hm <;> exact hm
      have := hn k ck o hk ho hm'
      subst this
      simp [hki]

end Verif.AnyBox
