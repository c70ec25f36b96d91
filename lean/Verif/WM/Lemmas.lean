import Verif.WM.Machine
/-! # The memory machine: what each access does -/
namespace Verif.WM

variable {L A : Type} [DecidableEq L]

theorem getElem?_snoc {α : Type} {l : List α} {a b : α} {k : Nat} :
    (l ++ [a])[k]? = some b ↔ l[k]? = some b ∨ (k = l.length ∧ b = a) := by
  rw [List.getElem?_append]
  split
  · rename_i h
    constructor
    · exact .inl
    · rintro (h1 | ⟨h1, _⟩)
      · exact h1
      · omega
  · rename_i h
    have h0 : l[k]? = none := List.getElem?_eq_none (by omega)
    rw [h0]
    constructor
    · intro h1
      have : k - l.length = 0 := by
        by_cases hk : k - l.length = 0
        · exact hk
        · rw [List.getElem?_eq_none (by simp; omega)] at h1; cases h1
      rw [this] at h1
      simp at h1
      exact .inr ⟨by omega, h1.symm⟩
    · rintro (h1 | ⟨h1, h2⟩)
      · cases h1
      · subst h1 h2; simp

/-- Access number `k` was `a`. -/
def Mem.logged (m : Mem L A) (k : Nat) (a : A) : Prop := m.log[k]? = some a

theorem logged_lt (m : Mem L A) (k : Nat) (a : A) (h : m.logged k a) : k < m.log.length := by
  by_cases hl : k < m.log.length
  · exact hl
  · unfold Mem.logged at h; rw [List.getElem?_eq_none (by omega)] at h; cases h

theorem logged_snoc {m m' : Mem L A} {a : A} (h : m'.log = m.log ++ [a]) (k : Nat) (b : A) :
    m'.logged k b ↔ m.logged k b ∨ (k = m.log.length ∧ b = a) := by
  unfold Mem.logged; rw [h]; exact getElem?_snoc

theorem racy_false {conf : A → A → Bool} {m : Mem L A} {t : Nat} {a : A} :
    m.racy conf t a = false ↔ ∀ k b, m.logged k b → conf b a = true → (m.cur t).know k = true := by
  unfold Mem.logged
  unfold Mem.racy
  rw [List.any_eq_false]
  constructor
  · intro h k b hk hc
    have hlt : k < m.log.length := by
      by_cases hl : k < m.log.length
      · exact hl
      · rw [List.getElem?_eq_none (by omega)] at hk; cases hk
    have := h k (List.mem_range.2 hlt)
    rw [hk] at this
    simp [hc] at this
    exact this
  · intro h k _
    cases hk : m.log[k]? with
    | none => simp
    | some b =>
      cases hc : conf b a with
      | false => simp [hc]
      | true => simp [hc, h k b hk hc]

theorem put_same (m : Mem L A) (l : L) (ts : Nat) (g : Msg L) : (m.put l ts g).hist l ts = some g := by simp [Mem.put]

/-- What a plain access does. -/
theorem touch_spec (conf : A → A → Bool) (m : Mem L A) (t : Nat) (a : A) :
    (m.touch conf t a).hist = m.hist ∧ (m.touch conf t a).log = m.log ++ [a] ∧
    (m.touch conf t a).race = (m.race || m.racy conf t a) ∧
    (∀ u, u ≠ t → (m.touch conf t a).cur u = m.cur u) ∧
    (∀ k, ((m.touch conf t a).cur t).know k = ((m.cur t).know k || k == m.log.length)) ∧
    ∀ x, ((m.touch conf t a).cur t).seen x = (m.cur t).seen x := by
  refine ⟨rfl, rfl, rfl, fun u hu => ?_, fun k => ?_, fun x => ?_⟩
  · simp [Mem.touch, upd_other _ _ hu]
  · simp only [Mem.touch, upd_same]
    by_cases hk : k = m.log.length
    · subst hk; simp
    · rw [upd_other _ _ hk]; simp [hk]
  · simp [Mem.touch]

/-- What a load does. -/
theorem load_spec {conf : A → A → Bool} {m m' : Mem L A} {o : Ord} {t ts v : Nat} {l : L} {a : A}
    (h : m.load conf o t l ts a = some (v, m')) :
    ∃ g, m.hist l ts = some g ∧ v = g.val ∧ (m.cur t).seen l ≤ ts ∧ m'.hist = m.hist ∧ m'.log = m.log ++ [a] ∧
    m'.race = (m.race || m.racy conf t a) ∧ (∀ u, u ≠ t → m'.cur u = m.cur u) ∧
    (∀ k, (m'.cur t).know k = ((m.cur t).know k || k == m.log.length || (o.isAcq && g.view.know k))) ∧
    ∀ x, (m'.cur t).seen x = max (if x = l then ts else (m.cur t).seen x) (if o.isAcq then g.view.seen x else 0) := by
  obtain ⟨h1, h2, h3, h4, h5, h6⟩ := touch_spec conf m t a
  unfold Mem.load at h
  split at h
  · rename_i g hg
    split at h
    · rename_i hs
      simp only [Option.some.injEq, Prod.mk.injEq] at h
      obtain ⟨hv, hm⟩ := h
      subst hv hm
      refine ⟨g, hg, rfl, hs, rfl, rfl, rfl, fun u hu => ?_, fun k => ?_, fun x => ?_⟩
      · simp only [Mem.adopt, Mem.advance, upd_other _ _ hu, h4 u hu]
      · simp only [Mem.adopt, Mem.advance, upd_same, View.join, View.see, h5]
        cases o.isAcq <;> simp [View.bot]
      · simp only [Mem.adopt, Mem.advance, upd_same, View.join, View.see]
        by_cases hx : x = l
        · subst hx; cases o.isAcq <;> simp [View.bot]
        · rw [upd_other _ _ hx, h6]; cases o.isAcq <;> simp [View.bot, hx]
    · cases h
  · cases h

/-- What a store does. -/
theorem store_spec {conf : A → A → Bool} {m m' : Mem L A} {o : Ord} {t ts v : Nat} {l : L} {a : A}
    (h : m.store conf o t l ts v a = some m') :
    (m.cur t).seen l < ts ∧ m.hist l ts = none ∧ m'.log = m.log ++ [a] ∧
    m'.race = (m.race || m.racy conf t a) ∧ (∀ u, u ≠ t → m'.cur u = m.cur u) ∧
    (∀ k, (m'.cur t).know k = ((m.cur t).know k || k == m.log.length)) ∧
    (∀ x, (m'.cur t).seen x = if x = l then ts else (m.cur t).seen x) ∧
    (∀ l' ts', ¬(l' = l ∧ ts' = ts) → m'.hist l' ts' = m.hist l' ts') ∧
    ∃ g', m'.hist l ts = some g' ∧ g'.val = v ∧ (∀ k, g'.view.know k = (o.isRel && (m'.cur t).know k)) ∧
      ∀ x, g'.view.seen x = if o.isRel then (m'.cur t).seen x else if x = l then ts else 0 := by
  obtain ⟨h1, h2, h3, h4, h5, h6⟩ := touch_spec conf m t a
  unfold Mem.store at h
  split at h
  · rename_i hc
    simp only [Option.some.injEq] at h
    subst h
    refine ⟨hc.1, hc.2, rfl, rfl, fun u hu => ?_, fun k => ?_, fun x => ?_, fun l' ts' hn => ?_, ?_⟩
    · simp only [Mem.put, Mem.advance, upd_other _ _ hu, h4 u hu]
    · simp only [Mem.put, Mem.advance, upd_same, View.see, h5]
    · simp only [Mem.put, Mem.advance, upd_same, View.see]
      by_cases hx : x = l
      · subst hx; simp
      · rw [upd_other _ _ hx, h6]; simp [hx]
    · simp only [Mem.put, Mem.advance]
      by_cases hl : l' = l
      · subst hl
        rw [upd_same, upd_other _ _ (fun hh => hn ⟨rfl, hh⟩)]; rfl
      · rw [upd_other _ _ hl]; rfl
    · refine ⟨_, put_same _ _ _ _, rfl, fun k => ?_, fun x => ?_⟩
      · cases o.isRel <;> simp [View.bot, View.see, Mem.advance, Mem.put]
      · cases o.isRel
        · by_cases hx : x = l
          · subst hx; simp [View.bot, View.see]
          · simp [View.bot, View.see, hx, upd_other]
        · simp [View.see, Mem.advance, Mem.put]
  · cases h

/-- What a read-modify-write does. -/
theorem rmw_spec {conf : A → A → Bool} {m m' : Mem L A} {o : Ord} {t ts v : Nat} {l : L} {f : Nat → Nat} {a : A}
    (h : m.rmw conf o t l ts f a = some (v, m')) :
    ∃ g, m.hist l ts = some g ∧ v = g.val ∧ (m.cur t).seen l ≤ ts ∧ m.hist l (ts + 1) = none ∧ m'.log = m.log ++ [a] ∧
    m'.race = (m.race || m.racy conf t a) ∧ (∀ u, u ≠ t → m'.cur u = m.cur u) ∧
    (∀ k, (m'.cur t).know k = ((m.cur t).know k || k == m.log.length || (o.isAcq && g.view.know k))) ∧
    (∀ x, (m'.cur t).seen x =
      max (if x = l then ts + 1 else (m.cur t).seen x) (if o.isAcq then g.view.seen x else 0)) ∧
    (∀ l' ts', ¬(l' = l ∧ ts' = ts + 1) → m'.hist l' ts' = m.hist l' ts') ∧
    ∃ g', m'.hist l (ts + 1) = some g' ∧ g'.val = f g.val ∧
      (∀ k, g'.view.know k = (g.view.know k || (o.isRel && (m'.cur t).know k))) ∧
      ∀ x, g'.view.seen x = max (g.view.seen x) (if o.isRel then (m'.cur t).seen x else if x = l then ts + 1 else 0) := by
  obtain ⟨h1, h2, h3, h4, h5, h6⟩ := touch_spec conf m t a
  unfold Mem.rmw at h
  split at h
  · rename_i g hg
    split at h
    · rename_i hc
      simp only [Option.some.injEq, Prod.mk.injEq] at h
      obtain ⟨hv, hm⟩ := h
      subst hv hm
      refine ⟨g, hg, rfl, hc.1, hc.2, rfl, rfl, fun u hu => ?_, fun k => ?_, fun x => ?_, fun l' ts' hn => ?_, ?_⟩
      · simp only [Mem.put, Mem.adopt, Mem.advance, upd_other _ _ hu, h4 u hu]
      · simp only [Mem.put, Mem.adopt, Mem.advance, upd_same, View.join, View.see, h5]
        cases o.isAcq <;> simp [View.bot]
      · simp only [Mem.put, Mem.adopt, Mem.advance, upd_same, View.join, View.see]
        by_cases hx : x = l
        · subst hx; cases o.isAcq <;> simp [View.bot]
        · rw [upd_other _ _ hx, h6]; cases o.isAcq <;> simp [View.bot, hx]
      · simp only [Mem.put, Mem.adopt, Mem.advance]
        by_cases hl : l' = l
        · subst hl
          rw [upd_same, upd_other _ _ (fun hh => hn ⟨rfl, hh⟩)]; rfl
        · rw [upd_other _ _ hl]; rfl
      · refine ⟨_, put_same _ _ _ _, rfl, fun k => ?_, fun x => ?_⟩
        · cases o.isRel <;> simp [View.bot, View.see, View.join, Mem.put]
        · cases o.isRel
          · by_cases hx : x = l
            · subst hx; simp [View.bot, View.see, View.join]
            · simp [View.bot, View.see, View.join, hx, upd_other]
          · simp [View.join, Mem.put]
    · cases h
  · cases h

end Verif.WM
