import Verif.AnyBox.Prim
namespace Verif.AnyBox
set_option maxHeartbeats 1000000

structure Good (p : P) (s : St) : Prop where
  inv : Inv p s
  nm : NMx none s

/-- Equality of variable states, pointwise. -/
macro "vars" : tactic => `(tactic| (
  funext k
  simp only [Vars.set, Vars.new, Vars.get, Vars.iface]
  grind))

theorem set_set {s : St} {i j : Nat} {ci cj : Cell} (hij : i ≠ j) (hci : s.cell i = some ci)
    (hcj : s.cell j = some cj) (wi wj : Word) :
    setWord (setWord s j wj) i wi =
      { s with cell := upd (upd s.cell i (some { ci with word := wi })) j (some { cj with word := wj }) } ∧
    setWord (setWord s i wi) j wj =
      { s with cell := upd (upd s.cell i (some { ci with word := wi })) j (some { cj with word := wj }) } := by
  rw [setWord_some hcj, setWord_some hci]
  constructor
  · rw [setWord_some (c := ci) (by simp [upd, hij, hci])]
    have : upd (upd s.cell j (some { cj with word := wj })) i (some { ci with word := wi }) =
        upd (upd s.cell i (some { ci with word := wi })) j (some { cj with word := wj }) := by
      funext k; unfold upd; grind
    simp only [this]
  · rw [setWord_some (c := cj) (by simp [upd, Ne.symm hij, hcj])]

theorem markMoved_good {p : P} {s : St} (h : Good p s) {i o : Nat} {c : Cell} (hc : s.cell i = some c)
    (ho : objOf c.word = some o) :
    Inv p (markMoved s o) ∧ seen (markMoved s o) = seen s ∧ NMx (some i) (markMoved s o) ∧
    (markMoved s o).cell = s.cell := by
  have hi := h.inv
  have ht := touch_id hi h.nm hc ho
  unfold markMoved
  rw [ht]
  refine ⟨?_, ?_, ?_, rfl⟩
  · constructor
    · exact hi.bad
    · intro k ck hk
      have h1 := hi.word k ck hk
      unfold okWord at h1 ⊢
      simp only
      grind [upd]
    · intro o'; have := hi.dead1 o'; simp only; grind [upd]
    · exact hi.freed1
    · exact hi.freed0
    · intro o' h1 h2; exact hi.owned o' h1 (by simp only at h2; grind [upd])
    · exact hi.ownedB
    · exact hi.uniq
    · exact hi.uniqB
  · funext k
    unfold seen
    simp only
    cases hck : s.cell k with
    | none => rfl
    | some ck =>
      simp only [Option.map_some, Option.some.injEq, Prod.mk.injEq, true_and]
      cases hok : objOf ck.word with
      | none => rfl
      | some o' => simp only [Option.map_some, upd]; grind
  · intro k ck o' hk ho' hm
    simp only at hk hm
    by_cases hoo : o' = o
    · subst hoo; rw [hi.uniq i k c ck o' hc hk ho ho']
    · rw [upd_other _ _ hoo] at hm
      exact absurd (h.nm k ck o' hk ho' hm) (by simp)

theorem moveToEmpty_seen {p : P} (hp : SmallNoThrow p) {s : St} (h : Good p s) {i j f : Nat}
    {v : Nat × Nat} (hij : i ≠ j) (hi : seen s i = some (f, some v)) (hj : seen s j = some (f, none)) :
    Good p (moveToEmpty p s i j) ∧
    seen (moveToEmpty p s i j) = ((seen s).set j (some v)).set i none := by
  obtain ⟨ci, o, hci, hfi, hoi, hv⟩ := seen_full hi
  obtain ⟨cj, hcj, hfj, hwj⟩ := seen_empty h.inv hj
  unfold moveToEmpty
  rw [word_some hci]
  cases hw : ci.word with
  | null => rw [hw] at hoi; simp [objOf] at hoi
  | stale => rw [hw] at hoi; simp [objOf] at hoi
  | heap b o' =>
    have hsw := swapWords h.inv hij hci hcj (by simp [hw]) (by simp [hwj])
    have he : setWord (setWord s j (.heap b o')) i .null = swapped s i j ci cj := by
      rw [(set_set hij hci hcj _ _).1]; simp [swapped, hw, hwj]
    simp only
    rw [he]
    refine ⟨⟨hsw.1, hsw.2.2 h.nm⟩, ?_⟩
    rw [hsw.2.1]
    vars
  | insitu o' =>
    rw [hw] at hoi; simp [objOf] at hoi; subst hoi
    have hm := markMoved_good h hci (o := o') (by simp [hw, objOf])
    simp only
    have hem := emplaceInto_seen hp hm.1 (ty := (s.obj o').ty) (val := (s.obj o').val) ⟨false, false⟩
      (by rw [hm.2.1]; exact hj)
    have hno : (emplaceInto p (markMoved s o') j (s.obj o').ty (s.obj o').val ⟨false, false⟩).2 = false := by
      unfold emplaceInto
      simp only [Bool.false_and, Bool.false_eq_true, if_false]
      split <;> rfl
    rw [hno] at hem
    simp only [Bool.false_eq_true, if_false] at hem
    have hr := reset_seen hem.1 (i := i) (f := f) (v := some v) (by
      rw [hem.2.1, hm.2.1]; simp [Vars.set, hij, hi])
    refine ⟨⟨hr.1, ?_⟩, ?_⟩
    · have := hr.2.2 (some i) (hem.2.2.1 _ hm.2.2.1)
      simpa using this
    · rw [hr.2.1, hem.2.1, hm.2.1, hv]

theorem swapNT_seen {p : P} (hp : SmallNoThrow p) {s : St} (h : Good p s) {i j f : Nat}
    {vi vj : Option (Nat × Nat)} (hi : seen s i = some (f, vi)) (hj : seen s j = some (f, vj))
    (hd : easySwap (word s i) (word s j) = true) :
    Good p (swapNT p s i j) ∧ seen (swapNT p s i j) = ((seen s).set i vj).set j vi := by
  unfold swapNT
  by_cases hij : i = j
  · subst hij
    rw [if_pos rfl]
    refine ⟨h, ?_⟩
    rw [hi] at hj; cases hj
    vars
  · rw [if_neg hij]
    obtain ⟨ci, hci, hfi, hvi⟩ := seen_some hi
    obtain ⟨cj, hcj, hfj, hvj⟩ := seen_some hj
    rw [word_some hci, word_some hcj] at *
    have hwi := h.inv.word i ci hci
    have hwj := h.inv.word j cj hcj
    unfold okWord at hwi hwj
    have gi : (seen s).get i = vi := by simp [Vars.get, hi]
    have gj : (seen s).get j = vj := by simp [Vars.get, hj]
    cases h1 : ci.word with
    | stale => rw [h1] at hwi; exact hwi.elim
    | null =>
      rw [h1] at hvi
      have hvi' : vi = none := by simpa [objOf] using hvi
      subst hvi'
      cases h2 : cj.word with
      | stale => rw [h2] at hwj; exact hwj.elim
      | null =>
        rw [h2] at hvj
        have hvj' : vj = none := by simpa [objOf] using hvj
        subst hvj'
        refine ⟨h, ?_⟩
        vars
      | heap b o =>
        have hsw := swapWords h.inv hij hci hcj (by simp [h1]) (by simp [h2])
        simp only
        rw [(set_set hij hci hcj (.heap b o) .null).2]
        have he : swapped s i j ci cj = { s with cell := upd (upd s.cell i (some { ci with word := .heap b o })) j (some { cj with word := .null }) } := by
          simp [swapped, h1, h2]
        rw [← he]
        exact ⟨⟨hsw.1, hsw.2.2 h.nm⟩, by rw [hsw.2.1, gi, gj]⟩
      | insitu o =>
        have hv' : vj = some ((s.obj o).ty, (s.obj o).val) := by rw [hvj, h2]; rfl
        subst hv'
        have := moveToEmpty_seen hp h (Ne.symm hij) hj hi
        refine ⟨this.1, ?_⟩
        simp only
        rw [this.2]
    | heap b o =>
      cases h2 : cj.word with
      | stale => rw [h2] at hwj; exact hwj.elim
      | null =>
        have hsw := swapWords h.inv hij hci hcj (by simp [h1]) (by simp [h2])
        simp only
        rw [(set_set hij hci hcj .null (.heap b o)).2]
        have he : swapped s i j ci cj = { s with cell := upd (upd s.cell i (some { ci with word := .null })) j (some { cj with word := .heap b o }) } := by
          simp [swapped, h1, h2]
        rw [← he]
        exact ⟨⟨hsw.1, hsw.2.2 h.nm⟩, by rw [hsw.2.1, gi, gj]⟩
      | heap b' o' =>
        have hsw := swapWords h.inv hij hci hcj (by simp [h1]) (by simp [h2])
        simp only
        rw [(set_set hij hci hcj (.heap b' o') (.heap b o)).2]
        have he : swapped s i j ci cj = { s with cell := upd (upd s.cell i (some { ci with word := .heap b' o' })) j (some { cj with word := .heap b o }) } := by
          simp [swapped, h1, h2]
        rw [← he]
        exact ⟨⟨hsw.1, hsw.2.2 h.nm⟩, by rw [hsw.2.1, gi, gj]⟩
      | insitu o' => rw [h1, h2] at hd; simp [easySwap] at hd
    | insitu o =>
      cases h2 : cj.word with
      | stale => rw [h2] at hwj; exact hwj.elim
      | null =>
        have hv' : vi = some ((s.obj o).ty, (s.obj o).val) := by rw [hvi, h1]; rfl
        have hvj' : vj = none := by rw [hvj, h2]; rfl
        subst hv' hvj'
        have := moveToEmpty_seen hp h hij hi hj
        refine ⟨this.1, ?_⟩
        simp only
        rw [this.2]
        vars
      | heap b' o' => rw [h1, h2] at hd; simp [easySwap] at hd
      | insitu o' => rw [h1, h2] at hd; simp [easySwap] at hd

/-- Creating an empty variable. -/
theorem defaultCtor_seen {p : P} {s : St} (h : Good p s) {i : Nat} (f : Nat) (hi : seen s i = none) :
    Good p (defaultCtor s i f) ∧ seen (defaultCtor s i f) = (seen s).new i f none := by
  have hc : s.cell i = none := by
    unfold seen at hi
    cases hc : s.cell i with
    | none => rfl
    | some c => rw [hc] at hi; simp at hi
  have hI := h.inv
  unfold defaultCtor
  refine ⟨⟨?_, ?_⟩, ?_⟩
  · constructor
    · exact hI.bad
    · intro k ck hk
      have h1 := hI.word k ck
      unfold okWord at h1 ⊢
      simp only at hk ⊢
      grind [upd]
    · exact hI.dead1
    · exact hI.freed1
    · exact hI.freed0
    · intro o ho hd
      obtain ⟨w, cw, h1, h2⟩ := hI.owned o ho hd
      exact ⟨w, cw, by simp only; grind [upd], h2⟩
    · intro b hb hf
      obtain ⟨w, cw, o, h1, h2⟩ := hI.ownedB b hb hf
      exact ⟨w, cw, o, by simp only; grind [upd], h2⟩
    · intro a b c1 c2 o h1 h2 h3 h4
      have := hI.uniq a b
      simp only at h1 h2
      grind [upd, objOf]
    · intro a b c1 c2 b1 o1 o2 h1 h2 h3 h4
      have := hI.uniqB a b
      simp only at h1 h2
      grind [upd, objOf]
  · intro k ck o hk ho hm
    have := h.nm k ck o
    simp only at hk hm
    grind [upd, objOf]
  · funext k
    unfold seen Vars.new
    simp only [upd]
    by_cases hk : k = i <;> simp [hk, objOf]

/-- Removing an empty variable. -/
theorem dtor_seen {p : P} {s : St} (h : Good p s) {i f : Nat} {v : Option (Nat × Nat)}
    (hs : seen s i = some (f, v)) :
    Good p (dtor s i) ∧ seen (dtor s i) = (fun k => if k = i then none else seen s k) := by
  obtain ⟨hI, hsn, hnm⟩ := reset_seen h.inv hs
  have hn : NMx none (reset s i) := by simpa using hnm none h.nm
  obtain ⟨c, hc, hcf, hcw⟩ := seen_empty hI (i := i) (f := f) (by rw [hsn]; simp [Vars.set, hs])
  unfold dtor
  generalize reset s i = t at *
  refine ⟨⟨?_, ?_⟩, ?_⟩
  · constructor
    · exact hI.bad
    · intro k ck hk
      have h1 := hI.word k ck
      unfold okWord at h1 ⊢
      simp only at hk ⊢
      grind [upd]
    · exact hI.dead1
    · exact hI.freed1
    · exact hI.freed0
    · intro o ho hd
      obtain ⟨w, cw, h1, h2⟩ := hI.owned o ho hd
      exact ⟨w, cw, by simp only; grind [upd, objOf], h2⟩
    · intro b hb hf
      obtain ⟨w, cw, o, h1, h2⟩ := hI.ownedB b hb hf
      exact ⟨w, cw, o, by simp only; grind [upd, objOf], h2⟩
    · intro a b c1 c2 o h1 h2 h3 h4
      have := hI.uniq a b
      simp only at h1 h2
      grind [upd, objOf]
    · intro a b c1 c2 b1 o1 o2 h1 h2 h3 h4
      have := hI.uniqB a b
      simp only at h1 h2
      grind [upd, objOf]
  · intro k ck o hk ho hm
    have := hn k ck o
    simp only at hk hm
    grind [upd, objOf]
  · funext k
    have := congrFun hsn k
    by_cases hk : k = i
    · subst hk; simp [seen]
    · simp only [hk, if_false]
      rw [Vars.set] at this
      simp only [hk, if_false] at this
      rw [← this]
      simp [seen, upd, hk]

end Verif.AnyBox
