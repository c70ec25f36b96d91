import Verif.AnyBox.Inv
namespace Verif.AnyBox
set_option maxHeartbeats 1000000

/-- The state after a successful construction in the buffer of `i`. -/
theorem emplace_small {p : P} {s : St} (h : Inv p s) {i ty val : Nat} {c : Cell} (m : Bool)
    (hc : s.cell i = some c) (hw : c.word = .null) (hsm : small p ty c.iface = true) :
    Inv p { setWord (build s ty val (.buf i)) i (.insitu s.nobj) with misaligned := m } := by
  rw [setWord_some (s := build s ty val (.buf i)) hc]
  constructor
  · exact h.bad
  · intro k ck hk
    have h1 := h.word k
    unfold okWord at h1 ⊢
    simp only [build] at hk ⊢
    grind [objOf, upd]
  · intro o
    have := h.dead1 o
    simp only [build]; grind [upd]
  · exact h.freed1
  · exact h.freed0
  · intro o ho hd
    simp only [build] at ho hd ⊢
    by_cases hn : o = s.nobj
    · exact ⟨i, { c with word := .insitu s.nobj }, by simp, by simp [objOf, hn]⟩
    · obtain ⟨w, cw, h1, h2⟩ := h.owned o (by omega) (by grind [upd])
      exact ⟨w, cw, by grind [objOf, upd], h2⟩
  · intro b hb hf
    obtain ⟨w, cw, ow, h1, h2⟩ := h.ownedB b hb hf
    simp only [build]
    exact ⟨w, cw, ow, by grind [objOf, upd], h2⟩
  · intro a b c1 c2 o h1 h2 h3 h4
    have := h.uniq a b
    have ha := @obj_lt _ _ h a o
    have hb := @obj_lt _ _ h b o
    simp only [build] at h1 h2
    grind [objOf, upd]
  · intro a b c1 c2 b1 o1 o2 h1 h2 h3 h4
    have := h.uniqB a b
    simp only [build] at h1 h2
    grind [objOf, upd]

/-- The state after a successful construction on the heap. -/
theorem emplace_big {p : P} {s : St} (h : Inv p s) {i ty val : Nat} {c : Cell}
    (hc : s.cell i = some c) (hw : c.word = .null) :
    Inv p (setWord (build { s with nblk := s.nblk + 1 } ty val (.blk s.nblk)) i
      (.heap s.nblk s.nobj)) := by
  rw [setWord_some (s := build { s with nblk := s.nblk + 1 } ty val (.blk s.nblk)) hc]
  constructor
  · exact h.bad
  · intro k ck hk
    have h1 := h.word k
    have h2 := h.freed0 s.nblk
    unfold okWord at h1 ⊢
    simp only [build] at hk ⊢
    grind [objOf, upd]
  · intro o
    have := h.dead1 o
    simp only [build]; grind [upd]
  · exact h.freed1
  · intro b hb
    simp only [build] at hb ⊢
    exact h.freed0 b (by omega)
  · intro o ho hd
    simp only [build] at ho hd ⊢
    by_cases hn : o = s.nobj
    · exact ⟨i, { c with word := .heap s.nblk s.nobj }, by simp, by simp [objOf, hn]⟩
    · obtain ⟨w, cw, h1, h2⟩ := h.owned o (by omega) (by grind [upd])
      exact ⟨w, cw, by grind [objOf, upd], h2⟩
  · intro b hb hf
    simp only [build] at hb hf ⊢
    by_cases hn : b = s.nblk
    · exact ⟨i, { c with word := .heap s.nblk s.nobj }, s.nobj, by simp, by simp [hn]⟩
    · obtain ⟨w, cw, ow, h1, h2⟩ := h.ownedB b (by omega) hf
      exact ⟨w, cw, ow, by grind [objOf, upd], h2⟩
  · intro a b c1 c2 o h1 h2 h3 h4
    have := h.uniq a b
    have ha := @obj_lt _ _ h a o
    have hb := @obj_lt _ _ h b o
    simp only [build] at h1 h2
    grind [objOf, upd]
  · intro a b c1 c2 b1 o1 o2 h1 h2 h3 h4
    have := h.uniqB a b
    have ha := h.word a
    have hb := h.word b
    unfold okWord at ha hb
    simp only [build] at h1 h2
    grind [objOf, upd]

/-- Allocation followed by the guard's deallocation. -/
theorem alloc_free {p : P} {s : St} (h : Inv p s) :
    Inv p (free { s with nblk := s.nblk + 1 } s.nblk) := by
  have h0 := h.freed0 s.nblk (Nat.le_refl _)
  constructor
  · simp [free, h.bad, h0]
  · intro k ck hk
    have h1 := h.word k ck hk
    unfold okWord at h1 ⊢
    simp only [free]
    cases hw : ck.word with
    | heap b o =>
      rw [hw] at h1
      have : b ≠ s.nblk := by omega
      simp only [upd, this, if_false]
      exact ⟨h1.1, h1.2.1, h1.2.2.1, by omega, h1.2.2.2.2⟩
    | null => trivial
    | insitu o => rw [hw] at h1; exact h1
    | stale => rw [hw] at h1; exact h1
  · exact h.dead1
  · intro b
    have := h.freed1 b
    simp only [free]; grind [upd]
  · intro b hb
    simp only [free] at hb ⊢
    have := h.freed0 b (by omega)
    grind [upd]
  · exact h.owned
  · intro b hb hf
    simp only [free] at hb hf ⊢
    have hn : b ≠ s.nblk := by intro he; subst he; simp [h0] at hf
    rw [upd_other _ _ hn] at hf
    exact h.ownedB b (by omega) hf
  · exact h.uniq
  · exact h.uniqB

/-- `__emplace_into` an empty variable either stores the value or throws and changes nothing that can
be seen. -/
theorem emplaceInto_seen {p : P} (hp : SmallNoThrow p) {s : St} (h : Inv p s) {i f ty val : Nat} (e : Orc)
    (hs : seen s i = some (f, none)) :
    Inv p (emplaceInto p s i ty val e).1 ∧
    seen (emplaceInto p s i ty val e).1 =
      (if (emplaceInto p s i ty val e).2 then seen s else (seen s).set i (some (ty, val))) ∧
    (∀ m, NMx m s → NMx m (emplaceInto p s i ty val e).1) ∧
    (∀ o, o < s.nobj → (emplaceInto p s i ty val e).1.obj o = s.obj o) := by
  obtain ⟨c, hc, hf, hw⟩ := seen_empty h hs
  have hlt : ∀ k ck o, s.cell k = some ck → objOf ck.word = some o → o ≠ s.nobj :=
    fun k ck o h1 h2 => Nat.ne_of_lt (obj_lt h h1 h2).1
  unfold emplaceInto
  rw [iface_some hc]
  by_cases hsm : small p ty c.iface = true
  · have hnt : (e.ctor && p.mayThrow ty) = false := by rw [hp ty c.iface hsm]; simp
    simp only [hsm, hnt, if_true, if_false, Bool.false_eq_true]
    refine ⟨emplace_small h _ hc hw hsm, ?_, ?_, ?_⟩
    · funext k
      rw [setWord_some (s := build s ty val (.buf i)) hc]
      unfold seen Vars.set
      by_cases hk : k = i
      · subst hk; simp [build, objOf, hc]
      · simp only [build, upd, hk, if_false]
        cases hck : s.cell k with
        | none => rfl
        | some ck =>
          simp only [Option.map_some, Option.some.injEq, Prod.mk.injEq, true_and]
          cases ho : objOf ck.word with
          | none => rfl
          | some o => simp [hlt k ck o hck ho]
    · intro m hn k ck o hk ho hm
      rw [setWord_some (s := build s ty val (.buf i)) hc] at hk hm
      simp only [build] at hk hm
      by_cases hki : k = i
      · subst hki; simp at hk; subst hk; simp [objOf] at ho; subst ho; simp at hm
      · rw [upd_other _ _ hki] at hk
        rw [upd_other _ _ (hlt k ck o hk ho)] at hm
        exact hn k ck o hk ho hm
    · intro o ho
      rw [setWord_some (s := build s ty val (.buf i)) hc]
      simp only [build]
      exact upd_other _ _ (Nat.ne_of_lt ho)
  · simp only [hsm, if_false, Bool.false_eq_true]
    by_cases ha : e.alloc = true
    · simp only [ha, if_true]
      refine ⟨h, ?_, fun _ hn => hn, ?_⟩ <;> simp
    · simp only [ha, if_false, Bool.false_eq_true]
      by_cases ht : (e.ctor && p.mayThrow ty) = true
      · simp only [ht, if_true]
        exact ⟨alloc_free h, rfl, fun _ hn => hn, fun _ _ => rfl⟩
      · simp only [ht, if_false, Bool.false_eq_true]
        refine ⟨emplace_big h hc hw, ?_, ?_, ?_⟩
        · funext k
          rw [setWord_some (s := build { s with nblk := s.nblk + 1 } ty val (.blk s.nblk)) hc]
          unfold seen Vars.set
          by_cases hk : k = i
          · subst hk; simp [build, objOf, hc]
          · simp only [build, upd, hk, if_false]
            cases hck : s.cell k with
            | none => rfl
            | some ck =>
              simp only [Option.map_some, Option.some.injEq, Prod.mk.injEq, true_and]
              cases ho : objOf ck.word with
              | none => rfl
              | some o => simp [hlt k ck o hck ho]
        · intro m hn k ck o hk ho hm
          rw [setWord_some (s := build { s with nblk := s.nblk + 1 } ty val (.blk s.nblk)) hc] at hk hm
          simp only [build] at hk hm
          by_cases hki : k = i
          · subst hki; simp at hk; subst hk; simp [objOf] at ho; subst ho; simp at hm
          · rw [upd_other _ _ hki] at hk
            rw [upd_other _ _ (hlt k ck o hk ho)] at hm
            exact hn k ck o hk ho hm
        · intro o ho
          rw [setWord_some (s := build { s with nblk := s.nblk + 1 } ty val (.blk s.nblk)) hc]
          simp only [build]
          exact upd_other _ _ (Nat.ne_of_lt ho)

/-- The state after two variables exchanged their words. -/
def swapped (s : St) (i j : Nat) (ci cj : Cell) : St :=
  { s with
    cell := upd (upd s.cell i (some { ci with word := cj.word })) j (some { cj with word := ci.word }) }

/-- Two variables of any interfaces exchange their (tagged) words. -/
theorem swapWords {p : P} {s : St} (h : Inv p s) {i j : Nat} {ci cj : Cell} (hij : i ≠ j)
    (hci : s.cell i = some ci) (hcj : s.cell j = some cj) (ti : ∀ o, ci.word ≠ .insitu o)
    (tj : ∀ o, cj.word ≠ .insitu o) :
    Inv p (swapped s i j ci cj) ∧
    seen (swapped s i j ci cj) =
      ((seen s).set i ((seen s).get j)).set j ((seen s).get i) ∧
    (NMx none s → NMx none (swapped s i j ci cj)) := by
  unfold swapped
  refine ⟨?_, ?_, ?_⟩
  · have hi := h.word i ci hci
    have hj := h.word j cj hcj
    constructor
    · exact h.bad
    · intro k ck hk
      have h1 := h.word k
      unfold okWord at hi hj h1 ⊢
      simp only at hk ⊢
      by_cases hkj : k = j
      · subst hkj; simp at hk; subst hk; simp only
        cases hw : ci.word <;> simp_all
      · rw [upd_other _ _ hkj] at hk
        by_cases hki : k = i
        · subst hki; simp at hk; subst hk; simp only
          cases hw : cj.word <;> simp_all
        · rw [upd_other _ _ hki] at hk
          exact h1 ck hk
    · exact h.dead1
    · exact h.freed1
    · exact h.freed0
    · intro o ho hd
      obtain ⟨w, cw, h1, h2⟩ := h.owned o ho hd
      simp only
      by_cases hwi : w = i
      · subst hwi; rw [hci] at h1; cases h1
        exact ⟨j, { cj with word := ci.word }, by simp, h2⟩
      · by_cases hwj : w = j
        · subst hwj; rw [hcj] at h1; cases h1
          exact ⟨i, { ci with word := cj.word }, by rw [upd_other _ _ hij]; simp, h2⟩
        · exact ⟨w, cw, by rw [upd_other _ _ hwj, upd_other _ _ hwi]; exact h1, h2⟩
    · intro b hb hf
      obtain ⟨w, cw, o, h1, h2⟩ := h.ownedB b hb hf
      simp only
      by_cases hwi : w = i
      · subst hwi; rw [hci] at h1; cases h1
        exact ⟨j, { cj with word := ci.word }, o, by simp, h2⟩
      · by_cases hwj : w = j
        · subst hwj; rw [hcj] at h1; cases h1
          exact ⟨i, { ci with word := cj.word }, o, by rw [upd_other _ _ hij]; simp, h2⟩
        · exact ⟨w, cw, o, by rw [upd_other _ _ hwj, upd_other _ _ hwi]; exact h1, h2⟩
    · intro a b c1 c2 o h1 h2 h3 h4
      have u1 := h.uniq i a ci
      have u2 := h.uniq j a cj
      have u3 := h.uniq i b ci
      have u4 := h.uniq j b cj
      have u5 := h.uniq a b
      simp only at h1 h2
      grind [upd]
    · intro a b c1 c2 b1 o1 o2 h1 h2 h3 h4
      have u1 := h.uniqB i a ci
      have u2 := h.uniqB j a cj
      have u3 := h.uniqB i b ci
      have u4 := h.uniqB j b cj
      have u5 := h.uniqB a b
      simp only at h1 h2
      grind [upd]
  · funext k
    unfold Vars.set Vars.get seen
    by_cases hkj : k = j
    · subst hkj; simp [hci, hcj, Ne.symm hij]
    · by_cases hki : k = i
      · subst hki; simp [hci, hcj, upd, hkj]
      · simp [upd, hki, hkj]
  · intro hn k ck o hk ho hm
    simp only at hk hm
    by_cases hkj : k = j
    · subst hkj; simp at hk; subst hk
      exact absurd (hn i ci o hci ho hm) (by simp)
    · rw [upd_other _ _ hkj] at hk
      by_cases hki : k = i
      · subst hki; simp at hk; subst hk
        exact absurd (hn j cj o hcj ho hm) (by simp)
      · rw [upd_other _ _ hki] at hk
        exact hn k ck o hk ho hm

end Verif.AnyBox
