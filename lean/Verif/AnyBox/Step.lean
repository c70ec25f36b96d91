import Verif.AnyBox.Ops
namespace Verif.AnyBox
set_option maxHeartbeats 1000000

/-- An operation either throws and leaves the variables as `A`, or succeeds and leaves them as `B`. -/
structure Res (p : P) (r : St × Bool) (A B : Vars) : Prop where
  good : Good p r.1
  thr : r.2 = true → seen r.1 = A
  ok : r.2 = false → seen r.1 = B

theorem word_null {p : P} {s : St} (h : Inv p s) {i f : Nat} (hs : seen s i = some (f, none)) :
    word s i = .null := by
  obtain ⟨c, hc, _, hw⟩ := seen_empty h hs
  rw [word_some hc, hw]

theorem iface_seen {s : St} {i f : Nat} {v : Option (Nat × Nat)} (h : seen s i = some (f, v)) :
    ifaceOf s i = f := by
  obtain ⟨c, hc, hf, _⟩ := seen_some h
  rw [iface_some hc, hf]

theorem easy_left {w : Word} : easySwap .null w = true := by cases w <;> rfl
theorem easy_right {w : Word} : easySwap w .null = true := by cases w <;> rfl

theorem moveCtor_seen {p : P} (hp : SmallNoThrow p) {s : St} (h : Good p s) {i j f : Nat}
    {v : Option (Nat × Nat)} (hi : seen s i = none) (hj : seen s j = some (f, v)) :
    Good p (moveCtor p s i j) ∧ seen (moveCtor p s i j) = ((seen s).new i f v).set j none := by
  have hij : i ≠ j := by intro he; subst he; rw [hi] at hj; cases hj
  unfold moveCtor
  rw [iface_seen hj]
  have h1 := defaultCtor_seen h f hi
  have hi' : seen (defaultCtor s i f) i = some (f, none) := by rw [h1.2]; simp [Vars.new]
  have hj' : seen (defaultCtor s i f) j = some (f, v) := by rw [h1.2]; simp [Vars.new, Ne.symm hij, hj]
  have h2 := swapNT_seen hp h1.1 hi' hj' (by rw [word_null h1.1.inv hi']; exact easy_left)
  refine ⟨h2.1, ?_⟩
  rw [h2.2, h1.2]
  vars

theorem swap_seen {p : P} (hp : SmallNoThrow p) {s : St} (h : Good p s) {i j f : Nat}
    {vi vj : Option (Nat × Nat)} (hi : seen s i = some (f, vi)) (hj : seen s j = some (f, vj))
    (h1 : seen s 1 = none) :
    Good p (swap p s i j) ∧ seen (swap p s i j) = ((seen s).set i vj).set j vi := by
  unfold swap
  by_cases hij : i = j
  · subst hij
    rw [if_pos rfl]
    rw [hi] at hj; cases hj
    exact ⟨h, by vars⟩
  rw [if_neg hij]
  by_cases hd : easySwap (word s i) (word s j) = true
  · rw [if_pos hd]
    exact swapNT_seen hp h hi hj hd
  · rw [if_neg hd]
    have hi1 : i ≠ 1 := by intro he; subst he; rw [h1] at hi; cases hi
    have hj1 : j ≠ 1 := by intro he; subst he; rw [h1] at hj; cases hj
    -- neither is empty
    cases vi with
    | none => exact absurd (by rw [word_null h.inv hi]; exact easy_left) hd
    | some vi =>
    cases vj with
    | none => exact absurd (by rw [word_null h.inv hj]; exact easy_right) hd
    | some vj =>
    have a := moveCtor_seen hp h h1 hi
    generalize moveCtor p s 1 i = s1 at a
    have b := moveToEmpty_seen hp a.1 (i := j) (j := i) (f := f) (v := vj) (Ne.symm hij)
      (by rw [a.2]; simp [Vars.set, Vars.new, Ne.symm hij, hj1, hj])
      (by rw [a.2]; simp [Vars.set, Vars.new, hi1, hi])
    generalize moveToEmpty p s1 j i = s2 at b
    have c := moveToEmpty_seen hp b.1 (i := 1) (j := j) (f := f) (v := vi) (Ne.symm hj1)
      (by rw [b.2, a.2]; simp [Vars.set, Vars.new, Ne.symm hi1, Ne.symm hj1])
      (by rw [b.2, a.2]; simp [Vars.set, Vars.new, hi1, hj1, hij, Ne.symm hij, hj])
    generalize moveToEmpty p s2 1 j = s3 at c
    have d := dtor_seen c.1 (i := 1) (f := f) (v := none)
      (by rw [c.2, b.2, a.2]; simp [Vars.set, Vars.new, Ne.symm hi1, Ne.symm hj1])
    refine ⟨d.1, ?_⟩
    rw [d.2, c.2, b.2, a.2]
    vars

theorem copyCtor_seen {p : P} (hp : SmallNoThrow p) {s : St} (h : Good p s) {i j f : Nat}
    {v : Option (Nat × Nat)} (e : Orc) (hi : seen s i = none) (hj : seen s j = some (f, v)) :
    Res p (copyCtor p s i j e) (seen s) ((seen s).new i f v) := by
  have hij : i ≠ j := by intro he; subst he; rw [hi] at hj; cases hj
  unfold copyCtor
  rw [iface_seen hj]
  have h1 := defaultCtor_seen h f hi
  cases v with
  | none =>
    rw [word_null h.inv hj]
    exact ⟨h1.1, by simp [objOf], by simp [objOf, h1.2]⟩
  | some v =>
    obtain ⟨c, o, hc, hf, ho, hv⟩ := seen_full hj
    rw [word_some hc, ho]
    simp only
    have hc' : (defaultCtor s i f).cell j = some c := by
      simp [defaultCtor, upd, Ne.symm hij, hc]
    rw [touch_id h1.1.inv h1.1.nm hc' ho]
    have h2 := emplaceInto_seen hp h1.1.inv (i := i) (f := f) (ty := (s.obj o).ty) (val := (s.obj o).val)
      e (by rw [h1.2]; simp [Vars.new])
    have h2n := h2.2.2.1 _ h1.1.nm
    generalize emplaceInto p (defaultCtor s i f) i (s.obj o).ty (s.obj o).val e = r at h2 h2n ⊢
    obtain ⟨t, b⟩ := r
    cases b with
    | true =>
      simp only [if_true] at h2 ⊢
      have h3 := dtor_seen ⟨h2.1, h2n⟩ (i := i) (f := f) (v := none)
        (by rw [h2.2.1, h1.2]; simp [Vars.new])
      refine ⟨h3.1, fun _ => ?_, by simp⟩
      rw [h3.2, h2.2.1, h1.2]
      funext k
      simp only [Vars.new]
      by_cases hk : k = i <;> simp [hk, hi]
    | false =>
      simp only [Bool.false_eq_true, if_false] at h2 ⊢
      refine ⟨⟨h2.1, h2n⟩, by simp, fun _ => ?_⟩
      rw [h2.2.1, h1.2, hv]
      vars

theorem emplace_seen {p : P} (hp : SmallNoThrow p) {s : St} (h : Good p s) {i f ty val : Nat}
    {v : Option (Nat × Nat)} (e : Orc) (hi : seen s i = some (f, v)) :
    Res p (emplace p s i ty val e) ((seen s).set i none) ((seen s).set i (some (ty, val))) := by
  unfold emplace
  have h1 := reset_seen h.inv hi
  have hn : NMx none (reset s i) := by simpa using h1.2.2 none h.nm
  have h2 := emplaceInto_seen hp h1.1 (i := i) (f := f) (ty := ty) (val := val) e
    (by rw [h1.2.1]; simp [Vars.set, hi])
  refine ⟨⟨h2.1, h2.2.2.1 _ hn⟩, fun hb => ?_, fun hb => ?_⟩
  · rw [h2.2.1, hb, h1.2.1]; rfl
  · rw [h2.2.1, hb, h1.2.1]
    simp only [Bool.false_eq_true, if_false]
    vars

theorem valueCtor_seen {p : P} (hp : SmallNoThrow p) {s : St} (h : Good p s) {i f ty val : Nat} (e : Orc)
    (hi : seen s i = none) :
    Res p (valueCtor p s i f ty val e) (seen s) ((seen s).new i f (some (ty, val))) := by
  unfold valueCtor
  have h1 := defaultCtor_seen h f hi
  have h2 := emplaceInto_seen hp h1.1.inv (i := i) (f := f) (ty := ty) (val := val)
    e (by rw [h1.2]; simp [Vars.new])
  have h2n := h2.2.2.1 _ h1.1.nm
  simp only
  generalize emplaceInto p (defaultCtor s i f) i ty val e = r at h2 h2n ⊢
  obtain ⟨t, b⟩ := r
  cases b with
  | true =>
    simp only [if_true] at h2 ⊢
    have h3 := dtor_seen ⟨h2.1, h2n⟩ (i := i) (f := f) (v := none)
      (by rw [h2.2.1, h1.2]; simp [Vars.new])
    refine ⟨h3.1, fun _ => ?_, by simp⟩
    rw [h3.2, h2.2.1, h1.2]
    funext k
    simp only [Vars.new]
    by_cases hk : k = i <;> simp [hk, hi]
  | false =>
    simp only [Bool.false_eq_true, if_false] at h2 ⊢
    refine ⟨⟨h2.1, h2n⟩, by simp, fun _ => ?_⟩
    rw [h2.2.1, h1.2]
    vars

theorem moveAssign_seen {p : P} (hp : SmallNoThrow p) {s : St} (h : Good p s) {i j f : Nat}
    {vi vj : Option (Nat × Nat)} (hi : seen s i = some (f, vi)) (hj : seen s j = some (f, vj)) :
    Good p (moveAssign p s i j) ∧
    seen (moveAssign p s i j) = if i = j then seen s else ((seen s).set i vj).set j none := by
  unfold moveAssign
  by_cases hij : i = j
  · simp only [hij, if_true]; exact ⟨h, trivial⟩
  · simp only [hij, if_false]
    have h1 := reset_seen h.inv hi
    have hn : NMx none (reset s i) := by simpa using h1.2.2 none h.nm
    have hi' : seen (reset s i) i = some (f, none) := by rw [h1.2.1]; simp [Vars.set, hi]
    have hj' : seen (reset s i) j = some (f, vj) := by rw [h1.2.1]; simp [Vars.set, Ne.symm hij, hj]
    have h2 := swapNT_seen hp ⟨h1.1, hn⟩ hi' hj' (by rw [word_null h1.1 hi']; exact easy_left)
    refine ⟨h2.1, ?_⟩
    rw [h2.2, h1.2.1]
    vars

theorem copyAssign_seen {p : P} (hp : SmallNoThrow p) {s : St} (h : Good p s) {i j f : Nat}
    {vi vj : Option (Nat × Nat)} (e : Orc) (hi : seen s i = some (f, vi)) (hj : seen s j = some (f, vj))
    (h0 : seen s 0 = none) (h1 : seen s 1 = none) :
    Res p (copyAssign p s i j e) (seen s) ((seen s).set i vj) := by
  unfold copyAssign
  by_cases hij : i = j
  · simp only [hij, if_true]
    subst hij
    rw [hi] at hj; cases hj
    exact ⟨h, by simp, fun _ => by simp only; vars⟩
  · simp only [hij, if_false]
    have hi0 : i ≠ 0 := by intro he; subst he; rw [h0] at hi; cases hi
    have a := copyCtor_seen hp h e h0 hj
    generalize copyCtor p s 0 j e = r at a ⊢
    obtain ⟨t, b⟩ := r
    cases b with
    | true => exact ⟨a.good, fun _ => a.thr rfl, by simp⟩
    | false =>
      simp only [Bool.false_eq_true, if_false] at a ⊢
      have a2 := a.ok rfl
      simp only at a2
      have hsw := swap_seen hp a.good (i := 0) (j := i) (f := f) (vi := vj) (vj := vi)
        (by rw [a2]; simp [Vars.new]) (by rw [a2]; simp [Vars.new, hi0, hi])
        (by rw [a2]; simp [Vars.new, h1])
      have hd := dtor_seen hsw.1 (i := 0) (f := f) (v := vi)
        (by rw [hsw.2, a2]; simp [Vars.set, Vars.new, Ne.symm hi0])
      refine ⟨hd.1, by simp, fun _ => ?_⟩
      rw [hd.2, hsw.2, a2]
      vars

/-- Slicing moves the value into the empty target, or throws and leaves it empty. -/
theorem sliceTo_seen {p : P} (hp : SmallNoThrow p) {s : St} (h : Good p s) {i j fi fj : Nat}
    {v : Nat × Nat} (e : Orc) (hij : i ≠ j) (hi : seen s i = some (fi, none))
    (hj : seen s j = some (fj, some v)) :
    Res p (sliceTo p s i j e) (seen s) (((seen s).set i (some v)).set j none) := by
  unfold sliceTo
  obtain ⟨c, o, hc, hf, ho, hv⟩ := seen_full hj
  rw [word_some hc, ho]
  simp only
  rw [touch_id h.inv h.nm hc ho]
  generalize (⟨e.alloc, e.ctor && !p.nothrowMove (s.obj o).ty⟩ : Orc) = e'
  have h2 := emplace_seen hp h (ty := (s.obj o).ty) (val := (s.obj o).val) e' hi
  -- the source cell still holds the same object
  have hcell : (emplace p s i (s.obj o).ty (s.obj o).val e').2 = false →
      (emplace p s i (s.obj o).ty (s.obj o).val e').1.cell j = some c := by
    unfold emplace
    have hre : reset s i = s := by unfold reset; rw [word_null h.inv hi]
    rw [hre]
    obtain ⟨ci, hci, _, hwi⟩ := seen_empty h.inv hi
    unfold emplaceInto
    split
    · split
      · intro hb; simp at hb
      · intro _
        rw [setWord_some (s := build s _ _ _) hci]
        simp [build, upd, Ne.symm hij, hc]
    · split
      · intro hb; simp at hb
      · split
        · intro hb; simp at hb
        · intro _
          rw [setWord_some (s := build { s with nblk := s.nblk + 1 } _ _ _) hci]
          simp [build, upd, Ne.symm hij, hc]
  generalize emplace p s i (s.obj o).ty (s.obj o).val e' = r at h2 hcell ⊢
  obtain ⟨t, b⟩ := r
  cases b with
  | true =>
    simp only [if_true]
    refine ⟨h2.good, fun _ => ?_, by simp⟩
    have := h2.thr rfl
    simp only at this ⊢
    rw [this]
    vars
  | false =>
    simp only [Bool.false_eq_true, if_false]
    have h22 := h2.ok rfl
    simp only at h22
    have hm := markMoved_good h2.good (hcell rfl) ho
    have hr := reset_seen hm.1 (i := j) (f := fj) (v := some v)
      (by rw [hm.2.1, h22]; simp [Vars.set, Ne.symm hij, hj])
    refine ⟨⟨hr.1, by simpa using hr.2.2 (some j) hm.2.2.1⟩, by simp, fun _ => ?_⟩
    rw [hr.2.1, hm.2.1, h22, hv]

theorem assignFrom_seen {p : P} (hp : SmallNoThrow p) {s : St} (h : Good p s) {i j fi fj : Nat}
    {v : Option (Nat × Nat)} (e : Orc) (hij : i ≠ j) (hi : seen s i = some (fi, none))
    (hj : seen s j = some (fj, v)) :
    Res p (assignFrom p s i j e) (seen s) (((seen s).set i v).set j none) := by
  unfold assignFrom
  cases v with
  | none =>
    rw [word_null h.inv hj]
    exact ⟨h, by simp, fun _ => by simp only; vars⟩
  | some v =>
    obtain ⟨c, o, hc, hf, ho, hv⟩ := seen_full hj
    obtain ⟨ci, hci, _, hwi⟩ := seen_empty h.inv hi
    rw [word_some hc]
    cases hw : c.word with
    | null => rw [hw] at ho; simp [objOf] at ho
    | stale => rw [hw] at ho; simp [objOf] at ho
    | insitu o' => exact sliceTo_seen hp h e hij hi hj
    | heap b o' =>
      simp only
      by_cases hpc : p.ptrConv (ifaceOf s j) (ifaceOf s i) = true
      · simp only [hpc, if_true, Bool.false_eq_true, if_false]
        have hsw := swapWords h.inv hij hci hc (by simp [hwi]) (by simp [hw])
        have he : setWord (setWord s i (.heap b o')) j .null = swapped s i j ci c := by
          rw [(set_set hij hci hc _ _).2]; simp [swapped, hw, hwi]
        rw [he]
        refine ⟨⟨hsw.1, hsw.2.2 h.nm⟩, by simp, fun _ => ?_⟩
        rw [hsw.2.1]
        have g1 : (seen s).get j = some v := by simp [Vars.get, hj]
        have g2 : (seen s).get i = none := by simp [Vars.get, hi]
        rw [g1, g2]
      · simp only [hpc, if_false, Bool.false_eq_true]
        exact sliceTo_seen hp h e hij hi hj

theorem noexceptIf_seen {p : P} {r : St × Bool} {A B : Vars} (b : Bool) (h : Res p r A B) :
    Res p (noexceptIf b r) A B := by
  unfold noexceptIf
  split
  · rename_i hb
    simp only [Bool.and_eq_true] at hb
    refine ⟨⟨?_, h.good.nm⟩, fun _ => h.thr hb.2, by simp⟩
    have := h.good.inv
    exact ⟨this.bad, this.word, this.dead1, this.freed1, this.freed0, this.owned, this.ownedB,
      this.uniq, this.uniqB⟩
  · exact h

theorem convCtor_seen {p : P} (hp : SmallNoThrow p) {s : St} (h : Good p s) {i j f fj : Nat}
    {v : Option (Nat × Nat)} (e : Orc) (hi : seen s i = none) (hj : seen s j = some (fj, v))
    (h0 : seen s 0 = none) (hi0 : i ≠ 0) :
    Res p (convCtor p s i f j e) ((seen s).set j none) (((seen s).new i f v).set j none) := by
  unfold convCtor
  have hij : i ≠ j := by intro he; subst he; rw [hi] at hj; cases hj
  have hj0 : j ≠ 0 := by intro he; subst he; rw [h0] at hj; cases hj
  have a := moveCtor_seen hp h h0 hj
  generalize moveCtor p s 0 j = s1 at a ⊢
  have b := defaultCtor_seen a.1 f (i := i) (by rw [a.2]; simp [Vars.set, Vars.new, hi0, hij, hi])
  simp only
  generalize defaultCtor s1 i f = s2 at b ⊢
  have c := assignFrom_seen hp b.1 (i := i) (j := 0) (fi := f) (fj := fj) (v := v) e hi0
    (by rw [b.2]; simp [Vars.new])
    (by rw [b.2, a.2]; simp [Vars.new, Vars.set, Ne.symm hi0, Ne.symm hj0])
  have d := noexceptIf_seen (asLarge p f (ifaceOf s j)) c
  generalize noexceptIf (asLarge p f (ifaceOf s j)) (assignFrom p s2 i 0 e) = r at d ⊢
  obtain ⟨t, thr⟩ := r
  cases thr with
  | true =>
    have c2 := d.thr rfl
    simp only [if_true] at c2 ⊢
    have e1 := dtor_seen d.good (i := i) (f := f) (v := none) (by rw [c2, b.2]; simp [Vars.new])
    have e2 := dtor_seen e1.1 (i := 0) (f := fj) (v := v)
      (by rw [e1.2, c2, b.2, a.2]; simp [Vars.new, Vars.set, Ne.symm hi0, Ne.symm hj0])
    refine ⟨e2.1, fun _ => ?_, by simp⟩
    rw [e2.2, e1.2, c2, b.2, a.2]
    vars
  | false =>
    have c2 := d.ok rfl
    simp only [Bool.false_eq_true, if_false] at c2 ⊢
    have e2 := dtor_seen d.good (i := 0) (f := fj) (v := none)
      (by rw [c2, b.2, a.2]; simp [Vars.new, Vars.set, Ne.symm hi0, Ne.symm hj0])
    refine ⟨e2.1, by simp, fun _ => ?_⟩
    rw [e2.2, c2, b.2, a.2]
    vars

theorem convAssign_seen {p : P} (hp : SmallNoThrow p) {s : St} (h : Good p s) {i j fi fj : Nat}
    {vi v : Option (Nat × Nat)} (e : Orc) (hij : i ≠ j) (hi : seen s i = some (fi, vi))
    (hj : seen s j = some (fj, v)) (h0 : seen s 0 = none) :
    Res p (convAssign p s i j e) (((seen s).set i none).set j none) (((seen s).set i v).set j none) := by
  unfold convAssign
  have hi0 : i ≠ 0 := by intro he; subst he; rw [h0] at hi; cases hi
  have hj0 : j ≠ 0 := by intro he; subst he; rw [h0] at hj; cases hj
  have a := moveCtor_seen hp h h0 hj
  generalize moveCtor p s 0 j = s1 at a ⊢
  have b := reset_seen a.1.inv (i := i) (f := fi) (v := vi)
    (by rw [a.2]; simp [Vars.set, Vars.new, hi0, hij, hi])
  have bn : NMx none (reset s1 i) := by simpa using b.2.2 none a.1.nm
  simp only
  generalize reset s1 i = s2 at b bn ⊢
  have c := assignFrom_seen hp ⟨b.1, bn⟩ (i := i) (j := 0) (fi := fi) (fj := fj) (v := v) e hi0
    (by rw [b.2.1, a.2]; simp [Vars.new, Vars.set, hi0, hij, hi])
    (by rw [b.2.1, a.2]; simp [Vars.new, Vars.set, Ne.symm hi0, Ne.symm hj0])
  have d := noexceptIf_seen (asLarge p (ifaceOf s i) (ifaceOf s j)) c
  generalize noexceptIf (asLarge p (ifaceOf s i) (ifaceOf s j)) (assignFrom p s2 i 0 e) = r at d ⊢
  obtain ⟨t, thr⟩ := r
  cases thr with
  | true =>
    have c2 := d.thr rfl
    simp only at c2 ⊢
    have e2 := dtor_seen d.good (i := 0) (f := fj) (v := v)
      (by rw [c2, b.2.1, a.2]; simp [Vars.new, Vars.set, Ne.symm hi0, Ne.symm hj0])
    refine ⟨e2.1, fun _ => ?_, by simp⟩
    rw [e2.2, c2, b.2.1, a.2]
    vars
  | false =>
    have c2 := d.ok rfl
    simp only at c2 ⊢
    have e2 := dtor_seen d.good (i := 0) (f := fj) (v := none)
      (by rw [c2, b.2.1, a.2]; simp [Vars.new, Vars.set, Ne.symm hi0, Ne.symm hj0])
    refine ⟨e2.1, by simp, fun _ => ?_⟩
    rw [e2.2, c2, b.2.1, a.2]
    vars

end Verif.AnyBox
