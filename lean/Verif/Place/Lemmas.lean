import Verif.Place.Model
/-!
# Where senders complete — specification and lemmas
-/
namespace Verif.Place

/-- A completion `o` of something started on context `c` is as the behaviour `b` says. -/
structure BehOK (b : Beh) (c : Ctx) (o : Out) : Prop where
  /-- "completes on the context it was started on" -/
  aff : b.affine = true → o.ctx = c
  /-- "never completes after `start` returned" -/
  syn : b.asyn = false → o.inl = true
  /-- "never completes before `start` returned" -/
  asy : b.inl = false → o.inl = false

/-- The environment names the scheduler of the context the work is started on, or none. -/
def EnvOK (e : Env) (c : Ctx) : Prop := ∀ st, e = some st → st = .res c

/-- A sender that is not the library's keeps its word: it completes only on the channels it declares,
each completion is as it said, and the completion scheduler it names is the one of the context it
completes on. -/
structure Leaf.Honest (l : Leaf) : Prop where
  sends : ∀ c o, l.runs c o → l.sends o.tag = true
  inl : ∀ c o, l.runs c o → o.inl = true → o.ctx = c
  beh : ∀ c o, l.runs c o → BehOK (l.beh o.tag) c o
  cs : ∀ c o sch, l.runs c o → l.cs o.tag = some sch → sch = .res o.ctx

/-- Every completion is as the sender said about *every* channel. The library's factories and the
senders of `run_loop` are of this kind: they say the same about all channels they complete on and
nothing about the others. -/
structure Leaf.Uniform (l : Leaf) : Prop where
  inl : ∀ c o, l.runs c o → o.inl = true → o.ctx = c
  beh : ∀ c o t, l.runs c o → BehOK (l.beh t) c o

/-- Schedulers keep their word and complete schedule operations (with a value) on their context. -/
structure World.OK (W : World) : Prop where
  honest : ∀ n, (W n).Honest
  ctx : ∀ n c o, (W n).runs c o → o.tag = .value → o.ctx = n
  beh : ∀ n, (W n).beh .value ≠ inlineB

/-- All leaves of a sender expression satisfy `P`. -/
def S.Leaves (P : Leaf → Prop) : S → Prop
  | .leaf l => P l
  | .just _ | .readEnv _ | .sched _ => True
  | .thn s _ | .uponE s _ | .uponS s _ | .contOn s _ _ _ | .startsOn _ s _ | .on _ s _ _ _
  | .affine s _ => s.Leaves P
  | .letT _ s k _ => s.Leaves P ∧ k.Leaves P
  | .seq s k _ => s.Leaves P ∧ k.Leaves P
  | .whenAll _ f _ _ => ∀ i, (f i).Leaves P

theorem orAll_affine {n : Nat} {f : Fin n → Beh} (h : (orAll n f).affine = true) (i : Fin n) :
    (f i).affine = true := by
  induction n with
  | zero => exact i.elim0
  | succ n ih =>
    simp only [orAll, Beh.or, Beh.affine, Bool.not_or, Bool.and_eq_true] at h
    refine Fin.cases ?_ (fun j => ?_) i
    · simpa [Beh.affine] using h.1
    · exact ih (f := fun i => f i.succ) (by simpa [Beh.affine] using h.2) j

theorem orAll_asyn {n : Nat} {f : Fin n → Beh} (h : (orAll n f).asyn = false) (i : Fin n) :
    (f i).asyn = false := by
  induction n with
  | zero => exact i.elim0
  | succ n ih =>
    simp only [orAll, Beh.or, Bool.or_eq_false_iff] at h
    exact Fin.cases h.1 (fun j => ih (f := fun i => f i.succ) h.2 j) i

theorem orAll_inl {n : Nat} {f : Fin n → Beh} (h : (orAll n f).inl = false) (i : Fin n) :
    (f i).inl = false := by
  induction n with
  | zero => exact i.elim0
  | succ n ih =>
    simp only [orAll, Beh.or, Bool.or_eq_false_iff] at h
    exact Fin.cases h.1 (fun j => ih (f := fun i => f i.succ) h.2 j) i

theorem anyAll_of {n : Nat} {f : Fin n → Bool} (i : Fin n) (h : f i = true) : anyAll n f = true := by
  induction n with
  | zero => exact i.elim0
  | succ n ih =>
    simp only [anyAll, Bool.or_eq_true]
    revert h
    exact Fin.cases (fun h => Or.inl h) (fun j h => Or.inr (ih (f := fun i => f i.succ) j h)) i

theorem allAll_of {n : Nat} {f : Fin n → Bool} (h : ∀ i, f i = true) : allAll n f = true := by
  induction n with
  | zero => rfl
  | succ n ih =>
    simp only [allAll, Bool.and_eq_true]
    exact ⟨h 0, ih (f := fun i => f i.succ) (fun i => h i.succ)⟩

theorem behOK_unknown (c : Ctx) (o : Out) : BehOK unknown c o := by
  constructor <;> simp [unknown, Beh.affine]

theorem behOK_inline {c : Ctx} {t : Tag} : BehOK inlineB c ⟨t, c, true⟩ := by
  constructor <;> simp [inlineB]

theorem behOK_or_left {a b : Beh} {c : Ctx} {o : Out} (h : BehOK a c o) : BehOK (a.or b) c o := by
  constructor
  · intro h'; exact h.aff (by simp [Beh.affine, Beh.or] at *; exact h'.1)
  · intro h'; exact h.syn (by simp [Beh.or] at *; exact h'.1)
  · intro h'; exact h.asy (by simp [Beh.or] at *; exact h'.1)

theorem behOK_or_right {a b : Beh} {c : Ctx} {o : Out} (h : BehOK b c o) : BehOK (a.or b) c o := by
  constructor
  · intro h'; exact h.aff (by simp [Beh.affine, Beh.or] at *; exact h'.2)
  · intro h'; exact h.syn (by simp [Beh.or] at *; exact h'.2)
  · intro h'; exact h.asy (by simp [Beh.or] at *; exact h'.2)

/-- Running two things one after the other is as the union of their behaviours says. -/
theorem behOK_seq {a b : Beh} {c : Ctx} {o1 o2 o : Out} (h1 : BehOK a c o1) (h2 : BehOK b o1.ctx o2)
    (hc : o.ctx = o2.ctx) (hi : o.inl = (o1.inl && o2.inl)) : BehOK (a.or b) c o := by
  constructor
  · intro h'
    simp only [Beh.affine, Beh.or, Bool.not_or, Bool.and_eq_true] at h'
    rw [hc, h2.aff (by simpa [Beh.affine] using h'.2), h1.aff (by simpa [Beh.affine] using h'.1)]
  · intro h'
    simp only [Beh.or, Bool.or_eq_false_iff] at h'
    rw [hi, h1.syn h'.1, h2.syn h'.2]; rfl
  · intro h'
    simp only [Beh.or, Bool.or_eq_false_iff] at h'
    rw [hi, h1.asy h'.1]; rfl

theorem behOK_or_comm {a b : Beh} {c : Ctx} {o : Out} (h : BehOK (a.or b) c o) :
    BehOK (b.or a) c o := by
  obtain ⟨h1, h2, h3⟩ := h
  constructor
  · intro h; exact h1 (by simp [Beh.affine, Beh.or] at *; exact ⟨h.2, h.1⟩)
  · intro h; exact h2 (by simp [Beh.or] at *; exact ⟨h.2, h.1⟩)
  · intro h; exact h3 (by simp [Beh.or] at *; exact ⟨h.2, h.1⟩)

theorem behOK_congr {b : Beh} {c : Ctx} {o o' : Out} (h : BehOK b c o) (hc : o'.ctx = o.ctx)
    (hi : o'.inl = o.inl) : BehOK b c o' :=
  ⟨fun x => hc.trans (h.aff x), fun x => hi.trans (h.syn x), fun x => hi.trans (h.asy x)⟩

/-! ### Signatures -/

theorem schedR_sends {W : World} (hW : W.OK) {sch : Sched} {e e' : Env} {c : Ctx} {o : Out}
    (h : schedR W sch e c o) : (schedA W sch).sends e' o.tag = true := by
  cases sch with
  | inl => simp only [schedR] at h; subst h; rfl
  | res n => exact (hW.honest n).sends c o h

theorem contR_sends {W : World} (hW : W.OK) {a : Attr} {r : Beha} {sch : Sched} {thrV thrE : Bool}
    {e : Env} {c : Ctx} {o : Out}
    (hr : ∀ o, r e c o → a.sends e o.tag = true)
    (h : contR W r sch thrV thrE e c o) : (contA W a sch thrV).sends e o.tag = true := by
  obtain ⟨o1, h1, h⟩ := h
  have hs := hr o1 h1
  rcases h with ⟨hthr, rfl⟩ | ⟨o2, h2, h⟩
  · rcases hthr with ⟨ht, hv⟩ | ⟨ht, hv⟩ <;> simp_all [contA, Out.err]
  · rcases h with ⟨ht, rfl⟩ | ⟨ht, rfl⟩
    · cases hq : o1.tag <;> simp_all [contA]
    · have := schedR_sends hW h2 (e' := e)
      cases hq : o2.tag <;> simp_all [contA, after]

theorem seqR_sends {W : World} {a1 a2 : Attr} {r1 r2 : Beha} {thr : Bool}
    {e : Env} {c : Ctx} {o : Out}
    (h1 : ∀ o, r1 e c o → a1.sends e o.tag = true)
    (h2 : ∀ e c o, r2 e c o → a2.sends e o.tag = true)
    (h : seqR W a1 r1 r2 thr e c o) : (seqA W a1 a2 thr).sends e o.tag = true := by
  obtain ⟨o1, hr1, h⟩ := h
  have hs := h1 o1 hr1
  rcases h with ⟨ht, rfl⟩ | ⟨ht, hthr, rfl⟩ | ⟨ht, o2, hr2, rfl⟩
  · cases hq : o.tag <;> simp_all [seqA]
  · simp_all [seqA, Out.err]
  · have := h2 _ _ _ hr2
    cases hq : o2.tag <;> simp_all [seqA, after]

/-- Every completion is on a channel the sender declares. -/
theorem runs_sends {W : World} (hW : W.OK) : ∀ (s : S), s.Leaves Leaf.Honest → ∀ e c o,
    Runs W s e c o → (attrs W s).sends e o.tag = true := by
  intro s
  induction s with
  | leaf l => intro hl e c o h; exact hl.sends c o h
  | just t => intro _ e c o h; simp only [Runs] at h; subst h; simp [attrs, justA]
  | readEnv thr =>
    intro _ e c o h
    obtain ⟨_, _, h | ⟨h1, h⟩⟩ := h <;> simp_all [attrs, readA]
  | sched sch => intro _ e c o h; exact schedR_sends hW h
  | thn s thr ih =>
    intro hl e c o h
    obtain ⟨o1, h1, rfl | ⟨h2, h3, rfl⟩⟩ := h
    · have := ih hl e c _ h1
      cases hq : o.tag <;> simp_all [attrs, thenA]
    · have := ih hl e c _ h1
      simp_all [attrs, thenA, Out.err]
  | uponE s thr ih =>
    intro hl e c o h
    obtain ⟨o1, h1, ⟨h2, rfl⟩ | ⟨h2, rfl | ⟨h3, rfl⟩⟩⟩ := h
    · have := ih hl e c _ h1
      cases hq : o.tag <;> simp_all [attrs, uponEA]
    · have := ih hl e c _ h1
      simp_all [attrs, uponEA]
    · have := ih hl e c _ h1
      simp_all [attrs, uponEA]
  | uponS s thr ih =>
    intro hl e c o h
    obtain ⟨o1, h1, ⟨h2, rfl⟩ | ⟨h2, rfl | ⟨h3, rfl⟩⟩⟩ := h
    · have := ih hl e c _ h1
      cases hq : o.tag <;> simp_all [attrs, uponSA]
    · have := ih hl e c _ h1
      simp_all [attrs, uponSA]
    · have := ih hl e c _ h1
      simp_all [attrs, uponSA, Out.err]
  | letT t s k thr ih1 ih2 =>
    intro hl e c o h
    obtain ⟨o1, hr1, h⟩ := h
    have hs := ih1 hl.1 e c o1 hr1
    rcases h with ⟨ht, rfl⟩ | ⟨ht, hthr, rfl⟩ | ⟨ht, o2, hr2, rfl⟩
    · simp_all [attrs, letA]
    · simp_all [attrs, letA, Out.err]
    · have := ih2 hl.2 _ _ _ hr2
      simp_all [attrs, letA, after]
  | seq s1 s2 thr ih1 ih2 =>
    intro hl e c o h
    exact seqR_sends (fun o => ih1 hl.1 e c o) (fun e c o => ih2 hl.2 e c o) h
  | contOn s sch thrV thrE ih =>
    intro hl e c o h
    exact contR_sends hW (fun o => ih hl e c o) h
  | startsOn sch s thr ih =>
    intro hl e c o h
    refine seqR_sends (fun o h => ?_) (fun e c o => ih hl e c o) h
    exact contR_sends hW (a := justA .value) (fun o h => by subst h; rfl) h
  | on sch s thr thrV thrE ih =>
    intro hl e c o h
    refine contR_sends hW (a := startsA W sch (attrs W s) thr) (fun o h => ?_) h
    refine seqR_sends (fun o h => ?_) (fun e c o => ih hl e c o) h
    exact contR_sends hW (a := justA .value) (fun o h => by subst h; rfl) h
  | whenAll n f thr stp ih =>
    intro hl e c o h
    rcases h with ⟨rfl, rfl⟩ | ⟨g, hg, last, _, _, h⟩
    · rfl
    · have hn : (n != 0) = true := by
        have := last.isLt
        simp; omega
      rcases h with ⟨ht, h⟩ | ⟨ht, h⟩ | ⟨ht, h⟩
      · simp only [attrs, allA, ht]
        exact allAll_of (fun i => by have := ih i (hl i) e c _ (hg i); rwa [h i] at this)
      · simp only [attrs, allA, ht, Bool.or_eq_true]
        rcases h with h | ⟨i, h⟩
        · right; simp [h, hn]
        · left; exact anyAll_of i (by have := ih i (hl i) e c _ (hg i); rwa [h] at this)
      · simp only [attrs, allA, ht, Bool.or_eq_true]
        rcases h with h | ⟨i, h⟩
        · right; simp [h, hn]
        · left; exact anyAll_of i (by have := ih i (hl i) e c _ (hg i); rwa [h] at this)
  | affine s thr ih =>
    intro hl e c o h
    rcases h with ⟨h1, h⟩ | ⟨h1, st, rfl, h2, o1, h3, h⟩
    · have := ih hl e c o h
      simp_all [attrs, affineA]
    · have := ih hl _ c o1 h3
      rcases h with ⟨h4, h5, rfl⟩ | ⟨o2, h4, h5, rfl⟩
      · cases hq : o1.tag <;> simp_all [attrs, affineA, Out.err]
      · simp_all [attrs, affineA]

/-! ### `inl` means the starting thread -/

theorem schedR_inl {W : World} (hW : ∀ n c o, (W n).runs c o → o.inl = true → o.ctx = c) {sch : Sched}
    {e : Env} {c : Ctx} {o : Out} (h : schedR W sch e c o) (hi : o.inl = true) : o.ctx = c := by
  cases sch with
  | inl => simp only [schedR] at h; subst h; rfl
  | res n => exact hW n c o h hi

end Verif.Place
