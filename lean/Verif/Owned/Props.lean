import Verif.Owned.Model
/-! # Owning handles: what is handed out is given back exactly once (C102) -/
namespace Verif.Owned

/-- Specification: at no time has `r` been given back more often than it was handed out, or handed out again before it was given back. -/
def WellUsed (l : List Ev) : Prop := ∀ r p, p <+: l → rels r p ≤ acqs r p ∧ acqs r p ≤ rels r p + 1

/-- Specification: the operating system holds `r` for the process. -/
def Open (l : List Ev) (r : Res) : Prop := acqs r l = rels r l + 1

/-- Specification: everything that was handed out was given back. -/
def Balanced (l : List Ev) : Prop := ∀ r, acqs r l = rels r l

/-- Specification: the object names the resource. -/
def Owns (o : Obj) (r : Res) : Prop :=
  (∃ n, o = .fd n ∧ n ≠ -1 ∧ r = .fd n) ∨ (∃ p z, o = .map p z ∧ p ≠ 0 ∧ r = .map p z)

@[simp] theorem acqs_nil (r : Res) : acqs r [] = 0 := rfl
@[simp] theorem rels_nil (r : Res) : rels r [] = 0 := rfl
@[simp] theorem acqs_app (r : Res) (a b : List Ev) : acqs r (a ++ b) = acqs r a + acqs r b := List.count_append ..
@[simp] theorem rels_app (r : Res) (a b : List Ev) : rels r (a ++ b) = rels r a + rels r b := List.count_append ..
@[simp] theorem acqs_acq (r q : Res) (l : List Ev) : acqs r (.acq q :: l) = acqs r l + if q = r then 1 else 0 := by
  unfold acqs; rw [List.count_cons]; by_cases h : q = r <;> simp [h]
@[simp] theorem acqs_rel (r q : Res) (l : List Ev) : acqs r (.rel q :: l) = acqs r l := by
  unfold acqs; rw [List.count_cons]; simp
@[simp] theorem rels_rel (r q : Res) (l : List Ev) : rels r (.rel q :: l) = rels r l + if q = r then 1 else 0 := by
  unfold rels; rw [List.count_cons]; by_cases h : q = r <;> simp [h]
@[simp] theorem rels_acq (r q : Res) (l : List Ev) : rels r (.acq q :: l) = rels r l := by
  unfold rels; rw [List.count_cons]; simp

theorem WellUsed.nil : WellUsed [] := by
  intro r p h
  have := List.prefix_nil.1 h
  subst this; simp

theorem WellUsed.whole {l : List Ev} (h : WellUsed l) (r : Res) : rels r l ≤ acqs r l ∧ acqs r l ≤ rels r l + 1 :=
  h r l (List.prefix_refl l)

theorem WellUsed.snoc {l : List Ev} (e : Ev) (h : WellUsed l)
    (hl : ∀ r, rels r (l ++ [e]) ≤ acqs r (l ++ [e]) ∧ acqs r (l ++ [e]) ≤ rels r (l ++ [e]) + 1) : WellUsed (l ++ [e]) := by
  intro r p hp
  rcases List.prefix_concat_iff.1 hp with h1 | h1
  · subst h1; exact hl r
  · exact h r p h1

/-- Handing out what is not handed out, giving back what is. -/
theorem WellUsed.acq {l : List Ev} {q : Res} (h : WellUsed l) (hq : acqs q l = rels q l) : WellUsed (l ++ [.acq q]) := by
  refine h.snoc _ fun r => ?_
  have := h.whole r
  by_cases e : q = r
  · subst e; simp; omega
  · simp [e]; omega

/-- See `WellUsed.acq`. -/
theorem WellUsed.rel {l : List Ev} {q : Res} (h : WellUsed l) (hq : Open l q) : WellUsed (l ++ [.rel q]) := by
  refine h.snoc _ fun r => ?_
  have := h.whole r
  unfold Open at hq
  by_cases e : q = r
  · subst e; simp; omega
  · simp [e]; omega

/-- Every object owns at most what is open, every open resource has one owner. -/
structure Inv (s : St) : Prop where
  used : WellUsed s.log
  owner : ∀ r, Open s.log r → ∃ i o, s.obj i = some o ∧ Owns o r
  isOpen : ∀ r i o, s.obj i = some o → Owns o r → Open s.log r
  uniq : ∀ r i j o o', s.obj i = some o → s.obj j = some o' → Owns o r → Owns o' r → i = j

theorem owns_det {o : Obj} {r r' : Res} (h : Owns o r) (h' : Owns o r') : r = r' := by
  rcases h with ⟨n, rfl, -, rfl⟩ | ⟨p, z, rfl, -, rfl⟩ <;> rcases h' with ⟨n', h1, -, rfl⟩ | ⟨p', z', h1, -, rfl⟩ <;>
    cases h1 <;> rfl

theorem moved_owns (o : Obj) (r : Res) : ¬ Owns (moved o) r := by
  rintro (⟨n, h, hn, -⟩ | ⟨p, z, h, hn, -⟩) <;> cases o <;> simp [moved] at h <;> omega

theorem moved_empty (o : Obj) : moved o = fdEmpty ∨ moved o = mapEmpty := by
  cases o
  · exact .inl rfl
  · exact .inr rfl

/-- The destructor gives back what the object owns, nothing else. -/
theorem dtor_spec (o : Obj) : (dtor o = [] ∧ ∀ r, ¬ Owns o r) ∨ (∃ r, dtor o = [.rel r] ∧ Owns o r) := by
  cases o with
  | fd n =>
    by_cases h : n = -1
    · left; refine ⟨by simp [dtor, h], ?_⟩
      rintro r (⟨m, h1, h2, -⟩ | ⟨p, z, h1, -⟩)
      · cases h1; exact h2 h
      · cases h1
    · right; exact ⟨.fd n, by simp [dtor, h], .inl ⟨n, rfl, h, rfl⟩⟩
  | map p z =>
    by_cases h : p = 0
    · left; refine ⟨by simp [dtor, h], ?_⟩
      rintro r (⟨m, h1, -⟩ | ⟨p', z', h1, h2, -⟩)
      · cases h1
      · cases h1; exact h2 h
    · right; exact ⟨.map p z, by simp [dtor, h], .inr ⟨p, z, rfl, h, rfl⟩⟩

theorem assign_spec (o o' : Obj) : assign o o' = (o', moved o', dtor o) := by
  cases o <;> rfl

/-- Destroying what object `i` owned and putting an object there that owns nothing. -/
theorem Inv.release {s : St} (hi : Inv s) {i : Nat} {o : Obj} (ho : s.obj i = some o) (v : Option Obj)
    (hv : ∀ o', v = some o' → ∀ r, ¬ Owns o' r) : Inv { obj := upd s.obj i v, log := s.log ++ dtor o } := by
  obtain ⟨h1, h2, h3, h4⟩ := hi
  rcases dtor_spec o with ⟨hd, hn⟩ | ⟨q, hd, hn⟩
  · rw [hd, List.append_nil]
    refine ⟨h1, fun r hr => ?_, fun r j o' hj hr => ?_, fun r j k o1 o2 hj hk hr hr' => ?_⟩
    · obtain ⟨j, o', hj, ho'⟩ := h2 r hr
      have : j ≠ i := by rintro rfl; rw [ho] at hj; cases hj; exact hn r ho'
      exact ⟨j, o', by simp only [upd, this, if_false]; exact hj, ho'⟩
    · by_cases e : j = i
      · subst e; simp only [upd, if_true] at hj; exact absurd hr (hv o' hj r)
      · simp only [upd, e, if_false] at hj; exact h3 r j o' hj hr
    · by_cases e : j = i
      · subst e; simp only [upd, if_true] at hj; exact absurd hr (hv o1 hj r)
      · by_cases e' : k = i
        · subst e'; simp only [upd, if_true] at hk; exact absurd hr' (hv o2 hk r)
        · simp only [upd, e, e', if_false] at hj hk; exact h4 r j k o1 o2 hj hk hr hr'
  · rw [hd]
    have hop := h3 q i o ho hn
    refine ⟨h1.rel hop, fun r hr => ?_, fun r j o' hj hr => ?_, fun r j k o1 o2 hj hk hr hr' => ?_⟩
    · have hne : q ≠ r := by
        rintro rfl
        unfold Open at hr hop; simp at hr; omega
      have hr' : Open s.log r := by unfold Open at hr ⊢; simpa [hne] using hr
      obtain ⟨j, o', hj, ho'⟩ := h2 r hr'
      have : j ≠ i := by rintro rfl; rw [ho] at hj; cases hj; exact hne (owns_det hn ho')
      exact ⟨j, o', by simp only [upd, this, if_false]; exact hj, ho'⟩
    · by_cases e : j = i
      · subst e; simp only [upd, if_true] at hj; exact absurd hr (hv o' hj r)
      · simp only [upd, e, if_false] at hj
        have hne : q ≠ r := by rintro rfl; exact e (h4 q j i o' o hj ho hr hn)
        have := h3 r j o' hj hr
        unfold Open at this ⊢; simpa [hne] using this
    · by_cases e : j = i
      · subst e; simp only [upd, if_true] at hj; exact absurd hr (hv o1 hj r)
      · by_cases e' : k = i
        · subst e'; simp only [upd, if_true] at hk; exact absurd hr' (hv o2 hk r)
        · simp only [upd, e, e', if_false] at hj hk; exact h4 r j k o1 o2 hj hk hr hr'

/-- Giving an object that owned nothing what was just handed out. -/
theorem Inv.take {s : St} (hi : Inv s) {i : Nat} (o : Obj) (hn : ∀ o', s.obj i = some o' → ∀ r, ¬ Owns o' r) (q : Res)
    (ho : Owns o q) (hq : acqs q s.log = rels q s.log) : Inv { obj := upd s.obj i (some o), log := s.log ++ [.acq q] } := by
  obtain ⟨h1, h2, h3, h4⟩ := hi
  refine ⟨h1.acq hq, fun r hr => ?_, fun r j o' hj hr => ?_, fun r j k o1 o2 hj hk hr hr' => ?_⟩
  · by_cases e : q = r
    · subst e; exact ⟨i, o, by simp [upd], ho⟩
    · have hr' : Open s.log r := by unfold Open at hr ⊢; simpa [e] using hr
      obtain ⟨j, o', hj, ho'⟩ := h2 r hr'
      have : j ≠ i := by rintro rfl; exact hn o' hj r ho'
      exact ⟨j, o', by simp only [upd, this, if_false]; exact hj, ho'⟩
  · by_cases e : j = i
    · subst e; simp only [upd, if_true] at hj; cases hj
      have := owns_det ho hr; subst this
      unfold Open; simp; omega
    · simp only [upd, e, if_false] at hj
      have := h3 r j o' hj hr
      have hne : q ≠ r := by rintro rfl; unfold Open at this; omega
      unfold Open at this ⊢; simpa [hne] using this
  · have key : ∀ l ol, l ≠ i → s.obj l = some ol → Owns ol q → False := by
      intro l ol _ hl hol
      have := h3 q l ol hl hol
      unfold Open at this; omega
    by_cases e : j = i <;> by_cases e' : k = i
    · rw [e, e']
    · subst e; simp only [upd, if_true, e', if_false] at hj hk; cases hj
      have := owns_det ho hr; subst this
      exact (key k o2 e' hk hr').elim
    · subst e'; simp only [upd, if_true, e, if_false] at hj hk; cases hk
      have := owns_det ho hr'; subst this
      exact (key j o1 e hj hr).elim
    · simp only [upd, e, e', if_false] at hj hk; exact h4 r j k o1 o2 hj hk hr hr'

/-- An object that owned nothing replaced by one that owns nothing. -/
theorem Inv.idle {s : St} (hi : Inv s) {i : Nat} (v : Option Obj) (hn : ∀ o', s.obj i = some o' → ∀ r, ¬ Owns o' r)
    (hv : ∀ o', v = some o' → ∀ r, ¬ Owns o' r) : Inv { obj := upd s.obj i v, log := s.log } := by
  obtain ⟨h1, h2, h3, h4⟩ := hi
  refine ⟨h1, fun r hr => ?_, fun r j o' hj hr => ?_, fun r j k o1 o2 hj hk hr hr' => ?_⟩
  · obtain ⟨j, o', hj, ho'⟩ := h2 r hr
    have : j ≠ i := by rintro rfl; exact hn o' hj r ho'
    exact ⟨j, o', by simp only [upd, this, if_false]; exact hj, ho'⟩
  · by_cases e : j = i
    · subst e; simp only [upd, if_true] at hj; exact absurd hr (hv o' hj r)
    · simp only [upd, e, if_false] at hj; exact h3 r j o' hj hr
  · by_cases e : j = i
    · subst e; simp only [upd, if_true] at hj; exact absurd hr (hv o1 hj r)
    · by_cases e' : k = i
      · subst e'; simp only [upd, if_true] at hk; exact absurd hr' (hv o2 hk r)
      · simp only [upd, e, e', if_false] at hj hk; exact h4 r j k o1 o2 hj hk hr hr'

/-- What object `j` owned passed to object `i`, which owned nothing. -/
theorem Inv.pass {s : St} (hi : Inv s) {i j : Nat} (hne : i ≠ j) {o : Obj} (ho : s.obj j = some o)
    (hn : ∀ o', s.obj i = some o' → ∀ r, ¬ Owns o' r) :
    Inv { obj := upd (upd s.obj j (some (moved o))) i (some o), log := s.log } := by
  obtain ⟨h1, h2, h3, h4⟩ := hi
  have look : ∀ k ok r, upd (upd s.obj j (some (moved o))) i (some o) k = some ok → Owns ok r →
      ∃ k', s.obj k' = some ok ∧ (k = i ∧ k' = j ∨ k ≠ i ∧ k ≠ j ∧ k' = k) := by
    intro k ok r hk hr
    unfold upd at hk
    by_cases e : k = i
    · simp only [e, if_true] at hk; cases hk; exact ⟨j, ho, .inl ⟨e, rfl⟩⟩
    · simp only [e, if_false] at hk
      by_cases e' : k = j
      · simp only [e', if_true] at hk; cases hk; exact absurd hr (moved_owns o r)
      · simp only [e', if_false] at hk; exact ⟨k, hk, .inr ⟨e, e', rfl⟩⟩
  refine ⟨h1, fun r hr => ?_, fun r k o' hk hr => ?_, fun r k l o1 o2 hk hl hr hr' => ?_⟩
  · obtain ⟨k, o', hk, ho'⟩ := h2 r hr
    by_cases e : k = j
    · subst e; rw [ho] at hk; cases hk; exact ⟨i, o, by simp [upd], ho'⟩
    · have e' : k ≠ i := by rintro rfl; exact hn o' hk r ho'
      exact ⟨k, o', by simp only [upd, e, e', if_false]; exact hk, ho'⟩
  · obtain ⟨k', hk', -⟩ := look k o' r hk hr
    exact h3 r k' o' hk' hr
  · obtain ⟨k', hk', ek⟩ := look k o1 r hk hr
    obtain ⟨l', hl', el⟩ := look l o2 r hl hr'
    have := h4 r k' l' o1 o2 hk' hl' hr hr'
    omega

theorem upd_upd_same (f : Nat → Option Obj) (k : Nat) (a b : Option Obj) : upd (upd f k a) k b = upd f k b := by
  funext x; unfold upd; by_cases h : x = k <;> simp [h]

theorem upd_comm (f : Nat → Option Obj) {k l : Nat} (h : k ≠ l) (a b : Option Obj) :
    upd (upd f k a) l b = upd (upd f l b) k a := by
  funext x; unfold upd; grind

theorem step_inv (s : St) (a : Act) (s' : St) (hi : Inv s) (h : step s a = some s') : Inv s' := by
  cases a with
  | fdNew i n =>
    simp only [step] at h
    split at h
    case isFalse => cases h
    rename_i ho
    unfold openFd at h
    split at h
    · rename_i hn; subst hn
      simp only [Option.map_some, Option.some.injEq] at h; subst h
      refine hi.idle _ (fun o' h => by rw [ho] at h; cases h) fun o' h r hr => ?_
      cases h
      rcases hr with ⟨m, h1, h2, -⟩ | ⟨p, z, h1, -⟩ <;> simp [fdCtor] at h1
      exact h2 h1.symm
    · rename_i hn
      split at h
      case isFalse => simp at h
      rename_i hq
      simp only [Option.map_some, Option.some.injEq] at h; subst h
      exact hi.take _ (fun o' h => by rw [ho] at h; cases h) _ (.inl ⟨n, rfl, hn, rfl⟩) hq.2
  | mapNew i p z =>
    simp only [step] at h
    split at h
    case isFalse => cases h
    rename_i ho
    unfold openMap at h
    split at h
    · rename_i hn; subst hn
      simp only [Option.map_some, Option.some.injEq] at h; subst h
      refine hi.idle _ (fun o' h => by rw [ho] at h; cases h) fun o' h r hr => ?_
      cases h
      rcases hr with ⟨m, h1, h2, -⟩ | ⟨p', z', h1, h2, -⟩ <;> simp [mapCtor] at h1
      exact h2 h1.1.symm
    · rename_i hn
      split at h
      case isFalse => simp at h
      rename_i hq
      simp only [Option.map_some, Option.some.injEq] at h; subst h
      exact hi.take _ (fun o' h => by rw [ho] at h; cases h) _ (.inr ⟨p, z, by simp [mapCtor, hn], hq.1, rfl⟩) hq.2
  | move i j =>
    simp only [step] at h
    split at h
    case isFalse => cases h
    rename_i ho
    cases hj : s.obj j with
    | none => rw [hj] at h; simp at h
    | some o =>
      rw [hj] at h
      simp only [Option.map_some, Option.some.injEq] at h; subst h
      exact hi.pass (by rintro rfl; rw [ho] at hj; cases hj) hj fun o' h => by rw [ho] at h; cases h
  | assign i j =>
    simp only [step] at h
    cases ei : s.obj i with
    | none => simp [ei] at h
    | some o =>
      cases ej : s.obj j with
      | none => simp [ei, ej] at h
      | some o' =>
        simp only [ei, ej] at h
        split at h
        case isFalse => cases h
        split at h
        · cases h; exact hi
        · rename_i hne
          cases h
          rw [assign_spec]
          have h1 := hi.release ei (some (moved o)) (fun o' h => by cases h; exact moved_owns o)
          have h2 := h1.pass (i := i) (j := j) hne (o := o') (by simp only [upd, Ne.symm hne, if_false]; exact ej)
            (fun o' h => by simp only [upd, if_true] at h; cases h; exact moved_owns o)
          have e : upd (upd (upd s.obj i (some (moved o))) j (some (moved o'))) i (some o')
              = upd (upd s.obj j (some (moved o'))) i (some o') := by
            rw [upd_comm _ hne, upd_upd_same]
          simp only [e] at h2
          exact h2
  | reset i m =>
    simp only [step] at h
    split at h
    case h_2 => cases h
    rename_i n hn
    have hempty : ∀ r, ¬ Owns (.fd (-1)) r := by
      rintro r (⟨k, h1, h2, -⟩ | ⟨p, z, h1, -⟩)
      · cases h1; exact h2 rfl
      · cases h1
    unfold openFd at h
    split at h
    · rename_i hm; subst hm
      simp only [Option.map_some, Option.some.injEq] at h; subst h
      exact hi.release hn (some (.fd (-1))) fun o' h => by cases h; exact hempty
    · rename_i hm
      split at h
      case isFalse => simp at h
      rename_i hq
      simp only [Option.map_some, Option.some.injEq] at h; subst h
      obtain ⟨q1, q2⟩ := hq
      -- the new descriptor is opened while the old one is held: hold it in a fresh object first
      obtain ⟨h1, h2, h3, h4⟩ := hi
      have hm' : Owns (.fd m) (.fd m) := .inl ⟨m, rfl, hm, rfl⟩
      rcases dtor_spec (.fd n) with ⟨hd, hno⟩ | ⟨q, hd, hno⟩
      · have hd' : (fdReset n m).2 = [] := hd
        rw [hd', List.append_nil]
        exact Inv.take ⟨h1, h2, h3, h4⟩ _ (fun o' h => by rw [hn] at h; cases h; exact hno) _ hm' q2
      · have hd' : (fdReset n m).2 = [.rel q] := hd
        rw [hd']
        have hop := h3 q i _ hn hno
        have hqm : q ≠ .fd m := by rintro rfl; unfold Open at hop; omega
        have hu := h1.acq q2
        have hop' : Open (s.log ++ [.acq (.fd m)]) q := by unfold Open at hop ⊢; simpa [Ne.symm hqm] using hop
        refine ⟨hu.rel hop', fun r hr => ?_, fun r j o' hj hr => ?_, fun r j k o1 o2 hj hk hr hr' => ?_⟩
        · by_cases e : r = .fd m
          · subst e; exact ⟨i, .fd m, by simp [upd, fdReset], hm'⟩
          · have hqr : q ≠ r := by rintro rfl; unfold Open at hr hop'; simp at hr hop'; omega
            have hr' : Open s.log r := by unfold Open at hr ⊢; simpa [Ne.symm e, hqr] using hr
            obtain ⟨j, o', hj, ho'⟩ := h2 r hr'
            have : j ≠ i := by rintro rfl; rw [hn] at hj; cases hj; exact hqr (owns_det hno ho')
            exact ⟨j, o', by simp only [upd, this, if_false]; exact hj, ho'⟩
        · by_cases e : j = i
          · subst e; simp only [upd, if_true] at hj; cases hj
            have := owns_det hm' hr; subst this
            unfold Open; simp [hqm]; omega
          · simp only [upd, e, if_false] at hj
            have ho := h3 r j o' hj hr
            have e1 : q ≠ r := by rintro rfl; exact e (h4 q j i o' _ hj hn hr hno)
            have e2 : Res.fd m ≠ r := by rintro rfl; unfold Open at ho; omega
            unfold Open at ho ⊢; simpa [e1, e2] using ho
        · have key : ∀ l ol, s.obj l = some ol → Owns ol (.fd m) → False := by
            intro l ol hl hol
            have := h3 _ l ol hl hol
            unfold Open at this; omega
          by_cases e : j = i <;> by_cases e' : k = i
          · rw [e, e']
          · subst e; simp only [upd, if_true, e', if_false] at hj hk; cases hj
            have := owns_det hm' hr; subst this
            exact (key k o2 hk hr').elim
          · subst e'; simp only [upd, if_true, e, if_false] at hj hk; cases hk
            have := owns_det hm' hr'; subst this
            exact (key j o1 hj hr).elim
          · simp only [upd, e, e', if_false] at hj hk; exact h4 r j k o1 o2 hj hk hr hr'
  | drop i =>
    simp only [step] at h
    cases hj : s.obj i with
    | none => rw [hj] at h; simp at h
    | some o =>
      rw [hj] at h
      simp only [Option.map_some, Option.some.injEq] at h; subst h
      exact hi.release hj none fun o' h => by cases h

theorem inv_reach {s : St} (h : Reach init step s) : Inv s := by
  refine Reach.inv Inv ⟨WellUsed.nil, ?_, ?_, ?_⟩ (fun s a s' hi he => step_inv s a s' hi he) s h
  · intro r hr; unfold Open at hr; simp [init] at hr
  · intro r i o hi; simp [init] at hi
  · intro r i j o o' hi; simp [init] at hi

/-! ## C102 -/

/-- **C102.** Whatever the program: nothing is given back that is not held, nothing twice. -/
theorem C102_once {s : St} (h : Reach init step s) : WellUsed s.log := (inv_reach h).used

/-- **C102.** A resource is held exactly as long as some object owns it, and never by two. -/
theorem C102_owner {s : St} (h : Reach init step s) (r : Res) :
    (Open s.log r ↔ ∃ i o, s.obj i = some o ∧ Owns o r)
    ∧ ∀ i j o o', s.obj i = some o → s.obj j = some o' → Owns o r → Owns o' r → i = j :=
  ⟨⟨(inv_reach h).owner r, fun ⟨i, o, hi, ho⟩ => (inv_reach h).isOpen r i o hi ho⟩, (inv_reach h).uniq r⟩

/-- **C102.** When all objects are gone, everything was given back. -/
theorem C102_no_leak {s : St} (h : Reach init step s) (hd : ∀ i, s.obj i = none) : Balanced s.log := by
  intro r
  have hu := (C102_once h).whole r
  by_cases e : Open s.log r
  · obtain ⟨i, o, hi, -⟩ := (inv_reach h).owner r e
    rw [hd i] at hi; cases hi
  · unfold Open at e; omega

/-- **C102.** A move, by construction or assignment, hands over what was owned: the source owns nothing afterwards, what the target owned
    before is given back, the others are untouched, and the source is as if default-constructed; assigning an object to itself changes nothing. -/
theorem C102_move (s s' : St) (i j : Nat) (h : step s (.move i j) = some s' ∨ step s (.assign i j) = some s') :
    (i ≠ j → s'.obj i = s.obj j ∧ ∃ o, s'.obj j = some o ∧ (o = fdEmpty ∨ o = mapEmpty) ∧ ∀ r, ¬ Owns o r)
    ∧ (i = j → s' = s)
    ∧ ∀ k, k ≠ i → k ≠ j → s'.obj k = s.obj k := by
  rcases h with h | h
  · simp only [step] at h
    split at h
    case isFalse => cases h
    rename_i ho
    cases hj : s.obj j with
    | none => rw [hj] at h; simp at h
    | some o =>
      rw [hj] at h
      simp only [Option.map_some, Option.some.injEq] at h; subst h
      refine ⟨fun hne => ⟨by simp [upd], moved o, by simp [upd, Ne.symm hne], moved_empty o, moved_owns o⟩, ?_, ?_⟩
      · rintro rfl; rw [ho] at hj; cases hj
      · intro k h1 h2; simp [upd, h1, h2]
  · simp only [step] at h
    cases ei : s.obj i with
    | none => simp [ei] at h
    | some o =>
      cases ej : s.obj j with
      | none => simp [ei, ej] at h
      | some o' =>
        simp only [ei, ej] at h
        split at h
        case isFalse => cases h
        split at h
        · rename_i e; cases h
          exact ⟨fun hne => absurd e hne, fun _ => rfl, fun _ _ _ => rfl⟩
        · rename_i hne
          cases h
          rw [assign_spec]
          refine ⟨fun _ => ⟨by simp [upd], moved o', by simp [upd, Ne.symm hne], moved_empty o', moved_owns o'⟩, fun e => absurd e hne, ?_⟩
          intro k h1 h2; simp [upd, h1, h2]

/-- **C102.** The conversion to `bool` says whether the object owns something. -/
theorem C102_bool (o : Obj) : toBool o = true ↔ ∃ r, Owns o r := by
  cases o with
  | fd n =>
    simp only [toBool, decide_eq_true_eq]
    constructor
    · intro h; exact ⟨.fd n, .inl ⟨n, rfl, h, rfl⟩⟩
    · rintro ⟨r, ⟨m, h1, h2, -⟩ | ⟨p, z, h1, -⟩⟩
      · cases h1; exact h2
      · cases h1
  | map p z =>
    simp only [toBool, decide_eq_true_eq]
    constructor
    · intro h; exact ⟨.map p z, .inr ⟨p, z, rfl, h, rfl⟩⟩
    · rintro ⟨r, ⟨m, h1, -⟩ | ⟨p', z', h1, h2, -⟩⟩
      · cases h1
      · cases h1; exact h2

/-- A program that opens two descriptors and a mapping, moves, assigns, resets, and destroys everything. -/
example : ∃ s, Reach init step s ∧
    (s.log == [.acq (.fd 3), .acq (.fd 4), .acq (.map 4096 64), .rel (.fd 4), .acq (.fd 4), .rel (.fd 3), .rel (.map 4096 64), .rel (.fd 4)]
      && ((List.range 4).all fun i => s.obj i == none)) = true :=
  Reach.witness (init := init) (step := step)
    [.fdNew 0 3, .fdNew 1 4, .mapNew 2 4096 64, .assign 1 0, .move 3 2, .reset 1 4, .drop 2, .drop 3, .drop 0, .drop 1]
    (fun s : St => s.log == [.acq (.fd 3), .acq (.fd 4), .acq (.map 4096 64), .rel (.fd 4), .acq (.fd 4), .rel (.fd 3), .rel (.map 4096 64), .rel (.fd 4)]
      && ((List.range 4).all fun i => s.obj i == none)) (by decide +kernel)

/-- **C102, a precondition that is not checked.** `fd.reset(fd.native_handle())` closes the descriptor and keeps it: when the object is
    destroyed, the descriptor is closed a second time, and whoever has opened it in the meantime loses it. -/
theorem C102_reset_self (s : St) (i : Nat) (n : Int) (hn : n ≠ -1) (hi : s.obj i = some (.fd n)) (h : Reach init step s) :
    ∃ s1 s2, resetSelf s i = some s1 ∧ step s1 (.drop i) = some s2 ∧ ¬ WellUsed s2.log := by
  have ho : Open s.log (.fd n) := (inv_reach h).isOpen _ i _ hi (.inl ⟨n, rfl, hn, rfl⟩)
  refine ⟨_, _, by simp only [resetSelf, hi]; rfl, by simp only [step, upd, if_true, Option.map_some]; rfl, fun hw => ?_⟩
  have := hw.whole (.fd n)
  unfold Open at ho
  simp [fdReset, hn, dtor] at this
  omega

example : ∃ s : St, Reach init step s ∧ s.obj 0 = some (.fd 3) ∧ (3 : Int) ≠ -1 := by
  obtain ⟨s, h, e⟩ := Reach.witness (init := init) (step := step) [.fdNew 0 3] (fun s : St => s.obj 0 == some (.fd 3)) (by decide +kernel)
  exact ⟨s, h, by simpa using e, by decide⟩

/-! ### The set-up of the context -/

/-- What the machine hands out is usable, and each thing is handed out once. -/
structure Sane (m : Machine) : Prop where
  ring : ∀ n, m.ring = .ok n → 0 ≤ n
  event : ∀ n, m.event = .ok n → 0 ≤ n
  fds : ∀ a b, m.ring = .ok a → m.event = .ok b → a ≠ b
  maps : ∀ k p, m.maps k = .ok p → p ≠ 0 ∧ p ≠ mapFailed
  distinct : ∀ k k' p p', m.maps k = .ok p → m.maps k' = .ok p' → k ≠ k' → p ≠ p'

theorem mapRegion_ok (p z : Nat) (l : List Ev) (h : p ≠ mapFailed) :
    mapRegion (.ok p) z l = (.ok (.map p z), l ++ [.acq (.map p z)]) := by
  simp [mapRegion, assign, mapEmpty, mapCtor, h, moved, dtor]

theorem mapRegion_error (e : Int) (z : Nat) (l : List Ev) : mapRegion (.error e) z l = (.error e, l) := rfl

/-- Whatever goes wrong during the construction, and also if nothing does: the whole life of the context is a good use of the
    operating system, and what was handed out is given back; if the constructor throws, before the exception leaves it. -/
theorem C102_setup (m : Machine) (hm : Sane m) :
    WellUsed ((setup m).2 ++ teardown (setup m).1) ∧ Balanced ((setup m).2 ++ teardown (setup m).1)
    ∧ ∀ c, (setup m).1 = .throws c → Balanced (setup m).2 := by
  have key : WellUsed ((setup m).2 ++ teardown (setup m).1) ∧ Balanced ((setup m).2 ++ teardown (setup m).1) := by
    have h1 := hm.ring
    have h2 := hm.event
    have h3 := hm.fds
    have h40 := hm.maps 0
    have h41 := hm.maps 1
    have h42 := hm.maps 2
    have d01 := fun p p' a b => hm.distinct 0 1 p p' a b (by decide)
    have d02 := fun p p' a b => hm.distinct 0 2 p p' a b (by decide)
    have d12 := fun p p' a b => hm.distinct 1 2 p p' a b (by decide)
    unfold setup
    generalize m.ring = a1 at *
    generalize m.event = a2 at *
    generalize m.maps 0 = a3 at *
    generalize m.maps 1 = a4 at *
    generalize m.maps 2 = a5 at *
    have good : ∀ l : List Ev, WellUsed l → Balanced l → WellUsed l ∧ Balanced l := fun _ a b => ⟨a, b⟩
    rcases a1 with e | r
    · refine good _ ?_ ?_
      · simpa [dtor, mapEmpty, teardown] using WellUsed.nil
      · intro q; simp [dtor, mapEmpty, teardown]
    · have r0 := h1 r rfl
      have rn : r ≠ -1 := by omega
      have w1 : WellUsed [.acq (.fd r)] := WellUsed.nil.acq (by simp)
      rcases a2 with e | v
      · refine good _ ?_ ?_
        · simpa [dtor, mapEmpty, teardown, fdCtor, rn] using w1.rel (q := .fd r) (by simp [Open])
        · intro q; simp [dtor, mapEmpty, teardown, fdCtor, rn]
      · have v0 := h2 v rfl
        have vn : v ≠ -1 := by omega
        have rv : r ≠ v := h3 r v rfl rfl
        have w2 : WellUsed ([.acq (.fd r)] ++ [.acq (.fd v)]) := w1.acq (by simp [rv])
        simp only []
        generalize (if m.single = true then max m.sq m.cq else m.sq) = sz1
        generalize (if m.single = true then sz1 else m.cq) = sz3
        generalize m.sqes = sz2
        rcases a3 with e | p0
        · simp only [mapRegion_error]
          refine good _ ?_ ?_
          · have := (w2.rel (q := .fd v) (by simp [Open, rv])).rel (q := .fd r) (by simp [Open, rv, Ne.symm rv])
            simpa [dtor, mapEmpty, teardown, fdCtor, rn, vn] using this
          · intro q; simp [dtor, mapEmpty, teardown, fdCtor, rn, vn]; omega
        · obtain ⟨z0, f0⟩ := h40 p0 rfl
          have w3 := w2.acq (q := .map p0 sz1) (by simp)
          simp only [mapRegion_ok p0 sz1 _ f0]
          rcases a4 with e | p1
          · simp only [mapRegion_error]
            refine good _ ?_ ?_
            · have := ((w3.rel (q := .fd v) (by simp [Open, rv])).rel (q := .fd r) (by simp [Open, rv, Ne.symm rv])).rel
                (q := .map p0 sz1) (by simp [Open])
              simpa [dtor, mapEmpty, teardown, fdCtor, rn, vn, z0] using this
            · intro q; simp [dtor, mapEmpty, teardown, fdCtor, rn, vn, z0]; omega
          · obtain ⟨z1, f1⟩ := h41 p1 rfl
            have n01 := d01 p0 p1 rfl rfl
            have w4 := w3.acq (q := .map p1 sz2) (by simp [n01])
            simp only [mapRegion_ok p1 sz2 _ f1]
            by_cases hs : m.single = true
            · simp only [hs, if_true]
              refine good _ ?_ ?_
              · have := (((w4.rel (q := .fd v) (by simp [Open, rv])).rel (q := .fd r) (by simp [Open, rv, Ne.symm rv])).rel
                  (q := .map p1 sz2) (by simp [Open, n01])).rel (q := .map p0 sz1) (by simp [Open, n01, Ne.symm n01])
                simpa [dtor, mapEmpty, teardown, fdCtor, rn, vn, z0, z1] using this
              · intro q; simp [dtor, mapEmpty, teardown, fdCtor, rn, vn, z0, z1]; omega
            · simp only [hs, if_false]
              rcases a5 with e | p2
              · simp only [mapRegion_error]
                refine good _ ?_ ?_
                · have := (((w4.rel (q := .fd v) (by simp [Open, rv])).rel (q := .fd r) (by simp [Open, rv, Ne.symm rv])).rel
                    (q := .map p1 sz2) (by simp [Open, n01])).rel (q := .map p0 sz1) (by simp [Open, n01, Ne.symm n01])
                  simpa [dtor, mapEmpty, teardown, fdCtor, rn, vn, z0, z1] using this
                · intro q; simp [dtor, mapEmpty, teardown, fdCtor, rn, vn, z0, z1]; omega
              · obtain ⟨z2, f2⟩ := h42 p2 rfl
                have n02 := d02 p0 p2 rfl rfl
                have n12 := d12 p1 p2 rfl rfl
                have w5 := w4.acq (q := .map p2 sz3) (by simp [n02, n12])
                simp only [mapRegion_ok p2 sz3 _ f2]
                refine good _ ?_ ?_
                · have := ((((w5.rel (q := .fd v) (by simp [Open, rv])).rel (q := .fd r) (by simp [Open, rv, Ne.symm rv])).rel
                    (q := .map p1 sz2) (by simp [Open, n01, n12, Ne.symm n12])).rel (q := .map p2 sz3)
                      (by simp [Open, n02, n12, Ne.symm n12])).rel (q := .map p0 sz1)
                      (by simp [Open, n01, Ne.symm n01, n02, Ne.symm n02])
                  simpa [dtor, mapEmpty, teardown, fdCtor, rn, vn, z0, z1, z2] using this
                · intro q; simp [dtor, mapEmpty, teardown, fdCtor, rn, vn, z0, z1, z2]; omega
  refine ⟨key.1, key.2, fun c hc => ?_⟩
  have := key.2
  rw [hc] at this
  simpa [teardown] using this

/-- The rings and the entries lie inside the mappings: the submission ring and the submission entries in theirs, the completion ring
    in the region that the completion queue is given, whether it is mapped on its own or not. -/
theorem C102_regions (m : Machine) (hm : Sane m) (subm compl entries ring event : Obj)
    (h : (setup m).1 = .ok subm compl entries ring event) :
    (∃ p z, subm = .map p z ∧ m.sq ≤ z ∧ m.maps 0 = .ok p)
    ∧ (∃ p z, entries = .map p z ∧ m.sqes ≤ z ∧ m.maps 1 = .ok p)
    ∧ (∃ p z, complRegion (setup m).1 = some (.map p z) ∧ m.cq ≤ z ∧ m.maps (if m.single = true then 0 else 2) = .ok p)
    ∧ (∃ n, ring = .fd n ∧ m.ring = .ok n) ∧ ∃ n, event = .fd n ∧ m.event = .ok n := by
  have h40 := hm.maps 0
  have h41 := hm.maps 1
  have h42 := hm.maps 2
  revert h
  unfold setup
  cases m.ring with
  | error e => simp
  | ok r =>
    cases m.event with
    | error e => simp
    | ok v =>
      simp only []
      cases e0 : m.maps 0 with
      | error e => simp [mapRegion_error]
      | ok p0 =>
        obtain ⟨z0, f0⟩ := h40 p0 e0
        simp only [mapRegion_ok p0 _ _ f0]
        cases e1 : m.maps 1 with
        | error e => simp [mapRegion_error]
        | ok p1 =>
          obtain ⟨z1, f1⟩ := h41 p1 e1
          simp only [mapRegion_ok p1 _ _ f1]
          by_cases hs : m.single = true
          · simp only [hs, if_true]
            intro h; cases h
            refine ⟨⟨_, _, rfl, by omega, rfl⟩, ⟨_, _, rfl, by omega, rfl⟩, ⟨p0, _, by simp [complRegion, toBool, mapEmpty]; rfl, by omega, e0⟩,
              ⟨_, rfl, rfl⟩, ⟨_, rfl, rfl⟩⟩
          · simp only [hs, if_false]
            cases e2 : m.maps 2 with
            | error e => simp [mapRegion_error]
            | ok p2 =>
              obtain ⟨z2, f2⟩ := h42 p2 e2
              simp only [mapRegion_ok p2 _ _ f2]
              intro h; cases h
              refine ⟨⟨_, _, rfl, by simp, rfl⟩, ⟨_, _, rfl, by omega, rfl⟩, ⟨p2, _, by simp [complRegion, toBool, z2]; rfl, by simp, e2⟩,
                ⟨_, rfl, rfl⟩, ⟨_, rfl, rfl⟩⟩

/-- The code of the exception is the error of the call that failed, for all calls but `io_uring_setup`. -/
theorem C102_setup_code (m : Machine) (e : Int) (r : Int) (hr : m.ring = .ok r) :
    (m.event = .error e → (setup m).1 = .throws e)
    ∧ (∀ v, m.event = .ok v → m.maps 0 = .error e → (setup m).1 = .throws e)
    ∧ (∀ v p, m.event = .ok v → m.maps 0 = .ok p → m.maps 1 = .error e → (setup m).1 = .throws e)
    ∧ ∀ v p q, m.event = .ok v → m.maps 0 = .ok p → m.maps 1 = .ok q → m.single = false → m.maps 2 = .error e →
        (setup m).1 = .throws e := by
  refine ⟨fun h1 => ?_, fun v h1 h2 => ?_, fun v p h1 h2 h3 => ?_, fun v p q h1 h2 h3 h4 h5 => ?_⟩
  · simp [setup, hr, h1]
  · simp [setup, hr, h1, h2, mapRegion]
  · simp [setup, hr, h1, h2, h3, mapRegion]
  · simp [setup, hr, h1, h2, h3, h4, h5, mapRegion]

/-- **C102, the finding.** Whatever makes `io_uring_setup` fail, the code of the exception is `EPERM`: `::syscall` returns -1 for every
    error, and the code is computed from that (:74-75), not from `errno`. -/
theorem C102_setup_code_violated (m : Machine) (e : Int) (h : m.ring = .error e) : (setup m).1 = .throws 1 := by
  simp [setup, h]

/-- A machine on which everything works, and one on which the third mapping fails. -/
def good (single : Bool) : Machine :=
  { ring := .ok 3, event := .ok 4, maps := fun k => .ok (4096 * (k.val + 1)), single := single, sq := 100, cq := 300, sqes := 640 }

example : Sane (good true) ∧ Sane (good false)
    ∧ (setup (good true)).1 = .ok (.map 4096 300) mapEmpty (.map 8192 640) (.fd 3) (.fd 4)
    ∧ (setup (good false)).1 = .ok (.map 4096 100) (.map 12288 300) (.map 8192 640) (.fd 3) (.fd 4)
    ∧ (setup { good false with maps := fun k => if k = 2 then .error 12 else .ok (4096 * (k.val + 1)) }).1 = .throws 12
    ∧ (setup { good false with ring := .error 12 }).1 = .throws 1 := by
  have sane : ∀ b, Sane (good b) := by
    intro b
    refine ⟨?_, ?_, ?_, ?_, ?_⟩
    · intro n h; cases h; decide
    · intro n h; cases h; decide
    · intro a b h h'; cases h; cases h'; decide
    · intro k p h; cases h; unfold mapFailed; have := k.isLt; omega
    · intro k k' p p' h h' hne; cases h; cases h'
      intro e; exact hne (Fin.ext (by omega))
  exact ⟨sane _, sane _, by decide +kernel, by decide +kernel, by decide +kernel, by decide +kernel⟩

end Verif.Owned
