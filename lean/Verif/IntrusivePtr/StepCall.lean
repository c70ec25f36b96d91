import Verif.IntrusivePtr.StepGo
/-! # Calls preserve the invariant -/
namespace Verif.IntrusivePtr
set_option maxHeartbeats 1000000

theorem T_isRdO_le {c : Cfg} {s : St} (w : Nat) : T c (isRdO w) s ≤ T c (isRd w) s := by
  have hf : ∀ l : List Frame, fsum (isRdO w) l ≤ fsum (isRd w) l := by
    intro l
    induction l with
    | nil => exact Nat.le_refl _
    | cons a l ih => have := isRdO_le w a; simp only [fsum]; omega
  unfold T
  generalize c.thr = l
  induction l with
  | nil => exact Nat.le_refl _
  | cons a l ih => have := hf (s.fr a); simp only [lsum]; omega

theorem upd_self (f : Nat → List Frame) (t : Nat) : f = upd f t (f t) := by
  funext x; by_cases hx : x = t
  · subst hx; simp
  · rw [upd_other _ _ hx]

/-- A call adds the frames `b` (none or one) to the stack of `t`. -/
theorem inv_call {c : Cfg} {s s' : St} {t : Nat} (b : List Frame) (h : Inv c s) (ht : t ∈ c.thr)
    (hfr : s'.fr = upd s.fr t (b ++ s.fr t))
    (hch : ∀ w, ¬ (s'.ptr w = s.ptr w ∧ s'.live w = s.live w) → T c (isRd w) s = 0 ∧ T c (isWr w) s = 0)
    (hcnt : ∀ o, count c (s'.word o) = lsum (hold o) s'.ptr c.vars + s'.raw o + T c (own o) s + fsum (own o) b)
    (hdt : ∀ o, s'.dtors o + T c (isDel o) s + fsum (isDel o) b
      = (if s'.made o = true ∧ count c (s'.word o) = 0 then 1 else 0))
    (hfd : ∀ o, s'.freed o + T c (isDtor o) s + fsum (isDtor o) b = s'.dtors o)
    (hok : ∀ f ∈ b, okF c s' f)
    (hraw : ∀ o, T c (isRawRd o) s + fsum (isRawRd o) b ≤ s'.raw o)
    (hnl : ∀ v, s'.live v = false → s'.ptr v = none)
    (hlv : ∀ v, s'.live v = true → v ∈ c.vars)
    (hwr : ∀ v, fsum (isWr v) b = 0 ∨ (fsum (isWr v) b ≤ 1 ∧ T c (isWr v) s = 0 ∧ T c (isRd v) s + fsum (isRdO v) b = 0))
    (hrd : ∀ v, fsum (isRdO v) b = 0 ∨ T c (isWr v) s = 0)
    (hfresh : ∀ o, s'.made o = false → s'.word o = 0)
    (hnb : s'.bad = false) : Inv c s' := by
  refine inv_gen h ht hfr ?_ ?_ ?_ ?_ ?_ ?_ hnl hlv ?_ ?_ hfresh hnb
  · intro w hw; have := hch w hw; have := T_isRdO_le (c := c) (s := s) w; omega
  · intro o; have := hcnt o; rw [fsum_append]; omega
  · intro o; have := hdt o; rw [fsum_append]; omega
  · intro o; have := hfd o; rw [fsum_append]; omega
  · intro f hf
    rcases List.mem_append.1 hf with hf | hf
    · exact hok f hf
    · refine ok_all h ht (fun w hw => ?_) f hf
      have := hch w hw; have := T_isRdO_le (c := c) (s := s) w; omega
  · intro o; have := hraw o; rw [fsum_append]; omega
  · intro v; have := hwr v; rw [fsum_append]; omega
  · intro v
    have := hwr v; have := hrd v; have := T_isRdO_le (c := c) (s := s) v; have := h.rw_ v
    have h1 := le_T (s := s) (isWr v) ht
    have h2 := le_T (s := s) (isRdO v) ht
    simp only [fsum_append]; omega

theorem canCall_mem {c : Cfg} {s : St} {t : Nat} (h : canCall c s t = true) : t ∈ c.thr := by
  simp only [canCall, Bool.and_eq_true, decide_eq_true_eq] at h; exact h.1

theorem writable_iff {c : Cfg} {s : St} {v : Nat} : writable c s v = true ↔
    s.live v = true ∧ T c (isRd v) s = 0 ∧ T c (isWr v) s = 0 := by
  simp [writable, free]

theorem constructible_iff {c : Cfg} {s : St} {v : Nat} : constructible c s v = true ↔
    v ∈ c.vars ∧ s.live v = false ∧ T c (isRd v) s = 0 ∧ T c (isWr v) s = 0 := by
  simp [constructible, free, and_assoc]

theorem readable_iff {c : Cfg} {s : St} {v : Nat} : readable c s v = true ↔ s.live v = true ∧ T c (isWr v) s = 0 := by
  simp [readable]

theorem dst_cond {c : Cfg} {s : St} {d : Dst} (h : okDst c s d = true) :
    okD c s d ∧ ∀ v, d.is v = 0 ∨ (d.is v ≤ 1 ∧ T c (isWr v) s = 0 ∧ T c (isRd v) s = 0) := by
  cases d with
  | ctor v =>
      have h' := constructible_iff.1 h
      refine ⟨⟨h'.1, h'.2.1⟩, fun w => ?_⟩
      by_cases hw : v = w
      · subst hw; right; simp [Dst.is, h'.2.2]
      · left; simp [Dst.is, hw]
  | assign v =>
      have h' := writable_iff.1 h
      refine ⟨h'.1, fun w => ?_⟩
      by_cases hw : v = w
      · subst hw; right; simp [Dst.is, h'.2]
      · left; simp [Dst.is, hw]
  | raw => exact ⟨trivial, fun _ => Or.inl rfl⟩

/-- A call that only pushes a frame which reads a variable, or nothing, and will write `d`. -/
theorem call_push {c : Cfg} {s : St} {t : Nat} {f : Frame} (h : Inv c s) (ht : t ∈ c.thr)
    (hown : ∀ o, own o f = 0) (hdel : ∀ o, isDel o f = 0) (hdtor : ∀ o, isDtor o f = 0)
    (hok : okF c s f) (hraw : ∀ o, T c (isRawRd o) s + isRawRd o f ≤ s.raw o)
    (hwr : ∀ v, isWr v f = 0 ∨ (isWr v f ≤ 1 ∧ T c (isWr v) s = 0 ∧ T c (isRd v) s = 0))
    (hrd : ∀ v, isRd v f = 0 ∨ T c (isWr v) s = 0) : Inv c (push s t f) := by
  refine inv_call [f] h ht rfl (fun _ hw => absurd ⟨rfl, rfl⟩ hw) ?_ ?_ ?_ ?_ ?_ h.nl h.lv ?_ ?_ h.fresh h.nb
  · intro o; have := h.cnt o; simp only [fsum, hown, push]; omega
  · intro o; show _ + _ + (isDel o f + 0) = _; rw [hdel o]; exact h.dt o
  · intro o; have := h.fd o; simp only [fsum, hdtor, push]; omega
  · intro g hg; simp only [List.mem_singleton] at hg; subst hg
    exact okF_mono hok (fun _ _ => ⟨rfl, rfl⟩) (fun _ _ => rfl)
  · intro o; have := hraw o; simp only [fsum, push]; omega
  · intro v
    simp only [fsum]
    rcases hwr v with h0 | h0
    · left; omega
    · by_cases h1 : isWr v f = 0
      · left; omega
      · right
        have : isRdO v f = 0 := by simp [isRdO, h1]
        omega
  · intro v
    simp only [fsum]
    rcases hrd v with h0 | h0
    · left; simp [isRdO_zero h0]
    · right; exact h0

/-- A call that changes pointers and then releases what was displaced. -/
theorem call_ptr {c : Cfg} {s : St} {t : Nat} {p : Nat → Option Nat} {l : Nat → Bool} {x : Option Nat} (h : Inv c s)
    (ht : t ∈ c.thr)
    (hch : ∀ w, ¬ (p w = s.ptr w ∧ l w = s.live w) → T c (isRd w) s = 0 ∧ T c (isWr w) s = 0)
    (hcnt : ∀ o, lsum (hold o) s.ptr c.vars = lsum (hold o) p c.vars + hold o x)
    (hnl : ∀ v, l v = false → p v = none) (hlv : ∀ v, l v = true → v ∈ c.vars) :
    Inv c (pushDrop { s with ptr := p, live := l } t x) := by
  cases x with
  | none =>
      refine inv_call [] h ht (upd_self _ _) hch ?_ ?_ ?_ (fun _ hf => by cases hf) ?_ hnl hlv (fun _ => Or.inl rfl)
        (fun _ => Or.inl rfl) h.fresh h.nb
      · intro o; have := h.cnt o; have e := hcnt o; have e2 : hold o none = 0 := rfl; simp only [fsum, pushDrop]; omega
      · intro o; exact h.dt o
      · intro o; have := h.fd o; simp only [fsum, pushDrop]; omega
      · intro o; have := h.rawl o; simp only [fsum, pushDrop]; omega
  | some o1 =>
      refine inv_call [.drop o1] h ht rfl hch ?_ ?_ ?_ ?_ ?_ hnl hlv (fun _ => Or.inl rfl)
        (fun _ => Or.inl ?_) h.fresh h.nb
      · intro o; have := h.cnt o; have e := hcnt o
        have e2 : hold o (some o1) = own o (.drop o1) := by simp [hold, own]
        simp only [fsum, pushDrop, push]; omega
      · intro o; exact h.dt o
      · intro o; have := h.fd o; simp only [fsum, isDtor, pushDrop, push]; omega
      · intro f hf; simp only [List.mem_singleton] at hf; subst hf; trivial
      · intro o; have := h.rawl o; simp only [fsum, isRawRd, pushDrop, push]; omega
      · simp only [fsum, isRdO_zero (f := Frame.drop o1) rfl]

/-- Replacing one pointer value. -/
theorem lsum_ptr' {c : Cfg} (p : Nat → Option Nat) {v : Nat} (x : Option Nat) (hv : v ∈ c.vars) (o : Nat) :
    lsum (hold o) (upd p v x) c.vars + hold o (p v) = lsum (hold o) p c.vars + hold o x :=
  lsum_upd_in (c := hold o) (f := p) (b := x) c.ndv hv

theorem step_make {c : Cfg} {s s' : St} {t v o : Nat} (h : Inv c s) (he : step c s (.make t v o) = some s') : Inv c s' := by
  simp only [step] at he
  split at he
  case isFalse => cases he
  rename_i hg
  simp only [Bool.and_eq_true, Bool.not_eq_true'] at hg
  obtain ⟨⟨hc, hv⟩, hm⟩ := hg
  have hv' := constructible_iff.1 hv
  cases he
  have hw0 := h.fresh o hm
  have e1 := h.cnt o
  have e2 := h.dt o
  rw [hm] at e2; simp only [Bool.false_eq_true, false_and, if_false] at e2
  rw [hw0] at e1
  have e3 : count c 0 = 0 := by simp [count]
  have e4 := count_one c
  refine inv_call [.put (some o) (.ctor v)] h (canCall_mem hc) rfl (fun _ hw => absurd ⟨rfl, rfl⟩ hw) ?_ ?_ ?_ ?_ ?_ h.nl h.lv
    ?_ (fun w => Or.inl ?_) ?_ h.nb
  · intro x; have := h.cnt x
    by_cases hx : x = o
    · subst hx; simp [fsum, own, push]; omega
    · simp [fsum, own, push, upd_apply, hx, Ne.symm hx]; omega
  · intro x; have := h.dt x
    by_cases hx : x = o
    · subst hx; simp [fsum, isDel, push, e4]; omega
    · simpa [fsum, isDel, push, upd_apply, hx] using this
  · intro x; have := h.fd x; simp only [fsum, isDtor, push]; omega
  · intro f hf; simp only [List.mem_singleton] at hf; subst hf; exact ⟨hv'.1, hv'.2.1⟩
  · intro x; have := h.rawl x; simp only [fsum, isRawRd, push]; omega
  · intro w
    by_cases hw : v = w
    · subst hw; right
      simp [fsum, isWr, Dst.is, hv'.2.2, isRdO]
    · left; simp [fsum, isWr, Dst.is, hw]
  · simp only [fsum, isRdO_zero (f := Frame.put (some o) (.ctor v)) rfl]
  · intro x hx
    by_cases hxo : x = o
    · subst hxo; simp [push] at hx
    · simp only [push, upd_apply, hxo, if_false] at hx ⊢; exact h.fresh x hx

theorem step_copy {c : Cfg} {s s' : St} {t w : Nat} {d : Dst} (h : Inv c s) (he : step c s (.copy t d w) = some s') : Inv c s' := by
  simp only [step] at he
  split at he
  case isFalse => cases he
  rename_i hg
  simp only [Bool.and_eq_true] at hg
  obtain ⟨⟨hc, hd⟩, hr⟩ := hg
  have hr' := readable_iff.1 hr
  obtain ⟨hd1, hd2⟩ := dst_cond hd
  split at he
  · cases he
    exact call_push h (canCall_mem hc) (fun _ => rfl) (fun _ => rfl) (fun _ => rfl) hd1 (fun o => h.rawl o) hd2 (fun _ => Or.inl rfl)
  · rename_i o hp
    cases he
    refine call_push h (canCall_mem hc) (fun _ => rfl) (fun _ => rfl) (fun _ => rfl) ⟨hp, hr'.1, hd1⟩ (fun o => h.rawl o) hd2 ?_
    intro v
    by_cases hv : w = v
    · subst hv; right; exact hr'.2
    · left; simp [isRd, hv]

theorem step_fromRaw {c : Cfg} {s s' : St} {t o : Nat} {d : Dst} (h : Inv c s) (he : step c s (.fromRaw t d o) = some s') :
    Inv c s' := by
  simp only [step] at he
  split at he
  case isFalse => cases he
  rename_i hg
  simp only [Bool.and_eq_true, okSrc, decide_eq_true_eq] at hg
  obtain ⟨⟨hc, hd⟩, hr⟩ := hg
  obtain ⟨hd1, hd2⟩ := dst_cond hd
  cases he
  refine call_push h (canCall_mem hc) (fun _ => rfl) (fun _ => rfl) (fun _ => rfl) hd1 ?_ hd2 (fun _ => Or.inl rfl)
  intro x; have := h.rawl x
  by_cases hx : o = x
  · subst hx; simp [isRawRd]; omega
  · simp [isRawRd, hx]; omega

theorem step_moveCtor {c : Cfg} {s s' : St} {t v w : Nat} (h : Inv c s) (he : step c s (.moveCtor t v w) = some s') : Inv c s' := by
  simp only [step] at he
  split at he
  case isFalse => cases he
  rename_i hg
  simp only [Bool.and_eq_true] at hg
  obtain ⟨⟨hc, hv⟩, hw⟩ := hg
  have hv' := constructible_iff.1 hv
  have hw' := writable_iff.1 hw
  have hne : v ≠ w := by rintro rfl; rw [hw'.1] at hv'; cases hv'.2.1
  cases he
  have := call_ptr (t := t) (x := none) (p := upd (upd s.ptr w none) v (s.ptr w)) (l := upd s.live v true) h (canCall_mem hc) ?_ ?_ ?_ ?_
  · exact this
  · intro x hx
    by_cases h1 : x = v
    · subst h1; exact hv'.2.2
    · by_cases h2 : x = w
      · subst h2; exact hw'.2
      · simp [upd_apply, h1, h2] at hx
  · intro o
    have e1 := lsum_ptr' s.ptr none (h.lv w hw'.1) o
    have e2 := lsum_ptr' (upd s.ptr w none) (s.ptr w) hv'.1 o
    have e3 : upd s.ptr w none v = none := by rw [upd_other _ _ hne]; exact h.nl v hv'.2.1
    rw [e3] at e2
    have e4 : hold o none = 0 := rfl
    omega
  · intro x hx
    by_cases h1 : x = v
    · subst h1; simp at hx
    · simp only [upd_apply, h1, if_false] at hx ⊢
      split
      · rfl
      · exact h.nl x hx
  · intro x hx
    by_cases h1 : x = v
    · subst h1; exact hv'.1
    · simp only [upd_apply, h1, if_false] at hx; exact h.lv x hx

theorem step_moveAssign {c : Cfg} {s s' : St} {t v w : Nat} (h : Inv c s) (he : step c s (.moveAssign t v w) = some s') :
    Inv c s' := by
  simp only [step] at he
  split at he
  case isFalse => cases he
  rename_i hg
  simp only [Bool.and_eq_true] at hg
  obtain ⟨⟨hc, hv⟩, hw⟩ := hg
  have hv' := writable_iff.1 hv
  have hw' := writable_iff.1 hw
  cases he
  refine call_ptr (l := s.live) h (canCall_mem hc) ?_ ?_ ?_ h.lv
  · intro x hx
    by_cases h1 : x = v
    · subst h1; exact hv'.2
    · by_cases h2 : x = w
      · subst h2; exact hw'.2
      · simp [upd_apply, h1, h2] at hx
  · intro o
    have e1 := lsum_ptr' s.ptr none (h.lv w hw'.1) o
    have e2 := lsum_ptr' (upd s.ptr w none) (s.ptr w) (h.lv v hv'.1) o
    have e4 : hold o none = 0 := rfl
    omega
  · intro x hx
    by_cases h1 : x = v
    · subst h1; rw [hv'.1] at hx; cases hx
    · simp only [upd_apply, h1, if_false]
      split
      · rfl
      · exact h.nl x hx

theorem step_destroy {c : Cfg} {s s' : St} {t v : Nat} (h : Inv c s) (he : step c s (.destroy t v) = some s') : Inv c s' := by
  simp only [step] at he
  split at he
  case isFalse => cases he
  rename_i hg
  simp only [Bool.and_eq_true] at hg
  obtain ⟨hc, hv⟩ := hg
  have hv' := writable_iff.1 hv
  cases he
  refine call_ptr h (canCall_mem hc) ?_ ?_ ?_ ?_
  · intro x hx
    by_cases h1 : x = v
    · subst h1; exact hv'.2
    · simp [upd_apply, h1] at hx
  · intro o
    have e1 := lsum_ptr' s.ptr none (h.lv v hv'.1) o
    have e4 : hold o none = 0 := rfl
    omega
  · intro x hx
    by_cases h1 : x = v
    · subst h1; simp
    · simp only [upd_apply, h1, if_false] at hx ⊢; exact h.nl x hx
  · intro x hx
    by_cases h1 : x = v
    · subst h1; simp at hx
    · simp only [upd_apply, h1, if_false] at hx; exact h.lv x hx

theorem step_reset {c : Cfg} {s s' : St} {t v : Nat} (h : Inv c s) (he : step c s (.reset t v) = some s') : Inv c s' := by
  simp only [step] at he
  split at he
  case isFalse => cases he
  rename_i hg
  simp only [Bool.and_eq_true] at hg
  obtain ⟨hc, hv⟩ := hg
  have hv' := writable_iff.1 hv
  cases he
  refine call_ptr (l := s.live) h (canCall_mem hc) ?_ ?_ ?_ h.lv
  · intro x hx
    by_cases h1 : x = v
    · subst h1; exact hv'.2
    · simp [upd_apply, h1] at hx
  · intro o
    have e1 := lsum_ptr' s.ptr none (h.lv v hv'.1) o
    have e4 : hold o none = 0 := rfl
    omega
  · intro x hx
    by_cases h1 : x = v
    · subst h1; simp
    · simp only [upd_apply, h1, if_false]; exact h.nl x hx

theorem step_swap {c : Cfg} {s s' : St} {t v w : Nat} (h : Inv c s) (he : step c s (.swap t v w) = some s') : Inv c s' := by
  simp only [step] at he
  split at he
  case isFalse => cases he
  rename_i hg
  simp only [Bool.and_eq_true] at hg
  obtain ⟨⟨hc, hv⟩, hw⟩ := hg
  have hv' := writable_iff.1 hv
  have hw' := writable_iff.1 hw
  cases he
  have := call_ptr (t := t) (x := none) (p := upd (upd s.ptr v (s.ptr w)) w (s.ptr v)) (l := s.live) h (canCall_mem hc) ?_ ?_ ?_ h.lv
  · exact this
  · intro x hx
    by_cases h1 : x = v
    · subst h1; exact hv'.2
    · by_cases h2 : x = w
      · subst h2; exact hw'.2
      · simp [upd_apply, h1, h2] at hx
  · intro o
    have e1 := lsum_ptr' s.ptr (s.ptr w) (h.lv v hv'.1) o
    have e2 := lsum_ptr' (upd s.ptr v (s.ptr w)) (s.ptr v) (h.lv w hw'.1) o
    have e3 : upd s.ptr v (s.ptr w) w = s.ptr w := by simp only [upd_apply]; split <;> rfl
    rw [e3] at e2
    have e4 : hold o none = 0 := rfl
    omega
  · intro x hx
    by_cases h1 : x = v
    · subst h1; rw [hv'.1] at hx; cases hx
    · by_cases h2 : x = w
      · subst h2; rw [hw'.1] at hx; cases hx
      · simp only [upd_apply, h1, h2, if_false]; exact h.nl x hx

theorem step_release {c : Cfg} {s s' : St} {t v : Nat} (h : Inv c s) (he : step c s (.release t v) = some s') : Inv c s' := by
  simp only [step] at he
  split at he
  case isFalse => cases he
  rename_i hg
  simp only [Bool.and_eq_true] at hg
  obtain ⟨hc, hv⟩ := hg
  have hv' := writable_iff.1 hv
  split at he
  · cases he; exact h
  · rename_i o hp
    cases he
    refine inv_call [] h (canCall_mem hc) (upd_self _ _) ?_ ?_ ?_ ?_ (fun _ hf => by cases hf) ?_ ?_ h.lv (fun _ => Or.inl rfl)
      (fun _ => Or.inl rfl) h.fresh h.nb
    · intro x hx
      by_cases h1 : x = v
      · subst h1; exact hv'.2
      · simp [upd_apply, h1] at hx
    · intro x
      have e1 := lsum_ptr' s.ptr none (h.lv v hv'.1) x
      have e2 := h.cnt x
      rw [hp] at e1
      by_cases hx : x = o
      · subst hx; simp [hold] at e1; simp [fsum, hold] at *; omega
      · simp [hold, Ne.symm hx] at e1; simp [fsum, hold, upd_apply, hx] at *; omega
    · intro x; exact h.dt x
    · intro x; have := h.fd x; simp only [fsum]; omega
    · intro x; have := h.rawl x
      by_cases hx : x = o
      · subst hx; simp [fsum]; omega
      · simp [fsum, upd_apply, hx]; omega
    · intro x hx
      by_cases h1 : x = v
      · subst h1; simp
      · simp only [upd_apply, h1, if_false]; exact h.nl x hx

theorem step_rawDec {c : Cfg} {s s' : St} {t o : Nat} (h : Inv c s) (he : step c s (.rawDec t o) = some s') : Inv c s' := by
  simp only [step] at he
  split at he
  case isFalse => cases he
  rename_i hg
  simp only [Bool.and_eq_true, okSrc, decide_eq_true_eq] at hg
  obtain ⟨hc, hr⟩ := hg
  cases he
  refine inv_call [.drop o] h (canCall_mem hc) rfl (fun _ hw => absurd ⟨rfl, rfl⟩ hw) ?_ ?_ ?_ ?_ ?_ h.nl h.lv (fun _ => Or.inl rfl)
    (fun _ => Or.inl ?_) h.fresh h.nb
  · intro x; have := h.cnt x
    by_cases hx : x = o
    · subst hx; simp [fsum, own, push]; omega
    · simp [fsum, own, push, upd_apply, hx, Ne.symm hx]; omega
  · intro x; exact h.dt x
  · intro x; have := h.fd x; simp only [fsum, isDtor, push]; omega
  · intro f hf; simp only [List.mem_singleton] at hf; subst hf; trivial
  · intro x; have := h.rawl x
    by_cases hx : x = o
    · subst hx; simp [fsum, isRawRd, push]; omega
    · simp [fsum, isRawRd, push, upd_apply, hx]; omega
  · simp only [fsum, isRdO_zero (f := Frame.drop o) rfl]

/-- A caller's reference keeps the object alive. -/
theorem okSrc_pos {c : Cfg} {s : St} (h : Inv c s) {o : Nat} {q : Src} (hq : okSrc c s o q = true) : 0 < count c (s.word o) := by
  cases q with
  | var w =>
      simp only [okSrc, Bool.and_eq_true, decide_eq_true_eq] at hq
      exact hold_le h (readable_iff.1 hq.1).1 hq.2
  | raw =>
      simp only [okSrc, decide_eq_true_eq] at hq
      have := h.cnt o; omega

/-- Changing the reserved bits of an existing object's word. -/
theorem inv_word {c : Cfg} {s : St} {t o w : Nat} {hs : Nat → List (Nat × Bool)} {q : Src} (h : Inv c s) (ht : t ∈ c.thr)
    (hq : okSrc c s o q = true) (hw : count c w = count c (s.word o)) :
    Inv c { s with word := upd s.word o w, hist := hs, bad := touch s o } := by
  obtain ⟨hb, _, _, hm⟩ := h.live_of_count (okSrc_pos h hq)
  have hcw : ∀ x, count c (upd s.word o w x) = count c (s.word x) := by
    intro x; by_cases hx : x = o
    · subst hx; simpa using hw
    · rw [upd_other _ _ hx]
  refine inv_call [] h ht (upd_self _ _) (fun _ hw => absurd ⟨rfl, rfl⟩ hw) ?_ ?_ ?_ (fun _ hf => by cases hf) ?_ h.nl h.lv
    (fun _ => Or.inl rfl) (fun _ => Or.inl rfl) ?_ hb
  · intro x; have := h.cnt x; simp only [fsum, hcw]; omega
  · intro x; simpa [fsum, hcw] using h.dt x
  · intro x; have := h.fd x; simp only [fsum]; omega
  · intro x; have := h.rawl x; simp only [fsum]; omega
  · intro x hx
    simp only at hx ⊢
    rw [upd_other _ _ (by rintro rfl; rw [hm] at hx; cases hx)]; exact h.fresh x hx

theorem inv_step {c : Cfg} {s s' : St} (a : Act) (h : Inv c s) (he : step c s a = some s') : Inv c s' := by
  cases a with
  | go t => exact inv_step_go h he
  | make t v o => exact step_make h he
  | copy t d w => exact step_copy h he
  | fromRaw t d o => exact step_fromRaw h he
  | moveCtor t v w => exact step_moveCtor h he
  | moveAssign t v w => exact step_moveAssign h he
  | destroy t v => exact step_destroy h he
  | reset t v => exact step_reset h he
  | swap t v w => exact step_swap h he
  | release t v => exact step_release h he
  | rawDec t o => exact step_rawDec h he
  | setBit t q o b =>
      simp only [step] at he
      split at he
      case isFalse => cases he
      rename_i hg
      simp only [Bool.and_eq_true, decide_eq_true_eq] at hg
      cases he
      exact inv_word h (canCall_mem hg.1.1) hg.1.2 (count_or hg.2)
  | clearBit t q o b =>
      simp only [step] at he
      split at he
      case isFalse => cases he
      rename_i hg
      simp only [Bool.and_eq_true, decide_eq_true_eq] at hg
      cases he
      exact inv_word h (canCall_mem hg.1.1) hg.1.2 (count_clr hg.2)
  | use t q o =>
      simp only [step] at he
      split at he
      case isFalse => cases he
      rename_i hg
      simp only [Bool.and_eq_true] at hg
      cases he
      obtain ⟨hb, _, _, hm⟩ := h.live_of_count (okSrc_pos h hg.2)
      rw [hb, ← h.nb]; exact h

theorem inv_reach {c : Cfg} {s : St} (h : Reachable c s) : Inv c s :=
  Reach.inv (Inv c) (inv_init c) (fun s a s' hi he => inv_step a hi he) s h

end Verif.IntrusivePtr
