import Verif.IntrusivePtr.Model
/-! # Invariant of the reference counting -/
namespace Verif.IntrusivePtr

/-- Does this pointer value own `o`? -/
def hold (o : Nat) (x : Option Nat) : Nat := if x = some o then 1 else 0

/-- Does this frame own a reference to `o`? -/
def own (o : Nat) : Frame → Nat
  | .put (some o') _ => if o' = o then 1 else 0
  | .drop o' => if o' = o then 1 else 0
  | _ => 0

def isDel (o : Nat) : Frame → Nat
  | .del o' => if o' = o then 1 else 0
  | _ => 0

def isDtor (o : Nat) : Frame → Nat
  | .dtor o' => if o' = o then 1 else 0
  | _ => 0

/-- Reads `w` without also being the one that will write it (a self-assignment does both). -/
def isRdO (w : Nat) (f : Frame) : Nat := if isWr w f = 0 then isRd w f else 0

theorem isRdO_le (w : Nat) (f : Frame) : isRdO w f ≤ isRd w f := by
  unfold isRdO; split <;> omega

theorem isRd_cases {w : Nat} {f : Frame} (h : isRd w f ≠ 0) : isRdO w f ≠ 0 ∨ isWr w f ≠ 0 := by
  unfold isRdO; by_cases hw : isWr w f = 0 <;> simp [hw, h]

def okD (c : Cfg) (s : St) : Dst → Prop
  | .ctor v => v ∈ c.vars ∧ s.live v = false
  | .assign v => s.live v = true
  | .raw => True

def okF (c : Cfg) (s : St) : Frame → Prop
  | .inc (.var w) o d => s.ptr w = some o ∧ s.live w = true ∧ okD c s d
  | .inc .raw _ d => okD c s d
  | .put _ d => okD c s d
  | _ => True

structure Inv (c : Cfg) (s : St) : Prop where
  cnt : ∀ o, count c (s.word o) = lsum (hold o) s.ptr c.vars + s.raw o + T c (own o) s
  dt : ∀ o, s.dtors o + T c (isDel o) s = if s.made o = true ∧ count c (s.word o) = 0 then 1 else 0
  fd : ∀ o, s.freed o + T c (isDtor o) s = s.dtors o
  ok : ∀ t f, f ∈ s.fr t → okF c s f
  rawl : ∀ o, T c (isRawRd o) s ≤ s.raw o
  nl : ∀ v, s.live v = false → s.ptr v = none
  lv : ∀ v, s.live v = true → v ∈ c.vars
  wr : ∀ v, T c (isWr v) s ≤ 1
  rw_ : ∀ v, T c (isWr v) s = 0 ∨ T c (isRdO v) s = 0
  fresh : ∀ o, s.made o = false → s.word o = 0
  nb : s.bad = false
  nt : ∀ t, t ∉ c.thr → s.fr t = []

theorem le_fsum {f : Frame → Nat} {a : Frame} : ∀ {l : List Frame}, a ∈ l → f a ≤ fsum f l
  | b :: l, h => by
      rcases List.mem_cons.1 h with rfl | h
      · simp [fsum]
      · have := le_fsum (f := f) h; simp only [fsum]; omega

theorem T_upd {c : Cfg} {s s' : St} {t : Nat} {l : List Frame} (f : Frame → Nat) (ht : t ∈ c.thr)
    (h : s'.fr = upd s.fr t l) : T c f s' + fsum f (s.fr t) = T c f s + fsum f l := by
  unfold T; rw [h]
  exact lsum_upd_in (c := fsum f) (f := s.fr) (b := l) c.ndt ht

theorem le_T {c : Cfg} {s : St} {t : Nat} (f : Frame → Nat) (ht : t ∈ c.thr) : fsum f (s.fr t) ≤ T c f s :=
  le_lsum (fsum f) s.fr ht

theorem add_le_T {c : Cfg} {s : St} {t u : Nat} (f : Frame → Nat) (ht : t ∈ c.thr) (hu : u ∈ c.thr) (h : t ≠ u) :
    fsum f (s.fr t) + fsum f (s.fr u) ≤ T c f s := add_le_lsum (fsum f) s.fr ht hu h

/-- The frame does not depend on what changed. -/
theorem okF_mono {c : Cfg} {s s' : St} {f : Frame} (h : okF c s f)
    (h1 : ∀ w, isRd w f ≠ 0 → s'.ptr w = s.ptr w ∧ s'.live w = s.live w)
    (h2 : ∀ v, isWr v f ≠ 0 → s'.live v = s.live v) : okF c s' f := by
  have hd : ∀ d : Dst, (∀ v, d.is v ≠ 0 → s'.live v = s.live v) → okD c s d → okD c s' d := by
    intro d hv hd
    cases d with
    | ctor v => exact ⟨hd.1, by rw [hv v (by simp [Dst.is])]; exact hd.2⟩
    | assign v => simp only [okD] at *; rw [hv v (by simp [Dst.is])]; exact hd
    | raw => trivial
  cases f with
  | inc q o d =>
      cases q with
      | var w =>
          have := h1 w (by simp [isRd])
          exact ⟨by rw [this.1]; exact h.1, by rw [this.2]; exact h.2.1, hd d (fun v hv => h2 v hv) h.2.2⟩
      | raw => exact hd d (fun v hv => h2 v hv) h
  | put x d => exact hd d (fun v hv => h2 v hv) h
  | drop o => trivial
  | del o => trivial
  | dtor o => trivial

/-- What has to be checked of a step of thread `t`. -/
theorem inv_gen {c : Cfg} {s s' : St} {t : Nat} {l : List Frame} (h : Inv c s) (ht : t ∈ c.thr)
    (hfr : s'.fr = upd s.fr t l)
    (hch : ∀ w, ¬ (s'.ptr w = s.ptr w ∧ s'.live w = s.live w) →
      T c (isRdO w) s ≤ fsum (isRdO w) (s.fr t) ∧ T c (isWr w) s ≤ fsum (isWr w) (s.fr t))
    (hcnt : ∀ o, count c (s'.word o) + fsum (own o) (s.fr t)
      = lsum (hold o) s'.ptr c.vars + s'.raw o + T c (own o) s + fsum (own o) l)
    (hdt : ∀ o, s'.dtors o + T c (isDel o) s + fsum (isDel o) l
      = (if s'.made o = true ∧ count c (s'.word o) = 0 then 1 else 0) + fsum (isDel o) (s.fr t))
    (hfd : ∀ o, s'.freed o + T c (isDtor o) s + fsum (isDtor o) l = s'.dtors o + fsum (isDtor o) (s.fr t))
    (hok : ∀ f ∈ l, okF c s' f)
    (hraw : ∀ o, T c (isRawRd o) s + fsum (isRawRd o) l ≤ s'.raw o + fsum (isRawRd o) (s.fr t))
    (hnl : ∀ v, s'.live v = false → s'.ptr v = none)
    (hlv : ∀ v, s'.live v = true → v ∈ c.vars)
    (hwr : ∀ v, fsum (isWr v) l ≤ fsum (isWr v) (s.fr t) ∨ T c (isWr v) s + fsum (isWr v) l ≤ 1 + fsum (isWr v) (s.fr t))
    (hrw : ∀ v, T c (isWr v) s + fsum (isWr v) l = fsum (isWr v) (s.fr t) ∨
      T c (isRdO v) s + fsum (isRdO v) l = fsum (isRdO v) (s.fr t))
    (hfresh : ∀ o, s'.made o = false → s'.word o = 0)
    (hnb : s'.bad = false) : Inv c s' where
  cnt o := by have := hcnt o; have := T_upd (own o) ht hfr; omega
  dt o := by have := hdt o; have := T_upd (isDel o) ht hfr; omega
  fd o := by have := hfd o; have := T_upd (isDtor o) ht hfr; omega
  ok u f hf := by
    rw [hfr] at hf
    by_cases hu : u = t
    · subst hu; rw [upd_same] at hf; exact hok f hf
    · rw [upd_other _ _ hu] at hf
      have hut : u ∈ c.thr := by
        by_cases hm : u ∈ c.thr
        · exact hm
        · rw [h.nt u hm] at hf; cases hf
      have key : ∀ w, isRd w f ≠ 0 ∨ isWr w f ≠ 0 → s'.ptr w = s.ptr w ∧ s'.live w = s.live w := by
        intro w hw
        by_cases hq : s'.ptr w = s.ptr w ∧ s'.live w = s.live w
        · exact hq
        · have h1 := hch w hq
          have h2 := add_le_T (s := s) (isRdO w) ht hut (Ne.symm hu)
          have h3 := le_fsum (f := isRdO w) hf
          have h4 := add_le_T (s := s) (isWr w) ht hut (Ne.symm hu)
          have h5 := le_fsum (f := isWr w) hf
          have h6 : isRdO w f ≠ 0 ∨ isWr w f ≠ 0 := hw.elim isRd_cases Or.inr
          omega
      exact okF_mono (h.ok u f hf) (fun w hw => key w (Or.inl hw)) (fun v hv => (key v (Or.inr hv)).2)
  rawl o := by have := hraw o; have := T_upd (isRawRd o) ht hfr; omega
  nl := hnl
  lv := hlv
  wr v := by
    have := hwr v; have := T_upd (isWr v) ht hfr; have := h.wr v; have := le_T (s := s) (isWr v) ht; omega
  rw_ v := by
    have := hrw v; have := T_upd (isWr v) ht hfr; have := T_upd (isRdO v) ht hfr; omega
  fresh := hfresh
  nb := hnb
  nt u hu := by
    rw [hfr]
    have hne : u ≠ t := fun e => hu (e ▸ ht)
    rw [upd_other _ _ hne]; exact h.nt u hu

theorem T_init (c : Cfg) (f : Frame → Nat) : T c f init = 0 := lsum_eq_zero _ _ (fun _ _ => rfl)

theorem inv_init (c : Cfg) : Inv c init where
  cnt o := by
    rw [T_init]
    have : lsum (hold o) init.ptr c.vars = 0 := lsum_eq_zero _ _ (fun _ _ => rfl)
    rw [this]; simp [init, count]
  dt o := by rw [T_init]; simp [init]
  fd o := by rw [T_init]; rfl
  ok t f hf := by cases hf
  rawl o := by rw [T_init]; exact Nat.zero_le _
  nl v _ := rfl
  lv v hv := by cases hv
  wr v := by rw [T_init]; exact Nat.zero_le _
  rw_ v := by rw [T_init]; exact Or.inl rfl
  fresh o _ := rfl
  nb := rfl
  nt t _ := rfl

/-- Frames below the top of the stack keep their meaning. -/
theorem ok_rest {c : Cfg} {s s' : St} {t : Nat} {a : Frame} {k : List Frame} (h : Inv c s) (ht : t ∈ c.thr)
    (hs : s.fr t = a :: k)
    (hch : ∀ w, ¬ (s'.ptr w = s.ptr w ∧ s'.live w = s.live w) → T c (isRdO w) s ≤ isRdO w a ∧ T c (isWr w) s ≤ isWr w a) :
    ∀ f ∈ k, okF c s' f := by
  intro f hf
  have key : ∀ w, isRd w f ≠ 0 ∨ isWr w f ≠ 0 → s'.ptr w = s.ptr w ∧ s'.live w = s.live w := by
    intro w hw
    by_cases hq : s'.ptr w = s.ptr w ∧ s'.live w = s.live w
    · exact hq
    · have h1 := hch w hq
      have h2 := le_T (s := s) (isRdO w) ht
      have h3 := le_fsum (f := isRdO w) hf
      have h4 := le_T (s := s) (isWr w) ht
      have h5 := le_fsum (f := isWr w) hf
      have h6 : isRdO w f ≠ 0 ∨ isWr w f ≠ 0 := hw.elim isRd_cases Or.inr
      rw [hs] at h2 h4; simp only [fsum] at h2 h4
      omega
  exact okF_mono (h.ok t f (by rw [hs]; simp [hf])) (fun w hw => key w (Or.inl hw)) (fun v hv => (key v (Or.inr hv)).2)

/-- The same for a call, which adds a frame. -/
theorem ok_all {c : Cfg} {s s' : St} {t : Nat} (h : Inv c s) (ht : t ∈ c.thr)
    (hch : ∀ w, ¬ (s'.ptr w = s.ptr w ∧ s'.live w = s.live w) → T c (isRdO w) s = 0 ∧ T c (isWr w) s = 0) :
    ∀ f ∈ s.fr t, okF c s' f := by
  intro f hf
  have key : ∀ w, isRd w f ≠ 0 ∨ isWr w f ≠ 0 → s'.ptr w = s.ptr w ∧ s'.live w = s.live w := by
    intro w hw
    by_cases hq : s'.ptr w = s.ptr w ∧ s'.live w = s.live w
    · exact hq
    · have h1 := hch w hq
      have h2 := le_T (s := s) (isRdO w) ht
      have h3 := le_fsum (f := isRdO w) hf
      have h4 := le_T (s := s) (isWr w) ht
      have h5 := le_fsum (f := isWr w) hf
      have h6 : isRdO w f ≠ 0 ∨ isWr w f ≠ 0 := hw.elim isRd_cases Or.inr
      omega
  exact okF_mono (h.ok t f hf) (fun w hw => key w (Or.inl hw)) (fun v hv => (key v (Or.inr hv)).2)

/-- An owned object exists and has not been destroyed. -/
theorem Inv.live_of_count {c : Cfg} {s : St} (h : Inv c s) {o : Nat} (hc : 0 < count c (s.word o)) :
    touch s o = false ∧ s.dtors o = 0 ∧ T c (isDel o) s = 0 ∧ s.made o = true := by
  have hd := h.dt o
  have hm : s.made o = true := by
    cases hm : s.made o with
    | true => rfl
    | false => rw [h.fresh o hm] at hc; simp [count] at hc
  rw [if_neg (by omega)] at hd
  refine ⟨?_, by omega, by omega, hm⟩
  simp [touch, h.nb, hm]; omega

theorem count_add (c : Cfg) (w : Nat) : count c (w + c.one) = count c w + 1 := by
  unfold count Cfg.one
  rw [Nat.add_div_right _ (Nat.two_pow_pos _)]

theorem count_one (c : Cfg) : count c c.one = 1 := by
  unfold count Cfg.one; exact Nat.div_self (Nat.two_pow_pos _)

theorem one_le_of_count {c : Cfg} {w : Nat} (h : 0 < count c w) : c.one ≤ w := by
  unfold count at h; unfold Cfg.one
  exact (Nat.div_pos_iff.1 h).2

theorem count_sub {c : Cfg} {w : Nat} (h : 0 < count c w) : count c (w - c.one) + 1 = count c w := by
  have := count_add c (w - c.one)
  rw [Nat.sub_add_cancel (one_le_of_count h)] at this; omega

theorem count_or {c : Cfg} {w b : Nat} (hb : b < c.R) : count c (w ||| 2 ^ b) = count c w := by
  unfold count
  rw [Nat.or_div_two_pow, Nat.div_eq_of_lt (Nat.pow_lt_pow_right (by omega) hb), Nat.or_zero]

theorem count_clr {c : Cfg} {w b : Nat} (hb : b < c.R) : count c (clr w b) = count c w := by
  unfold count clr
  rw [Nat.xor_div_two_pow, Nat.and_div_two_pow, Nat.div_eq_of_lt (Nat.pow_lt_pow_right (by omega) hb), Nat.and_zero,
    Nat.xor_zero]

end Verif.IntrusivePtr
