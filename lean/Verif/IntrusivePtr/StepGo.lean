import Verif.IntrusivePtr.Inv
/-! # The steps inside a call preserve the invariant -/
namespace Verif.IntrusivePtr
set_option maxHeartbeats 1000000

theorem hold_le {c : Cfg} {s : St} (h : Inv c s) {w o : Nat} (hl : s.live w = true) (hp : s.ptr w = some o) :
    0 < count c (s.word o) := by
  have h1 := le_lsum (hold o) s.ptr (h.lv w hl)
  have h2 : hold o (s.ptr w) = 1 := by simp [hold, hp]
  have := h.cnt o; omega

theorem mem_thr {c : Cfg} {s : St} (h : Inv c s) {t : Nat} {a : Frame} {k : List Frame} (hs : s.fr t = a :: k) : t ∈ c.thr := by
  by_cases hm : t ∈ c.thr
  · exact hm
  · rw [h.nt t hm] at hs; cases hs

theorem lsum_ptr {c : Cfg} (s : St) {v : Nat} (x : Option Nat) (hv : v ∈ c.vars) (o : Nat) :
    lsum (hold o) (upd s.ptr v x) c.vars + hold o (s.ptr v) = lsum (hold o) s.ptr c.vars + hold o x :=
  lsum_upd_in (c := hold o) (f := s.ptr) (b := x) c.ndv hv

/-- `isRdO` of a frame that reads nothing. -/
theorem isRdO_zero {w : Nat} {f : Frame} (h : isRd w f = 0) : isRdO w f = 0 := by
  unfold isRdO; split <;> simp [h]

theorem dtof {c : Cfg} {s : St} (h : Inv c s) (o : Nat) :
    (0 < count c (s.word o) → s.dtors o + T c (isDel o) s = 0) := by
  intro hc; have := h.dt o; rw [if_neg (by omega)] at this; exact this

theorem fsum_append (f : Frame → Nat) (l m : List Frame) : fsum f (l ++ m) = fsum f l + fsum f m := by
  induction l with
  | nil => simp [fsum]
  | cons a l ih => simp [fsum, ih]; omega

/-- A step inside a call replaces the top frame `a` by `b`. -/
theorem inv_go {c : Cfg} {s s' : St} {t : Nat} {a : Frame} {k : List Frame} (b : List Frame) (h : Inv c s)
    (hs : s.fr t = a :: k) (hfr : s'.fr = upd s.fr t (b ++ k))
    (hrd0 : ∀ w, fsum (isRdO w) b = 0) (hwb : ∀ v, fsum (isWr v) b ≤ isWr v a)
    (hch : ∀ w, ¬ (s'.ptr w = s.ptr w ∧ s'.live w = s.live w) → T c (isRdO w) s ≤ isRdO w a ∧ T c (isWr w) s ≤ isWr w a)
    (hcnt : ∀ o, count c (s'.word o) + own o a = lsum (hold o) s'.ptr c.vars + s'.raw o + T c (own o) s + fsum (own o) b)
    (hdt : ∀ o, s'.dtors o + T c (isDel o) s + fsum (isDel o) b
      = (if s'.made o = true ∧ count c (s'.word o) = 0 then 1 else 0) + isDel o a)
    (hfd : ∀ o, s'.freed o + T c (isDtor o) s + fsum (isDtor o) b = s'.dtors o + isDtor o a)
    (hok : ∀ f ∈ b, okF c s' f)
    (hraw : ∀ o, T c (isRawRd o) s + fsum (isRawRd o) b ≤ s'.raw o + isRawRd o a)
    (hnl : ∀ v, s'.live v = false → s'.ptr v = none)
    (hlv : ∀ v, s'.live v = true → v ∈ c.vars)
    (hfresh : ∀ o, s'.made o = false → s'.word o = 0)
    (hnb : s'.bad = false) : Inv c s' := by
  have ht := mem_thr h hs
  refine inv_gen h ht hfr ?_ ?_ ?_ ?_ ?_ ?_ hnl hlv ?_ ?_ hfresh hnb
  · intro w hw; have := hch w hw; rw [hs]; simp only [fsum]; omega
  · intro o; have := hcnt o; rw [hs, fsum_append]; simp only [fsum]; omega
  · intro o; have := hdt o; rw [hs, fsum_append]; simp only [fsum]; omega
  · intro o; have := hfd o; rw [hs, fsum_append]; simp only [fsum]; omega
  · intro f hf
    rcases List.mem_append.1 hf with hf | hf
    · exact hok f hf
    · exact ok_rest h ht hs hch f hf
  · intro o; have := hraw o; rw [hs, fsum_append]; simp only [fsum]; omega
  · intro v; left; have := hwb v; rw [hs, fsum_append]; simp only [fsum]; omega
  · intro v
    have e1 := h.rw_ v; have e2 := hrd0 v; have e3 := hwb v
    have h1 := le_T (s := s) (isWr v) ht
    have h2 := le_T (s := s) (isRdO v) ht
    rw [hs] at h1 h2 ⊢; simp only [fsum, fsum_append] at *; omega

theorem own_pos {c : Cfg} {s : St} (h : Inv c s) {t o : Nat} {a : Frame} {k : List Frame} (hs : s.fr t = a :: k)
    (ha : own o a = 1) : 0 < count c (s.word o) := by
  have h1 := le_T (s := s) (own o) (mem_thr h hs)
  rw [hs] at h1; simp only [fsum, ha] at h1
  have := h.cnt o; omega

theorem go_inc {c : Cfg} {s s' : St} {t o : Nat} {q : Src} {d : Dst} {k : List Frame} (h : Inv c s)
    (hs : s.fr t = .inc q o d :: k) (he : go c s t = some s') : Inv c s' := by
  have ht := mem_thr h hs
  have hok := h.ok t (.inc q o d) (by rw [hs]; simp)
  have hpos : 0 < count c (s.word o) := by
    cases q with
    | var w => exact hold_le h hok.2.1 hok.1
    | raw =>
        have h1 := le_T (s := s) (isRawRd o) ht
        rw [hs] at h1; simp only [fsum, isRawRd, if_true] at h1
        have := h.rawl o; have := h.cnt o; omega
  have hd : okD c s d := by cases q with
    | var w => exact hok.2.2
    | raw => exact hok
  obtain ⟨hb, hdt, hdel, hm⟩ := h.live_of_count hpos
  have hadd := count_add c (s.word o)
  simp only [go, hs, Option.some.injEq] at he
  subst he
  refine inv_go [.put (some o) d] h hs rfl ?_ ?_ (fun _ hw => absurd ⟨rfl, rfl⟩ hw) ?_ ?_ ?_ ?_ ?_ h.nl h.lv ?_ hb
  · intro w; simp only [fsum, isRdO_zero (f := Frame.put (some o) d) rfl]
  · intro v; simp [fsum, isWr]
  · intro x; have e1 := h.cnt x
    by_cases hx : x = o
    · subst hx; simp [fsum, own, upd_apply]; omega
    · simp [fsum, own, upd_apply, hx, Ne.symm hx]; omega
  · intro x; have e1 := h.dt x
    by_cases hx : x = o
    · subst hx; simp only [fsum, isDel, upd_same]; rw [if_neg (by omega)]; omega
    · simp [fsum, isDel, upd_apply, hx]; omega
  · intro x; have e1 := h.fd x
    simp [fsum, isDtor]; omega
  · intro f hf
    simp only [List.mem_singleton] at hf; subst hf
    exact okF_mono (s := s) (by exact hd) (fun _ _ => ⟨rfl, rfl⟩) (fun _ _ => rfl)
  · intro x; have e1 := h.rawl x
    simp only [fsum, isRawRd]; omega
  · intro x hx; simp only at hx ⊢
    rw [upd_other _ _ (by rintro rfl; rw [hm] at hx; cases hx)]; exact h.fresh x hx

theorem wr_one {c : Cfg} {s : St} (h : Inv c s) {t v : Nat} {a : Frame} {k : List Frame} (hs : s.fr t = a :: k)
    (ha : isWr v a = 1) : T c (isRdO v) s = 0 ∧ T c (isWr v) s = 1 := by
  have h1 := le_T (s := s) (isWr v) (mem_thr h hs)
  rw [hs] at h1; simp only [fsum, ha] at h1
  have := h.wr v; have := h.rw_ v; omega

theorem go_ctor {c : Cfg} {s s' : St} {t v : Nat} {x : Option Nat} {k : List Frame} (h : Inv c s)
    (hs : s.fr t = .put x (.ctor v) :: k) (he : go c s t = some s') : Inv c s' := by
  have hok := h.ok t (.put x (.ctor v)) (by rw [hs]; simp)
  have hw := wr_one h hs (v := v) (by simp [isWr, Dst.is])
  simp only [go, hs, Option.some.injEq] at he
  subst he
  have hold0 : s.ptr v = none := h.nl v hok.2
  refine inv_go [] h hs rfl (fun _ => rfl) (fun _ => Nat.zero_le _) ?_ ?_ ?_ ?_ (fun _ hf => by cases hf) ?_ ?_ ?_ h.fresh h.nb
  · intro w hne
    by_cases hwv : w = v
    · subst hwv; simp [isWr, Dst.is, hw]
    · simp [upd_apply, hwv] at hne
  · intro o
    have e1 := h.cnt o
    have e2 := lsum_ptr s x hok.1 o
    have e3 : own o (Frame.put x (.ctor v)) = hold o x := by
      cases x with
      | none => simp [own, hold]
      | some o' => simp [own, hold]
    have e4 : hold o (s.ptr v) = 0 := by simp [hold, hold0]
    simp only [fsum, e3]; omega
  · intro o; have e1 := h.dt o; simp only [fsum, isDel]; omega
  · intro o; have e1 := h.fd o; simp only [fsum, isDtor]; omega
  · intro o; have e1 := h.rawl o; simp only [fsum, isRawRd]; omega
  · intro w hl
    by_cases hwv : w = v
    · subst hwv; simp at hl
    · simp only [upd_apply, hwv, if_false] at hl ⊢; exact h.nl w hl
  · intro w hl
    by_cases hwv : w = v
    · subst hwv; exact hok.1
    · simp only [upd_apply, hwv, if_false] at hl; exact h.lv w hl

theorem go_assign {c : Cfg} {s s' : St} {t v : Nat} {x : Option Nat} {k : List Frame} (h : Inv c s)
    (hs : s.fr t = .put x (.assign v) :: k) (he : go c s t = some s') : Inv c s' := by
  have hok : s.live v = true := h.ok t (.put x (.assign v)) (by rw [hs]; simp)
  have hw := wr_one h hs (v := v) (by simp [isWr, Dst.is])
  have hch : ∀ w, ¬ (upd s.ptr v x w = s.ptr w ∧ s.live w = s.live w) →
      T c (isRdO w) s ≤ isRdO w (.put x (.assign v)) ∧ T c (isWr w) s ≤ isWr w (.put x (.assign v)) := by
    intro w hne
    by_cases hwv : w = v
    · subst hwv; simp [isWr, Dst.is, hw]
    · simp [upd_apply, hwv] at hne
  have e3 : ∀ o, own o (Frame.put x (.assign v)) = hold o x := by
    intro o
    cases x with
    | none => simp [own, hold]
    | some o' => simp [own, hold]
  have hnl : ∀ w, s.live w = false → upd s.ptr v x w = none := by
    intro w hl
    by_cases hwv : w = v
    · subst hwv; rw [hok] at hl; cases hl
    · simp only [upd_apply, hwv, if_false]; exact h.nl w hl
  simp only [go, hs] at he
  split at he
  · rename_i hp
    simp only [Option.some.injEq] at he; subst he
    refine inv_go [] h hs rfl (fun _ => rfl) (fun _ => Nat.zero_le _) hch ?_ ?_ ?_ (fun _ hf => by cases hf) ?_ hnl h.lv h.fresh h.nb
    · intro o
      have e1 := h.cnt o
      have e2 := lsum_ptr s x (h.lv v hok) o
      have e4 : hold o (s.ptr v) = 0 := by simp [hold, hp]
      simp only [fsum, e3]; omega
    · intro o; have e1 := h.dt o; simp only [fsum, isDel]; omega
    · intro o; have e1 := h.fd o; simp only [fsum, isDtor]; omega
    · intro o; have e1 := h.rawl o; simp only [fsum, isRawRd]; omega
  · rename_i o1 hp
    simp only [Option.some.injEq] at he; subst he
    refine inv_go [.drop o1] h hs rfl (fun w => ?_) (fun _ => Nat.zero_le _) hch ?_ ?_ ?_ ?_ ?_ hnl h.lv h.fresh h.nb
    · simp only [fsum, isRdO_zero (f := Frame.drop o1) rfl]
    · intro o
      have e1 := h.cnt o
      have e2 := lsum_ptr s x (h.lv v hok) o
      have e4 : hold o (s.ptr v) = own o (.drop o1) := by simp [hold, hp, own]
      simp only [fsum, e3]; omega
    · intro o; have e1 := h.dt o; simp only [fsum, isDel]; omega
    · intro o; have e1 := h.fd o; simp only [fsum, isDtor]; omega
    · intro f hf; simp only [List.mem_singleton] at hf; subst hf; trivial
    · intro o; have e1 := h.rawl o; simp only [fsum, isRawRd]; omega

theorem go_raw {c : Cfg} {s s' : St} {t : Nat} {x : Option Nat} {k : List Frame} (h : Inv c s)
    (hs : s.fr t = .put x .raw :: k) (he : go c s t = some s') : Inv c s' := by
  cases x with
  | none =>
      simp only [go, hs, Option.some.injEq] at he; subst he
      refine inv_go [] h hs rfl (fun _ => rfl) (fun _ => Nat.zero_le _) (fun _ hw => absurd ⟨rfl, rfl⟩ hw) ?_ ?_ ?_ (fun _ hf => by cases hf) ?_ h.nl h.lv h.fresh h.nb
      · intro o; have e1 := h.cnt o; simp only [fsum, own]; omega
      · intro o; have e1 := h.dt o; simp only [fsum, isDel]; omega
      · intro o; have e1 := h.fd o; simp only [fsum, isDtor]; omega
      · intro o; have e1 := h.rawl o; simp only [fsum, isRawRd]; omega
  | some o1 =>
      simp only [go, hs, Option.some.injEq] at he; subst he
      refine inv_go [] h hs rfl (fun _ => rfl) (fun _ => Nat.zero_le _) (fun _ hw => absurd ⟨rfl, rfl⟩ hw) ?_ ?_ ?_ (fun _ hf => by cases hf) ?_ h.nl h.lv h.fresh h.nb
      · intro o; have e1 := h.cnt o
        by_cases ho : o = o1
        · subst ho; simp [fsum, own]; omega
        · simp [fsum, own, upd_apply, ho, Ne.symm ho]; omega
      · intro o; have e1 := h.dt o; simp only [fsum, isDel]; omega
      · intro o; have e1 := h.fd o; simp only [fsum, isDtor]; omega
      · intro o; have e1 := h.rawl o
        by_cases ho : o = o1
        · subst ho; simp [fsum, isRawRd]; omega
        · simp [fsum, isRawRd, upd_apply, ho]; omega

theorem go_drop {c : Cfg} {s s' : St} {t o : Nat} {k : List Frame} (h : Inv c s)
    (hs : s.fr t = .drop o :: k) (he : go c s t = some s') : Inv c s' := by
  have hpos := own_pos h hs (o := o) (by simp [own])
  obtain ⟨hb, hdt, hdel, hm⟩ := h.live_of_count hpos
  have hsub := count_sub hpos
  have hfresh : ∀ x, s.made x = false → upd s.word o (s.word o - c.one) x = 0 := by
    intro x hx
    rw [upd_other _ _ (by rintro rfl; rw [hm] at hx; cases hx)]; exact h.fresh x hx
  have hcnt : ∀ x, count c (upd s.word o (s.word o - c.one) x) + own x (.drop o)
      = lsum (hold x) s.ptr c.vars + s.raw x + T c (own x) s := by
    intro x; have e1 := h.cnt x
    by_cases hx : x = o
    · subst hx; simp [own]; omega
    · simp [own, upd_apply, hx, Ne.symm hx]; omega
  simp only [go, hs] at he
  split at he
  · rename_i h1
    simp only [Option.some.injEq] at he; subst he
    refine inv_go [.del o] h hs rfl (fun w => ?_) (fun _ => Nat.zero_le _) (fun _ hw => absurd ⟨rfl, rfl⟩ hw) ?_ ?_ ?_ ?_ ?_ h.nl h.lv hfresh hb
    · simp only [fsum, isRdO_zero (f := Frame.del o) rfl]
    · intro x; have := hcnt x; simp only [fsum, own] at *; omega
    · intro x; have e1 := h.dt x
      by_cases hx : x = o
      · subst hx; simp [fsum, isDel, hm]; rw [if_pos (by omega)]; omega
      · simp [fsum, isDel, upd_apply, hx, Ne.symm hx]; omega
    · intro x; have e1 := h.fd x; simp only [fsum, isDtor]; omega
    · intro f hf; simp only [List.mem_singleton] at hf; subst hf; trivial
    · intro x; have e1 := h.rawl x; simp only [fsum, isRawRd]; omega
  · rename_i h1
    simp only [Option.some.injEq] at he; subst he
    refine inv_go [] h hs rfl (fun _ => rfl) (fun _ => Nat.zero_le _) (fun _ hw => absurd ⟨rfl, rfl⟩ hw) ?_ ?_ ?_ (fun _ hf => by cases hf) ?_ h.nl h.lv hfresh hb
    · intro x; have := hcnt x; simp only [fsum] at *; omega
    · intro x; have e1 := h.dt x
      by_cases hx : x = o
      · subst hx; simp [fsum, isDel, hm]; rw [if_neg (by omega)]; omega
      · simp [fsum, isDel, upd_apply, hx]; omega
    · intro x; have e1 := h.fd x; simp only [fsum, isDtor]; omega
    · intro x; have e1 := h.rawl x; simp only [fsum, isRawRd]; omega

theorem go_del {c : Cfg} {s s' : St} {t o : Nat} {k : List Frame} (h : Inv c s)
    (hs : s.fr t = .del o :: k) (he : go c s t = some s') : Inv c s' := by
  have h1 := le_T (s := s) (isDel o) (mem_thr h hs)
  rw [hs] at h1; simp only [fsum, isDel, if_true] at h1
  have hd := h.dt o
  have hm : s.made o = true ∧ count c (s.word o) = 0 := by
    by_cases hq : s.made o = true ∧ count c (s.word o) = 0
    · exact hq
    · rw [if_neg hq] at hd; omega
  rw [if_pos hm] at hd
  simp only [go, hs, Option.some.injEq] at he; subst he
  have hb : touch s o = false := by simp [touch, h.nb, hm.1]; omega
  refine inv_go [.dtor o] h hs rfl (fun w => ?_) (fun _ => Nat.zero_le _) (fun _ hw => absurd ⟨rfl, rfl⟩ hw) ?_ ?_ ?_ ?_ ?_ h.nl h.lv h.fresh hb
  · simp only [fsum, isRdO_zero (f := Frame.dtor o) rfl]
  · intro x; have := h.cnt x; simp only [fsum, own] at *; omega
  · intro x; have e1 := h.dt x
    by_cases hx : x = o
    · subst hx; simp [fsum, isDel, hm]; omega
    · simp [fsum, isDel, upd_apply, hx, Ne.symm hx]; omega
  · intro x; have e1 := h.fd x
    by_cases hx : x = o
    · subst hx; simp [fsum, isDtor]; omega
    · simp [fsum, isDtor, upd_apply, hx, Ne.symm hx]; omega
  · intro f hf; simp only [List.mem_singleton] at hf; subst hf; trivial
  · intro x; have e1 := h.rawl x; simp only [fsum, isRawRd]; omega

theorem go_dtor {c : Cfg} {s s' : St} {t o : Nat} {k : List Frame} (h : Inv c s)
    (hs : s.fr t = .dtor o :: k) (he : go c s t = some s') : Inv c s' := by
  simp only [go, hs, Option.some.injEq] at he; subst he
  refine inv_go [] h hs rfl (fun _ => rfl) (fun _ => Nat.zero_le _) (fun _ hw => absurd ⟨rfl, rfl⟩ hw) ?_ ?_ ?_ (fun _ hf => by cases hf) ?_ h.nl h.lv h.fresh h.nb
  · intro x; have := h.cnt x; simp only [fsum, own] at *; omega
  · intro x; have e1 := h.dt x; simp only [fsum, isDel]; omega
  · intro x; have e1 := h.fd x
    by_cases hx : x = o
    · subst hx; simp [fsum, isDtor]; omega
    · simp [fsum, isDtor, upd_apply, hx, Ne.symm hx]; omega
  · intro x; have e1 := h.rawl x; simp only [fsum, isRawRd]; omega

theorem inv_step_go {c : Cfg} {s s' : St} {t : Nat} (h : Inv c s) (he : go c s t = some s') : Inv c s' := by
  cases hs : s.fr t with
  | nil => simp [go, hs] at he
  | cons a k =>
      cases a with
      | inc q o d => exact go_inc h hs he
      | put x d =>
          cases d with
          | ctor v => exact go_ctor h hs he
          | assign v => exact go_assign h hs he
          | raw => exact go_raw h hs he
      | drop o => exact go_drop h hs he
      | del o => exact go_del h hs he
      | dtor o => exact go_dtor h hs he

end Verif.IntrusivePtr
