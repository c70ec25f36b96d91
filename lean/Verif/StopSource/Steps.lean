import Verif.StopSource.Lemmas
import Mathlib.Tactic.ClearExcept
import Mathlib.Tactic.ByContra
import Mathlib.Data.List.Nodup
import Mathlib.Data.List.Lemmas
/-! # `inplace_stop_source` — every step preserves the invariant -/
namespace Verif.StopSource

theorem key_of_active {f : Frame} (h : f.active = true) : f.key = .req := by
  cases f <;> simp_all

/-- At most one frame of the winning `request_stop` exists. -/
theorem Inv.active_uniq {s} (h : Inv s) {t f t' g} (hf : f ∈ s.stk t) (ha : f.active = true)
    (hg : g ∈ s.stk t') (hb : g.active = true) : g = f ∧ t' = t := by
  have h1 := (h.act t f hf ha).1
  have h2 := (h.act t' g hg hb).1
  have ht : t' = t := by rw [h1] at h2; exact (Option.some.inj h2).symm
  subst ht
  refine ⟨?_, rfl⟩
  have kf := key_of_active ha
  have kg := key_of_active hb
  exact (List.inj_on_of_nodup_map (h.nodup t') hg hf (by rw [kf, kg]))

theorem Inv.active_rest {s} (h : Inv s) {t f r} (hk : s.stk t = f :: r) (ha : f.active = true) :
    ∀ g ∈ r, g.active = false := by
  intro g hg
  have hn := h.nodup t
  rw [hk] at hn
  by_contra hb
  have hb : g.active = true := by simpa using hb
  have := h.active_uniq (t := t) (f := f) (by simp [hk]) ha (t' := t) (g := g) (by simp [hk, hg]) hb
  have hgf := this.1
  subst hgf
  simp only [List.map_cons, List.nodup_cons] at hn
  exact hn.1 (List.mem_map.2 ⟨g, hg, rfl⟩)

theorem running_not_holds {f : Frame} (h : f.isRunning = true) : f.holds = false := by
  cases f <;> simp_all

/-- The lock holder's frame is unique. -/
theorem Inv.hold_other {s} (h : Inv s) {t f r} (hk : s.stk t = f :: r) (ha : f.holds = true) :
    (∀ t' g, t' ≠ t → g ∈ s.stk t' → g.holds = false) ∧ ∀ g ∈ r, g.holds = false := by
  constructor
  · intro t' g hne hg
    by_contra hb
    have hb : g.holds = true := by simpa using hb
    have h1 := h.hold t f (by simp [hk]) ha
    have h2 := h.hold t' g hg hb
    rw [h1] at h2
    exact hne (Option.some.inj h2).symm
  · intro g hg
    exact running_not_holds (h.tail t f r hk g hg)

theorem Inv.no_hold {s} (h : Inv s) (hl : ¬ s.locked = true) :
    ∀ t' g, g ∈ s.stk t' → g.holds = false := by
  intro t g hg
  by_contra hb
  have := h.hold t g hg (by simpa using hb)
  have := h.lk
  simp_all


set_option hygiene false in
/-- Prove every field of the invariant from the same field of the pre-state where that is enough. -/
macro "std" h:ident hk:ident : tactic => `(tactic| (
  constructor
  case' tail => (first | exact Inv.tail $h | (have hkp := Inv.tail $h; clear $h; grind) | skip)
  case' nodup => (first | exact nodup_repl (Inv.nodup $h) $hk rfl | exact nodup_pop (Inv.nodup $h) $hk | skip)
  case' stopWin => (first | exact Inv.stopWin $h | (have hkp := Inv.stopWin $h; clear $h; grind) | skip)
  case' act => (first | exact Inv.act $h | (have hkp := Inv.act $h; clear $h; grind) | skip)
  case' notif => (first | exact Inv.notif $h | (have hkp := Inv.notif $h; clear $h; grind) | skip)
  case' notif2 => (first | exact Inv.notif2 $h | (have hkp := Inv.notif2 $h; clear $h; grind) | skip)
  case' winsLe => (first | exact Inv.winsLe $h | (have hkp := Inv.winsLe $h; clear $h; grind) | skip)
  case' retStop => (first | exact Inv.retStop $h | (have hkp := Inv.retStop $h; clear $h; grind) | skip)
  case' invStop => (first | exact Inv.invStop $h | (have hkp := Inv.invStop $h; clear $h; grind) | skip)
  case' retDone => (first | exact Inv.retDone $h | (have hkp := Inv.retDone $h; clear $h; grind) | skip)
  case' lk => (first | exact Inv.lk $h | (have hkp := Inv.lk $h; clear $h; grind) | skip)
  case' hold => (first | exact Inv.hold $h | (have hkp := Inv.hold $h; clear $h; grind) | skip)
  case' list => (first | exact Inv.list $h | (have hkp := Inv.list $h; clear $h; grind) | skip)
  case' listNodup => (first | exact Inv.listNodup $h | (have hkp := Inv.listNodup $h; clear $h; grind) | skip)
  case' linkedOk => (first | exact Inv.linkedOk $h | (have hkp := Inv.linkedOk $h; clear $h; grind) | skip)
  case' invLe => (first | exact Inv.invLe $h | (have hkp := Inv.invLe $h; clear $h; grind) | skip)
  case' cUnborn => (first | exact Inv.cUnborn $h | (have hkp := Inv.cUnborn $h; clear $h; grind) | skip)
  case' cConstr => (first | exact Inv.cConstr $h | (have hkp := Inv.cConstr $h; clear $h; grind) | skip)
  case' cInline => (first | exact Inv.cInline $h | (have hkp := Inv.cInline $h; clear $h; grind) | skip)
  case' cDead => (first | exact Inv.cDead $h | (have hkp := Inv.cDead $h; clear $h; grind) | skip)
  case' fExec => (first | exact Inv.fExec $h | (have hkp := Inv.fExec $h; clear $h; grind) | skip)
  case' fRun => (first | exact Inv.fRun $h | (have hkp := Inv.fRun $h; clear $h; grind) | skip)
  case' fAfter => (first | exact Inv.fAfter $h | (have hkp := Inv.fAfter $h; clear $h; grind) | skip)
  case' fMark => (first | exact Inv.fMark $h | (have hkp := Inv.fMark $h; clear $h; grind) | skip)
  case' fAddTry => (first | exact Inv.fAddTry $h | (have hkp := Inv.fAddTry $h; clear $h; grind) | skip)
  case' fAddLocked => (first | exact Inv.fAddLocked $h | (have hkp := Inv.fAddLocked $h; clear $h; grind) | skip)
  case' fAddInline => (first | exact Inv.fAddInline $h | (have hkp := Inv.fAddInline $h; clear $h; grind) | skip)
  case' fRmLock => (first | exact Inv.fRmLock $h | (have hkp := Inv.fRmLock $h; clear $h; grind) | skip)
  case' fRmLocked => (first | exact Inv.fRmLocked $h | (have hkp := Inv.fRmLocked $h; clear $h; grind) | skip)
  case' fRmElse => (first | exact Inv.fRmElse $h | (have hkp := Inv.fRmElse $h; clear $h; grind) | skip)
  case' fRmSelf => (first | exact Inv.fRmSelf $h | (have hkp := Inv.fRmSelf $h; clear $h; grind) | skip)
  case' fRmWait => (first | exact Inv.fRmWait $h | (have hkp := Inv.fRmWait $h; clear $h; grind) | skip)
  case' regs => (first
    | (refine fun c0 h1 h2 => (Inv.regs $h c0 h1 h2).elim Or.inl
         (fun hc => Or.inr (HasCur.repl hc $hk ?_)); intro hx; simp at hx; done)
    | (refine fun c0 h1 h2 => (Inv.regs $h c0 h1 h2).elim Or.inl
         (fun hc => Or.inr (HasCur.repl hc $hk ?_)); intro hx; simpa using hx)
    | (refine fun c0 h1 h2 => (Inv.regs $h c0 h1 h2).elim Or.inl
         (fun hc => Or.inr (HasCur.pop hc $hk ?_)); intro hx; simp at hx; done)
    | skip)
  case' notifOk => (first | exact Inv.notifOk $h | (have hkp := Inv.notifOk $h; clear $h; grind) | skip)
  case' noub => (first | exact Inv.noub $h | (have hkp := Inv.noub $h; clear $h; grind) | skip)
  ))

theorem inv_adv_reqTry {s s'} {t r} (h : Inv s) (hk : s.stk t = .reqTry :: r)
    (hs : adv s t = some s') : Inv s' := by
  have hmem : .reqTry ∈ s.stk t := by simp [hk]
  have htl := h.tail t _ _ hk
  simp only [adv, hk] at hs
  split at hs
  · cases hs
    std h hk
  · split at hs
    · cases hs
    · cases hs
      have hst := h.stopWin
      have ha := h.act
      have hw : s.win = none := by cases hw : s.win <;> simp_all
      have ha' : ∀ t f, f ∈ s.stk t → f.active = false := by grind
      have hno : ∀ c, (s.life c).reg = true → s.linked c = false → False := by
        intro c h1 h2
        rcases h.regs c h1 h2 with h3 | ⟨t1, f1, h3, h4⟩
        · obtain ⟨t1, h4⟩ := @invs_pos s.log c (by omega)
          have := h.invStop t1 c h4; contradiction
        · have := ha' t1 f1 h3; have := active_of_cur h4; simp_all
      have hh : ∀ t f, f ∈ s.stk t → f.holds = false := by
        have := h.hold; have := h.lk; have : s.holder = none := by cases hw : s.holder <;> simp_all
        clear h; grind
      have hwin : wins s.log = 0 := by
        have := h.retStop
        generalize s.log = l at this
        have hs : s.stop = false := by simpa using ‹¬ s.stop = true›
        rw [hs] at this
        clear * - this
        induction l with
        | nil => rfl
        | cons e l ih => cases e <;> grind
      have := h.notif2
      clear hst ha
      std h hk
      case nodup =>
        have hn := h.nodup t
        simp only [hk] at hn
        refine nodup_new h.nodup (by simp at hn; exact hn.2) ?_
        intro g hg he
        have := ha' t g (by simp [hk, hg])
        have := active_of_key he
        simp_all

theorem inv_adv_reqWon {s s'} {t r} (h : Inv s) (hk : s.stk t = .reqWon :: r)
    (hs : adv s t = some s') : Inv s' := by
  have hmem : .reqWon ∈ s.stk t := by simp [hk]
  have htl := h.tail t _ _ hk
  have ha := h.act
  have hnf := h.notif
  have hn := h.nodup t
  have hno := h.notifOk
  simp only [adv, hk] at hs
  cases hs
  std h hk
  
theorem inv_adv_reqLoop {s s'} {t r} (h : Inv s) (hk : s.stk t = .reqLoop :: r)
    (hs : adv s t = some s') : Inv s' := by
  have hmem : .reqLoop ∈ s.stk t := by simp [hk]
  have htl := h.tail t _ _ hk
  have ha := h.act
  have hh := h.hold_other hk rfl
  have hu := fun t' g => h.active_uniq (t' := t') (g := g) hmem rfl
  have hr := h.active_rest hk rfl
  have hli := h.list
  have hsw := h.stopWin
  simp only [adv, hk] at hs
  split at hs
  · cases hs
    std h hk
  · rename_i c cs hcs
    dsimp only [touch] at hs
    cases hs
    have hnof := h.notif
    have hlc : s.linked c = true := (hli c).1 (by simp [hcs])
    have hlo := h.linkedOk c hlc
    have hd := isDead_of_reg hlo.1
    have hnd := h.listNodup
    rw [hcs] at hnd
    std h hk
    case regs =>
      intro c0 h1 h2
      by_cases hc : c0 = c
      · subst hc; exact Or.inr (HasCur.top rfl)
      · simp only [upd_other _ _ hc] at h2
        exact (h.regs c0 h1 h2).elim Or.inl (fun hc => Or.inr (HasCur.repl hc hk (by simp)))

theorem inv_adv_reqExec {s s'} {t r c} (h : Inv s) (hk : s.stk t = .reqExec c :: r)
    (hs : adv s t = some s') : Inv s' := by
  have hmem : .reqExec c ∈ s.stk t := by simp [hk]
  have htl := h.tail t _ _ hk
  have hf := h.fExec t c hmem
  have hd := isDead_of_reg hf.1
  have hact := h.act t _ hmem rfl
  have hsw := h.stopWin
  simp only [adv, hk, touch] at hs
  cases hs
  have hu := fun t' g => h.active_uniq (t' := t') (g := g) hmem rfl
  have hr := h.active_rest hk rfl
  std h hk
  case regs =>
    intro c0 h1 h2
    by_cases hc : c0 = c
    · subst hc; exact Or.inr (HasCur.top rfl)
    · have := h.regs c0 h1 h2
      refine this.imp ?_ (fun hh => HasCur.repl hh hk (by simp))
      simp only [upd_other _ _ hc]; simp only [invs]; grind

theorem inv_adv_reqAfter {s s'} {t r c} (h : Inv s) (hk : s.stk t = .reqAfter c :: r)
    (hs : adv s t = some s') : Inv s' := by
  have hmem : .reqAfter c ∈ s.stk t := by simp [hk]
  have htl := h.tail t _ _ hk
  have hf := h.fAfter t c hmem
  have hu := fun t' g => h.active_uniq (t' := t') (g := g) hmem rfl
  have hr := h.active_rest hk rfl
  simp only [adv, hk] at hs
  split at hs
  · cases hs
    std h hk
    case regs =>
      intro c0 h1 h2
      have hne : c0 ≠ c := by rintro rfl; simp_all
      exact (h.regs c0 h1 h2).elim Or.inl
        (fun hc => Or.inr (HasCur.repl hc hk (by simpa using hne.symm)))
  · dsimp only [touch] at hs
    cases hs
    have hd : (s.life c).isDead = false := by
      rcases hf.2.2.2.2 with h1 | h1
      · exact isDead_of_reg h1.2
      · simp_all
    std h hk
    case regs =>
      intro c0 h1 h2
      by_cases hc : c0 = c
      · subst hc; exact Or.inr (HasCur.top rfl)
      · have := h.regs c0 h1 h2
        refine this.imp ?_ (fun hh => HasCur.repl hh hk (by simp))
        simp only [upd_other _ _ hc]; exact id

theorem inv_adv_reqMark {s s'} {t r c} (h : Inv s) (hk : s.stk t = .reqMark c :: r)
    (hs : adv s t = some s') : Inv s' := by
  have hmem : .reqMark c ∈ s.stk t := by simp [hk]
  have htl := h.tail t _ _ hk
  have hf := h.fMark t c hmem
  have hd := isDead_of_reg hf.1
  have hu := fun t' g => h.active_uniq (t' := t') (g := g) hmem rfl
  have hr := h.active_rest hk rfl
  simp only [adv, hk] at hs
  dsimp only [touch] at hs
  cases hs
  std h hk
  case regs =>
    intro c0 h1 h2
    by_cases hc : c0 = c
    · subst hc; exact Or.inl ⟨by simp, hf.2.2.2.1, hf.2.2.2.2⟩
    · have := h.regs c0 h1 h2
      refine this.imp ?_ (fun hh => HasCur.repl hh hk (by simpa using Ne.symm hc))
      simp only [upd_other _ _ hc]; exact id

theorem inv_adv_reqRelock {s s'} {t r} (h : Inv s) (hk : s.stk t = .reqRelock :: r)
    (hs : adv s t = some s') : Inv s' := by
  have hmem : .reqRelock ∈ s.stk t := by simp [hk]
  have htl := h.tail t _ _ hk
  simp only [adv, hk, touch] at hs
  split at hs
  · cases hs
  · rename_i hl
    cases hs
    have hnh := h.no_hold hl
    std h hk

theorem inv_adv_addTry {s s'} {t r c} (h : Inv s) (hk : s.stk t = .addTry c :: r)
    (hs : adv s t = some s') : Inv s' := by
  have hmem : .addTry c ∈ s.stk t := by simp [hk]
  have htl := h.tail t _ _ hk
  have hf := h.fAddTry t c hmem
  simp only [adv, hk, touch] at hs
  split at hs
  · cases hs
    have hcon := h.cConstr c t hf.1
    std h hk
    case regs =>
      intro c0 h1 h2
      have hne : c0 ≠ c := by rintro rfl; simp_all
      refine (h.regs c0 h1 h2).imp ?_ (fun hc => HasCur.repl hc hk (by simp))
      simp only [invs]; grind
  · split at hs
    · cases hs
    · rename_i hl
      cases hs
      have hnh := h.no_hold hl
      std h hk

theorem wins_pos {l : List Event} (h : wins l ≠ 0) : ∃ t b, Event.reqRet t b ∈ l := by
  induction l with
  | nil => simp [wins] at h
  | cons e l ih => cases e <;> grind

theorem inv_adv_addLocked {s s'} {t r c} (h : Inv s) (hk : s.stk t = .addLocked c :: r)
    (hs : adv s t = some s') : Inv s' := by
  have hmem : .addLocked c ∈ s.stk t := by simp [hk]
  have htl := h.tail t _ _ hk
  have hf := h.fAddLocked t c hmem
  have hh := h.hold_other hk rfl
  have hcon := h.cConstr c t hf.1
  have hli := h.list c
  have hret : wins s.log = 0 := by
    by_contra hw
    obtain ⟨t1, b, hb⟩ := wins_pos hw
    have := h.retStop t1 b hb
    simp_all
  have hn := h.nodup t
  rw [hk] at hn
  have hn : ∀ g ∈ r, g.key ≠ .add c := by
    intro g hg he
    simp only [List.map_cons, List.nodup_cons] at hn
    exact hn.1 (List.mem_map.2 ⟨g, hg, by simpa using he⟩)
  simp only [adv, hk, touch] at hs
  cases hs
  std h hk
  case regs =>
    intro c0 h1 h2
    have hne : c0 ≠ c := by rintro rfl; simp_all
    simp only [upd_other _ _ hne] at h1 h2
    exact (h.regs c0 h1 h2).imp id (fun hc => HasCur.pop hc hk (by simp))

theorem inv_adv_rmLock {s s'} {t r c} (h : Inv s) (hk : s.stk t = .rmLock c :: r)
    (hs : adv s t = some s') : Inv s' := by
  have hmem : .rmLock c ∈ s.stk t := by simp [hk]
  have htl := h.tail t _ _ hk
  have hf := h.fRmLock t c hmem
  simp only [adv, hk, touch] at hs
  split at hs
  · cases hs
  · rename_i hl
    cases hs
    have hnh := h.no_hold hl
    std h hk

theorem inv_adv_rmLocked {s s'} {t r c} (h : Inv s) (hk : s.stk t = .rmLocked c :: r)
    (hs : adv s t = some s') : Inv s' := by
  have hmem : .rmLocked c ∈ s.stk t := by simp [hk]
  have htl := h.tail t _ _ hk
  have hf := h.fRmLocked t c hmem
  have hh := h.hold_other hk rfl
  have hd : (s.life c).isDead = false := by simp [hf]
  have hn := h.nodup t
  rw [hk] at hn
  have hn : ∀ g ∈ r, g.key ≠ .rm c := by
    intro g hg he
    simp only [List.map_cons, List.nodup_cons] at hn
    exact hn.1 (List.mem_map.2 ⟨g, hg, by simpa using he⟩)
  simp only [adv, hk] at hs
  dsimp only [touch] at hs
  split at hs
  · rename_i hl
    cases hs
    have hli := h.list
    have hlo := h.linkedOk
    have hnd := h.listNodup
    std h hk
    case regs =>
      intro c0 h1 h2
      have hne : c0 ≠ c := by rintro rfl; simp_all
      simp only [upd_other _ _ hne] at h1 h2
      exact (h.regs c0 h1 h2).imp id (fun hc => HasCur.pop hc hk (by simp))
  · rename_i hl
    cases hs
    have hno := h.notifOk c
    std h hk

theorem inv_adv_rmElse {s s'} {t r c n} (h : Inv s) (hk : s.stk t = .rmElse c n :: r)
    (hs : adv s t = some s') : Inv s' := by
  have hmem : .rmElse c n ∈ s.stk t := by simp [hk]
  have htl := h.tail t _ _ hk
  have hf := h.fRmElse t c n hmem
  simp only [adv, hk, touch] at hs
  split at hs
  · cases hs
    std h hk
  · cases hs
    std h hk

theorem inv_adv_rmSelf {s s'} {t r c} (h : Inv s) (hk : s.stk t = .rmSelf c :: r)
    (hs : adv s t = some s') : Inv s' := by
  have hmem : .rmSelf c ∈ s.stk t := by simp [hk]
  have htl := h.tail t _ _ hk
  have hf := h.fRmSelf t c hmem
  have hd : (s.life c).isDead = false := by simp [hf]
  have hact := h.act
  have hn := h.nodup t
  rw [hk] at hn
  have hn : ∀ g ∈ r, g.key ≠ .rm c := by
    intro g hg he
    simp only [List.map_cons, List.nodup_cons] at hn
    exact hn.1 (List.mem_map.2 ⟨g, hg, by simpa using he⟩)
  simp only [adv, hk] at hs
  dsimp only [touch] at hs
  cases hs
  std h hk
  case regs =>
    intro c0 h1 h2
    have hne : c0 ≠ c := by rintro rfl; simp_all
    simp only [upd_other _ _ hne] at h1
    exact (h.regs c0 h1 h2).imp id (fun hc => HasCur.pop hc hk (by simp))

theorem inv_adv_rmWait {s s'} {t r c} (h : Inv s) (hk : s.stk t = .rmWait c :: r)
    (hs : adv s t = some s') : Inv s' := by
  have hmem : .rmWait c ∈ s.stk t := by simp [hk]
  have htl := h.tail t _ _ hk
  have hf := h.fRmWait t c hmem
  have hd : (s.life c).isDead = false := by simp [hf]
  have hn := h.nodup t
  rw [hk] at hn
  have hn : ∀ g ∈ r, g.key ≠ .rm c := by
    intro g hg he
    simp only [List.map_cons, List.nodup_cons] at hn
    exact hn.1 (List.mem_map.2 ⟨g, hg, by simpa using he⟩)
  simp only [adv, hk] at hs
  dsimp only [touch] at hs
  split at hs
  · rename_i hl
    cases hs
    std h hk
    case regs =>
      intro c0 h1 h2
      have hne : c0 ≠ c := by rintro rfl; simp_all
      simp only [upd_other _ _ hne] at h1
      exact (h.regs c0 h1 h2).imp id (fun hc => HasCur.pop hc hk (by simp))
  · cases hs

theorem key_rm {f : Frame} {c} (h : f.key = .rm c) :
    (∃ n, f = .rmElse c n) ∨ f = .rmLock c ∨ f = .rmLocked c ∨ f = .rmSelf c ∨ f = .rmWait c := by
  cases f <;> simp_all
theorem key_add {f : Frame} {c} (h : f.key = .add c) :
    f = .addTry c ∨ f = .addLocked c ∨ f = .addInline c := by
  cases f <;> simp_all
theorem userTop_cons {f r} (h : userTop (f :: r) = true) : f.isRunning = true := h
theorem running_key {f : Frame} (h : f.isRunning = true) : f.key ≠ .try_ ∧ ∀ c, f.key ≠ .rm c := by
  cases f <;> simp_all

theorem tail_push {s} (h : Inv s) {t f} (hu : userTop (s.stk t) = true) :
    ∀ t' f' r, upd s.stk t (f :: s.stk t) t' = f' :: r → ∀ g ∈ r, g.isRunning = true := by
  intro t' f' r he g hg
  by_cases ht : t' = t
  · subst ht
    simp at he
    obtain ⟨rfl, rfl⟩ := he
    cases hs : s.stk t' with
    | nil => simp [hs] at hg
    | cons f0 r0 =>
      rw [hs] at hg hu
      rcases List.mem_cons.1 hg with rfl | hg
      · exact userTop_cons hu
      · exact h.tail t' f0 r0 hs g hg
  · rw [upd_other _ _ ht] at he; exact h.tail t' f' r he g hg

theorem user_all {s} (h : Inv s) {t} (hu : userTop (s.stk t) = true) :
    ∀ g ∈ s.stk t, g.isRunning = true := by
  intro g hg
  cases hs : s.stk t with
  | nil => simp [hs] at hg
  | cons f0 r0 =>
    rw [hs] at hg hu
    rcases List.mem_cons.1 hg with rfl | hg
    · exact userTop_cons hu
    · exact h.tail t f0 r0 hs g hg

theorem inv_callReq {s s'} {t} (h : Inv s) (hs : step s (.callReq t) = some s') : Inv s' := by
  simp only [step] at hs
  split at hs
  · rename_i hu
    cases hs
    have hall := user_all h hu
    have hk : s.stk t = s.stk t := rfl
    std h hk
    case nodup =>
      exact nodup_new h.nodup (h.nodup t) (fun g hg => (running_key (hall g hg)).1)
    case regs => exact fun c0 h1 h2 => (h.regs c0 h1 h2).imp id HasCur.push
  · cases hs

theorem inv_callAdd {s s'} {t c} (h : Inv s) (hs : step s (.callAdd t c) = some s') : Inv s' := by
  simp only [step] at hs
  split at hs
  · rename_i hu
    obtain ⟨hu, hlife⟩ := hu
    cases hs
    have hall := user_all h hu
    have hk : s.stk t = s.stk t := rfl
    have hcu := h.cUnborn c hlife
    std h hk
    case nodup =>
      refine nodup_new h.nodup (h.nodup t) (fun g hg he => ?_)
      have h1 := h.fAddTry t c
      have h2 := h.fAddLocked t c
      have h3 := h.fAddInline t c
      rcases key_add he with rfl | rfl | rfl <;> simp_all
    case regs =>
      intro c0 h1 h2
      have hne : c0 ≠ c := by rintro rfl; simp_all
      simp only [upd_other _ _ hne] at h1
      exact (h.regs c0 h1 h2).imp id HasCur.push
  · cases hs

theorem inv_callRm {s s'} {t c} (h : Inv s) (hs : step s (.callRm t c) = some s') : Inv s' := by
  simp only [step] at hs
  split at hs
  · rename_i hu
    obtain ⟨hu, hlife⟩ := hu
    cases hs
    have hall := user_all h hu
    have hk : s.stk t = s.stk t := rfl
    std h hk
    case nodup =>
      exact nodup_new h.nodup (h.nodup t) (fun g hg => (running_key (hall g hg)).2 c)
    case regs =>
      intro c0 h1 h2
      have h1 : (s.life c0).reg = true := by
        by_cases hne : c0 = c
        · subst hne; simp [hlife]
        · simpa only [upd_other _ _ hne] using h1
      exact (h.regs c0 h1 h2).imp id HasCur.push
  · cases hs

theorem inv_dropInline {s s'} {t c} (h : Inv s) (hs : step s (.dropInline t c) = some s') :
    Inv s' := by
  simp only [step] at hs
  split at hs
  · rename_i hu
    obtain ⟨hu, hlife⟩ := hu
    cases hs
    have hk : s.stk t = s.stk t := rfl
    have hci := h.cInline c hlife
    std h hk
    case nodup => exact h.nodup
    case regs =>
      intro c0 h1 h2
      have hne : c0 ≠ c := by rintro rfl; simp_all
      simp only [upd_other _ _ hne] at h1
      exact (h.regs c0 h1 h2)
  · cases hs

theorem inv_ret {s s'} {t} (h : Inv s) (hs : step s (.ret t) = some s') : Inv s' := by
  simp only [step] at hs
  split at hs
  · rename_i c r hk
    have hmem : .reqRunning c ∈ s.stk t := by simp [hk]
    have htl := h.tail t _ _ hk
    have hf := h.fRun t c hmem
    have hu := fun t' g => h.active_uniq (t' := t') (g := g) hmem rfl
    have hr := h.active_rest hk rfl
    cases hs
    std h hk
  · rename_i c r hk
    have hmem : .addInline c ∈ s.stk t := by simp [hk]
    have htl := h.tail t _ _ hk
    have hf := h.fAddInline t c hmem
    have hcon := h.cConstr c t hf.1
    have hn := h.nodup t
    rw [hk] at hn
    have hn : ∀ g ∈ r, g.key ≠ .add c := by
      intro g hg he
      simp only [List.map_cons, List.nodup_cons] at hn
      exact hn.1 (List.mem_map.2 ⟨g, hg, by simpa using he⟩)
    cases hs
    std h hk
    case regs =>
      intro c0 h1 h2
      have hne : c0 ≠ c := by rintro rfl; simp_all
      simp only [upd_other _ _ hne] at h1
      exact (h.regs c0 h1 h2).imp id (fun hc => HasCur.pop hc hk (by simp))
  · cases hs

theorem inv_adv {s s'} {t} (h : Inv s) (hs : adv s t = some s') : Inv s' := by
  cases hk : s.stk t with
  | nil => simp [adv, hk] at hs
  | cons f r =>
    cases f with
    | reqTry => exact inv_adv_reqTry h hk hs
    | reqWon => exact inv_adv_reqWon h hk hs
    | reqLoop => exact inv_adv_reqLoop h hk hs
    | reqExec c => exact inv_adv_reqExec h hk hs
    | reqRunning c => simp [adv, hk] at hs
    | reqAfter c => exact inv_adv_reqAfter h hk hs
    | reqMark c => exact inv_adv_reqMark h hk hs
    | reqRelock => exact inv_adv_reqRelock h hk hs
    | addTry c => exact inv_adv_addTry h hk hs
    | addLocked c => exact inv_adv_addLocked h hk hs
    | addInline c => simp [adv, hk] at hs
    | rmLock c => exact inv_adv_rmLock h hk hs
    | rmLocked c => exact inv_adv_rmLocked h hk hs
    | rmElse c n => exact inv_adv_rmElse h hk hs
    | rmSelf c => exact inv_adv_rmSelf h hk hs
    | rmWait c => exact inv_adv_rmWait h hk hs

theorem inv_step {s a s'} (h : Inv s) (hs : step s a = some s') : Inv s' := by
  cases a with
  | callReq t => exact inv_callReq h hs
  | callAdd t c => exact inv_callAdd h hs
  | callRm t c => exact inv_callRm h hs
  | dropInline t c => exact inv_dropInline h hs
  | ret t => exact inv_ret h hs
  | adv t => exact inv_adv h hs

theorem inv_reach {s} (h : Reachable s) : Inv s :=
  Reach.inv Inv inv_init (fun _ _ _ hi hs => inv_step hi hs) s h

end Verif.StopSource
