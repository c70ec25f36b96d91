import Verif.Task.Steps3
namespace Verif.Task
set_option maxHeartbeats 4000000

/-- The frame of `i` is destroyed; `__task_` was emptied before. -/
def drop (s : St) (i : Nat) : St := destroy (setFr s i { s.fr i with owns := false }) i

theorem drop_fr (s : St) (i : Nat) (hc : (s.fr i).child ≠ some i) (j : Nat) : (drop s i).fr j =
    if j = i then { s.fr i with owns := false, alive := false, destroyed := (s.fr i).destroyed + 1, child := none }
    else if (s.fr i).child = some j then { s.fr j with awAlive := false } else s.fr j := by
  unfold drop destroy
  cases hch : (s.fr i).child with
  | none => 
    simp only [setFr, upd_same, hch, upd]
    by_cases hj : j = i <;> simp [upd, hj]
  | some c =>
    have hne : c ≠ i := by intro he; apply hc; rw [hch, he]
    have hne' : i ≠ c := fun he => hne he.symm
    simp only [setFr, upd_same, hch, upd]
    by_cases hj : j = i
    · simp [hj]
    · by_cases hjc : j = c
      · subst hjc; simp [upd, hne]
      · have h2 : ¬ c = j := fun he => hjc he.symm
        simp [upd, hj, hjc, h2]

theorem drop_rest (s : St) (i : Nat) : (drop s i).n = s.n ∧ (drop s i).ctl = s.ctl ∧ (drop s i).ctx = s.ctx ∧
    (drop s i).stop = s.stop ∧ (drop s i).same = s.same ∧ (drop s i).inlineStop = s.inlineStop ∧
    (drop s i).log = s.log := by
  unfold drop destroy
  split <;> simp [setFr]

theorem drop_bad {b0 : Body} {s : St} {i : Nat} {t : List Nat} (h : Inv b0 s (i :: t))
    (htop : top s.ctl = some i) : (drop s i).bad = false ∧ (s.fr i).child ≠ some i := by
  have hlv := h.live i (by simp)
  have hne : (s.fr i).child ≠ some i := by
    intro he
    have := (h.child i i htop he).2.1
    simp at this
  refine ⟨?_, hne⟩
  unfold drop destroy
  simp only [setFr, upd_same]
  cases hch : (s.fr i).child with
  | none => simp [h.bad, hlv.1]
  | some c =>
    have h1 := h.child i c htop hch
    have h2 := h.gone c h1.2.2.1 h1.2.1
    have hci : c ≠ i := by intro he; apply hne; rw [hch, he]
    simp [h.bad, hlv.1, upd, hci, h1.2.2.2, h2.2.2.1, h2.2.2.2]

/-- `await_resume` and what follows. -/
theorem inv_back {b0 : Body} {s : St} {i : Nat} {t : List Nat} {o : Out} {lg : List Ev}
    (h : Inv b0 s (i :: t)) (htop : top s.ctl = some i) (hcb : (s.fr i).cb = false)
    (hcn : (s.fr i).child = none) (ho : o = .stopped → t = [])
    (hse : ∀ r, denRoot b0 (lg ++ r) = up s.fr t o r) :
    Inv b0 { continueParent (drop s i) i o with log := lg } t := by
  have hlv := h.live i (by simp)
  have hni := not_mem_tail h.srt
  obtain ⟨hdb, hne⟩ := drop_bad h htop
  have hfr := drop_fr s i hne
  obtain ⟨r1, r2, r3, r4, r5, r6, r7⟩ := drop_rest s i
  have hdi : (drop s i).fr i = { s.fr i with owns := false, alive := false, destroyed := (s.fr i).destroyed + 1, child := none } := by
    rw [hfr]; simp
  have hdj : ∀ j, j ≠ i → (drop s i).fr j = s.fr j := by
    intro j hj; rw [hfr]; simp [hj, hcn]
  have hpar := Link_parent h.link
  unfold continueParent
  rw [hdi]
  cases t with
  | nil =>
    simp only [List.head?_nil] at hpar
    simp only [hpar]
    refine inv_pop h htop hcb r1 ?_ r4 rfl rfl (by simp) (by simp) ?_ ?_ ?_ ?_ ?_ ?_ ?_
    · simp [hdb, hlv.2.2.2, hcb]
    · intro j hj; simp [upd, hj, hdj j hj]
    · simp [hlv.2.1, hcb]
    · simp
    · simp
    · intro j hj _
      exfalso
      by_cases he : j = i
      · subst he; simp at hj
      · simp only [upd, if_neg he, hdj j he] at hj
        obtain ⟨p, hp, hp2⟩ := h.aws j hj (by simp [he])
        rw [htop] at hp; cases hp; rw [hcn] at hp2; cases hp2
    · intro p c hp; simp [top] at hp
    · intro r; simp only [sem]; rw [hse r]; rfl
  | cons p t' =>
    simp only [List.head?_cons] at hpar
    simp only [hpar]
    have hpi : p ≠ i := top_ne h (by simp)
    have hip : i ≠ p := fun he => hpi he.symm
    have hlp := h.live p (by simp)
    have hos : o ≠ .stopped := by intro he; have := ho he; simp at this
    refine inv_pop h htop hcb r1 ?_ r4 rfl rfl (by simp) ?_ ?_ ?_ ?_ ?_ ?_ ?_ ?_
    · simp [hdb, hlv.2.2.2, hcb, hdj p hpi, hlp.1]
    · simp only; rw [r5, r6]; exact h.same
    · intro j hj
      by_cases hjp : j = p
      · subst hjp; simp [hdj j hpi]
      · simp [upd, hj, hjp, hdj j hj]
    · simp [upd, hip, hlv.2.1, hcb]
    · intro j hj
      simp only [List.tail_cons] at hj
      have h1 : j ≠ i := top_ne h (by simp [hj])
      have h2 : j ≠ p := by
        intro he; subst he
        exact not_mem_tail (List.pairwise_cons.1 h.srt).2 hj
      simp [upd, h1, h2, hdj j h1]
    · intro j hj
      have h1 : j ≠ i := top_ne h hj
      have := (h.live j (List.mem_cons_of_mem i hj)).2.2.2
      by_cases h2 : j = p
      · subst h2; simp [hdj j hpi, this]
      · simp [upd, h1, h2, hdj j h1, this]
    · intro j hj hjl
      exfalso
      have hjp : j ≠ p := by intro he; subst he; simp at hjl
      by_cases he : j = i
      · subst he; simp [upd, hjp] at hj
      · simp only [upd, if_neg he, if_neg hjp, hdj j he] at hj
        obtain ⟨q, hq, hq2⟩ := h.aws j hj (by simp only [List.mem_cons, not_or] at hjl ⊢; exact ⟨he, hjl⟩)
        rw [htop] at hq; cases hq; rw [hcn] at hq2; cases hq2
    · intro q c hq hc
      simp only [top, Option.some.injEq] at hq; subst hq
      simp at hc
    · intro r
      simp only [sem, List.tail_cons, upd_same, hdj p hpi]
      rw [hse r]
      have hu : ∀ (f g : Fr) o r, up (upd (upd (drop s i).fr i f) p g) t' o r = up s.fr t' o r := by
        intro f g
        refine up_congr ?_
        intro j hj
        have h1 : j ≠ i := top_ne h (by simp [hj])
        have h2 : j ≠ p := by
          intro he; subst he
          exact not_mem_tail (List.pairwise_cons.1 h.srt).2 hj
        simp [upd, h1, h2, hdj j h1]
      simp only [hu]
      cases o with
      | stopped => exact absurd rfl hos
      | value v => rfl
      | error e => rfl

/-- The root task was cancelled: the receiver is completed. -/
theorem inv_back_root {b0 : Body} {s : St} {i : Nat} (h : Inv b0 s [i]) (hc : s.ctl = .cancel2 i) :
    Inv b0 (continueParent (drop s i) i .stopped) [] := by
  have htop : top s.ctl = some i := by rw [hc]; rfl
  have hcb : (s.fr i).cb = false := by rw [cb_top h htop, hc]; simp [noCb]
  have hlv := h.live i (by simp)
  obtain ⟨hdb, hne⟩ := drop_bad h htop
  have hfr := drop_fr s i hne
  obtain ⟨r1, r2, r3, r4, r5, r6, r7⟩ := drop_rest s i
  have hdi : (drop s i).fr i = { s.fr i with owns := false, alive := false, destroyed := (s.fr i).destroyed + 1, child := none } := by
    rw [hfr]; simp
  have hpar := Link_parent h.link
  simp only [List.head?_nil] at hpar
  unfold continueParent
  rw [hdi]
  simp only [hpar]
  refine inv_pop h htop hcb r1 ?_ r4 rfl rfl (by simp) (by simp) ?_ ?_ ?_ ?_ ?_ ?_ ?_
  · simp [hdb, hlv.2.2.2, hcb]
  · intro j hj
    simp only [upd, if_neg hj]
    rw [hfr, if_neg hj]; split <;> simp
  · simp [hlv.2.1, hcb]
  · simp
  · simp
  · intro j hj _
    exfalso
    by_cases he : j = i
    · subst he; simp at hj
    · simp only [upd, if_neg he] at hj
      rw [hfr, if_neg he] at hj
      split at hj
      · simp at hj
      · rename_i hx
        obtain ⟨p, hp, hp2⟩ := h.aws j hj (by simp [he])
        rw [htop] at hp; cases hp; exact hx hp2
  · intro p c hp; simp [top] at hp
  · intro r
    have := h.sem r
    rw [hc] at this
    simp only [sem] at this ⊢
    rw [r7, this]; rfl

/-- `__canceled` passing the stop on to the continuation. -/
theorem inv_cancel_up {b0 : Body} {s : St} {i p : Nat} {t : List Nat} (h : Inv b0 s (i :: p :: t))
    (hc : s.ctl = .cancel2 i) : Inv b0 { drop s i with ctl := .cancel p } (p :: t) := by
  have htop : top s.ctl = some i := by rw [hc]; rfl
  have hcb : (s.fr i).cb = false := by rw [cb_top h htop, hc]; simp [noCb]
  have hlv := h.live i (by simp)
  have hni := not_mem_tail h.srt
  obtain ⟨hdb, hne⟩ := drop_bad h htop
  have hfr := drop_fr s i hne
  obtain ⟨r1, r2, r3, r4, r5, r6, r7⟩ := drop_rest s i
  have hpi : p ≠ i := top_ne h (by simp)
  have hip : i ≠ p := fun he => hpi he.symm
  have hchp : (s.fr p).child = some i := by have := h.link; unfold Link at this; exact this.2.2.1
  have hcl : ∀ j ∈ p :: t, (s.fr i).child ≠ some j := by
    intro j hj he
    have := (h.child i j htop he).2.1
    exact this (List.mem_cons_of_mem _ hj)
  have hdt : ∀ j ∈ p :: t, (drop s i).fr j = s.fr j := by
    intro j hj
    have h1 : j ≠ i := top_ne h hj
    rw [hfr]; simp [h1, hcl j hj]
  refine inv_pop h htop hcb r1 hdb r4 rfl rfl (by simp) ?_ ?_ ?_ ?_ ?_ ?_ ?_ ?_
  · simp only; rw [r5, r6]; exact h.same
  · intro j hj
    simp only; rw [hfr, if_neg hj]; split <;> simp
  · simp only; rw [hfr]; simp [hlv.2.1, hcb]
  · intro j hj
    simp only; rw [hdt j (List.mem_of_mem_tail hj)]
  · intro j hj
    simp only; rw [hdt j hj]; exact (h.live j (List.mem_cons_of_mem _ hj)).2.2.2
  · intro j hj hjl
    refine ⟨p, rfl, ?_⟩
    simp only at hj ⊢
    rw [hdt p (by simp), hchp]
    by_cases he : j = i
    · rw [he]
    · exfalso
      rw [hfr, if_neg he] at hj
      split at hj
      · simp at hj
      · rename_i hx
        obtain ⟨q, hq, hq2⟩ := h.aws j hj (by rw [List.mem_cons, not_or]; exact ⟨he, hjl⟩)
        rw [htop] at hq; cases hq; exact hx hq2
  · intro q c hq hc
    simp only [top, Option.some.injEq] at hq; subst hq
    simp only at hc ⊢
    rw [hdt p (by simp), hchp] at hc
    cases hc
    refine ⟨rfl, hni, h.lt i (by simp), ?_⟩
    rw [hfr]; simp [hlv.2.2.2]
  · intro r
    have := h.sem r
    rw [hc] at this
    simp only [sem, List.tail_cons] at this ⊢
    rw [r7, this]
    simp only [up]
    symm
    refine up_congr ?_ _ _
    intro j hj; rw [hdt j (List.mem_cons_of_mem _ hj)]

end Verif.Task
