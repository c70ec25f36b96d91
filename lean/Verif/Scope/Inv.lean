import Verif.Scope.Model
import Mathlib.Tactic.ByContra
/-! # Counting scopes: the invariant -/
namespace Verif.Scope

/-- 1 if the agent holds an association. -/
@[grind] def hw : APc → Nat
  | .granted | .disLoop _ => 1
  | _ => 0

/-- The join operation is between having made the scope joining and being registered. -/
@[grind] def JPc.pend : JPc → Bool
  | .regLoad | .regCas _ | .waiting => true
  | _ => false

@[grind] def JPc.fin : JPc → Bool
  | .inl | .completed => true
  | _ => false

@[grind] def APc.isTry : APc → Bool
  | .tryLoop _ => true
  | _ => false

structure Inv (max : Nat) (s : St) : Prop where
  andp : s.agents.Nodup
  amem : ∀ a, a ∈ s.agents ↔ s.ap a ≠ .idle
  jmem : ∀ j, j ∈ s.joins ↔ s.jp j ≠ .idle
  cnt : s.bits.count = lsum hw s.ap s.agents
  tryOk : ∀ a old, s.ap a = .tryLoop old → old.refuses max = false
  le : s.bits.count ≤ max
  need : s.bits.needed = false → s.bits.count = 0
  run : s.bits.running = true → s.bits.count ≠ 0
  grants : s.bits.needed = true ∨ s.bits.count ≠ 0 → s.grants ≠ 0
  runJ : s.bits.running = true → (∃ j, (s.jp j).pend = true) ∧ s.dq = none
  dqJ : s.dq ≠ none → s.bits = ⟨0, true, false, false⟩
  dqA : ∀ a, s.ap a = .deq ∨ s.ap a = .completing → s.dq = some a
  dqR : ∀ a, s.ap a = .deq → s.reg ≠ none ∧ ∃ j, (s.jp j).pend = true
  dqC : ∀ a, s.ap a = .completing → s.reg = none
  regN : s.reg = none → s.dq ≠ none
  dqD : s.reg ≠ none → ∀ a, s.dq = some a → s.ap a = .deq
  todoN : s.todo ≠ [] → ∃ a, s.ap a = .completing
  regT : s.reg ≠ none → s.todo = []
  nd : (s.reg.getD [] ++ s.todo).Nodup
  wait : ∀ j, j ∈ s.reg.getD [] ++ s.todo ↔ s.jp j = .waiting
  pendR : ∀ j, (s.jp j).pend = true → s.bits.running = true ∨ s.dq ≠ none
  fin : ∀ j, (s.jp j).fin = true → s.bits = ⟨0, true, false, false⟩
  compl : ∀ j, s.compl j = if s.jp j = .completed then 1 else 0
  early : s.early = false
  close : s.closeCalled = true → s.bits.closed = true
  deadS : s.dead = some true → (∀ a, s.ap a ≠ .deq ∧ (s.ap a).isTry = false) ∧ s.bits.count = 0 ∧
    ∀ j, s.jp j = .idle ∨ s.jp j = .completed
  uaf : s.dead = some true ∨ s.dead = none → s.uaf = false
  term : s.terminated = false

theorem inv_init (max : Nat) : Inv max init := by
  constructor <;> simp [init, lsum, JPc.pend, JPc.fin, APc.isTry]

/-- Split the goal into the invariant's fields and close those that are unaffected. -/
macro "std" h:ident : tactic => `(tactic| (
  constructor
  case' andp => (first | exact Inv.andp $h | (have hkp := Inv.andp $h; clear $h; grind) | skip)
  case' amem => (first | exact Inv.amem $h | (have hkp := Inv.amem $h; clear $h; grind) | skip)
  case' jmem => (first | exact Inv.jmem $h | (have hkp := Inv.jmem $h; clear $h; grind) | skip)
  case' cnt => (first | exact Inv.cnt $h | (have hkp := Inv.cnt $h; clear $h; grind) | skip)
  case' tryOk => (first | exact Inv.tryOk $h | (have hkp := Inv.tryOk $h; clear $h; grind) | skip)
  case' le => (first | exact Inv.le $h | (have hkp := Inv.le $h; clear $h; grind) | skip)
  case' need => (first | exact Inv.need $h | (have hkp := Inv.need $h; clear $h; grind) | skip)
  case' run => (first | exact Inv.run $h | (have hkp := Inv.run $h; clear $h; grind) | skip)
  case' grants => (first | exact Inv.grants $h | (have hkp := Inv.grants $h; clear $h; grind) | skip)
  case' runJ => (first | exact Inv.runJ $h | (have hkp := Inv.runJ $h; clear $h; grind) | skip)
  case' dqJ => (first | exact Inv.dqJ $h | (have hkp := Inv.dqJ $h; clear $h; grind) | skip)
  case' dqA => (first | exact Inv.dqA $h | (have hkp := Inv.dqA $h; clear $h; grind) | skip)
  case' dqR => (first | exact Inv.dqR $h | (have hkp := Inv.dqR $h; clear $h; grind) | skip)
  case' dqC => (first | exact Inv.dqC $h | (have hkp := Inv.dqC $h; clear $h; grind) | skip)
  case' regN => (first | exact Inv.regN $h | (have hkp := Inv.regN $h; clear $h; grind) | skip)
  case' dqD => (first | exact Inv.dqD $h | (have hkp := Inv.dqD $h; clear $h; grind) | skip)
  case' todoN => (first | exact Inv.todoN $h | (have hkp := Inv.todoN $h; clear $h; grind) | skip)
  case' regT => (first | exact Inv.regT $h | (have hkp := Inv.regT $h; clear $h; grind) | skip)
  case' nd => (first | exact Inv.nd $h | (have hkp := Inv.nd $h; clear $h; grind) | skip)
  case' wait => (first | exact Inv.wait $h | (have hkp := Inv.wait $h; clear $h; grind) | skip)
  case' pendR => (first | exact Inv.pendR $h | (have hkp := Inv.pendR $h; clear $h; grind) | skip)
  case' fin => (first | exact Inv.fin $h | (have hkp := Inv.fin $h; clear $h; grind) | skip)
  case' compl => (first | exact Inv.compl $h | (have hkp := Inv.compl $h; clear $h; grind) | skip)
  case' early => (first | exact Inv.early $h | (have hkp := Inv.early $h; clear $h; grind) | skip)
  case' close => (first | exact Inv.close $h | (have hkp := Inv.close $h; clear $h; grind) | skip)
  case' deadS => (first | exact Inv.deadS $h | (have hkp := Inv.deadS $h; clear $h; grind) | skip)
  case' uaf => (first | exact Inv.uaf $h | (have hkp := Inv.uaf $h; clear $h; grind) | skip)
  case' term => (first | exact Inv.term $h | (have hkp := Inv.term $h; clear $h; grind) | skip)
  ))

theorem sumH {s : St} {max : Nat} (h : Inv max s) {a : Nat} (ha : s.ap a ≠ .idle) (p : APc) :
    lsum hw (upd s.ap a p) s.agents + hw (s.ap a) = lsum hw s.ap s.agents + hw p :=
  lsum_upd_in hw s.ap h.andp ((h.amem a).2 ha)

theorem Inv.pos {s : St} {max : Nat} (h : Inv max s) {a : Nat} (ha : hw (s.ap a) = 1) : 1 ≤ s.bits.count := by
  have hm : a ∈ s.agents := (h.amem a).2 (by intro h0; simp [h0, hw] at ha)
  have := le_lsum hw s.ap hm
  have := h.cnt
  omega

theorem any_holds {s : St} {max : Nat} (h : Inv max s) (h0 : s.bits.count = 0) :
    s.agents.any (fun a => holds (s.ap a)) = false := by
  rw [List.any_eq_false]
  intro a _ hc
  have : hw (s.ap a) = 1 := by
    cases hp : s.ap a <;> simp_all [holds, hw]
  have := h.pos this
  omega

theorem ex_updJ {jp : Nat → JPc} {j : Nat} {p : JPc} (h : ∃ b, (jp b).pend = true)
    (hp : (jp j).pend = true → p.pend = true) : ∃ b, (upd jp j p b).pend = true := by
  obtain ⟨b, hb⟩ := h
  by_cases hbj : b = j
  · subst hbj; exact ⟨b, by simp [hp hb]⟩
  · exact ⟨b, by rw [upd_other _ _ hbj]; exact hb⟩

theorem ex_updA {ap : Nat → APc} {a : Nat} {p q : APc} (h : ∃ b, ap b = q) (hp : ap a ≠ q) :
    ∃ b, upd ap a p b = q := by
  obtain ⟨b, hb⟩ := h
  exact ⟨b, by rw [upd_other]; exact hb; rintro rfl; exact hp hb⟩

theorem inv_try {max : Nat} {s s' : St} {a : Nat} (h : Inv max s) (hs : step max s (.tryAssoc a) = some s') :
    Inv max s' := by
  simp only [step] at hs
  split at hs <;> cases hs
  rename_i hc
  have hna : a ∉ s.agents := by rw [h.amem]; simp [hc.1]
  have hl : ∀ p, hw p = 0 → lsum hw (upd s.ap a p) (s.agents ++ [a]) = lsum hw s.ap s.agents := by
    intro p hp
    rw [lsum_append, lsum_upd_notin hw s.ap hna]; simp [lsum, hp]
  have hnd : (s.agents ++ [a]).Nodup := by
    rw [List.nodup_append]; exact ⟨h.andp, by simp, by grind⟩
  have hx := fun p => ex_updA (ap := s.ap) (a := a) (p := p) (q := .completing)
  have ht := h.todoN
  simp only [tryLoad]
  split
  · have hl := hl .refused rfl
    have hx := hx .refused
    std h
  · rename_i hr
    have hl := hl (.tryLoop s.bits) rfl
    have hx := hx (.tryLoop s.bits)
    std h

theorem inv_dis {max : Nat} {s s' : St} {a : Nat} (h : Inv max s) (hs : step max s (.disassoc a) = some s') :
    Inv max s' := by
  simp only [step, touch] at hs
  split at hs <;> cases hs
  rename_i hc
  have hH := sumH h (a := a) (by simp [hc]) (.disLoop s.bits)
  have hx := ex_updA (ap := s.ap) (a := a) (p := (.disLoop s.bits)) (q := .completing)
  have ht := h.todoN
  have hp := h.pos (a := a) (by simp [hc, hw])
  have hd := h.deadS
  simp only [hc, hw] at hH
  std h

theorem inv_close {max : Nat} {s s' : St} (h : Inv max s) (hs : step max s .close = some s') :
    Inv max s' := by
  simp only [step] at hs
  split at hs <;> cases hs
  std h

theorem inv_join {max : Nat} {s s' : St} {j : Nat} (h : Inv max s) (hs : step max s (.join j) = some s') :
    Inv max s' := by
  simp only [step] at hs
  split at hs <;> cases hs
  rename_i hc
  have hx := ex_updJ (jp := s.jp) (j := j) (p := .loop s.bits)
  std h

theorem inv_destroy {max : Nat} {s s' : St} {b : Bool} (h : Inv max s) (hs : step max s (.destroy b) = some s') :
    Inv max s' := by
  simp only [step] at hs
  split at hs <;> cases hs
  rename_i hc
  obtain ⟨h1, h2, h3, h4⟩ := hc
  have hz : s.bits.count = 0 ∧ s.bits.needed = false ∧ s.bits.running = false := by
    rcases h2 with h2 | ⟨h2, -⟩
    · obtain ⟨j, -, hj⟩ := List.any_eq_true.1 h2
      have := h.fin j (by rw [eq_of_beq hj]; rfl)
      simp [this]
    · have := h.grants
      have := h.run
      grind
  std h
  case term => simp [h.term, Bits.destructible, hz]
  case deadS =>
    intro hb; cases hb
    have hj : ∀ j, s.jp j = .idle ∨ s.jp j = .completed := by
      intro j
      by_cases hji : s.jp j = .idle
      · exact .inl hji
      · have := List.all_eq_true.1 h4 j ((h.jmem j).2 hji)
        right; simpa using this
    refine ⟨fun a => ⟨fun ha => ?_, ?_⟩, hz.1, hj⟩
    · obtain ⟨-, j, hjp⟩ := h.dqR a ha
      rcases hj j with h5 | h5 <;> simp [h5, JPc.pend] at hjp
    · by_cases hai : s.ap a = .idle
      · simp [hai, APc.isTry]
      · have := List.all_eq_true.1 h3 a ((h.amem a).2 hai)
        cases hp : s.ap a <;> simp_all [APc.isTry]

theorem dis_joined {b : Bits} (h1 : 1 ≤ b.count) (h2 : b.needed = true) (h : b.dis.isJoined = true) :
    b.dis = ⟨0, true, false, false⟩ ∧ b.count = 1 ∧ b.running = true := by
  rw [Bits.isJoined, beq_iff_eq] at h
  refine ⟨h, ?_⟩
  unfold Bits.dis at h
  split at h
  · rename_i hc; exact ⟨by omega, hc.2⟩
  · have := congrArg Bits.needed h; simp [h2] at this

theorem dis_not_joined {b : Bits} (h1 : 1 ≤ b.count) (h : ¬ b.dis.isJoined = true) :
    b.dis = { b with count := b.count - 1 } ∧ (b.running = true → 2 ≤ b.count) := by
  unfold Bits.dis at h ⊢
  split
  · rename_i hc; rw [if_pos hc] at h; simp [Bits.isJoined] at h
  · rename_i hc
    refine ⟨rfl, fun hr => ?_⟩
    by_contra h3
    exact hc ⟨by omega, hr⟩

theorem inv_tryLoad {max : Nat} {s : St} {a : Nat} {old} (h : Inv max s) (hp : s.ap a = .tryLoop old) :
    Inv max (tryLoad max (touch s) a) := by
  have hx := fun p => ex_updA (ap := s.ap) (a := a) (p := p) (q := .completing)
  have ht := h.todoN
  have hd := h.deadS
  have hu := h.uaf
  have hb : s.dead ≠ some true := by
    intro hdd; have := ((hd hdd).1 a).2; simp [hp, APc.isTry] at this
  have hb2 : s.dead = none → s.dead.isSome = false := by intro h; simp [h]
  unfold tryLoad
  split
  · simp only [touch]
    have hH := sumH h (a := a) (by simp [hp]) .refused
    simp only [hp, hw] at hH
    have hx := hx .refused
    std h
  · rename_i hr
    simp only [touch] at hr ⊢
    have hH := sumH h (a := a) (by simp [hp]) (.tryLoop s.bits)
    simp only [hp, hw] at hH
    have hx := hx (.tryLoop s.bits)
    std h

set_option maxHeartbeats 4000000 in
theorem inv_stepA {max : Nat} {s s' : St} {a : Nat} {sp : Bool} (h : Inv max s)
    (hs : step max s (.stepA a sp) = some s') : Inv max s' := by
  have hx := fun p => ex_updA (ap := s.ap) (a := a) (p := p) (q := .completing)
  have ht := h.todoN
  have hd := h.deadS
  have hu := h.uaf
  have hb2 : s.dead = none → s.dead.isSome = false := by intro h; simp [h]
  simp only [step] at hs
  cases hp : s.ap a with
  | idle => simp [hp] at hs
  | refused => simp [hp] at hs
  | granted => simp [hp] at hs
  | gone => simp [hp] at hs
  | tryLoop old =>
    simp only [hp] at hs
    split at hs <;> cases hs
    · rename_i hc
      have hb : s.dead ≠ some true := by
        intro hdd; have := ((hd hdd).1 a).2; simp [hp, APc.isTry] at this
      have hH := sumH h (a := a) (by simp [hp]) .granted
      simp only [hp, hw] at hH
      have hx := hx .granted
      have hbo : s.bits = old := hc.1
      have hto := h.tryOk a old hp
      simp only [Bits.refuses, Bool.or_eq_false_iff, beq_eq_false_iff_ne] at hto
      simp only [touch, Bits.assoc]
      subst hbo
      std h
    · exact inv_tryLoad h hp
  | disLoop old =>
    have hpos := h.pos (a := a) (by simp [hp, hw])
    have hb : s.dead ≠ some true := by
      intro hdd; have := (hd hdd).2.1; omega
    simp only [hp] at hs
    split at hs
    · rename_i hc
      have hbo : s.bits = old := hc.1
      subst hbo
      split at hs <;> cases hs
      · rename_i hj
        have hH := sumH h (a := a) (by simp [hp]) .deq
        simp only [hp, hw] at hH
        have hx := hx .deq
        have hnd : s.bits.needed = true := by have := h.need; grind
        obtain ⟨hd1, hd2, hd3⟩ := dis_joined hpos hnd hj
        have hrj := h.runJ hd3
        have hrn : s.reg ≠ none := fun hr => h.regN hr hrj.2
        have hnc : ∀ b, s.ap b ≠ .deq ∧ s.ap b ≠ .completing := by
          intro b; have := h.dqA b; grind
        simp only [touch, hd1]
        std h
      · rename_i hj
        have hH := sumH h (a := a) (by simp [hp]) .gone
        simp only [hp, hw] at hH
        have hx := hx .gone
        obtain ⟨hd1, hd2⟩ := dis_not_joined hpos hj
        simp only [touch, hd1]
        std h
    · cases hs
      have hH := sumH h (a := a) (by simp [hp]) (.disLoop s.bits)
      simp only [hp, hw] at hH
      have hx := hx (.disLoop s.bits)
      simp only [touch]
      std h
  | deq =>
    simp only [hp] at hs; cases hs
    have hH := sumH h (a := a) (by simp [hp]) .completing
    simp only [hp, hw] at hH
    have hb : s.dead ≠ some true := fun hdd => ((hd hdd).1 a).1 hp
    have hdq := h.dqA a (.inl hp)
    have hu1 : ∀ b, s.ap b = .deq ∨ s.ap b = .completing → b = a := by
      intro b hb'; have := h.dqA b hb'; rw [hdq] at this; cases this; rfl
    have hrt := h.regT (h.dqR a hp).1
    have hw' := h.wait
    simp only [hrt, List.append_nil] at hw'
    simp only [touch]
    std h
    case todoN => intro _; exact ⟨a, by simp⟩
  | completing =>
    have hdq := h.dqA a (.inr hp)
    have hrn := h.dqC a hp
    have hbj := h.dqJ (by simp [hdq])
    have hah := any_holds h (by simp [hbj])
    have hu1 : ∀ b, s.ap b = .deq ∨ s.ap b = .completing → b = a := by
      intro b hb'; have := h.dqA b hb'; rw [hdq] at this; cases this; rfl
    simp only [hp] at hs
    cases htd : s.todo with
    | nil =>
      simp only [htd] at hs; cases hs
      have hH := sumH h (a := a) (by simp [hp]) .gone
      simp only [hp, hw] at hH
      std h
    | cons j l =>
      simp only [htd] at hs; cases hs
      have hnd := h.nd
      have hwt := h.wait
      simp only [hrn, htd, Option.getD_none, List.nil_append, List.nodup_cons] at hnd hwt
      have hjw : s.jp j = .waiting := (hwt j).1 (by simp)
      simp only [complete]
      std h

set_option maxHeartbeats 4000000 in
theorem inv_stepJ {max : Nat} {s s' : St} {j : Nat} {sp : Bool} (h : Inv max s)
    (hs : step max s (.stepJ j sp) = some s') : Inv max s' := by
  have hx := fun p => ex_updJ (jp := s.jp) (j := j) (p := p)
  have hx2 : ∀ p : JPc, p.pend = true → ∃ b, (upd s.jp j p b).pend = true := fun p hp => ⟨j, by simp [hp]⟩
  have hd : s.jp j ≠ .idle → s.jp j ≠ .completed → s.dead ≠ some true := by
    intro h1 h2 h3; have := (h.deadS h3).2.2 j; grind
  have hb2 : s.dead = none → s.dead.isSome = false := by intro h; simp [h]
  simp only [step] at hs
  cases hp : s.jp j with
  | idle => simp [hp] at hs
  | waiting => simp [hp] at hs
  | completed => simp [hp] at hs
  | loop old =>
    simp only [hp] at hs
    split at hs
    · rename_i hc
      have hbo : s.bits = old := hc.1
      subst hbo
      split at hs <;> cases hs
      · rename_i hz
        have hx := hx .inl
        have hrun := h.run
        simp only [touch]
        std h
      · have hx2 := hx2 .regLoad rfl
        have hnd : s.dq = none := by have := h.dqJ; grind
        simp only [touch]
        std h
    · cases hs
      have hx := hx (.loop s.bits)
      simp only [touch]
      std h
  | regLoad =>
    simp only [hp] at hs; cases hs
    unfold regLoad
    split
    · rename_i hr
      simp only [touch] at hr ⊢
      have hx := hx .inl
      have hdn := h.regN hr
      have hbj := h.dqJ hdn
      have hrj := h.runJ
      have hdr := h.dqR
      std h
    · rename_i l hr
      simp only [touch] at hr ⊢
      have hx2 := hx2 (.regCas l) rfl
      std h
  | regCas old =>
    simp only [hp] at hs
    split at hs
    · cases hs
      rename_i hc
      have hr : s.reg = some old := hc.1
      have hx2 := hx2 .waiting rfl
      have hT := h.regT (by simp [hr])
      have hnd := h.nd
      have hwt := h.wait
      have hdC := h.dqC
      have hdD := h.dqD
      simp only [hr, hT, List.append_nil, Option.getD_some] at hnd hwt
      have hjn : j ∉ old := by rw [hwt]; simp [hp]
      simp only [touch]
      std h
    · cases hs
      unfold regLoad
      split
      · rename_i hr
        simp only [touch] at hr ⊢
        have hx := hx .inl
        have hdn := h.regN hr
        have hbj := h.dqJ hdn
        have hrj := h.runJ
        have hdr := h.dqR
        std h
      · rename_i l hr
        simp only [touch] at hr ⊢
        have hx2 := hx2 (.regCas l) rfl
        std h
  | inl =>
    simp only [hp] at hs; cases hs
    have hx := hx .completed
    have hbj := h.fin j (by simp [hp, JPc.fin])
    have hah := any_holds h (by simp [hbj])
    simp only [complete]
    std h

theorem inv_reach {max : Nat} {s : St} (h : Reachable max s) : Inv max s := by
  refine Reach.inv (Inv max) (inv_init max) (fun s a s' h hs => ?_) s h
  cases a with
  | tryAssoc a => exact inv_try h hs
  | disassoc a => exact inv_dis h hs
  | close => exact inv_close h hs
  | join j => exact inv_join h hs
  | stepA a b => exact inv_stepA h hs
  | stepJ j b => exact inv_stepJ h hs
  | destroy b => exact inv_destroy h hs

end Verif.Scope
