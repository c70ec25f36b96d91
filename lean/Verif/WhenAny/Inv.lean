import Verif.WhenAny.Model
import Mathlib.Tactic.ByContra
/-! # `when_any`: the invariant -/
namespace Verif.WhenAny

/-- The agents of an operation with `n` children. -/
def agents (n : Nat) : List (Option Nat) := none :: (List.range n).map some

theorem agents_nodup (n : Nat) : (agents n).Nodup := by
  simp only [agents, List.nodup_cons, List.mem_map]
  refine ⟨by simp, ?_⟩
  rw [List.Nodup, List.pairwise_map]
  exact List.nodup_range.imp (fun h => by simpa using h)

@[grind =] theorem mem_agents {n : Nat} {a : Option Nat} : a ∈ agents n ↔ ∀ i, a = some i → i < n := by
  cases a <;> simp [agents]

/-- How much an agent holds of `__count_`. -/
@[grind] def Pc.w : Pc → Nat
  | .off | .enter | .reset | .deliver | .done => 0
  | _ => 1

/-- Is the agent completing the receiver? -/
@[grind] def Pc.f : Pc → Nat
  | .reset | .deliver => 1
  | _ => 0

/-- Where the callback can be. -/
@[grind] def Pc.cbOk : Pc → Bool
  | .off | .enter | .reqStop | .arrive | .reset | .deliver | .done => true
  | _ => false

/-- Where a child can be. -/
@[grind] def Pc.chOk : Pc → Bool
  | .off | .enter => false
  | _ => true

/-- What a completion of the receiver must look like: the completion of the child that was first, stop having been
requested on the others; or stopped because stop was requested on the receiver's token. -/
def Good (outcome : Nat → Option Outcome) (claims : List Nat) (parentStopped : Bool) (p : Res × Bool) : Prop :=
  p.2 = true ∧ ((p.1 = .stopped ∧ parentStopped = true) ∨
    ∃ i o, claims.head? = some i ∧ outcome i = some o ∧ p.1 = o.stored)

theorem Good.mono {o o' : Nat → Option Outcome} {l l' : List Nat} {p p' : Bool} {r : Res × Bool}
    (h : Good o l p r) (ho : ∀ i x, o i = some x → o' i = some x) (hl : ∀ i, l.head? = some i → l'.head? = some i)
    (hp : p = true → p' = true) : Good o' l' p' r := by
  simp only [Good] at *; grind

structure Inv (n : Nat) (s : St) : Prop where
  startLe : ∀ k, s.starter = .at k → k ≤ n
  fresh : (∀ k, s.starter ≠ .at k) → ∀ i, s.pc (some i) = .wait
  fresh0 : s.starter = .idle → s.pc none = .off ∧ s.reg = false
  notyet : ∀ i k, s.starter = .at k → k ≤ i → s.pc (some i) = .wait
  big : ∀ i, n ≤ i → s.pc (some i) = .wait
  cnt : s.count = lsum Pc.w s.pc (agents n)
  ref : s.starter = .refused → s.results = [(.stopped, true)] ∧ s.parentStopped = true ∧ s.late = false
  notref : (∀ k, s.starter ≠ .at k) → s.starter ≠ .refused → s.results = []
  fin0 : 0 < s.count → s.late = false → s.starter ≠ .refused → lsum Pc.f s.pc (agents n) + s.results.length = 0
  fin1 : s.count = 0 → 1 ≤ lsum Pc.f s.pc (agents n) + s.results.length
  fin2 : s.count = 0 → s.late = false → lsum Pc.f s.pc (agents n) + s.results.length = 1
  finR : s.starter = .refused → lsum Pc.f s.pc (agents n) = 0
  finAll : lsum Pc.f s.pc (agents n) + s.results.length ≠ 0 → s.starter ≠ .refused → ∀ i, i < n → (s.pc (some i)).w = 0
  regOff : s.reg = true → s.pc none = .off ∧ s.parentStopped = false
  del : ∀ i, s.pc (some i) = .deliver → s.reg = false ∧ (s.pc none).running = false
  delN : s.pc none = .deliver → s.reg = false
  resN : s.results ≠ [] → s.starter ≠ .refused → s.reg = false ∧ (s.late = false → (s.pc none).running = false)
  cbPar : s.pc none ≠ .off → s.parentStopped = true
  cbPc : (s.pc none).cbOk = true
  chPc : ∀ i, (s.pc (some i)).chOk = true
  out : ∀ i, s.outcome i = none ↔ s.pc (some i) = .wait
  oRes : ∀ i r, s.pc (some i) = .cas r ∨ s.pc (some i) = .save r → ∃ o, s.outcome i = some o ∧ o.stored = r
  emp : s.emplaced = true ↔ s.claims ≠ []
  clIn : ∀ i ∈ s.claims, ∃ o, s.outcome i = some o
  clOut : ∀ i o, s.outcome i = some o → s.pc (some i) = .cas o.stored ∨ i ∈ s.claims
  hd : ∀ i, s.claims.head? = some i → ∃ o, s.outcome i = some o ∧
    (s.pc (some i) = .save o.stored ∨ s.result = some o.stored)
  hd2 : ∀ i, s.claims.head? = some i → s.srcStopped = true ∨ (∃ r, s.pc (some i) = .save r) ∨ s.pc (some i) = .reqStop
  wr : ∀ i r, s.pc (some i) = .save r → s.claims.head? = some i
  src : s.srcStopped = true → s.parentStopped = true ∨ s.claims ≠ []
  good : ∀ r ∈ s.results, Good s.outcome s.claims s.parentStopped r
  ng : ∀ i o, s.outcome i = some o → o.res ≠ .garbage
  lateAt : s.late = true → ∃ k, s.starter = .at k
  uaf : s.late = false → s.uaf = false

theorem inv_init (n : Nat) (hn : 1 ≤ n) : Inv n (init n) := by
  have h0 : ∀ l : List Nat, lsum Pc.w (init n).pc (l.map some) = l.length := by
    intro l; induction l with
    | nil => rfl
    | cons a l ih => rw [List.map_cons, lsum, ih]; simp [init, Pc.w]; omega
  have h1 : ∀ l : List Nat, lsum Pc.f (init n).pc (l.map some) = 0 := by
    intro l; induction l with
    | nil => rfl
    | cons a l ih => rw [List.map_cons, lsum, ih]; simp [init, Pc.f]
  have hw : lsum Pc.w (init n).pc (agents n) = n := by
    rw [agents, lsum, h0]; simp [init, Pc.w]
  have hf : lsum Pc.f (init n).pc (agents n) = 0 := by
    rw [agents, lsum, h1]; simp [init, Pc.f]
  constructor
  case cnt => rw [hw]; rfl
  case fin1 => intro h; simp [init] at h; omega
  case fin2 => intro h; simp [init] at h; omega
  case fin0 => rw [hf]; simp [init]
  case finAll => rw [hf]; simp [init]
  case finR => rw [hf]; simp [init]
  all_goals simp [init, Pc.cbOk, Pc.chOk]

/-- Split the goal into the invariant's fields and close those that are unaffected. -/
macro "std" h:ident : tactic => `(tactic| (
  constructor
  case' startLe => (first | exact Inv.startLe $h | (have hkp := Inv.startLe $h; clear $h; grind) | skip)
  case' fresh => (first | exact Inv.fresh $h | (have hkp := Inv.fresh $h; clear $h; grind) | skip)
  case' fresh0 => (first | exact Inv.fresh0 $h | (have hkp := Inv.fresh0 $h; clear $h; grind) | skip)
  case' notyet => (first | exact Inv.notyet $h | (have hkp := Inv.notyet $h; clear $h; grind) | skip)
  case' big => (first | exact Inv.big $h | (have hkp := Inv.big $h; clear $h; grind) | skip)
  case' cnt => (first | exact Inv.cnt $h | (have hkp := Inv.cnt $h; clear $h; grind) | skip)
  case' ref => (first | exact Inv.ref $h | (have hkp := Inv.ref $h; clear $h; grind) | skip)
  case' notref => (first | exact Inv.notref $h | (have hkp := Inv.notref $h; clear $h; grind) | skip)
  case' fin0 => (first | exact Inv.fin0 $h | (have hkp := Inv.fin0 $h; clear $h; grind) | skip)
  case' fin1 => (first | exact Inv.fin1 $h | (have hkp := Inv.fin1 $h; clear $h; grind) | skip)
  case' fin2 => (first | exact Inv.fin2 $h | (have hkp := Inv.fin2 $h; clear $h; grind) | skip)
  case' finR => (first | exact Inv.finR $h | (have hkp := Inv.finR $h; clear $h; grind) | skip)
  case' finAll => (first | exact Inv.finAll $h | (have hkp := Inv.finAll $h; clear $h; grind) | skip)
  case' regOff => (first | exact Inv.regOff $h | (have hkp := Inv.regOff $h; clear $h; grind) | skip)
  case' del => (first | exact Inv.del $h | (have hkp := Inv.del $h; clear $h; grind) | skip)
  case' delN => (first | exact Inv.delN $h | (have hkp := Inv.delN $h; clear $h; grind) | skip)
  case' resN => (first | exact Inv.resN $h | (have hkp := Inv.resN $h; clear $h; grind) | skip)
  case' cbPar => (first | exact Inv.cbPar $h | (have hkp := Inv.cbPar $h; clear $h; grind) | skip)
  case' cbPc => (first | exact Inv.cbPc $h | (have hkp := Inv.cbPc $h; clear $h; grind) | skip)
  case' chPc => (first | exact Inv.chPc $h | (have hkp := Inv.chPc $h; clear $h; grind) | skip)
  case' out => (first | exact Inv.out $h | (have hkp := Inv.out $h; clear $h; grind) | skip)
  case' oRes => (first | exact Inv.oRes $h | (have hkp := Inv.oRes $h; clear $h; grind) | skip)
  case' emp => (first | exact Inv.emp $h | (have hkp := Inv.emp $h; clear $h; grind) | skip)
  case' clIn => (first | exact Inv.clIn $h | (have hkp := Inv.clIn $h; clear $h; grind) | skip)
  case' clOut => (first | exact Inv.clOut $h | (have hkp := Inv.clOut $h; clear $h; grind) | skip)
  case' hd => (first | exact Inv.hd $h | (have hkp := Inv.hd $h; clear $h; grind) | skip)
  case' hd2 => (first | exact Inv.hd2 $h | (have hkp := Inv.hd2 $h; clear $h; grind) | skip)
  case' wr => (first | exact Inv.wr $h | (have hkp := Inv.wr $h; clear $h; grind) | skip)
  case' src => (first | exact Inv.src $h | (have hkp := Inv.src $h; clear $h; grind) | skip)
  case' good => (first | exact Inv.good $h | (have hkp := Inv.good $h; clear $h; grind) | skip)
  case' ng => (first | exact Inv.ng $h | (have hkp := Inv.ng $h; clear $h; grind) | skip)
  case' lateAt => (first | exact Inv.lateAt $h | (have hkp := Inv.lateAt $h; clear $h; grind) | skip)
  case' uaf => (first | exact Inv.uaf $h | (have hkp := Inv.uaf $h; clear $h; grind) | skip)
  ))

theorem sumW {n : Nat} {pc : Option Nat → Pc} {a : Option Nat} (ha : a ∈ agents n) (p : Pc) :
    lsum Pc.w (upd pc a p) (agents n) + (pc a).w = lsum Pc.w pc (agents n) + p.w :=
  lsum_upd_in Pc.w pc (agents_nodup n) ha

theorem sumF {n : Nat} {pc : Option Nat → Pc} {a : Option Nat} (ha : a ∈ agents n) (p : Pc) :
    lsum Pc.f (upd pc a p) (agents n) + (pc a).f = lsum Pc.f pc (agents n) + p.f :=
  lsum_upd_in Pc.f pc (agents_nodup n) ha

theorem Inv.mem {n : Nat} {s : St} (h : Inv n s) {a : Option Nat} (ha : s.pc a ≠ .wait) : a ∈ agents n := by
  rw [mem_agents]; rintro i rfl
  by_contra hc
  exact ha (h.big i (by omega))

/-- Before the children are started nobody can be completing, and the count is positive. -/
theorem Inv.early {n : Nat} {s : St} (hn : 1 ≤ n) (h : Inv n s) (hs : ∀ k, s.starter ≠ .at k) :
    lsum Pc.f s.pc (agents n) = 0 ∧ (s.pc none).w + 1 ≤ s.count := by
  have hw : s.pc (some 0) = .wait := h.fresh hs 0
  constructor
  · by_cases hr : s.starter = .refused
    · exact h.finR hr
    · by_contra hc
      have := h.finAll (by omega) hr 0 (by omega)
      simp [hw, Pc.w] at this
  · have := add_le_lsum Pc.w s.pc (l := agents n) (a := none) (b := some 0) (by simp [agents])
      (by rw [mem_agents]; rintro j hj; cases hj; omega) (by simp)
    have hc := h.cnt
    simp only [hw, show Pc.w .wait = 1 from rfl] at this
    omega

theorem inv_start {n : Nat} {s s' : St} (hn : 1 ≤ n) (h : Inv n s) (hs : step n s .start = some s') : Inv n s' := by
  have hE := h.early hn
  have hg := h.good
  have hsrc := h.src
  have hfr := h.fresh
  have hnr := h.notref
  have hl : ∀ k, s.starter = .at k → s.results = [] ∨ k = n := by
    intro k hk
    by_cases hkn : k = n
    · exact .inr hkn
    · refine .inl ?_
      by_contra hc
      have hlt : k < n := by have := h.startLe k hk; omega
      have := h.finAll (by have := List.length_pos_iff.2 hc; omega) (by simp [hk]) k hlt
      simp [h.notyet k k hk (by omega), Pc.w] at this
  have hm : none ∈ agents n := by simp [agents]
  have hW := sumW (pc := s.pc) hm .enter
  have hF := sumF (pc := s.pc) hm .enter
  simp only [step] at hs
  repeat' split at hs
  all_goals try cases hs
  · rename_i hst _
    have h0 := (h.fresh0 hst)
    have hE := hE (by simp [hst])
    simp only [h0.1, Pc.w, Pc.f] at hW hF
    std h
  · rename_i hst _
    have h0 := (h.fresh0 hst)
    std h
  · std h
  · rename_i hst hsr
    have hE := hE (by simp [hst])
    have hlt := h.lateAt
    have hcl : s.claims = [] := by
      cases hc : s.claims with
      | nil => rfl
      | cons i l =>
        obtain ⟨o, ho⟩ := h.clIn i (by simp [hc])
        have := (h.out i).2 (h.fresh (by simp [hst]) i)
        simp [this] at ho
    have hps : s.parentStopped = true := by
      rcases h.src hsr with h1 | h1
      · exact h1
      · exact absurd hcl h1
    have hrs := h.notref (by simp [hst]) (by simp [hst])
    std h
    case good =>
      intro r hr
      simp only [hrs, List.nil_append, List.mem_singleton] at hr
      subst hr
      exact ⟨rfl, .inl ⟨rfl, hps⟩⟩
  · rename_i hst _
    have hE := hE (by simp [hst])
    std h
  · rename_i k hst hk
    have hl := hl k hst
    std h
    case notyet => intro i k' hk'; cases hk'; intro h3; exact h.notyet i k hst (by omega)

theorem inv_complete {n : Nat} {s s' : St} {i o} (h : Inv n s) (hs : step n s (.complete i o) = some s') :
    Inv n s' := by
  simp only [step] at hs
  repeat' split at hs
  all_goals try cases hs
  rename_i k hst hc
  obtain ⟨h1, h2, h3⟩ := hc
  have hik : i < n := by have := h.startLe k hst; omega
  have hm : some i ∈ agents n := by rw [mem_agents]; rintro j hj; cases hj; exact hik
  have hW := sumW (pc := s.pc) hm (.cas o.stored)
  have hF := sumF (pc := s.pc) hm (.cas o.stored)
  have ho : s.outcome i = none := (h.out i).2 h2
  have hfin := h.finAll
  have hg : ∀ r ∈ s.results, Good (upd s.outcome i (some o)) s.claims s.parentStopped r := by
    intro r hr
    refine (h.good r hr).mono (fun j x hj => ?_) (fun _ h => h) id
    rw [upd_other]; exact hj; rintro rfl; simp [ho] at hj
  have hci := h.clIn
  simp only [h2, Pc.w, Pc.f] at hW hF
  std h

theorem inv_stop {n : Nat} {s s' : St} (h : Inv n s) (hs : step n s .parentStop = some s') : Inv n s' := by
  simp only [step] at hs
  have hg : ∀ r ∈ s.results, Good s.outcome s.claims true r := 
    fun r hr => (h.good r hr).mono (fun _ _ h => h) (fun _ h => h) (fun _ => rfl)
  repeat' split at hs
  all_goals try cases hs
  · rename_i hp hr
    have h0 := h.regOff hr
    have hm := h.mem (a := none) (by simp [h0.1])
    have hW := sumW (pc := s.pc) hm .enter
    have hF := sumF (pc := s.pc) hm .enter
    simp only [h0.1, Pc.w, Pc.f] at hW hF
    std h
  · std h

theorem Inv.noRes {n : Nat} {s : St} (h : Inv n s) {a : Option Nat} (h1 : s.pc a ≠ .wait) (h2 : s.pc a ≠ .off)
    (h3 : s.pc a ≠ .done) (hl : s.late = false) (hrf : s.starter ≠ .refused) : s.results = [] := by
  have hm := h.mem h1
  have hw := le_lsum Pc.w s.pc hm
  have hf := le_lsum Pc.f s.pc hm
  have hc := h.cnt
  have f0 := h.fin0
  have f2 := h.fin2
  have hr := h.resN
  have hch := h.chPc
  have hz : s.results.length = 0 → s.results = [] := List.length_eq_zero_iff.1
  cases hp : s.pc a <;> simp only [hp, Pc.w, Pc.f] at hw hf
  case enter => cases a <;> grind
  all_goals grind

theorem Inv.result_good {n : Nat} {s : St} (hn : 1 ≤ n) (h : Inv n s) {a : Option Nat} (hpc : s.pc a = .deliver) :
    Good s.outcome s.claims s.parentStopped (delivered s, s.srcStopped) := by
  have hm := h.mem (a := a) (by simp [hpc])
  have hfp : 1 ≤ lsum Pc.f s.pc (agents n) := by
    have := le_lsum Pc.f s.pc hm; simpa [hpc, Pc.f] using this
  have hnr : s.starter ≠ .refused := by
    intro hr; have := h.finR hr; omega
  have hw : ∀ i, i < n → (s.pc (some i)).w = 0 := h.finAll (by omega) hnr
  have hpcs : ∀ i, i < n → s.pc (some i) = .reset ∨ s.pc (some i) = .deliver ∨ s.pc (some i) = .done := by
    intro i hi
    have h1 := hw i hi
    have h2 := h.chPc i
    cases hp : s.pc (some i) <;> simp_all [Pc.w, Pc.chOk]
  have hcl : ∃ i, s.claims.head? = some i ∧ i < n := by
    have h0 := hpcs 0 (by omega)
    cases ho : s.outcome 0 with
    | none => have := (h.out 0).1 ho; rcases h0 with h0 | h0 | h0 <;> simp [h0] at this
    | some o =>
      have h1 : 0 ∈ s.claims := by
        rcases h.clOut 0 o ho with h1 | h1
        · rcases h0 with h0 | h0 | h0 <;> simp [h0] at h1
        · exact h1
      cases hc : s.claims with
      | nil => simp [hc] at h1
      | cons i l =>
        refine ⟨i, by simp, ?_⟩
        obtain ⟨o', ho'⟩ := h.clIn i (by simp [hc])
        by_contra hge
        have := (h.out i).2 (h.big i (by omega))
        simp [this] at ho'
  obtain ⟨i, hi, hlt⟩ := hcl
  obtain ⟨o, h1, h2⟩ := h.hd i hi
  have hp := hpcs i hlt
  have hres : s.result = some o.stored := by
    rcases h2 with h2 | h2
    · rcases hp with hp | hp | hp <;> simp [hp] at h2
    · exact h2
  have hsrc : s.srcStopped = true := by
    rcases h.hd2 i hi with h3 | ⟨r, h3⟩ | h3
    · exact h3
    · rcases hp with hp | hp | hp <;> simp [hp] at h3
    · rcases hp with hp | hp | hp <;> simp [hp] at h3
  refine ⟨hsrc, ?_⟩
  simp only [delivered]
  split
  · exact .inl ⟨rfl, by assumption⟩
  · exact .inr ⟨i, o, hi, h1, by simp [hres]⟩

set_option maxHeartbeats 4000000 in
theorem inv_agent {n : Nat} {s s' : St} {a : Option Nat} (hn : 1 ≤ n) (h : Inv n s) (hs : step n s (.step a) = some s') :
    Inv n s' := by
  have hne : s.pc a ≠ .wait := by
    intro hw; simp [step, stepAgent, hw] at hs
  have hne2 : s.pc a ≠ .off := by
    intro hw; simp [step, stepAgent, hw] at hs
  have hne3 : s.pc a ≠ .done := by
    intro hw; simp [step, stepAgent, hw] at hs
  have hm := h.mem hne
  have hW := fun p => sumW (pc := s.pc) hm p
  have hF := fun p => sumF (pc := s.pc) hm p
  have hres := h.noRes hne hne2 hne3
  have huaf : s.late = false → (s.uaf || (!s.results.isEmpty && s.starter != Starter.refused)) = false := by
    intro hl
    by_cases hrf : s.starter = .refused
    · simp [h.uaf hl, hrf]
    · simp [h.uaf hl, hres hl hrf]
  have hE := h.early hn
  have hfa := h.finAll
  have hf0 := h.fin0
  have hf1 := h.fin1
  have hf2 := h.fin2
  have hfR := h.finR
  have href := h.ref
  have hch := h.chPc
  have hcb := h.cbPc
  have hcnt := h.cnt
  simp only [step, stepAgent] at hs
  cases hpc : s.pc a with
  | wait => exact absurd hpc hne
  | off => exact absurd hpc hne2
  | done => exact absurd hpc hne3
  | enter =>
    simp only [hpc] at hs; cases hs
    have hW := hW .reqStop; have hF := hF .reqStop
    simp only [hpc, Pc.w, Pc.f] at hW hF
    cases a with
    | some i => have := hch i; simp [hpc, Pc.chOk] at this
    | none => std h
  | cas r =>
    simp only [hpc] at hs
    cases a with
    | none => simp [hpc, Pc.cbOk] at hcb
    | some i =>
      have hg : ∀ r ∈ s.results, Good s.outcome (s.claims ++ [i]) s.parentStopped r := by
        intro r hr
        refine (h.good r hr).mono (fun j x hj => hj) (fun j hj => ?_) id
        cases hl : s.claims <;> simp_all
      have ho := h.oRes i r (.inl hpc)
      have hem := h.emp
      have hr0 : 0 < s.count := by have := le_lsum Pc.w s.pc hm; simp [hpc, Pc.w] at this; omega
      cases hp : s.emplaced <;> simp only [hp, if_true, if_false, Bool.false_eq_true] at hs <;> cases hs
      · have hW := hW (.save r); have hF := hF (.save r)
        simp only [hpc, Pc.w, Pc.f] at hW hF
        have hl : s.claims = [] := by grind
        std h
      · have hW := hW .arrive; have hF := hF .arrive
        simp only [hpc, Pc.w, Pc.f] at hW hF
        have hne := hem.1 hp
        have hhd : (s.claims ++ [i]).head? = s.claims.head? := by
          cases hl : s.claims <;> simp_all
        std h
  | save r =>
    simp only [hpc] at hs
    cases hs
    have hW := hW (.reqStop); have hF := hF (.reqStop)
    simp only [hpc, Pc.w, Pc.f] at hW hF
    cases a with
    | none => simp [hpc, Pc.cbOk] at hcb
    | some i =>
    have hhd := h.wr i r hpc
    obtain ⟨o, ho⟩ := h.oRes i r (.inr hpc)
    std h
  | reqStop =>
    simp only [hpc] at hs
    cases hs
    have hW := hW (.arrive); have hF := hF (.arrive)
    simp only [hpc, Pc.w, Pc.f] at hW hF
    std h
    case src =>
      intro _
      cases a with
      | none => exact .inl (h.cbPar (by simp [hpc]))
      | some i =>
        refine .inr ?_
        cases ho : s.outcome i with
        | none => have := (h.out i).1 ho; simp [hpc] at this
        | some o =>
          rcases h.clOut i o ho with h1 | h1
          · simp [hpc] at h1
          · exact List.ne_nil_of_mem h1
  | arrive =>
    simp only [hpc] at hs
    split at hs <;> cases hs
    · have hW := hW (.reset); have hF := hF (.reset)
      simp only [hpc, Pc.w, Pc.f] at hW hF
      have hnr : s.starter ≠ .refused := by
        intro hr
        have h1 := hE (by simp [hr])
        cases a with
        | none => simp [hpc, Pc.w] at h1; omega
        | some i => exact hne (h.fresh (by simp [hr]) i)
      std h
      case finAll =>
        intro _ _ i hi
        have := le_lsum Pc.w (upd s.pc a .reset) (l := agents n) (a := some i)
          (by rw [mem_agents]; rintro j h; cases h; exact hi)
        simp only; omega
    · have hW := hW (.done); have hF := hF (.done)
      simp only [hpc, Pc.w, Pc.f] at hW hF
      std h
  | reset =>
    simp only [hpc] at hs
    split at hs <;> cases hs
    have hW := hW (.deliver); have hF := hF (.deliver)
    simp only [hpc, Pc.w, Pc.f] at hW hF
    std h
  | deliver =>
    simp only [hpc] at hs
    cases hs
    have hW := hW (.done); have hF := hF (.done)
    simp only [hpc, Pc.w, Pc.f] at hW hF
    have hrg := h.result_good hn hpc
    have hd1 := h.del
    have hd2 := h.delN
    std h
    case good =>
      intro r hr
      simp only [List.mem_append, List.mem_singleton] at hr
      rcases hr with hr | rfl
      · exact h.good r hr
      · exact hrg
    case resN => intro _; cases a <;> grind

theorem inv_reach {n : Nat} (hn : 1 ≤ n) {s : St} (h : Reachable n s) : Inv n s := by
  refine Reach.inv (Inv n) (inv_init n hn) (fun s a s' h hs => ?_) s h
  cases a with
  | start => exact inv_start hn h hs
  | complete i o => exact inv_complete h hs
  | step a => exact inv_agent hn h hs
  | parentStop => exact inv_stop h hs

end Verif.WhenAny
