import Verif.WhenAll.Model
import Mathlib.Tactic.ByContra
/-! # `when_all`: the invariant -/
namespace Verif.WhenAll

/-- The agents of an operation with `n` children. -/
def agents (n : Nat) : List (Option Nat) := none :: (List.range n).map some

theorem agents_nodup (n : Nat) : (agents n).Nodup := by
  simp only [agents, List.nodup_cons, List.mem_map]
  refine ⟨by simp, ?_⟩
  rw [List.Nodup, List.pairwise_map]
  exact List.nodup_range.imp (fun h => by simpa using h)

@[grind =] theorem mem_agents {n : Nat} {a : Option Nat} : a ∈ agents n ↔ ∀ i, a = some i → i < n := by
  cases a <;> simp [agents]

/-- How much an agent holds of `__count_`. -/
@[grind] def Pc.w : Pc → Nat
  | .off | .enter | .reset | .deliver | .done => 0
  | _ => 1

/-- Is the agent completing the receiver? -/
@[grind] def Pc.f : Pc → Nat
  | .reset | .deliver => 1
  | _ => 0

/-- Is the agent about to request stop on the children? -/
@[grind] def Pc.rs : Pc → Bool
  | .reqStop | .reqStopErr _ => true
  | _ => false

/-- Where the callback can be. -/
@[grind] def Pc.cbOk : Pc → Bool
  | .off | .enter | .casStop | .reqStop | .arrive | .reset | .deliver | .done => true
  | _ => false

attribute [grind] Pc.running Outcome.err?

/-- What a completion of the receiver must look like, given what the children did (`outcome`), the order of
their error reports and whether stop was requested on the receiver's token. -/
def Good (n : Nat) (outcome : Nat → Option Outcome) (errLog : List Nat) (parentStopped : Bool) : Res × Bool → Prop
  | (.value vs, _) => ∃ f : Nat → List Val, (∀ i < n, outcome i = some (.value (f i))) ∧
      vs = ((List.range n).map f).flatten
  | (.error e, b) => b = true ∧ ∃ i o, errLog.head? = some i ∧ outcome i = some o ∧ o.err? = some e
  | (.stopped, b) => b = true ∧ (∀ i < n, ∃ o, outcome i = some o ∧ o.err? = none) ∧
      (parentStopped = true ∨ ∃ i < n, outcome i = some .stopped)
  | (.garbage, _) => False

theorem Good.mono {n : Nat} {o o' : Nat → Option Outcome} {l l' : List Nat} {p p' : Bool} {r : Res × Bool}
    (h : Good n o l p r) (ho : ∀ i x, o i = some x → o' i = some x) (hl : ∀ i, l.head? = some i → l'.head? = some i)
    (hp : p = true → p' = true) : Good n o' l' p' r := by
  rcases r with ⟨_ | _ | _ | _, b⟩ <;> simp only [Good] at * <;> grind

structure Inv (c : Cfg) (s : St) : Prop where
  startLe : ∀ k, s.starter = .at k → k ≤ c.n
  fresh : (∀ k, s.starter ≠ .at k) → ∀ i, s.pc (some i) = .wait
  fresh0 : s.starter = .idle → s.pc none = .off ∧ s.reg = false
  notyet : ∀ i k, s.starter = .at k → k ≤ i → s.pc (some i) = .wait
  big : ∀ i, c.n ≤ i → s.pc (some i) = .wait
  cnt : s.count = lsum Pc.w s.pc (agents c.n)
  fin0 : 0 < s.count → s.late = false → lsum Pc.f s.pc (agents c.n) + s.results.length = 0
  fin1 : s.count = 0 → 1 ≤ lsum Pc.f s.pc (agents c.n) + s.results.length
  fin2 : s.count = 0 → s.late = false → lsum Pc.f s.pc (agents c.n) + s.results.length = 1
  finAll : lsum Pc.f s.pc (agents c.n) + s.results.length ≠ 0 → ∀ i, i < c.n → (s.pc (some i)).w = 0
  regOff : s.reg = true → s.pc none = .off ∧ s.parentStopped = false ∧ c.usesStopSource = true
  del : ∀ i, s.pc (some i) = .deliver → s.reg = false ∧ (s.pc none).running = false
  delN : s.pc none = .deliver → s.reg = false
  resN : s.results ≠ [] → s.reg = false ∧ (s.late = false → (s.pc none).running = false)
  cbPar : s.pc none ≠ .off → s.parentStopped = true ∧ c.usesStopSource = true
  cbPc : (s.pc none).cbOk = true
  chPc : ∀ i, s.pc (some i) ≠ .off ∧ s.pc (some i) ≠ .enter
  out : ∀ i, s.outcome i = none ↔ s.pc (some i) = .wait
  allowed : ∀ i o, s.outcome i = some o → o.allowed c = true
  oVal : ∀ i vs, s.pc (some i) = .saveVals vs → s.outcome i = some (.value vs)
  oErr : ∀ i e, s.pc (some i) = .setErr e ∨ s.pc (some i) = .reqStopErr e ∨ s.pc (some i) = .saveErr e →
    ∃ o, s.outcome i = some o ∧ o.err? = some e
  oStop : ∀ i, s.pc (some i) = .casStop ∨ s.pc (some i) = .reqStop → s.outcome i = some .stopped
  vals : ∀ i vs, s.outcome i = some (.value vs) → s.pc (some i) = .saveVals vs ∨ s.vals i = some vs
  errIn : ∀ i ∈ s.errLog, ∃ o e, s.outcome i = some o ∧ o.err? = some e
  errOut : ∀ i o e, s.outcome i = some o → o.err? = some e → s.pc (some i) = .setErr e ∨ i ∈ s.errLog
  phErr : s.phase = .error ↔ s.errLog ≠ []
  errHd : ∀ i, s.errLog.head? = some i → ∃ o e, s.outcome i = some o ∧ o.err? = some e ∧
    (s.pc (some i) = .reqStopErr e ∨ s.pc (some i) = .saveErr e ∨ s.err = some e)
  errWr : ∀ i e, s.pc (some i) = .reqStopErr e ∨ s.pc (some i) = .saveErr e → s.errLog.head? = some i
  phStop : s.phase = .stopped → s.parentStopped = true ∨ ∃ i < c.n, s.outcome i = some .stopped
  phStop2 : ∀ i, s.outcome i = some .stopped → s.pc (some i) = .casStop ∨ s.phase ≠ .started
  src : s.phase ≠ .started → s.srcStopped = true ∨ ∃ a, (s.pc a).rs = true
  good : ∀ r ∈ s.results, Good c.n s.outcome s.errLog s.parentStopped r
  uaf : s.late = false → s.uaf = false

theorem inv_init (c : Cfg) (hn : 1 ≤ c.n) : Inv c (init c) := by
  have h0 : ∀ l : List Nat, lsum Pc.w (init c).pc (l.map some) = l.length := by
    intro l; induction l with
    | nil => rfl
    | cons a l ih => rw [List.map_cons, lsum, ih]; simp [init, Pc.w]; omega
  have h1 : ∀ l : List Nat, lsum Pc.f (init c).pc (l.map some) = 0 := by
    intro l; induction l with
    | nil => rfl
    | cons a l ih => rw [List.map_cons, lsum, ih]; simp [init, Pc.f]
  have hw : lsum Pc.w (init c).pc (agents c.n) = c.n := by
    rw [agents, lsum, h0]; simp [init, Pc.w]
  have hf : lsum Pc.f (init c).pc (agents c.n) = 0 := by
    rw [agents, lsum, h1]; simp [init, Pc.f]
  constructor
  case cnt => rw [hw]; rfl
  case fin1 => intro h; simp [init] at h; omega
  case fin2 => intro h; simp [init] at h; omega
  case fin0 => rw [hf]; simp [init]
  case finAll => rw [hf]; simp [init]
  all_goals simp [init, Pc.cbOk]

/-- Split the goal into the invariant's fields and close those that are unaffected. -/
macro "std" h:ident : tactic => `(tactic| (
  constructor
  case' startLe => (first | exact Inv.startLe $h | (have hkp := Inv.startLe $h; clear $h; grind) | skip)
  case' fresh => (first | exact Inv.fresh $h | (have hkp := Inv.fresh $h; clear $h; grind) | skip)
  case' fresh0 => (first | exact Inv.fresh0 $h | (have hkp := Inv.fresh0 $h; clear $h; grind) | skip)
  case' notyet => (first | exact Inv.notyet $h | (have hkp := Inv.notyet $h; clear $h; grind) | skip)
  case' big => (first | exact Inv.big $h | (have hkp := Inv.big $h; clear $h; grind) | skip)
  case' cnt => (first | exact Inv.cnt $h | (have hkp := Inv.cnt $h; clear $h; grind) | skip)
  case' fin0 => (first | exact Inv.fin0 $h | (have hkp := Inv.fin0 $h; clear $h; grind) | skip)
  case' fin1 => (first | exact Inv.fin1 $h | (have hkp := Inv.fin1 $h; clear $h; grind) | skip)
  case' fin2 => (first | exact Inv.fin2 $h | (have hkp := Inv.fin2 $h; clear $h; grind) | skip)
  case' finAll => (first | exact Inv.finAll $h | (have hkp := Inv.finAll $h; clear $h; grind) | skip)
  case' regOff => (first | exact Inv.regOff $h | (have hkp := Inv.regOff $h; clear $h; grind) | skip)
  case' del => (first | exact Inv.del $h | (have hkp := Inv.del $h; clear $h; grind) | skip)
  case' delN => (first | exact Inv.delN $h | (have hkp := Inv.delN $h; clear $h; grind) | skip)
  case' resN => (first | exact Inv.resN $h | (have hkp := Inv.resN $h; clear $h; grind) | skip)
  case' cbPar => (first | exact Inv.cbPar $h | (have hkp := Inv.cbPar $h; clear $h; grind) | skip)
  case' cbPc => (first | exact Inv.cbPc $h | (have hkp := Inv.cbPc $h; clear $h; grind) | skip)
  case' chPc => (first | exact Inv.chPc $h | (have hkp := Inv.chPc $h; clear $h; grind) | skip)
  case' out => (first | exact Inv.out $h | (have hkp := Inv.out $h; clear $h; grind) | skip)
  case' allowed => (first | exact Inv.allowed $h | (have hkp := Inv.allowed $h; clear $h; grind) | skip)
  case' oVal => (first | exact Inv.oVal $h | (have hkp := Inv.oVal $h; clear $h; grind) | skip)
  case' oErr => (first | exact Inv.oErr $h | (have hkp := Inv.oErr $h; clear $h; grind) | skip)
  case' oStop => (first | exact Inv.oStop $h | (have hkp := Inv.oStop $h; clear $h; grind) | skip)
  case' vals => (first | exact Inv.vals $h | (have hkp := Inv.vals $h; clear $h; grind) | skip)
  case' errIn => (first | exact Inv.errIn $h | (have hkp := Inv.errIn $h; clear $h; grind) | skip)
  case' errOut => (first | exact Inv.errOut $h | (have hkp := Inv.errOut $h; clear $h; grind) | skip)
  case' phErr => (first | exact Inv.phErr $h | (have hkp := Inv.phErr $h; clear $h; grind) | skip)
  case' errHd => (first | exact Inv.errHd $h | (have hkp := Inv.errHd $h; clear $h; grind) | skip)
  case' errWr => (first | exact Inv.errWr $h | (have hkp := Inv.errWr $h; clear $h; grind) | skip)
  case' phStop => (first | exact Inv.phStop $h | (have hkp := Inv.phStop $h; clear $h; grind) | skip)
  case' phStop2 => (first | exact Inv.phStop2 $h | (have hkp := Inv.phStop2 $h; clear $h; grind) | skip)
  case' src => (first | exact Inv.src $h | (have hkp := Inv.src $h; clear $h; grind) | skip)
  case' good => (first | exact Inv.good $h | (have hkp := Inv.good $h; clear $h; grind) | skip)
  case' uaf => (first | exact Inv.uaf $h | (have hkp := Inv.uaf $h; clear $h; grind) | skip)
  ))

theorem sumW {n : Nat} {pc : Option Nat → Pc} {a : Option Nat} (ha : a ∈ agents n) (p : Pc) :
    lsum Pc.w (upd pc a p) (agents n) + (pc a).w = lsum Pc.w pc (agents n) + p.w :=
  lsum_upd_in Pc.w pc (agents_nodup n) ha

theorem sumF {n : Nat} {pc : Option Nat → Pc} {a : Option Nat} (ha : a ∈ agents n) (p : Pc) :
    lsum Pc.f (upd pc a p) (agents n) + (pc a).f = lsum Pc.f pc (agents n) + p.f :=
  lsum_upd_in Pc.f pc (agents_nodup n) ha

theorem Inv.mem {c : Cfg} {s : St} (h : Inv c s) {a : Option Nat} (ha : s.pc a ≠ .wait) : a ∈ agents c.n := by
  rw [mem_agents]; rintro i rfl
  by_contra hc
  exact ha (h.big i (by omega))

/-- Once the count has reached zero every child has reported. -/
theorem Inv.allIn {c : Cfg} {s : St} (h : Inv c s) (h0 : s.count = 0) {i : Nat} (hi : i < c.n) :
    (s.pc (some i)).w = 0 := by
  have := le_lsum Pc.w s.pc (l := agents c.n) (a := some i) (by rw [mem_agents]; rintro j h; cases h; exact hi)
  have := h.cnt
  omega

theorem ex_upd {pc : Option Nat → Pc} {a : Option Nat} {p : Pc} {P : Pc → Prop} (h : ∃ b, P (pc b))
    (hn : ¬ P (pc a)) : ∃ b, P (upd pc a p b) := by
  obtain ⟨b, hb⟩ := h
  refine ⟨b, ?_⟩
  rw [upd_other]
  · exact hb
  · rintro rfl; exact hn hb

theorem Inv.noWait {c : Cfg} {s : St} (h : Inv c s) (hn : 1 ≤ c.n)
    (hF : lsum Pc.f s.pc (agents c.n) + s.results.length ≠ 0) : s.starter = .at c.n := by
  have h0 := h.finAll hF
  cases hk : s.starter with
  | «at» k =>
      have := h.startLe k hk
      by_cases hkn : k = c.n
      · rw [hkn]
      · have := h.notyet k k hk (by omega)
        have := h0 k (by omega)
        simp_all [Pc.w]
  | _ => have := h.fresh (by simp [hk]) 0
         have := h0 0 (by omega)
         simp_all [Pc.w]

theorem inv_start {c : Cfg} {s s' : St} (hn : 1 ≤ c.n) (h : Inv c s) (hs : step c s .start = some s') : Inv c s' := by
  have hnw := h.noWait hn
  simp only [step] at hs
  repeat' split at hs
  all_goals try cases hs
  · rename_i hst _ _
    have h0 := (h.fresh0 hst)
    have hW := sumW (pc := s.pc) (h.mem (a := none) (by simp [h0.1])) .enter
    have hF := sumF (pc := s.pc) (h.mem (a := none) (by simp [h0.1])) .enter
    have hr : lsum Pc.f s.pc (agents c.n) + s.results.length = 0 := by
      grind
    have hr2 : s.results = [] := List.length_eq_zero_iff.1 (by omega)
    simp only [h0.1, Pc.w, Pc.f] at hW hF
    std h
    case src => 
      intro h1
      refine (h.src h1).imp id fun h2 => ex_upd (P := fun p => p.rs = true) h2 ?_
      simp [h0.1, Pc.rs]
    case del => intro i hi; have := h.fresh (by simp [hst]) i; simp [upd, this] at hi
  · rename_i hst _ _
    have h0 := (h.fresh0 hst)
    have h1 := h.fresh (by simp [hst])
    have hr : lsum Pc.f s.pc (agents c.n) + s.results.length = 0 := by
      grind
    have hr2 : s.results = [] := List.length_eq_zero_iff.1 (by omega)
    std h
  · rename_i hst _
    have h1 := h.fresh (by simp [hst])
    std h
  · rename_i hst _
    have h1 := h.fresh (by simp [hst])
    std h
  · rename_i k hst hk
    have h1 := h.notyet k k hst (by omega)
    have h2 := h.finAll
    std h
    case notyet => intro i k' hk'; cases hk'; intro h3; exact h.notyet i k hst (by omega)
    case uaf => 
      intro hl; simp only [h.uaf hl, Bool.false_or, Bool.not_eq_false', List.isEmpty_iff]
      by_contra hc
      have := h2 (by have := List.length_pos_iff.2 hc; omega) k hk
      simp [h1, Pc.w] at this

theorem inv_complete {c : Cfg} {s s' : St} {i o} (h : Inv c s) (hs : step c s (.complete i o) = some s') :
    Inv c s' := by
  simp only [step] at hs
  repeat' split at hs
  all_goals try cases hs
  rename_i k hst hc
  obtain ⟨h1, h2, h3⟩ := hc
  have hik : i < c.n := by have := h.startLe k hst; omega
  have hm : some i ∈ agents c.n := by rw [mem_agents]; rintro j hj; cases hj; exact hik
  have hW := sumW (pc := s.pc) hm o.pc
  have hF := sumF (pc := s.pc) hm o.pc
  have ho : s.outcome i = none := (h.out i).2 h2
  have hfin := h.finAll
  have hg : ∀ r ∈ s.results, Good c.n (upd s.outcome i (some o)) s.errLog s.parentStopped r := by
    intro r hr
    refine (h.good r hr).mono (fun j x hj => ?_) (fun _ h => h) id
    rw [upd_other]; exact hj; rintro rfl; simp [ho] at hj
  have hsrc : s.phase ≠ .started → s.srcStopped = true ∨ ∃ a, (upd s.pc (some i) o.pc a).rs = true := by
    intro h1
    refine (h.src h1).imp id fun h2 => ex_upd (P := fun p => p.rs = true) h2 ?_
    simp [*, Pc.rs]
  have hps : s.phase = .stopped → s.parentStopped = true ∨ ∃ j < c.n, upd s.outcome i (some o) j = some .stopped := by
    intro h1
    refine (h.phStop h1).imp id fun ⟨j, h2, h3⟩ => ⟨j, h2, ?_⟩
    rw [upd_other]; exact h3; rintro rfl; simp [ho] at h3
  have heh := h.errHd
  have hei := h.errIn
  cases o <;> simp only [h2, Outcome.pc, Pc.w, Pc.f] at hW hF hsrc ⊢
  · std h
  · std h
  · std h
  · std h
  · std h

theorem inv_stop {c : Cfg} {s s' : St} (h : Inv c s) (hs : step c s .parentStop = some s') : Inv c s' := by
  simp only [step] at hs
  repeat' split at hs
  all_goals try cases hs
  · rename_i hp hr
    have h0 := h.regOff hr
    have hm := h.mem (a := none) (by simp [h0.1])
    have hW := sumW (pc := s.pc) hm .enter
    have hF := sumF (pc := s.pc) hm .enter
    simp only [h0.1, Pc.w, Pc.f] at hW hF
    std h
    case good => exact fun r hr => (h.good r hr).mono (fun _ _ h => h) (fun _ h => h) (fun _ => rfl)
    case src =>
      intro h1
      refine (h.src h1).imp id fun h2 => ex_upd (P := fun p => p.rs = true) h2 ?_
      simp [h0.1, Pc.rs]
  · std h
    case good => exact fun r hr => (h.good r hr).mono (fun _ _ h => h) (fun _ h => h) (fun _ => rfl)

theorem Inv.noRes {c : Cfg} {s : St} (h : Inv c s) {a : Option Nat} (h1 : s.pc a ≠ .wait) (h2 : s.pc a ≠ .off)
    (h3 : s.pc a ≠ .done) (hl : s.late = false) : s.results = [] := by
  have hm := h.mem h1
  have hw := le_lsum Pc.w s.pc hm
  have hf := le_lsum Pc.f s.pc hm
  have hc := h.cnt
  have f0 := h.fin0
  have f2 := h.fin2
  have hr := h.resN
  have hch := h.chPc
  have hz : s.results.length = 0 → s.results = [] := List.length_eq_zero_iff.1
  cases hp : s.pc a <;> simp only [hp, Pc.w, Pc.f] at hw hf
  case enter => cases a <;> grind
  all_goals grind

theorem mapM_some {f : Nat → Option (List Val)} {g : Nat → List Val} :
    ∀ l : List Nat, (∀ i ∈ l, f i = some (g i)) → l.mapM f = some (l.map g)
  | [], _ => rfl
  | a :: l, h => by
      rw [List.mapM_cons, h a (by simp), mapM_some l (fun i hi => h i (by simp [hi]))]; rfl

theorem Inv.result_good {c : Cfg} {s : St} (h : Inv c s) {a : Option Nat} (hpc : s.pc a = .deliver) :
    Good c.n s.outcome s.errLog s.parentStopped (result c s, s.srcStopped) := by
  have hm := h.mem (a := a) (by simp [hpc])
  have hw : ∀ i, i < c.n → (s.pc (some i)).w = 0 :=
    h.finAll (by have := le_lsum Pc.f s.pc hm; simp [hpc, Pc.f] at this; omega)
  have hpcs : ∀ i, i < c.n → s.pc (some i) = .reset ∨ s.pc (some i) = .deliver ∨ s.pc (some i) = .done := by
    intro i hi
    have h1 := hw i hi
    have h2 := h.chPc i
    cases hp : s.pc (some i) <;> simp_all [Pc.w]
  have hrs : ∀ b, (s.pc b).rs = false := by
    intro b
    cases b with
    | some i =>
      by_cases hi : i < c.n
      · rcases hpcs i hi with h1 | h1 | h1 <;> simp [h1, Pc.rs]
      · simp [h.big i (by omega), Pc.rs]
    | none =>
      cases a with
      | none => simp [hpc, Pc.rs]
      | some i =>
        have := (h.del i hpc).2
        cases hp : s.pc none <;> simp_all [Pc.rs, Pc.running]
  have hsrc : s.phase ≠ .started → s.srcStopped = true := by
    intro h1
    rcases h.src h1 with h2 | ⟨b, hb⟩
    · exact h2
    · simp [hrs b] at hb
  have hout : ∀ i, i < c.n → ∃ o, s.outcome i = some o := by
    intro i hi
    cases ho : s.outcome i with
    | some o => exact ⟨o, rfl⟩
    | none =>
      have := (h.out i).1 ho
      rcases hpcs i hi with h1 | h1 | h1 <;> simp_all
  have hnoerr : s.phase ≠ .error → ∀ i, i < c.n → ∀ o, s.outcome i = some o → o.err? = none := by
    intro hp i hi o ho
    cases he : o.err? with
    | none => rfl
    | some e =>
      rcases h.errOut i o e ho he with h1 | h1
      · rcases hpcs i hi with h2 | h2 | h2 <;> simp_all
      · exact absurd (h.phErr.2 (List.ne_nil_of_mem h1)) hp
  have hvals : (∀ i, i < c.n → ∃ vs, s.outcome i = some (.value vs)) →
      ∃ f : Nat → List Val, (∀ i < c.n, s.outcome i = some (.value (f i))) ∧
        (List.range c.n).mapM s.vals = some ((List.range c.n).map f) := by
    intro hv
    refine ⟨fun i => (s.vals i).getD [], ?_, mapM_some _ ?_⟩
    · intro i hi
      obtain ⟨vs, hvs⟩ := hv i hi
      rcases h.vals i vs hvs with h1 | h1
      · rcases hpcs i hi with h2 | h2 | h2 <;> simp_all
      · simp [h1, hvs]
    · intro i hi
      have hi : i < c.n := by simpa using hi
      obtain ⟨vs, hvs⟩ := hv i hi
      rcases h.vals i vs hvs with h1 | h1
      · rcases hpcs i hi with h2 | h2 | h2 <;> simp_all
      · simp [h1]
  cases hph : s.phase with
  | started =>
    obtain ⟨f, h1, h2⟩ := hvals (by
      intro i hi
      obtain ⟨o, ho⟩ := hout i hi
      have he := hnoerr (by simp [hph]) i hi o ho
      cases o with
      | value vs => exact ⟨vs, ho⟩
      | stopped =>
        rcases h.phStop2 i ho with h3 | h3
        · rcases hpcs i hi with h2 | h2 | h2 <;> simp_all
        · exact absurd hph h3
      | _ => simp [Outcome.err?] at he)
    simp only [result, hph, h2]
    exact ⟨f, h1, rfl⟩
  | stopped =>
    simp only [result, hph]
    split
    · refine ⟨hsrc (by simp [hph]), fun i hi => ?_, h.phStop hph⟩
      obtain ⟨o, ho⟩ := hout i hi
      exact ⟨o, ho, hnoerr (by simp [hph]) i hi o ho⟩
    · rename_i hss
      obtain ⟨f, h1, h2⟩ := hvals (by
        intro i hi
        obtain ⟨o, ho⟩ := hout i hi
        have he := hnoerr (by simp [hph]) i hi o ho
        have ha := h.allowed i o ho
        cases o with
        | value vs => exact ⟨vs, ho⟩
        | stopped => simp [Outcome.allowed, hss] at ha
        | _ => simp [Outcome.err?] at he)
      simp only [h2]
      exact ⟨f, h1, rfl⟩
  | error =>
    have hne := h.phErr.1 hph
    cases hl : s.errLog with
    | nil => exact absurd hl hne
    | cons i l =>
      obtain ⟨o, e, h1, h2, h3⟩ := h.errHd i (by simp [hl])
      have hi : i < c.n := by
        by_contra hc
        have := (h.out i).2 (h.big i (by omega))
        simp [this] at h1
      have he : s.err = some e := by
        rcases hpcs i hi with h4 | h4 | h4 <;> simp_all
      simp only [result, hph, he]
      exact ⟨hsrc (by simp [hph]), i, o, by simp, h1, h2⟩

set_option maxHeartbeats 4000000 in
theorem inv_agent {c : Cfg} {s s' : St} {a : Option Nat} (h : Inv c s) (hs : step c s (.step a) = some s') :
    Inv c s' := by
  have hne : s.pc a ≠ .wait := by
    intro hw; simp [step, stepAgent, hw] at hs
  have hne2 : s.pc a ≠ .off := by
    intro hw; simp [step, stepAgent, hw] at hs
  have hne3 : s.pc a ≠ .done := by
    intro hw; simp [step, stepAgent, hw] at hs
  have hm := h.mem hne
  have hW := fun p => sumW (pc := s.pc) hm p
  have hF := fun p => sumF (pc := s.pc) hm p
  have hsrc : ∀ p, (s.pc a).rs = false → s.phase ≠ .started →
      s.srcStopped = true ∨ ∃ b, (upd s.pc a p b).rs = true := by
    intro p h0 h1
    refine (h.src h1).imp id fun h2 => ex_upd (P := fun p => p.rs = true) h2 ?_
    simp [h0]
  have hsrc2 : ∀ p, p.rs = true → ∃ b, (upd s.pc a p b).rs = true := fun p hp => ⟨a, by simp [hp]⟩
  have hres := h.noRes hne hne2 hne3
  have huaf : s.late = false → (s.uaf || !s.results.isEmpty) = false := by
    intro hl; simp [h.uaf hl, hres hl]
  have hfa := h.finAll
  have hf0 := h.fin0
  have hf1 := h.fin1
  have hf2 := h.fin2
  have hch := h.chPc
  have hcb := h.cbPc
  have hcnt := h.cnt
  simp only [step, stepAgent] at hs
  cases hpc : s.pc a with
  | wait => exact absurd hpc hne
  | off => exact absurd hpc hne2
  | done => exact absurd hpc hne3
  | enter =>
    simp only [hpc] at hs; cases hs
    have hW := hW .casStop; have hF := hF .casStop; have hsrc := hsrc .casStop
    simp only [hpc, Pc.w, Pc.f] at hW hF
    cases a with
    | some i => exact absurd hpc (hch i).2
    | none => std h
  | saveVals vs =>
    simp only [hpc] at hs
    cases a with
    | none => simp [hpc, Pc.cbOk] at hcb
    | some i =>
      cases hs
      have hW := hW .arrive; have hF := hF .arrive; have hsrc := hsrc .arrive
      simp only [hpc, Pc.w, Pc.f] at hW hF
      have ho := h.oVal i vs hpc
      std h
  | setErr e =>
    simp only [hpc] at hs
    cases a with
    | none => simp [hpc, Pc.cbOk] at hcb
    | some i =>
      have hg : ∀ r ∈ s.results, Good c.n s.outcome (s.errLog ++ [i]) s.parentStopped r := by
        intro r hr
        refine (h.good r hr).mono (fun j x hj => hj) (fun j hj => ?_) id
        cases hl : s.errLog <;> simp_all
      have ho := h.oErr i e (.inl hpc)
      have hph := h.phErr
      have hr0 : 0 < s.count := by have := le_lsum Pc.w s.pc hm; simp [hpc, Pc.w] at this; omega
      cases hp : s.phase <;> simp only [hp] at hs <;> cases hs
      · have hW := hW (.reqStopErr e); have hF := hF (.reqStopErr e); have hsrc := hsrc (.reqStopErr e)
        have hsrc2 := hsrc2 (.reqStopErr e) rfl
        simp only [hpc, Pc.w, Pc.f] at hW hF
        have hl : s.errLog = [] := by grind
        std h
      · have hW := hW .arrive; have hF := hF .arrive; have hsrc := hsrc .arrive
        simp only [hpc, Pc.w, Pc.f] at hW hF
        have hne := hph.1 hp
        have hhd : (s.errLog ++ [i]).head? = s.errLog.head? := by
          cases hl : s.errLog <;> simp_all
        std h
      · have hW := hW (.saveErr e); have hF := hF (.saveErr e); have hsrc := hsrc (.saveErr e)
        simp only [hpc, Pc.w, Pc.f] at hW hF
        std h
  | reqStopErr e =>
    simp only [hpc] at hs
    cases hs
    have hW := hW (.saveErr e); have hF := hF (.saveErr e); have hsrc := hsrc (.saveErr e)
    simp only [hpc, Pc.w, Pc.f] at hW hF
    std h
  | saveErr e =>
    simp only [hpc] at hs
    cases hs
    have hW := hW (.arrive); have hF := hF (.arrive); have hsrc := hsrc (.arrive)
    simp only [hpc, Pc.w, Pc.f] at hW hF
    cases a with
    | none => simp [hpc, Pc.cbOk] at hcb
    | some i =>
    have hhd := h.errWr i e (.inr hpc)
    obtain ⟨o, ho⟩ := h.oErr i e (.inr (.inr hpc))
    std h
  | casStop =>
    simp only [hpc] at hs
    split at hs <;> cases hs
    · have hW := hW (.reqStop); have hF := hF (.reqStop); have hsrc2 := hsrc2 .reqStop rfl
      simp only [hpc, Pc.w, Pc.f] at hW hF
      std h
      case phStop =>
        intro _
        cases a with
        | none => exact .inl (h.cbPar hne2).1
        | some i => exact .inr ⟨i, mem_agents.1 hm i rfl, h.oStop i (.inl hpc)⟩
    · have hW := hW (.arrive); have hF := hF (.arrive); have hsrc := hsrc (.arrive)
      simp only [hpc, Pc.w, Pc.f] at hW hF
      std h
  | reqStop =>
    simp only [hpc] at hs
    cases hs
    have hW := hW (.arrive); have hF := hF (.arrive); have hsrc := hsrc (.arrive)
    simp only [hpc, Pc.w, Pc.f] at hW hF
    std h
  | arrive =>
    simp only [hpc] at hs
    split at hs <;> cases hs
    · have hW := hW (.reset); have hF := hF (.reset); have hsrc := hsrc .reset
      simp only [hpc, Pc.w, Pc.f] at hW hF
      std h
      case finAll =>
        intro _ i hi
        have := le_lsum Pc.w (upd s.pc a .reset) (l := agents c.n) (a := some i)
          (by rw [mem_agents]; rintro j h; cases h; exact hi)
        simp only; omega
    · have hW := hW (.done); have hF := hF (.done); have hsrc := hsrc (.done)
      simp only [hpc, Pc.w, Pc.f] at hW hF
      std h
  | reset =>
    simp only [hpc] at hs
    split at hs <;> cases hs
    have hW := hW (.deliver); have hF := hF (.deliver); have hsrc := hsrc .deliver
    simp only [hpc, Pc.w, Pc.f] at hW hF
    std h
  | deliver =>
    simp only [hpc] at hs
    cases hs
    have hW := hW (.done); have hF := hF (.done); have hsrc := hsrc (.done)
    simp only [hpc, Pc.w, Pc.f] at hW hF
    have hrg := h.result_good hpc
    have hd1 := h.del
    have hd2 := h.delN
    std h
    case good =>
      intro r hr
      simp only [List.mem_append, List.mem_singleton] at hr
      rcases hr with hr | rfl
      · exact h.good r hr
      · exact hrg
    case resN => intro _; cases a <;> grind

theorem inv_reach {c : Cfg} (hn : 1 ≤ c.n) {s : St} (h : Reachable c s) : Inv c s := by
  refine Reach.inv (Inv c) (inv_init c hn) (fun s a s' h hs => ?_) s h
  cases a with
  | start => exact inv_start hn h hs
  | complete i o => exact inv_complete h hs
  | step a => exact inv_agent h hs
  | parentStop => exact inv_stop h hs

end Verif.WhenAll
