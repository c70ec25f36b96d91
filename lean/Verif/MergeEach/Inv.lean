import Verif.MergeEach.Model
/-! # Invariant of the merge_each model -/
namespace Verif.MergeEach

/-- Is a decrement of `__active_` still owed? -/
def Pc.w : Pc → Nat
  | .live0 | .live => 1
  | .run ops => if .dec ∈ ops then 1 else 0
  | _ => 0

/-- Will this child complete the output receiver? -/
def Pc.f : Pc → Nat
  | .run ops => if .finish ∈ ops then 1 else 0
  | .errItem => 1
  | _ => 0

def storeOf : List Op → Option Nat
  | [] => none
  | .store e :: _ => some e
  | _ :: l => storeOf l

def storeExOf : List Op → Option Nat
  | [] => none
  | .storeEx e :: _ => some e
  | _ :: l => storeExOf l

def Pc.pS : Pc → Option Nat
  | .run ops => storeOf ops
  | _ => none

def Pc.pE : Pc → Option Nat
  | .run ops => storeExOf ops
  | _ => none

def Op.reports : Op → Bool
  | .fail _ | .except _ => true
  | _ => false

/-- A `set_break` is pending and no error report before it. -/
def Pc.bk : Pc → Bool
  | .run ops => decide (.brk ∈ ops) && ops.all fun o => !o.reports
  | _ => false

def Op.isNote : Op → Bool
  | .note _ => true
  | _ => false

/-- The item's next-receiver will still be completed by merge_each itself (or by the running child). -/
def Pc.owes : Pc → Bool
  | .given | .live0 | .live => true
  | .run ops => ops.any Op.isNote
  | _ => false

def Pc.rs : Pc → Bool
  | .run (.rstop :: _) => true
  | _ => false

/-- The remaining programs that occur. -/
def okP : Kind → List Op → Bool
  | .outer, [.dec] | .outer, [.brk, .dec] | .outer, [.except _, .brk, .dec] | .outer, [.rstop, .dec]
  | .outer, [.rstop, .storeEx _, .brk, .dec] | .outer, [.storeEx _, .brk, .dec]
  | .seq, [.dec] | .seq, [.fail _, .brk, .dec] | .seq, [.rstop, .store _, .brk, .dec] | .seq, [.store _, .brk, .dec]
  | .seq, [.brk, .dec] | .seq, [.note _, .dec] | .seq, [.fail _, .note _, .brk, .dec]
  | .seq, [.rstop, .store _, .note _, .brk, .dec] | .seq, [.store _, .note _, .brk, .dec] | .seq, [.note _, .brk, .dec]
  | .val _, [.note _, .dec] | .val _, [.dec] | .val _, [.note _, .fail _, .brk, .dec] | .val _, [.fail _, .brk, .dec]
  | .val _, [.rstop, .store _, .brk, .dec] | .val _, [.store _, .brk, .dec] | .val _, [.brk, .dec]
  | _, [.unreg, .finish] | _, [.finish] => true
  | _, _ => false

def Pc.ok (k : Kind) : Pc → Bool
  | .run ops => okP k ops
  | .live0 => k == .seq
  | .given => k != .outer
  | _ => true

/-- The output receiver saw `t` after the items. -/
inductive TailOk (s : St) : List Ev → Prop
  | nil (h : ∀ j, s.pc j ≠ .errItem) : TailOk s []
  | unstarted (h : s.agents = []) : TailOk s [.stopped]
  | value (h0 : s.active = 0) (h1 : s.reports = []) (h2 : s.outerStopped = false)
      {i : Nat} (h3 : s.pc i ≠ .absent) : TailOk s [.value]
  | stopped (h0 : s.active = 0) (h1 : s.reports = []) (h2 : s.outerStopped = true) : TailOk s [.stopped]
  | error (h0 : s.active = 0) {e : Nat} (h1 : s.reports.head? = some (0, e)) : TailOk s [.error e]
  | thrown (h0 : s.active = 0) {a e e' : Nat} (h1 : s.reports.head? = some (a, e)) (h2 : a ≠ 0) : TailOk s [.error e']
  | item (h0 : s.active = 0) {a e : Nat} (h1 : s.reports.head? = some (a, e)) (h2 : a ≠ 0)
      {j : Nat} (h3 : s.pc j = .errItem) : TailOk s [.errNext (some e)]
  | itemValue (h0 : s.active = 0) {a e : Nat} (h1 : s.reports.head? = some (a, e)) (h2 : a ≠ 0) :
      TailOk s [.errNext (some e), .value]
  | itemStopped (h0 : s.active = 0) {a e : Nat} (h1 : s.reports.head? = some (a, e)) (h2 : a ≠ 0)
      (h3 : s.rcvStop = true) (h4 : s.stoppable = true) : TailOk s [.errNext (some e), .stopped]

def Nexts (l : List Ev) : Prop := ∀ ev ∈ l, ∃ i, ev = .next i

def terms (l : List Ev) : Nat := (l.filter Ev.term).length

structure Inv (s : St) : Prop where
  nd : s.agents.Nodup
  ag : ∀ j, j ∈ s.agents ↔ s.pc j ≠ .absent
  kn : ∀ j, j ∈ s.agents → (s.kind j = .outer ↔ j = 0)
  own : ∀ j, j ∈ s.agents → s.acked j = false → (s.kind j = .seq → s.pc 0 = .live) ∧
    ∀ o, s.kind j = .val o → s.pc o = .live ∧ s.kind o = .seq
  owe : ∀ j, j ∈ s.agents → j ≠ 0 → s.acked j = false → (s.pc j).owes = true ∨ s.noted j = true ∨ j ∈ s.lost
  nak : ∀ j, s.acked j = true → s.pc j ≠ .live0 ∧ s.pc j ≠ .live ∧ s.pc j ≠ .absent
  nt : ∀ j, s.noted j = true → s.pc j ≠ .live0 ∧ s.pc j ≠ .live ∧ s.pc j ≠ .given ∧ s.pc j ≠ .absent
  pk : ∀ j, (s.pc j).ok (s.kind j) = true
  act : s.active = lsum Pc.w s.pc s.agents
  fin : lsum Pc.f s.pc s.agents + terms s.log = if s.begun ∧ s.active = 0 then 1 else 0
  pre : s.begun = false → s.agents = [] ∧ s.log = [] ∧ s.active = 0
  ns : s.begun = false → s.reports = [] ∧ s.outerStopped = false ∧ s.compl = .started
  tl : ∃ l t, s.log = l ++ t ∧ Nexts l ∧ TailOk s t
  ps : ∀ j e, (s.pc j).pS = some e → j ≠ 0 ∧ s.reports.head? = some (j, e)
  pe : ∀ j e, (s.pc j).pE = some e → j = 0 ∧ s.reports.head? = some (j, e)
  win : ∀ a e, s.reports.head? = some (a, e) →
    (a = 0 → s.ex = some e ∨ (s.pc 0).pE = some e) ∧ (a ≠ 0 → s.ex = none ∧ (s.store = some e ∨ (s.pc a).pS = some e))
  rep : s.compl = .error ↔ s.reports ≠ []
  nex : s.reports = [] → s.ex = none ∧ s.store = none
  stp : s.compl = .stopped → s.outerStopped = true
  bkp : ∀ j, (s.pc j).bk = true → s.compl = .error ∨ (j = 0 ∧ s.outerStopped = true)
  os : s.outerStopped = true → s.compl ≠ .started ∨ (s.pc 0).bk = true
  lv : s.pc 0 = .live → s.outerStopped = false
  sr : s.stoppable = true → s.compl ≠ .started → s.stopReq = true ∨ ∃ j, (s.pc j).rs = true
  reg : s.registered = true → s.stoppable = true

theorem inv_init (b : Bool) : Inv (init b) := by
  have htl : ∃ l t, (init b).log = l ++ t ∧ Nexts l ∧ TailOk (init b) t :=
    ⟨[], [], rfl, by simp [Nexts], .nil (by simp [init])⟩
  constructor <;> first | exact htl | simp [init, lsum, terms, Pc.pS, Pc.pE, Pc.bk, Pc.ok]

/-- No child counted, so none running. -/
theorem Inv.quiet {s : St} (hi : Inv s) (h : s.active = 0) (j : Nat) : (s.pc j).w = 0 := by
  by_cases hj : j ∈ s.agents
  · have := le_lsum (c := Pc.w) (f := s.pc) hj
    rw [← hi.act, h] at this; omega
  · have : s.pc j = .absent := by
      by_cases h : s.pc j = .absent
      · exact h
      · exact absurd ((hi.ag j).2 h) hj
    simp [this, Pc.w]

theorem Inv.mem {s : St} (hi : Inv s) {j : Nat} (h : s.pc j ≠ .absent) : j ∈ s.agents := (hi.ag j).2 h

theorem terms_append (l m : List Ev) : terms (l ++ m) = terms l + terms m := by simp [terms]

theorem terms_nexts {l : List Ev} (h : Nexts l) : terms l = 0 := by
  simp only [terms, List.length_eq_zero_iff, List.filter_eq_nil_iff]
  intro a ha
  obtain ⟨i, rfl⟩ := h a ha
  simp [Ev.term]

theorem okP_w {k : Kind} {ops : List Op} (h : okP k ops = true) :
    ((Pc.run ops).w = 1 ∧ (Pc.run ops).f = 0) ∨ ((Pc.run ops).w = 0 ∧ (Pc.run ops).f = 1) := by
  unfold okP at h
  split at h <;> first | (simp [Pc.w, Pc.f]; done) | cases h

/-- While a handler is being executed nothing terminal was signalled and no error item is out. -/
theorem Inv.clean {s : St} (hi : Inv s) {i : Nat} {ops : List Op} (h : s.pc i = .run ops) :
    Nexts s.log ∧ ∀ j, s.pc j ≠ .errItem := by
  have hk := hi.pk i
  rw [h] at hk
  have hm : i ∈ s.agents := hi.mem (by simp [h])
  obtain ⟨l, t, hl, hn, ht⟩ := hi.tl
  have hf := hi.fin
  have hle := le_lsum (c := Pc.f) (f := s.pc) hm
  rw [hl, terms_append, terms_nexts hn] at hf
  have hcase : (s.active ≠ 0 ∨ 1 ≤ lsum Pc.f s.pc s.agents) := by
    rcases okP_w hk with h1 | h1
    · left; intro h0; have := hi.quiet h0 i; rw [h] at this; omega
    · right; rw [h] at hle; omega
  have h1 : terms t = 0 := by
    rcases hcase with h0 | h0
    · simp only [h0, and_false, if_false] at hf; omega
    · split at hf <;> omega
  cases ht with
  | nil h' => exact ⟨by rw [hl]; simpa using hn, h'⟩
  | unstarted h' => rw [h'] at hm; cases hm
  | item h0 h1' h2 h3 =>
    rename_i j
    exfalso
    have hj : j ∈ s.agents := hi.mem (by simp [h3])
    have hne : i ≠ j := by rintro rfl; rw [h] at h3; cases h3
    have := add_le_lsum (c := Pc.f) (f := s.pc) hm hj hne
    rcases okP_w hk with h4 | h4
    · have := hi.quiet h0 i; rw [h] at this; omega
    · rw [h, h3] at this
      simp only [Pc.f] at this h4
      rw [h4.2] at this
      split at hf <;> omega
  | _ => simp [terms, Ev.term] at h1

/-- A step that moves one child and creates none: what has to be checked. -/
theorem inv_gen {s s' : St} (hi : Inv s) {i : Nat} {p' : Pc} (hp : s.pc i ≠ .absent)
    (hpl : s.pc i = .live → ∀ j ∈ s.agents, s'.acked j = false → (s.kind j = .seq → i ≠ 0) ∧ ∀ o, s.kind j = .val o → i ≠ o)
    (hagents : s'.agents = s.agents) (hkind : s'.kind = s.kind) (hpc : s'.pc = upd s.pc i p')
    (hbeg : s'.begun = s.begun) (hstp : s'.stoppable = s.stoppable) (hlost : s'.lost = s.lost)
    (hout : s.outerStopped = true → s'.outerStopped = true) (hout0 : i ≠ 0 → s'.outerStopped = s.outerStopped)
    (hreg : s'.registered = true → s.registered = true)
    (hack : ∀ j, j ≠ i → s'.acked j = s.acked j) (hnot : ∀ j, j ≠ i → s'.noted j = s.noted j)
    (hacki : s.acked i = true → s'.acked i = true)
    (hp' : p' ≠ .absent) (hp0 : i = 0 → p' ≠ .live) (hnak : s'.acked i = true → p' ≠ .live0 ∧ p' ≠ .live)
    (hnt : s'.noted i = true → p' ≠ .live0 ∧ p' ≠ .live ∧ p' ≠ .given ∧ p' ≠ .absent)
    (howe : i ≠ 0 → s'.acked i = false → p'.owes = true ∨ s'.noted i = true ∨ i ∈ s.lost)
    (hok : p'.ok (s.kind i) = true)
    (hact : s'.active + (s.pc i).w = s.active + p'.w)
    (hfin : p'.f + terms s'.log + (if s.begun ∧ s.active = 0 then 1 else 0) =
      (s.pc i).f + terms s.log + (if s.begun ∧ s'.active = 0 then 1 else 0))
    (htl : ∃ l t, s'.log = l ++ t ∧ Nexts l ∧ TailOk s' t)
    (hhead : ∀ x, s.reports.head? = some x → s'.reports.head? = some x)
    (hps : ∀ e, p'.pS = some e → i ≠ 0 ∧ s'.reports.head? = some (i, e))
    (hpe : ∀ e, p'.pE = some e → i = 0 ∧ s'.reports.head? = some (i, e))
    (hwin : ∀ a e, s'.reports.head? = some (a, e) →
      (a = 0 → s'.ex = some e ∨ (upd s.pc i p' 0).pE = some e) ∧
      (a ≠ 0 → s'.ex = none ∧ (s'.store = some e ∨ (upd s.pc i p' a).pS = some e)))
    (hrep : s'.compl = .error ↔ s'.reports ≠ [])
    (hnex : s'.reports = [] → s'.ex = none ∧ s'.store = none)
    (hsto : s'.compl = .stopped → s'.outerStopped = true)
    (herr : s.compl = .error → s'.compl = .error)
    (hbk : p'.bk = true → s'.compl = .error ∨ (i = 0 ∧ s'.outerStopped = true))
    (hos : s'.outerStopped = true → s'.compl ≠ .started ∨ (upd s.pc i p' 0).bk = true)
    (hsr : s.stoppable = true → s'.compl ≠ .started → s'.stopReq = true ∨ ∃ j, (upd s.pc i p' j).rs = true) :
    Inv s' := by
  have hm : i ∈ s.agents := hi.mem hp
  constructor
  · rw [hagents]; exact hi.nd
  · intro j
    rw [hagents, hpc]
    by_cases hj : j = i
    · subst hj; simp [hm, hp']
    · rw [upd_other _ _ hj]; exact hi.ag j
  · rw [hagents, hkind]; exact hi.kn
  · intro j hj ha
    rw [hagents] at hj
    have ha0 : s.acked j = false := by
      by_cases hji : j = i
      · subst hji; cases h : s.acked j
        · rfl
        · rw [hacki h] at ha; cases ha
      · rw [← hack j hji]; exact ha
    have := hi.own j hj ha0
    rw [hkind, hpc]
    refine ⟨fun h => ?_, fun o h => ?_⟩
    · have h1 := this.1 h
      rw [upd_other]
      · exact h1
      · rintro rfl; exact (hpl h1 j hj ha).1 h rfl
    · have h1 := this.2 o h
      rw [upd_other]
      · exact h1
      · rintro rfl; exact (hpl h1.1 j hj ha).2 o h rfl
  · intro j hj h0 ha
    rw [hagents] at hj; rw [hlost, hpc]
    by_cases hji : j = i
    · subst hji; rw [upd_same]; exact howe h0 ha
    · rw [upd_other _ _ hji, hnot j hji]; exact hi.owe j hj h0 (by rw [← hack j hji]; exact ha)
  · intro j ha
    rw [hpc]
    by_cases hji : j = i
    · subst hji; rw [upd_same]; exact ⟨(hnak ha).1, (hnak ha).2, hp'⟩
    · rw [upd_other _ _ hji]; exact hi.nak j (by rw [← hack j hji]; exact ha)
  · intro j ha
    rw [hpc]
    by_cases hji : j = i
    · subst hji; rw [upd_same]; exact hnt ha
    · rw [upd_other _ _ hji]; exact hi.nt j (by rw [← hnot j hji]; exact ha)
  · intro j
    rw [hpc, hkind]
    by_cases hji : j = i
    · subst hji; rw [upd_same]; exact hok
    · rw [upd_other _ _ hji]; exact hi.pk j
  · have := lsum_upd_in (c := Pc.w) (f := s.pc) (b := p') hi.nd hm
    have := hi.act
    rw [hpc, hagents]; omega
  · have h1 := lsum_upd_in (c := Pc.f) (f := s.pc) (b := p') hi.nd hm
    have h2 := hi.fin
    rw [hpc, hagents, hbeg]
    omega
  · intro h; rw [hbeg] at h; have := (hi.pre h).1; rw [this] at hm; cases hm
  · intro h; rw [hbeg] at h; have := (hi.pre h).1; rw [this] at hm; cases hm
  · exact htl
  · intro j e h
    rw [hpc] at h
    by_cases hji : j = i
    · subst hji; rw [upd_same] at h; exact hps e h
    · rw [upd_other _ _ hji] at h; exact ⟨(hi.ps j e h).1, hhead _ (hi.ps j e h).2⟩
  · intro j e h
    rw [hpc] at h
    by_cases hji : j = i
    · subst hji; rw [upd_same] at h; exact hpe e h
    · rw [upd_other _ _ hji] at h; exact ⟨(hi.pe j e h).1, hhead _ (hi.pe j e h).2⟩
  · rw [hpc]; exact hwin
  · exact hrep
  · exact hnex
  · exact hsto
  · intro j h
    rw [hpc] at h
    by_cases hji : j = i
    · subst hji; rw [upd_same] at h; exact hbk h
    · rw [upd_other _ _ hji] at h
      exact (hi.bkp j h).imp herr fun h => ⟨h.1, hout h.2⟩
  · rw [hpc]; exact hos
  · intro h
    rw [hpc] at h
    by_cases hji : 0 = i
    · rw [← hji, upd_same] at h; exact absurd h (hp0 hji.symm)
    · rw [upd_other _ _ hji] at h; rw [hout0 (Ne.symm hji)]; exact hi.lv h
  · rw [hstp, hpc]; exact hsr
  · rw [hstp]; exact fun h => hi.reg (hreg h)

/-- One operation of a completion handler: what has to be checked. -/
theorem inv_op' {s s' : St} (hi : Inv s) {i : Nat} {p' : Pc} (hp : s.pc i ≠ .absent ∧ s.pc i ≠ .live)
    (hagents : s'.agents = s.agents) (hkind : s'.kind = s.kind) (hpc : s'.pc = upd s.pc i p')
    (hbeg : s'.begun = s.begun) (hstp : s'.stoppable = s.stoppable) (hlost : s'.lost = s.lost)
    (hout : s'.outerStopped = s.outerStopped)
    (hreg : s'.registered = true → s.registered = true)
    (hack : ∀ j, j ≠ i → s'.acked j = s.acked j) (hnot : ∀ j, j ≠ i → s'.noted j = s.noted j)
    (hacki : s.acked i = true → s'.acked i = true)
    (hp' : p' ≠ .absent ∧ p' ≠ .live ∧ p' ≠ .live0 ∧ p' ≠ .given)
    (howe : i ≠ 0 → s'.acked i = false → p'.owes = true ∨ s'.noted i = true ∨ i ∈ s.lost)
    (hok : p'.ok (s.kind i) = true)
    (hact : s'.active + (s.pc i).w = s.active + p'.w)
    (hfin : p'.f + terms s'.log + (if s.begun ∧ s.active = 0 then 1 else 0) =
      (s.pc i).f + terms s.log + (if s.begun ∧ s'.active = 0 then 1 else 0))
    (htl : ∃ l t, s'.log = l ++ t ∧ Nexts l ∧ TailOk s' t)
    (hhead : ∀ x, s.reports.head? = some x → s'.reports.head? = some x)
    (hps : ∀ e, p'.pS = some e → i ≠ 0 ∧ s'.reports.head? = some (i, e))
    (hpe : ∀ e, p'.pE = some e → i = 0 ∧ s'.reports.head? = some (i, e))
    (hwin : ∀ a e, s'.reports.head? = some (a, e) →
      (a = 0 → s'.ex = some e ∨ (upd s.pc i p' 0).pE = some e) ∧
      (a ≠ 0 → s'.ex = none ∧ (s'.store = some e ∨ (upd s.pc i p' a).pS = some e)))
    (hrep : s'.compl = .error ↔ s'.reports ≠ [])
    (hnex : s'.reports = [] → s'.ex = none ∧ s'.store = none)
    (hsto : s'.compl = .stopped → s.outerStopped = true)
    (herr : s.compl = .error → s'.compl = .error)
    (hbk : p'.bk = true → s'.compl = .error ∨ (i = 0 ∧ s.outerStopped = true))
    (hos : s.outerStopped = true → s'.compl ≠ .started ∨ (upd s.pc i p' 0).bk = true)
    (hsr : s.stoppable = true → s'.compl ≠ .started → s'.stopReq = true ∨ ∃ j, (upd s.pc i p' j).rs = true) :
    Inv s' := by
  refine inv_gen hi hp.1 (fun h => absurd h hp.2) hagents hkind hpc hbeg hstp hlost (by rw [hout]; exact id) (fun _ => hout)
    hreg hack hnot hacki hp'.1 (fun _ => hp'.2.1) (fun _ => ⟨hp'.2.2.1, hp'.2.1⟩)
    (fun _ => ⟨hp'.2.2.1, hp'.2.1, hp'.2.2.2, hp'.1⟩) howe hok hact hfin htl hhead hps hpe hwin
    hrep hnex (by rw [hout]; exact hsto) herr (by rw [hout]; exact hbk) (by rw [hout]; exact hos) hsr

/-- `inv_op'` for a child executing its handler. -/
theorem inv_op {s s' : St} (hi : Inv s) {i : Nat} {ops : List Op} {p' : Pc} (hp : s.pc i = .run ops)
    (hagents : s'.agents = s.agents) (hkind : s'.kind = s.kind) (hpc : s'.pc = upd s.pc i p')
    (hbeg : s'.begun = s.begun) (hstp : s'.stoppable = s.stoppable) (hlost : s'.lost = s.lost)
    (hout : s'.outerStopped = s.outerStopped)
    (hreg : s'.registered = true → s.registered = true)
    (hack : ∀ j, j ≠ i → s'.acked j = s.acked j) (hnot : ∀ j, j ≠ i → s'.noted j = s.noted j)
    (hacki : s.acked i = true → s'.acked i = true)
    (hp' : p' ≠ .absent ∧ p' ≠ .live ∧ p' ≠ .live0 ∧ p' ≠ .given)
    (howe : i ≠ 0 → s'.acked i = false → p'.owes = true ∨ s'.noted i = true ∨ i ∈ s.lost)
    (hok : p'.ok (s.kind i) = true)
    (hact : s'.active + (s.pc i).w = s.active + p'.w)
    (hfin : p'.f + terms s'.log + (if s.begun ∧ s.active = 0 then 1 else 0) =
      (s.pc i).f + terms s.log + (if s.begun ∧ s'.active = 0 then 1 else 0))
    (htl : ∃ l t, s'.log = l ++ t ∧ Nexts l ∧ TailOk s' t)
    (hhead : ∀ x, s.reports.head? = some x → s'.reports.head? = some x)
    (hps : ∀ e, p'.pS = some e → i ≠ 0 ∧ s'.reports.head? = some (i, e))
    (hpe : ∀ e, p'.pE = some e → i = 0 ∧ s'.reports.head? = some (i, e))
    (hwin : ∀ a e, s'.reports.head? = some (a, e) →
      (a = 0 → s'.ex = some e ∨ (upd s.pc i p' 0).pE = some e) ∧
      (a ≠ 0 → s'.ex = none ∧ (s'.store = some e ∨ (upd s.pc i p' a).pS = some e)))
    (hrep : s'.compl = .error ↔ s'.reports ≠ [])
    (hnex : s'.reports = [] → s'.ex = none ∧ s'.store = none)
    (hsto : s'.compl = .stopped → s.outerStopped = true)
    (herr : s.compl = .error → s'.compl = .error)
    (hbk : p'.bk = true → s'.compl = .error ∨ (i = 0 ∧ s.outerStopped = true))
    (hos : s.outerStopped = true → s'.compl ≠ .started ∨ (upd s.pc i p' 0).bk = true)
    (hsr : s.stoppable = true → s'.compl ≠ .started → s'.stopReq = true ∨ ∃ j, (upd s.pc i p' j).rs = true) :
    Inv s' :=
  inv_op' hi (by simp [hp]) hagents hkind hpc hbeg hstp hlost hout hreg hack hnot hacki hp' howe hok hact hfin htl hhead hps hpe hwin hrep hnex hsto herr hbk hos hsr

theorem TailOk.keep {s s' : St} {t : List Ev} (h : TailOk s t) (hpc : s'.pc = s.pc) (hag : s'.agents = s.agents)
    (hact : s'.active = s.active) (hrep : s'.reports = s.reports) (hos : s'.outerStopped = s.outerStopped)
    (hst : s'.stoppable = s.stoppable) (hrs : s.rcvStop = true → s'.rcvStop = true) : TailOk s' t := by
  cases h with
  | nil h => exact .nil (by rw [hpc]; exact h)
  | unstarted h => exact .unstarted (by rw [hag]; exact h)
  | value h0 h1 h2 h3 =>
    exact .value (by rw [hact]; exact h0) (by rw [hrep]; exact h1) (by rw [hos]; exact h2) (by rw [hpc]; exact h3)
  | stopped h0 h1 h2 => exact .stopped (by rw [hact]; exact h0) (by rw [hrep]; exact h1) (by rw [hos]; exact h2)
  | error h0 h1 => exact .error (by rw [hact]; exact h0) (by rw [hrep]; exact h1)
  | thrown h0 h1 h2 => exact .thrown (by rw [hact]; exact h0) (by rw [hrep]; exact h1) h2
  | item h0 h1 h2 h3 => exact .item (by rw [hact]; exact h0) (by rw [hrep]; exact h1) h2 (by rw [hpc]; exact h3)
  | itemValue h0 h1 h2 => exact .itemValue (by rw [hact]; exact h0) (by rw [hrep]; exact h1) h2
  | itemStopped h0 h1 h2 h3 h4 =>
    exact .itemStopped (by rw [hact]; exact h0) (by rw [hrep]; exact h1) h2 (hrs h3) (by rw [hst]; exact h4)

/-- While something is counted, only items were sent to the receiver. -/
theorem Inv.busy {s : St} (hi : Inv s) (h : s.active ≠ 0) : Nexts s.log ∧ ∀ j, s.pc j ≠ .errItem := by
  obtain ⟨l, t, hl, hn, ht⟩ := hi.tl
  cases ht with
  | nil h' => exact ⟨by rw [hl]; simpa using hn, h'⟩
  | unstarted h' => have := hi.act; rw [h'] at this; exact absurd this h
  | _ => contradiction

/-- The log is unchanged and no error item is sent out. -/
theorem tl_keep {s s' : St} (hi : Inv s) {i : Nat} {ops : List Op} {p' : Pc} (hp : s.pc i = .run ops)
    (hpc : s'.pc = upd s.pc i p') (hlog : s'.log = s.log) (h : p' ≠ .errItem) :
    ∃ l t, s'.log = l ++ t ∧ Nexts l ∧ TailOk s' t := by
  obtain ⟨h1, h2⟩ := hi.clean hp
  refine ⟨s.log, [], by simp [hlog], h1, .nil ?_⟩
  intro j
  rw [hpc]
  by_cases hji : j = i
  · subst hji; rw [upd_same]; exact h
  · rw [upd_other _ _ hji]; exact h2 j

end Verif.MergeEach
