import Verif.NvWhenAll.Inv2
import Verif.ListSum
import Verif.Run

namespace Verif.NvWhenAll

/-! ## Specification -/

/-- The value a child completed with, if it has one. -/
def Outcome.vals : Option Outcome → List Nat
  | some (.value (some v)) => [v]
  | _ => []

/-- What a completion of the receiver with `r` (and `stop`: the children had been asked to stop) says about the
children and the CUDA calls. -/
structure Right (c : Cfg) (s : St) (r : Res) (stop : Bool) : Prop where
  /-- values: all children completed with values, and these are theirs, in order; all copies have been made -/
  value : ∀ vs, r = .value vs → (∀ i, i < c.n → ∃ v, s.outcome i = some (.value v)) ∧
    vs = (List.range c.n).flatMap (fun i => Outcome.vals (s.outcome i)) ∧
    ∀ i, i < c.n → ∀ v, s.outcome i = some (.value (some v)) → s.gpu i = .ran
  /-- an error: that of the first child that reported one; the others have been asked to stop -/
  error : ∀ e, r = .error e → (∃ l i, s.errLog = l ++ [i] ∧ s.outcome i = some (.error e)) ∧ stop = true
  /-- stopped: stop was requested before the children were started, or a child completed with stopped, none with
  an error, and the others have been asked to stop -/
  stopped : r = .stopped → (s.parentStopped = true ∧ ∀ i, s.outcome i = none) ∨
    ((∃ i, s.outcome i = some .stopped) ∧ (∀ i e, s.outcome i ≠ some (.error e)) ∧ stop = true)
  /-- a CUDA error: that of a call made by this operation -/
  cuda : ∀ e, r = .cuda e → e ∈ s.cudaErrs
  /-- garbage: a copy failed on the GPU -/
  garbage : r = .garbage → ∃ i, i < c.n ∧ s.gpu i = .failed
  /-- all children have completed, unless none was started -/
  all : (∀ i, s.outcome i = none) ∨ ∀ i, i < c.n → s.outcome i ≠ none
  /-- no copy is pending, unless a CUDA call has failed -/
  quiet : (∀ e, r ≠ .cuda e) → ∀ i, (s.gpu i).busy = false

/-! ## Proof -/

theorem values_cases {s : St} : ∀ n : Nat,
    (∀ i, i < n → ∃ v, s.outcome i = some (.value v)) →
    (∀ i, i < n → ∀ v, s.outcome i = some (.value (some v)) → (s.gpu i = .ran ∧ s.mem i = some v) ∨ s.gpu i = .failed) →
    (values s n = some ((List.range n).flatMap (fun i => Outcome.vals (s.outcome i))) ∨
      ∃ i, i < n ∧ s.gpu i = .failed)
  | 0, _, _ => .inl rfl
  | n + 1, h1, h2 => by
    rcases values_cases n (fun i hi => h1 i (by omega)) (fun i hi => h2 i (by omega)) with h | ⟨i, hi, hf⟩
    · obtain ⟨v, hv⟩ := h1 n (by omega)
      cases v with
      | none =>
        left
        have hp : part s n = some [] := by simp [part, hv]
        simp [values, h, hp, List.range_succ, Outcome.vals, hv]
      | some v =>
        rcases h2 n (by omega) v hv with ⟨_, hm⟩ | hf
        · left
          have hp : part s n = some [v] := by simp [part, hv, hm]
          simp [values, h, hp, List.range_succ, Outcome.vals, hv]
        · exact .inr ⟨n, by omega, hf⟩
    · exact .inr ⟨i, by omega, hf⟩

/-- A value that is delivered was copied. -/
theorem values_ran {s : St} (hm : ∀ i v, s.mem i = some v → s.gpu i = .ran) : ∀ (n : Nat) (vs : List Nat),
    values s n = some vs → ∀ i, i < n → ∀ v, s.outcome i = some (.value (some v)) → s.gpu i = .ran
  | 0, _, _, i, hi, _, _ => by omega
  | n + 1, vs, h, i, hi, v, ho => by
    simp only [values] at h
    split at h
    · rename_i a b ha hb
      by_cases hin : i = n
      · subst hin
        simp only [part, ho] at hb
        cases hmi : s.mem i with
        | none => simp [hmi] at hb
        | some x => exact hm i x hmi
      · exact values_ran hm n a ha i (by omega) v ho
    · cases h

theorem right_deliver {c : Cfg} {s : St} (h : Inv c s) {i : Nat} (hp : s.pc i = .deliver) :
    Right c s (result c s) s.srcStopped := by
  obtain ⟨ha, hb, hd, _⟩ := h
  have hl : (s.pc i).last = true := by rw [hp]; rfl
  have hpast := all_past ha hl
  have hout : ∀ j, j < c.n → s.outcome j ≠ none := by
    intro j hj ho
    have := hpast j hj
    rw [(hb.oc j).2 ho] at this; cases this
  have hlt : ∀ j, s.outcome j ≠ none → j < c.n := by
    intro j ho
    apply Classical.byContradiction
    intro hn
    exact ho ((hb.oc j).1 (ha.out j (by omega)))
  have hsrc : s.phase ≠ .started → s.srcStopped = true := by
    intro hph
    rcases hb.src hph with h | ⟨j, h⟩
    · exact h
    · exfalso
      have hj : j < c.n := by
        apply Classical.byContradiction
        intro hn
        rw [ha.out j (by omega)] at h
        rcases h with h | ⟨_, h⟩ <;> cases h
      have := hpast j hj
      rcases h with h | ⟨_, h⟩ <;> rw [h] at this <;> cases this
  have hrecd : ∀ j, (s.pc j).past = true → (s.pc j).recd = true ∧ (s.pc j).copied = true := by
    intro j hj
    cases hpj : s.pc j <;> simp_all [Pc.past, Pc.recd, Pc.copied]
  have hquiet : s.status = none → ∀ j, (s.gpu j).busy = false := by
    intro hst j
    cases hg : s.gpu j with
    | queued v =>
      obtain ⟨ho, _⟩ := hd.gq j v hg
      have hj := hlt j (by rw [ho]; simp)
      obtain ⟨d1, d2⟩ := hd.dl i hp hst
      rw [← hg]
      apply d2 j hj
      intro hs
      rcases hd.gs hs j v hg (hrecd j (hpast j hj)).1 with h | h
      · exact absurd (d1 j hj) h
      · exact h
    | _ => rfl
  have hv1 : s.phase = .started → ∀ j, j < c.n → ∃ v, s.outcome j = some (.value v) := by
    intro hph j hj
    obtain ⟨_, _, p3, p4⟩ := hb.ps hph
    cases ho : s.outcome j with
    | none => exact absurd ho (hout j hj)
    | some o =>
      cases o with
      | value v => exact ⟨v, rfl⟩
      | error e =>
        have := hpast j hj
        rw [p3 j e ho] at this; cases this
      | stopped =>
        have := hpast j hj
        rw [p4 j ho] at this; cases this
  have hv2 : s.phase = .started → s.status = none → ∀ j, j < c.n → ∀ v, s.outcome j = some (.value (some v)) →
      (s.gpu j = .ran ∧ s.mem j = some v) ∨ s.gpu j = .failed := by
    intro hph hst j hj v ho
    obtain ⟨d1, d2⟩ := hd.dl i hp hst
    rcases hd.co hph j v ho (hrecd j (hpast j hj)).2 with h | h | h | h
    · exact absurd (d1 j hj) h
    · have := hquiet hst j
      rw [h] at this; cases this
    · obtain ⟨v', g1, g2, _⟩ := hd.gr j h
      rw [ho] at g2
      simp only [Option.some.injEq, Outcome.value.injEq] at g2
      subst g2
      exact .inl ⟨h, g1⟩
    · exact .inr h
  have hce : ∀ e, result c s ≠ .cuda e → s.status ≠ some e := by
    intro e hr hs
    exact hr (by simp [result, hs])
  have hst : (∀ e, result c s ≠ .cuda e) → s.status = none := by
    intro hr
    cases hs : s.status with
    | none => rfl
    | some e => exact absurd hs (hce e (hr e))
  constructor
  · intro vs hr
    have hs := hst (by rw [hr]; intro e; simp)
    simp only [result, hs] at hr
    cases hph : s.phase with
    | started =>
      simp only [hph] at hr
      split at hr
      · rename_i vs' hvs
        simp only [Res.value.injEq] at hr
        subst hr
        refine ⟨hv1 hph, ?_, values_ran hd.mm _ _ hvs⟩
        have hran := values_ran hd.mm _ _ hvs
        rcases values_cases (s := s) c.n (hv1 hph) (hv2 hph hs) with h | ⟨j, hj, hf⟩
        · rw [hvs] at h; simpa using h
        · exfalso
          obtain ⟨v, ho⟩ := hv1 hph j hj
          cases v with
          | some v => rw [hran j hj v ho] at hf; cases hf
          | none => obtain ⟨⟨v, hv⟩, _⟩ := hd.gf j hf; rw [hv] at ho; simp at ho
      · cases hr
    | error => simp only [hph] at hr; split at hr <;> cases hr
    | stopped => simp only [hph] at hr; cases hr
  · intro e hr
    have hs := hst (by rw [hr]; intro e; simp)
    simp only [result, hs] at hr
    cases hph : s.phase with
    | started => simp only [hph] at hr; split at hr <;> cases hr
    | stopped => simp only [hph] at hr; cases hr
    | error =>
      simp only [hph] at hr
      split at hr
      · rename_i e' he
        simp only [Res.error.injEq] at hr
        subst hr
        obtain ⟨l, j, e2, h1, h2, h3, _⟩ := hb.pe hph
        have hj := hlt j (by rw [h2]; simp)
        have hpj := hpast j hj
        rcases h3 with h3 | h3 | h3
        · rw [h3] at hpj; cases hpj
        · rw [h3] at hpj; cases hpj
        · rw [he] at h3
          simp only [Option.some.injEq] at h3
          subst h3
          exact ⟨⟨l, j, h1, h2⟩, hsrc (by rw [hph]; simp)⟩
      · cases hr
  · intro hr
    have hs := hst (by rw [hr]; intro e; simp)
    simp only [result, hs] at hr
    cases hph : s.phase with
    | started => simp only [hph] at hr; split at hr <;> cases hr
    | error => simp only [hph] at hr; split at hr <;> cases hr
    | stopped =>
      obtain ⟨h1, j, h2, _⟩ := hb.pp hph
      refine .inr ⟨⟨j, h2⟩, ?_, hsrc (by rw [hph]; simp)⟩
      intro k e ho
      rcases hb.el2 k e ho with h3 | h3
      · have hk := hpast k (hlt k (by rw [ho]; simp))
        rw [h3] at hk; cases hk
      · rw [h1] at h3; cases h3
  · intro e hr
    cases hs : s.status with
    | some e' =>
      simp only [result, hs, Res.cuda.injEq] at hr
      subst hr
      exact hd.st e' hs
    | none =>
      simp only [result, hs] at hr
      cases hph : s.phase <;> simp only [hph] at hr
      · split at hr <;> cases hr
      · split at hr <;> cases hr
      · cases hr
  · intro hr
    have hs := hst (by rw [hr]; intro e; simp)
    simp only [result, hs] at hr
    cases hph : s.phase with
    | started =>
      simp only [hph] at hr
      split at hr
      · cases hr
      · rename_i hvs
        rcases values_cases (s := s) c.n (hv1 hph) (hv2 hph hs) with h | h
        · rw [h] at hvs; cases hvs
        · exact h
    | error =>
      simp only [hph] at hr
      split at hr
      · cases hr
      · rename_i he
        exfalso
        obtain ⟨l, j, e2, h1, h2, h3, _⟩ := hb.pe hph
        have hj := hlt j (by rw [h2]; simp)
        have hpj := hpast j hj
        rcases h3 with h3 | h3 | h3
        · rw [h3] at hpj; cases hpj
        · rw [h3] at hpj; cases hpj
        · rw [he] at h3; cases h3
    | stopped => simp only [hph] at hr; cases hr
  · exact .inr hout
  · intro hr
    exact hquiet (hst hr)

/-- All results are right. -/
def RInv (c : Cfg) (s : St) : Prop := ∀ r b, (r, b) ∈ s.results → Right c s r b

theorem right_keep {c : Cfg} {s s' : St} {r : Res} {b : Bool} (h : Right c s r b)
    (h1 : s'.outcome = s.outcome) (h2 : s'.errLog = s.errLog) (h3 : s'.cudaErrs = s.cudaErrs)
    (h4 : s.parentStopped = true → s'.parentStopped = true)
    (h5 : ∀ i, s.gpu i = .ran → s'.gpu i = .ran) (h6 : ∀ i, s.gpu i = .failed → s'.gpu i = .failed)
    (h7 : ∀ i, (s.gpu i).busy = false → (s'.gpu i).busy = false) : Right c s' r b := by
  obtain ⟨g1, g2, g3, g4, g5, g6, g7⟩ := h
  constructor
  · intro vs hr
    obtain ⟨a1, a2, a3⟩ := g1 vs hr
    rw [h1]
    exact ⟨a1, a2, fun i hi v hv => h5 i (a3 i hi v hv)⟩
  · rw [h1, h2]; exact g2
  · intro hr
    rw [h1]
    rcases g3 hr with ⟨a1, a2⟩ | a
    · exact .inl ⟨h4 a1, a2⟩
    · exact .inr a
  · rw [h3]; exact g4
  · intro hr
    obtain ⟨i, a1, a2⟩ := g5 hr
    exact ⟨i, a1, h6 i a2⟩
  · rw [h1]; exact g6
  · intro hr i
    exact h7 i (g7 hr i)

/-- The inner stop source is stopped, before the children are started, only by the callback. -/
def PInv (s : St) : Prop :=
  (s.cb ≠ .off → s.parentStopped = true) ∧ ((∀ k, s.starter ≠ .at k) → s.srcStopped = true → s.parentStopped = true) ∧
  ((∀ k, s.starter ≠ .at k) → ∀ i, s.gpu i = .none)

theorem pinv_step {c : Cfg} {s s' : St} {a : Act} (ha : InvA c s) (h : PInv s) (he : step c s a = some s') :
    PInv s' := by
  obtain ⟨h1, h2, h3⟩ := h
  cases a with
  | step i r =>
    have hw : s.pc i ≠ .wait := by intro hp; simp [step, stepChild, hp] at he
    have hs : ∃ k, s.starter = .at k := by
      apply Classical.byContradiction
      intro hn
      exact hw (ha.stn (fun k hk => hn ⟨k, hk⟩) i)
    obtain ⟨k, hk⟩ := hs
    have : s'.cb = s.cb ∧ s'.starter = s.starter ∧ s'.parentStopped = s.parentStopped := by
      simp only [step, stepChild] at he
      cases hp : s.pc i <;> simp only [hp] at he <;> (repeat' split at he) <;>
        first
        | (simp at he; done)
        | (simp only [Option.some.injEq] at he
           subst he
           simp [note])
    obtain ⟨e1, e2, e3⟩ := this
    refine ⟨by rw [e1, e3]; exact h1, ?_, ?_⟩ <;> (rw [e2]; intro h; exact absurd hk (h k))
  | gpu i ok =>
    simp only [step] at he
    (repeat' split at he) <;> first
      | (cases he; done)
      | (simp only [Option.some.injEq] at he
         subst he
         refine ⟨h1, h2, fun hk j => ?_⟩
         have := h3 hk j
         have := h3 hk i
         grind)
  | _ =>
    simp only [step] at he
    (repeat' split at he) <;> first
      | (cases he; done)
      | (simp only [Option.some.injEq] at he
         subst he
         refine ⟨?_, ?_, ?_⟩ <;> grind)

theorem rinv_step {c : Cfg} {s s' : St} {a : Act} (h : Inv c s) (hp : PInv s) (hr : RInv c s)
    (he : step c s a = some s') : RInv c s' := by
  intro r b hm
  cases a with
  | step i rr =>
    have hpw : s.pc i ≠ .wait ∧ s.pc i ≠ .done := by
      constructor <;> intro hp <;> simp [step, stepChild, hp] at he
    have hn := no_res h.a hpw.1 hpw.2
    by_cases hd : s.pc i = .deliver
    · have hg := right_deliver h hd
      simp only [step, stepChild, hd, Option.some.injEq] at he
      subst he
      simp only [hn, List.mem_singleton] at hm
      have hres : result c { s with uaf := s.uaf || !s.results.isEmpty } = result c s := by
        have : ∀ n, values { s with uaf := s.uaf || !s.results.isEmpty } n = values s n := by
          intro n
          induction n with
          | zero => rfl
          | succ n ih => simp only [values, ih]; rfl
        simp only [result, this]
      have hpair : (r, b) = (result c s, s.srcStopped) := by
        rw [← hres]
        simpa [hn] using hm
      cases hpair
      exact right_keep hg rfl rfl rfl (fun h => h) (fun _ h => h) (fun _ h => h) (fun _ h => h)
    · exfalso
      have : s'.results = [] := by
        simp only [step, stepChild] at he
        cases hp : s.pc i <;> simp only [hp] at he <;> (repeat' split at he) <;>
          first
          | (simp at he; done)
          | (exact absurd hp hd)
          | (simp only [Option.some.injEq] at he
             subst he
             simp [note, hn])
      rw [this] at hm; cases hm
  | gpu i ok =>
    simp only [step] at he
    (repeat' split at he) <;> first
      | (cases he; done)
      | (simp only [Option.some.injEq] at he
         subst he
         exact right_keep (hr r b hm) rfl rfl rfl (fun h => h) (by grind [upd_apply]) (by grind [upd_apply]) (by grind [upd_apply, Gpu.busy]))
  | complete i o inCb =>
    simp only [step] at he
    (repeat' split at he) <;> first | (cases he; done) | skip
    rename_i k hk hc
    simp only [Option.some.injEq] at he
    subst he
    exfalso
    simp only at hm
    obtain ⟨_, ⟨h1, _⟩ | ⟨h1, h2, _⟩⟩ := h.a.res (List.ne_nil_of_mem hm)
    · rw [hk] at h1; cases h1
    · rw [hk] at h1
      simp only [Starter.at.injEq] at h1
      have := past_zero h.a h2 i (by omega)
      rw [hc.2.1] at this; cases this
  | start =>
    simp only [step] at he
    (repeat' split at he) <;> first | (cases he; done) | skip
    case h_3.isTrue hst hsrc =>
      simp only [Option.some.injEq] at he
      subst he
      have hk : ∀ k, s.starter ≠ .at k := by intro k hk; rw [hst] at hk; cases hk
      have hn : s.results = [] := by
        apply Classical.byContradiction
        intro hne
        obtain ⟨_, ⟨h1, _⟩ | ⟨h1, h2, _⟩⟩ := h.a.res hne <;> (rw [hst] at h1; cases h1)
      simp only [hn, List.mem_singleton, Prod.mk.injEq] at hm
      obtain ⟨rfl, rfl⟩ := hm
      have hw : ∀ i, s.outcome i = none := fun i => (h.b.oc i).1 (h.a.stn hk i)
      have hg := hp.2.2 hk
      have hps := hp.2.1 hk hsrc
      constructor <;> simp only [] <;> first
        | (intro _ h; cases h; done)
        | (intro h; cases h; done)
        | exact fun _ => .inl ⟨hps, hw⟩
        | exact .inl hw
        | (intro _ i; rw [hg i]; rfl)
    all_goals
      simp only [Option.some.injEq] at he
      subst he
      exact right_keep (hr r b hm) rfl rfl rfl (fun h => h) (fun _ h => h) (fun _ h => h) (fun _ h => h)
  | _ =>
    simp only [step] at he
    (repeat' split at he) <;> first
      | (cases he; done)
      | (simp only [Option.some.injEq] at he
         subst he
         exact right_keep (hr r b hm) rfl rfl rfl (fun h => by simp [h]) (fun _ h => h) (fun _ h => h) (fun _ h => h))

theorem reach_rinv {c : Cfg} {s : St} (h : Reachable c s) : Inv c s ∧ PInv s ∧ RInv c s :=
  Reach.inv (fun s => Inv c s ∧ PInv s ∧ RInv c s)
    ⟨reach_inv .refl, ⟨by simp [init], by simp [init], by simp [init]⟩, by intro r b hm; simp [init] at hm⟩
    (fun _ _ _ hi he => ⟨inv_step hi.1 he, pinv_step hi.1.a hi.2.1 he, rinv_step hi.1 hi.2.1 hi.2.2 he⟩) s h

/-! ## The properties -/

/-- **C82**. The receiver is completed at most once. -/
theorem C82_once {c : Cfg} {s : St} (h : Reachable c s) : s.results.length ≤ 1 := by
  by_cases hr : s.results = []
  · simp [hr]
  · exact Nat.le_of_eq ((reach_inv h).a.res hr).1

/-- **C82**. The receiver's completion is the right one, and comes after all children's (see `Right`). -/
theorem C82_right {c : Cfg} {s : St} (h : Reachable c s) {r : Res} {b : Bool} (hr : (r, b) ∈ s.results) :
    Right c s r b := (reach_rinv h).2.2 r b hr

/-- **C82**. If all children complete with values and CUDA never fails, so does the receiver, with all their
values in order. -/
theorem C82_value {c : Cfg} {s : St} (h : Reachable c s) {r : Res} {b : Bool} (hr : (r, b) ∈ s.results)
    (hn : 0 < c.n) (hv : ∀ i, i < c.n → ∃ v, s.outcome i = some (.value v))
    (hc : s.cudaErrs = []) (hg : ∀ i, s.gpu i ≠ .failed) :
    r = .value ((List.range c.n).flatMap (fun i => Outcome.vals (s.outcome i))) := by
  have hR := C82_right h hr
  have he : ∀ i, c.n ≤ i → s.outcome i = none := fun i hi => ((reach_inv h).b.oc i).1 ((reach_inv h).a.out i hi)
  have hval : ∀ i o, s.outcome i = some o → ∃ v, o = .value v := by
    intro i o ho
    by_cases hi : i < c.n
    · obtain ⟨v, hv⟩ := hv i hi
      rw [ho] at hv
      exact ⟨v, by simpa using hv⟩
    · rw [he i (by omega)] at ho; cases ho
  cases r with
  | value vs => rw [(hR.value vs rfl).2.1]
  | error e =>
    obtain ⟨⟨l, i, _, h2⟩, _⟩ := hR.error e rfl
    obtain ⟨v, hv⟩ := hval i _ h2
    cases hv
  | stopped =>
    rcases hR.stopped rfl with ⟨_, h1⟩ | ⟨⟨i, h1⟩, _⟩
    · obtain ⟨v, h2⟩ := hv 0 hn
      rw [h1 0] at h2; cases h2
    · obtain ⟨v, hv⟩ := hval i _ h1
      cases hv
  | cuda e =>
    have := hR.cuda e rfl
    rw [hc] at this; cases this
  | garbage =>
    obtain ⟨i, _, hf⟩ := hR.garbage rfl
    exact absurd hf (hg i)

/-- **C82** (partial: no child completes inside the stop callback; see `C82_uaf_violation`). The operation state is
not used after the receiver was completed. -/
theorem C82_safe_partial {c : Cfg} {s : St} (h : Reachable c s) (hn : ∀ i, s.nested i = false) : s.uaf = false := by
  cases hu : s.uaf with
  | false => rfl
  | true =>
    obtain ⟨i, hi⟩ := (reach_inv h).a.uaf hu
    rw [hn i] at hi; cases hi

/-! ### Progress -/

/-- Steps that the operation and the GPU take on their own, if CUDA does not fail. -/
def internal : Act → Bool
  | .step _ none => true
  | .cb => true
  | .gpu _ true => true
  | _ => false

/-- How far a child's thread is from its end. -/
def wt (n : Nat) : Pc → Nat
  | .wait => 0
  | .load _ => n + 14
  | .copy _ => n + 13
  | .record => n + 11
  | .setErr _ => n + 13
  | .reqErr _ => n + 12
  | .saveErr _ => n + 11
  | .cas => n + 12
  | .reqStop => n + 11
  | .arrive => n + 10
  | .reset => n + 9
  | .look => n + 8
  | .sync k => (n - k) + 2
  | .deliver => 1
  | .done => 0

def wg : Gpu → Nat
  | .queued _ => 1
  | _ => 0

def wc : Cb → Nat
  | .enter => 2
  | .inside => 1
  | _ => 0

/-- A bound for the number of steps that remain. -/
def left (c : Cfg) (s : St) : Nat :=
  lsum (wt c.n) s.pc (List.range c.n) + lsum wg s.gpu (List.range c.n) + wc s.cb

theorem lsum_pc {c : Cfg} {f : Nat → Pc} {i : Nat} {p : Pc} (hi : i < c.n) :
    lsum (wt c.n) (upd f i p) (List.range c.n) + wt c.n (f i) = lsum (wt c.n) f (List.range c.n) + wt c.n p :=
  lsum_upd_in _ _ List.nodup_range (List.mem_range.2 hi)

theorem lsum_gpu {c : Cfg} {f : Nat → Gpu} {i : Nat} {p : Gpu} (hi : i < c.n) :
    lsum wg (upd f i p) (List.range c.n) + wg (f i) = lsum wg f (List.range c.n) + wg p :=
  lsum_upd_in _ _ List.nodup_range (List.mem_range.2 hi)

theorem left_lt {c : Cfg} {s s' : St} {a : Act} (h : Inv c s) (ha : internal a = true)
    (he : step c s a = some s') : left c s' < left c s := by
  cases a with
  | step i r =>
    cases r with
    | some e => cases ha
    | none =>
      have hw : s.pc i ≠ .wait := by intro hp; simp [step, stepChild, hp] at he
      have hin : i < c.n := by
        apply Classical.byContradiction
        intro hn
        exact hw (h.a.out i (by omega))
      have h1 := fun p => lsum_pc (c := c) (f := s.pc) (p := p) hin
      have h2 := fun p => lsum_gpu (c := c) (f := s.gpu) (p := p) hin
      have h3 : ∀ v, s.pc i = .copy v → s.gpu i = .none := by
        intro v hp
        cases hg : s.gpu i with
        | none => rfl
        | queued v => have := (h.d.gq i v hg).2; rw [hp] at this; cases this
        | ran => obtain ⟨_, _, _, this⟩ := h.d.gr i hg; rw [hp] at this; cases this
        | failed => have := (h.d.gf i hg).2; rw [hp] at this; cases this
      simp only [step, stepChild] at he
      cases hp : s.pc i <;> simp only [hp] at he h1 h3 <;> (repeat' split at he) <;>
        first
        | (simp at he; done)
        | (simp only [Option.some.injEq] at he
           subst he
           simp only [left, note]
           grind [wt, wg])
  | cb =>
    simp only [step] at he
    (repeat' split at he) <;> first
      | (cases he; done)
      | (simp only [Option.some.injEq] at he
         subst he
         rename_i hcb _
         simp [left, wc, hcb]; done)
      | (simp only [Option.some.injEq] at he
         subst he
         rename_i hcb
         simp [left, wc, hcb])
  | gpu i ok =>
    cases ok with
    | false => cases ha
    | true =>
      simp only [step] at he
      split at he
      · rename_i v hg
        have hin : i < c.n := by
          apply Classical.byContradiction
          intro hn
          have := (h.b.oc i).1 (h.a.out i (by omega))
          rw [(h.d.gq i v hg).1] at this; cases this
        have h2 := lsum_gpu (c := c) (f := s.gpu) (p := .ran) hin
        simp only [if_true, Option.some.injEq] at he
        subst he
        simp only [left]
        rw [hg] at h2
        simp only [wg] at h2
        omega
      · cases he
  | _ => cases ha

theorem nestedDone_false {s : St} : ∀ n, nestedDone s n = false → ∃ i, i < n ∧ s.nested i = true ∧ s.pc i ≠ .done
  | 0, h => by cases h
  | n + 1, h => by
    simp only [nestedDone, Bool.and_eq_false_iff] at h
    rcases h with h | h
    · obtain ⟨i, hi, h1⟩ := nestedDone_false n h
      exact ⟨i, by omega, h1⟩
    · simp at h
      exact ⟨n, by omega, h⟩

/-- A child's thread can go on unless it waits for the GPU or for the stop callback. -/
theorem child_enabled {c : Cfg} {s : St} {i : Nat} (h1 : s.pc i ≠ .wait) (h2 : s.pc i ≠ .done)
    (h3 : (s.cb = .enter ∨ s.cb = .inside) → s.nested i = true)
    (h4 : ∀ j, (s.gpu j).busy = false) : (step c s (.step i none)).isSome = true := by
  simp only [step, stepChild]
  cases hp : s.pc i <;> simp_all <;> grind

/-- **C82**. While children have completed and the receiver has not, something happens: some child's thread, the stop
callback or the GPU can go on. -/
theorem C82_never_stuck {c : Cfg} {s : St} (h : Reachable c s) (hn : 0 < c.n) (hall : ∀ i, i < c.n → s.outcome i ≠ none)
    (hr : s.results = []) : ∃ a, internal a = true ∧ (step c s a).isSome = true := by
  have hi := reach_inv h
  apply Classical.byContradiction
  intro hno
  have hno : ∀ a, internal a = true → (step c s a).isSome = false := by
    intro a ha
    cases hs : (step c s a).isSome with
    | false => rfl
    | true => exact absurd ⟨a, ha, hs⟩ hno
  have hg : ∀ j, (s.gpu j).busy = false := by
    intro j
    cases hg : s.gpu j with
    | queued v =>
      have := hno (.gpu j true) rfl
      simp [step, hg] at this
    | _ => rfl
  have hw : ∀ i, i < c.n → s.pc i ≠ .wait := fun i hlt hp => hall i hlt ((hi.b.oc i).1 hp)
  have hcb : ¬ (s.cb = .enter ∨ s.cb = .inside) := by
    rintro (h1 | h1)
    · have := hno .cb rfl
      simp [step, h1] at this
    · have := hno .cb rfl
      simp only [step, h1] at this
      cases hnd : nestedDone s c.n with
      | true => simp [hnd] at this
      | false =>
        obtain ⟨i, h2, h3, h4⟩ := nestedDone_false _ hnd
        have h5 := child_enabled (c := c) (hw i h2) h4 (fun _ => h3) hg
        rw [hno (.step i none) rfl] at h5; cases h5
  have hdone : ∀ i, i < c.n → s.pc i = .done := by
    intro i hlt
    apply Classical.byContradiction
    intro hd
    have h5 := child_enabled (c := c) (hw i hlt) hd (fun h => absurd h hcb) hg
    rw [hno (.step i none) rfl] at h5; cases h5
  have hc0 : s.count = 0 := by
    have h1 := hi.a.cnt
    have h2 : cnt (fun i => (s.pc i).past) c.n = c.n := cnt_eq_iff.2 (fun i hlt => by rw [hdone i hlt]; rfl)
    omega
  rcases hi.z hc0 hn with ⟨i, hl⟩ | h1
  · by_cases hlt : i < c.n
    · rw [hdone i hlt] at hl; cases hl
    · rw [hi.a.out i (by omega)] at hl; cases hl
  · exact h1 hr

/-- **C82**. ... and only finitely often: from every state at most `left c s` such steps are possible. With
`C82_never_stuck`: when all children have completed, the receiver is completed. -/
theorem C82_bounded {c : Cfg} {s s' : St} (h : Reachable c s) (as : List Act) (ha : ∀ a ∈ as, internal a = true)
    (he : exec (step c) s as = some s') : as.length ≤ left c s :=
  run_bound internal (Inv c) (left c) (fun _ _ _ hi ha he => ⟨inv_step hi he, left_lt hi ha he⟩) as s s'
    (reach_inv h) ha he

/-! ## A non-trivial case -/

/-- Two children with values; the second one's copy is executed late. -/
example : ∃ s, Reachable ⟨2, false, none⟩ s ∧ s.results = [(.value [7, 8], false)] ∧ s.cudaErrs = [] := by
  obtain ⟨s, h1, h2⟩ := Reach.witness (init := init ⟨2, false, none⟩) (step := step ⟨2, false, none⟩)
    [.start, .start, .start, .complete 0 (.value (some 7)) false, .step 0 none, .step 0 none, .step 0 none, .gpu 0 true, .start,
      .step 0 none, .complete 1 (.value (some 8)) false, .step 1 none, .step 1 none, .step 1 none, .step 1 none, .step 1 none,
      .step 1 none, .step 1 none, .gpu 1 true, .step 1 none, .step 1 none, .step 1 none]
    (fun x : St => decide (x.results = [(.value [7, 8], false)] ∧ x.cudaErrs = [])) (by rfl)
  simp only [decide_eq_true_eq] at h2
  exact ⟨s, h1, h2⟩

/-- An error and a child that is stopped because of it, on a stream receiver. -/
example : ∃ s, Reachable ⟨2, true, none⟩ s ∧ s.results = [(.error 5, true)] := by
  obtain ⟨s, h1, h2⟩ := Reach.witness (init := init ⟨2, true, none⟩) (step := step ⟨2, true, none⟩)
    [.start, .start, .start, .start, .complete 0 (.error 5) false, .step 0 none, .step 0 none,
      .complete 1 .stopped false, .step 1 none, .step 1 none, .step 0 none, .step 0 none, .step 0 none, .step 0 none,
      .step 0 none, .step 0 none, .step 0 none, .step 0 none]
    (fun x : St => decide (x.results = [(.error 5, true)])) (by rfl)
  simp only [decide_eq_true_eq] at h2
  exact ⟨s, h1, h2⟩

/-! ## Violations -/

/-- The receiver's stop token invokes the callback; inside, the only child completes with stopped; the receiver is
completed and may destroy the operation; the callback's `request_stop()` goes on using the stop source in it. -/
theorem C82_uaf_violation : ∃ s, Reachable ⟨1, false, none⟩ s ∧ s.uaf = true := by
  obtain ⟨s, h1, h2⟩ := Reach.witness (init := init ⟨1, false, none⟩) (step := step ⟨1, false, none⟩)
    [.start, .start, .start, .parentStop, .cb, .complete 0 .stopped true, .step 0 none, .step 0 none, .step 0 none,
      .step 0 none, .step 0 none, .step 0 none, .step 0 none, .step 0 none, .cb]
    (fun x : St => x.uaf) (by rfl)
  exact ⟨s, h1, h2⟩

/-- A copy fails on the GPU; `cudaStreamSynchronize` reports it, but the receiver is completed with values. -/
theorem C82_async_violation : ∃ s, Reachable ⟨1, false, none⟩ s ∧ s.cudaErrs = [77] ∧ s.results = [(.garbage, false)] := by
  obtain ⟨s, h1, h2⟩ := Reach.witness (init := init ⟨1, false, none⟩) (step := step ⟨1, false, none⟩)
    [.start, .start, .start, .complete 0 (.value (some 7)) false, .step 0 none, .step 0 none, .step 0 none, .step 0 none,
      .step 0 none, .step 0 none, .gpu 0 false, .step 0 (some 77), .step 0 none, .step 0 none]
    (fun x : St => decide (x.cudaErrs = [77] ∧ x.results = [(.garbage, false)])) (by rfl)
  simp only [decide_eq_true_eq] at h2
  exact ⟨s, h1, h2⟩

/-- `cudaMallocManaged` failed: the children are started all the same, and their values written to a null pointer. -/
theorem C82_null_violation : ∃ s, Reachable ⟨1, false, some 2⟩ s ∧ s.nullWrite = true := by
  obtain ⟨s, h1, h2⟩ := Reach.witness (init := init ⟨1, false, some 2⟩) (step := step ⟨1, false, some 2⟩)
    [.start, .start, .start, .complete 0 (.value (some 7)) false, .step 0 none, .step 0 none]
    (fun x : St => x.nullWrite) (by rfl)
  exact ⟨s, h1, h2⟩

/-- A CUDA call failed for one child: the receiver is completed while the other child's copy is still pending. -/
theorem C82_pending_violation : ∃ s, Reachable ⟨2, false, none⟩ s ∧ s.results = [(.cuda 9, false)] ∧
    (s.gpu 0).busy = true := by
  obtain ⟨s, h1, h2⟩ := Reach.witness (init := init ⟨2, false, none⟩) (step := step ⟨2, false, none⟩)
    [.start, .start, .start, .start, .complete 0 (.value (some 7)) false, .step 0 none, .step 0 none, .step 0 none,
      .step 0 none, .complete 1 (.value (some 8)) false, .step 1 none, .step 1 (some 9), .step 1 none, .step 1 none,
      .step 1 none, .step 1 none, .step 1 none, .step 1 none]
    (fun x : St => decide (x.results = [(.cuda 9, false)] ∧ (x.gpu 0).busy = true)) (by rfl)
  simp only [decide_eq_true_eq] at h2
  exact ⟨s, h1, h2⟩

end Verif.NvWhenAll
