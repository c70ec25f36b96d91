import Verif.Coro.Proof
/-! # Every body is executed as specified -/
namespace Verif.Coro
set_option maxHeartbeats 4000000

theorem good_call {child : Body} {guard : Bool} {kv ke : Nat → Body} {ks : Body}
    (hc : Good child) (hv : ∀ v, Good (kv v)) (he : ∀ e, Good (ke e)) (hs : Good ks) :
    Good (.call child guard kv ke ks) := by
  intro s f cont σ rs hctl hf hfn hfr
  let s1 : St := { s with
    heap := upd (launch s.heap s.next (some f) child σ)
      f (some (.task (.awaiting (s.next + 1) guard kv ke ks) none cont σ rs)),
    next := s.next + 2, ctl := .resume s.next }
  have st1 : step s = some s1 := by
    simp only [step, hctl, hf, stepTask, s1]
  have hn1 : s1.next = s.next + 2 := rfl
  have hf1 : s1.heap f = some (.task (.awaiting (s.next + 1) guard kv ke ks) none cont σ rs) := by
    simp [s1, upd]
  have keep : ∀ a, a ≠ f → a ≠ s.next → a ≠ s.next + 1 → s1.heap a = s.heap a := by
    intro a h1 h2 h3; simp [s1, launch, upd, h1, h2, h3]
  have hop1 : s1.heap (s.next + 1) = some (.opc (some f) s.next) := by
    have h1 : s.next + 1 ≠ f := by omega
    simp only [s1, launch, upd, if_neg h1, if_true]
  have hT := task_run hc s1 s.next σ (some f) rfl
    (by
      have h1 : s.next ≠ f := by omega
      have h2 : s.next ≠ s.next + 1 := by omega
      simp only [s1, launch, upd, if_neg h1, if_neg h2, if_true]) hop1
    (by simp only [s1]; omega)
    (by
      intro a ha
      rw [keep a (by omega) (by omega) (by omega)]
      exact hfr a (by omega))
  have hctx : s1.ctx = s.ctx := rfl
  rw [hctx] at hT
  have hden : den (.call child guard kv ke ks) σ rs s.ctx =
      (task child σ s.ctx).bind fun toc => (match toc.2.1 with
        | .val v => den (kv v) σ rs σ
        | .err e => den (ke e) σ rs σ
        | .stop => if guard then den ks σ rs σ else some ⟨[], .stop, σ, []⟩).bind
          fun r => some { r with trace := toc.1 ++ r.trace } := by
    rw [den]
    unfold task
    cases (den child σ false s.ctx).bind finish with
    | none => rfl
    | some toc =>
        obtain ⟨t, o, c⟩ := toc
        cases o with
        | val v => rfl
        | err e => rfl
        | stop => cases guard <;> rfl
  cases ht : task child σ s.ctx with
  | none =>
      obtain ⟨s', q1, q2⟩ := hT.1 ht
      refine ⟨fun _ => ⟨s', .cons st1 q1, q2⟩, ?_⟩
      intro r h; rw [hden, ht] at h; simp at h
  | some toc =>
      obtain ⟨t1, o, c3⟩ := toc
      obtain ⟨s2, c', rest', σ2, rs', D, k1, k2, k3, k4, k5, k6, k7, k8, k9, k10, k11, k12⟩ :=
        hT.2 t1 o c3 ht
      have hf2 : s2.heap f = some (.task (.awaiting (s.next + 1) guard kv ke ks) none cont σ rs) := by
        rw [k10 f (by omega) (by omega)]; exact hf1
      have hop2 : s2.heap (s.next + 1) = some (.opc (some f) s.next) := by
        rw [k10 _ (by omega) (by omega)]; exact hop1
      -- continuing with `k` after the child has gone
      have cont_with : ∀ (k : Body), Good k → ∀ s3 : St, Steps s2 s3 → s3.ctl = .resume f →
          s3.heap f = some (.task (.run k) none cont σ rs) → s3.next = s2.next → s3.ctx = σ →
          s3.trace = s2.trace → (∀ a, a ≠ f → s3.heap a = s.heap a) →
          den (.call child guard kv ke ks) σ rs s.ctx = (den k σ rs σ).bind
            (fun r => some { r with trace := t1 ++ r.trace }) →
          (den (.call child guard kv ke ks) σ rs s.ctx = none → ∃ s', Steps s s' ∧ s'.ctl = .dead) ∧
          (∀ r, den (.call child guard kv ke ks) σ rs s.ctx = some r →
            ∃ s' c' rest' σ' rs' L D, Steps s s' ∧ s'.ctl = ctlOf r.out c' ∧
              s'.heap f = some (.task rest' (dataOf r.out) c' σ' rs') ∧ s'.ctx = r.ctx ∧
              s'.trace = s.trace ++ r.trace ∧ Chain s'.heap f c' r.exits cont L ∧ Own s'.heap rest' D ∧
              (r.out ≠ .stop → D = []) ∧ (L ++ D).Nodup ∧ (∀ a ∈ L ++ D, s.next ≤ a ∧ a < s'.next) ∧
              (∀ a, a < s.next → a ≠ f → s'.heap a = s.heap a) ∧ s.next ≤ s'.next ∧
              (∀ a, s.next ≤ a → a ∉ L → a ∉ D → s'.heap a = none)) := by
        intro k hk s3 j1 j2 j3 j4 j5 j6 j7 j8
        have hK := hk s3 f cont σ rs j2 j3 (by omega) (fun a ha => by
          rw [j7 a (by omega)]; exact hfr a (by omega))
        rw [j5] at hK
        cases hq : den k σ rs σ with
        | none =>
            obtain ⟨s', q1, q2⟩ := hK.1 hq
            refine ⟨fun _ => ⟨s', .cons st1 (k1.trans (j1.trans q1)), q2⟩, ?_⟩
            intro r h; rw [j8, hq] at h; simp at h
        | some r1 =>
            refine ⟨fun h => (by rw [j8, hq] at h; simp at h), ?_⟩
            intro r h
            rw [j8, hq] at h
            simp only [Option.bind_some, Option.some.injEq] at h
            subst h
            obtain ⟨s', c', rest', σ', rs', L, D, i1, i2, i3, i4, i5, i6, i7, i8, i9, i10, i11, i12, i13⟩ :=
              hK.2 r1 hq
            rw [j4] at i10 i11 i12 i13
            refine ⟨s', c', rest', σ', rs', L, D, .cons st1 (k1.trans (j1.trans i1)), i2, i3, i4, ?_, i6,
              i7, i8, i9, ?_, ?_, by omega, ?_⟩
            · rw [i5, j6, k5]; simp [s1]
            · intro a ha
              have := i10 a ha; omega
            · intro a ha hne
              rw [i11 a (by omega) hne]; exact j7 a hne
            · intro a ha hL hD
              by_cases hlt : s2.next ≤ a
              · exact i13 a hlt hL hD
              · rw [i11 a (by omega) (by omega), j7 a (by omega)]
                exact hfr a (by omega)
      cases o with
      | val v =>
          have hD : D = [] := k7 (by simp)
          subst hD
          refine cont_with (kv v) (hv v) { s2 with
              heap := upd (upd (upd s2.heap s.next none) (s.next + 1) none)
                f (some (.task (.run (kv v)) none cont σ rs)),
              ctx := σ, ctl := .resume f } (.one ?_) rfl (by simp [upd]) rfl rfl rfl ?_ (by
                rw [hden, ht]; rfl)
          · rw [ctlOf] at k2
            rw [dataOf] at k3
            simp only [step, k2, hop2, stepOpcResume, k3, hf2]
            all_goals simp
          · intro a ha
            simp only [upd, if_neg ha]
            by_cases h2 : a = s.next + 1
            · rw [if_pos h2]; exact (hfr a (by omega)).symm
            · rw [if_neg h2]
              by_cases h1 : a = s.next
              · rw [if_pos h1]; exact (hfr a (by omega)).symm
              · rw [if_neg h1]
                by_cases h3 : a < s.next
                · rw [k10 a (by omega) (by omega)]; exact keep a ha h1 h2
                · rw [k12 a (by omega) (by simp)]; exact (hfr a (by omega)).symm
      | err e =>
          have hD : D = [] := k7 (by simp)
          subst hD
          refine cont_with (ke e) (he e) { s2 with
              heap := upd (upd (upd s2.heap s.next none) (s.next + 1) none)
                f (some (.task (.run (ke e)) none cont σ rs)),
              ctx := σ, ctl := .resume f } (.one ?_) rfl (by simp [upd]) rfl rfl rfl ?_ (by
                rw [hden, ht]; rfl)
          · rw [ctlOf] at k2
            rw [dataOf] at k3
            simp only [step, k2, hop2, stepOpcResume, k3, hf2]
            all_goals simp
          · intro a ha
            simp only [upd, if_neg ha]
            by_cases h2 : a = s.next + 1
            · rw [if_pos h2]; exact (hfr a (by omega)).symm
            · rw [if_neg h2]
              by_cases h1 : a = s.next
              · rw [if_pos h1]; exact (hfr a (by omega)).symm
              · rw [if_neg h1]
                by_cases h3 : a < s.next
                · rw [k10 a (by omega) (by omega)]; exact keep a ha h1 h2
                · rw [k12 a (by omega) (by simp)]; exact (hfr a (by omega)).symm
      | stop =>
          cases guard with
          | true =>
              let s3 : St := { s2 with
                heap := upd s2.heap f (some (.task (.run ks) none cont σ rs)),
                ctx := σ, ctl := .destroy s.next (.resume f) }
              have st3 : step s2 = some s3 := by
                rw [ctlOf] at k2
                simp only [step, k2, stepStopped, hop2, stepOpcStopped, hf2, if_true, s3]
              have hnf : ∀ a, a ≠ f → s3.heap a = s2.heap a := by
                intro a ha; simp [s3, upd, ha]
              have hDf : ∀ a ∈ D, a ≠ f := fun a ha h => by have := (k9 a ha).1; omega
              obtain ⟨s4, d1, d2, d3, d4, d5, d6⟩ := destroy_run D rest' s3 s.next (.resume f) none c' σ2 rs'
                (some f) (k6.congr fun a ha => hnf a (hDf a ha)) rfl
                (by rw [hnf _ (by omega)]; exact k3) (by rw [hnf _ (by omega)]; exact hop2)
                (by
                  simp only [List.nodup_cons, List.mem_cons, not_or]
                  exact ⟨⟨by omega, fun h => by have := (k9 _ h).1; omega⟩,
                    fun h => by have := (k9 _ h).1; omega, k8⟩)
              refine cont_with ks hs s4 (.cons st3 d1) d2 ?_ d5 d3 d4 ?_ (by rw [hden, ht]; rfl)
              · rw [d6, if_neg]
                · simp [s3, upd]
                · simp only [List.mem_cons, not_or]
                  exact ⟨by omega, by omega, fun h => hDf f h rfl⟩
              · intro a ha
                rw [d6]
                by_cases hin : a ∈ s.next :: (s.next + 1) :: D
                · rw [if_pos hin]
                  simp only [List.mem_cons] at hin
                  refine (hfr a ?_).symm
                  rcases hin with h | h | h
                  · omega
                  · omega
                  · have := (k9 a h).1; omega
                · rw [if_neg hin, hnf a ha]
                  simp only [List.mem_cons, not_or] at hin
                  by_cases h3 : a < s.next
                  · rw [k10 a (by omega) (by omega)]; exact keep a ha hin.1 hin.2.1
                  · rw [k12 a (by omega) hin.2.2]; exact (hfr a (by omega)).symm
          | false =>
              refine ⟨fun h => (by rw [hden, ht] at h; simp at h), ?_⟩
              intro r h
              rw [hden, ht] at h
              simp only [Option.bind_some, Option.some.injEq] at h
              have hr : r = ⟨t1, .stop, σ, []⟩ := by simpa using h.symm
              subst hr
              let s3 : St := { s2 with ctx := σ, ctl := .stopped f }
              let s4 : St := { s3 with ctl := .stopped cont }
              have st3 : step s2 = some s3 := by
                rw [ctlOf] at k2
                simp [step, k2, stepStopped, hop2, stepOpcStopped, hf2, s3]
              have st4 : step s3 = some s4 := by
                simp only [step, s3, stepStopped, hf2, s4]
              refine ⟨s4, cont, .awaiting (s.next + 1) false kv ke ks, σ, rs, [], s.next :: (s.next + 1) :: D,
                .cons st1 (k1.trans (.cons st3 (.one st4))), rfl, hf2, rfl, k5, .nil _,
                .aw hop2 k3 k6, fun h => absurd rfl h, ?_, ?_, ?_, ?_, ?_⟩
              · simp only [List.nil_append, List.nodup_cons, List.mem_cons, not_or]
                exact ⟨⟨by omega, fun h => by have := (k9 _ h).1; omega⟩,
                  fun h => by have := (k9 _ h).1; omega, k8⟩
              · intro a ha
                simp only [List.nil_append, List.mem_cons] at ha
                show s.next ≤ a ∧ a < s2.next
                rcases ha with h | h | h
                · omega
                · omega
                · have := k9 a h; omega
              · intro a ha hne
                show s2.heap a = s.heap a
                rw [k10 a (by omega) (by omega)]; exact keep a hne (by omega) (by omega)
              · show s.next ≤ s2.next; omega
              · intro a ha _ hD
                simp only [List.mem_cons, not_or] at hD
                show s2.heap a = none
                exact k12 a (by omega) hD.2.2

theorem good : ∀ b : Body, Good b := by
  intro b
  induction b with
  | ret v =>
      intro s f cont σ rs hctl hf hfn hfr
      refine ⟨fun h => (by simp [den] at h), ?_⟩
      intro r h
      simp only [den, Option.some.injEq] at h
      subst h
      refine ⟨{ s with heap := upd s.heap f (some (.task (.run (.ret v)) (some (.val v)) cont σ rs)), ctl := .resume cont },
        cont, .run (.ret v), σ, rs, [], [], .one (by simp only [step, hctl, hf, stepTask]), rfl,
        by simp [upd, dataOf], rfl, by simp, .nil _, .run _, fun _ => rfl, by simp, by simp, ?_,
        Nat.le_refl _, ?_⟩
      · intro a _ hne; simp [upd, hne]
      · intro a ha _ _
        have : a ≠ f := by omega
        simp [upd, this, hfr a ha]
  | throw e =>
      intro s f cont σ rs hctl hf hfn hfr
      refine ⟨fun h => (by simp [den] at h), ?_⟩
      intro r h
      simp only [den, Option.some.injEq] at h
      subst h
      refine ⟨{ s with heap := upd s.heap f (some (.task (.run (.throw e)) (some (.err e)) cont σ rs)), ctl := .resume cont },
        cont, .run (.throw e), σ, rs, [], [], .one (by simp only [step, hctl, hf, stepTask]), rfl,
        by simp [upd, dataOf], rfl, by simp, .nil _, .run _, fun _ => rfl, by simp, by simp, ?_,
        Nat.le_refl _, ?_⟩
      · intro a _ hne; simp [upd, hne]
      · intro a ha _ _
        have : a ≠ f := by omega
        simp [upd, this, hfr a ha]
  | emit n k ih =>
      intro s f cont σ rs hctl hf hfn hfr
      exact good_step (k := k) (pre := [.code s.ctx n]) (s1 := { s with
          heap := upd s.heap f (some (.task (.run k) none cont σ rs)), trace := s.trace ++ [.code s.ctx n] })
        (σ1 := σ) (rs1 := rs)
        ih hfn hfr (by simp only [step, hctl, hf, stepTask]) hctl (by simp [upd]) rfl
        (by intro a ha; simp [upd, ha]) rfl (by simp only [den]; rfl)
  | await c o kv ke ihv ihe =>
      intro s f cont σ rs hctl hf hfn hfr
      cases o with
      | val v =>
          exact good_step (k := kv v) (pre := []) (s1 := { s with
              ctx := σ, heap := upd s.heap f (some (.task (.run (kv v)) none cont σ rs)) })
            (σ1 := σ) (rs1 := rs)
            (ihv v) hfn hfr (by simp only [step, hctl, hf, stepTask, afterOp]) hctl (by simp [upd]) rfl
            (by intro a ha; simp [upd, ha]) (by simp) (by simp only [den]; cases den (kv v) σ rs σ <;> rfl)
      | err v =>
          exact good_step (k := ke v) (pre := []) (s1 := { s with
              ctx := σ, heap := upd s.heap f (some (.task (.run (ke v)) none cont σ rs)) })
            (σ1 := σ) (rs1 := rs)
            (ihe v) hfn hfr (by simp only [step, hctl, hf, stepTask, afterOp]) hctl (by simp [upd]) rfl
            (by intro a ha; simp [upd, ha]) (by simp) (by simp only [den]; cases den (ke v) σ rs σ <;> rfl)
      | stop =>
          refine ⟨fun h => (by simp [den] at h), ?_⟩
          intro r h
          simp only [den, Option.some.injEq] at h
          subst h
          refine ⟨{ s with ctx := σ, ctl := .stopped cont }, cont, _, σ, rs, [], [],
            .cons (t := { s with ctx := σ, ctl := .stopped f })
              (by simp only [step, hctl, hf, stepTask, afterOp])
              (.one (by simp only [step, stepStopped, hf])), rfl, hf, rfl, by simp, .nil _, .run _,
            fun _ => rfl, by simp, by simp, fun _ _ _ => rfl, Nat.le_refl _, fun a ha _ _ => hfr a ha⟩
  | reg cond act k iha ihk =>
      intro s f cont σ rs hctl hf hfn hfr
      have hne : s.next ≠ f := by omega
      exact good_splice (k := k) (x := exitOf cond fun c => task act σ c)
        (s1 := splice s f cond (.task act) k none cont σ σ rs) (cond := cond) (act := .task act)
        (σ1 := σ) (rs1 := rs)
        ihk (runs_task iha cond σ) hfn hfr (by simp only [step, hctl, hf, stepTask]) hctl
        (by simp [splice, upd]) rfl (by intro a h1 h2; simp [splice, upd, h1, h2])
        (by simp [splice, upd, hne]) rfl (by simp only [den]; rfl)
  | regOp cond c o k ihk =>
      intro s f cont σ rs hctl hf hfn hfr
      have hne : s.next ≠ f := by omega
      exact good_splice (k := k) (x := exitOp cond c o)
        (s1 := splice s f cond (.op c o) k none cont σ σ rs) (cond := cond) (act := .op c o)
        (σ1 := σ) (rs1 := rs)
        ihk (runs_op cond c o σ) hfn hfr (by simp only [step, hctl, hf, stepTask]) hctl
        (by simp [splice, upd]) rfl (by intro a h1 h2; simp [splice, upd, h1, h2])
        (by simp [splice, upd, hne]) rfl (by simp only [den]; rfl)
  | resched c o k ihk =>
      intro s f cont σ rs hctl hf hfn hfr
      have hne : s.next ≠ f := by omega
      cases rs with
      | true =>
          cases o with
          | val v =>
              exact good_step (k := k) (pre := []) (s1 := { s with
                  ctx := c, heap := upd s.heap f (some (.task (.run k) none cont c true)) })
                (σ1 := c) (rs1 := true)
                ihk hfn hfr (by simp only [step, hctl, hf, stepTask, if_true, afterResched]) hctl (by simp [upd]) rfl
                (by intro a ha; simp [upd, ha]) (by simp) (by simp only [den]; cases den k c true c <;> rfl)
          | err e =>
              refine ⟨fun _ => ⟨{ s with
                  ctx := c, heap := upd s.heap f (some (.task (.run k) none cont c true)), ctl := .dead },
                .one (by simp only [step, hctl, hf, stepTask, if_true, afterResched]), rfl⟩, ?_⟩
              intro r h; simp [den] at h
          | stop =>
              refine ⟨fun h => (by simp [den] at h), ?_⟩
              intro r h
              have hr : r = ⟨[], .stop, c, []⟩ := by simpa [den] using h.symm
              subst hr
              let s1 : St := { s with
                  ctx := c, heap := upd s.heap f (some (.task (.run k) none cont c true)), ctl := .stopped f }
              have hf1 : s1.heap f = some (.task (.run k) none cont c true) := by simp [s1, upd]
              refine ⟨{ s1 with ctl := .stopped cont }, cont, _, c, true, [], [],
                .cons (t := s1)
                  (by simp only [step, hctl, hf, stepTask, if_true, afterResched, s1])
                  (.one (by
                    have : s1.ctl = .stopped f := rfl
                    simp only [step, this, stepStopped, hf1])), rfl, hf1, rfl, by simp [s1], .nil _, .run _,
                fun _ => rfl, by simp, by simp, ?_, Nat.le_refl _, ?_⟩
              · intro a _ ha; simp [s1, upd, ha]
              · intro a ha _ _
                have : a ≠ f := by omega
                simp [s1, upd, this, hfr a ha]
      | false =>
          cases o with
          | val v =>
              exact good_splice (k := k) (x := exitOp none σ (.val 0))
                (s1 := { splice s f none (.op σ (.val 0)) k none cont σ c true with ctx := c })
                (cond := none) (act := .op σ (.val 0)) (σ1 := c) (rs1 := true)
                ihk (runs_op none σ (.val 0) σ) hfn hfr (by simp [step, hctl, hf, stepTask, afterResched]) hctl
                (by simp [splice, upd]) rfl (by intro a h1 h2; simp [splice, upd, h1, h2])
                (by simp [splice, upd, hne]) rfl (by simp only [den]; cases den k c true c <;> rfl)
          | err e =>
              refine ⟨fun _ => ⟨{ splice s f none (.op σ (.val 0)) k none cont σ c true with ctx := c, ctl := .dead },
                .one (by simp [step, hctl, hf, stepTask, afterResched]), rfl⟩, ?_⟩
              intro r h; simp [den] at h
          | stop =>
              refine ⟨fun h => (by simp [den] at h), ?_⟩
              intro r h
              have hr : r = ⟨[], .stop, c, [exitOp none σ (.val 0)]⟩ := by simpa [den] using h.symm
              subst hr
              let s1 : St := { splice s f none (.op σ (.val 0)) k none cont σ c true with ctx := c, ctl := .stopped f }
              have hf1 : s1.heap f = some (.task (.run k) none s.next c true) := by simp [s1, splice, upd]
              have hg1 : s1.heap s.next = some (.cleanup none (.op σ (.val 0)) f cont σ false none) := by
                simp [s1, splice, upd, hne]
              refine ⟨{ s1 with ctl := .stopped s.next }, s.next, _, c, true, [s.next], [],
                .cons (t := s1)
                  (by simp [step, hctl, hf, stepTask, afterResched, s1])
                  (.one (by
                    have : s1.ctl = .stopped f := rfl
                    simp only [step, this, stepStopped, hf1])), rfl, hf1, rfl, by simp [s1, splice],
                .cons hg1 (runs_op none σ (.val 0) σ) (.nil _), .run _,
                fun _ => rfl, by simp, ?_, ?_, ?_, ?_⟩
              · intro a ha
                simp only [List.append_nil, List.mem_singleton] at ha
                subst ha
                show s.next ≤ s.next ∧ s.next < s.next + 1
                omega
              · intro a h1 ha
                have : a ≠ s.next := by omega
                simp [s1, splice, upd, ha, this]
              · show s.next ≤ s.next + 1; omega
              · intro a ha hL _
                simp only [List.mem_singleton] at hL
                have : a ≠ f := by omega
                simp [s1, splice, upd, this, hL, hfr a ha]
  | call child guard kv ke ks ihc ihv ihe ihs => exact good_call ihc ihv ihe ihs

end Verif.Coro
