import Verif.Place.Lemmas
/-!
# Where senders complete — C73 (behaviour), C74 (completion scheduler), C75 (`on`), C76 (affinity of
`co_await`), C77 (awaiting inline senders), C78 (start scheduler)
-/
namespace Verif.Place

/-! ## C73: advertised completion behaviour, all channels -/

/-- No `let_*` and no `affine` anywhere. -/
def S.NoLet : S → Prop
  | .leaf _ | .just _ | .readEnv _ | .sched _ => True
  | .thn s _ | .uponE s _ | .uponS s _ | .contOn s _ _ _ | .startsOn _ s _ | .on _ s _ _ _ => s.NoLet
  | .letT .. | .affine .. => False
  | .seq s k _ => s.NoLet ∧ k.NoLet
  | .whenAll _ f _ _ => ∀ i, (f i).NoLet

theorem contR_beh {W : World} (hW : ∀ n, (W n).Uniform) {a : Attr} {r : Beha} {sch : Sched}
    {thrV thrE : Bool} {ea er : Env} {c : Ctx} {o : Out} {t : Tag}
    (hr : ∀ o, r er c o → BehOK (a.beh ea t) c o)
    (h : contR W r sch thrV thrE er c o) : BehOK ((contA W a sch thrV).beh ea t) c o := by
  obtain ⟨o1, h1, h⟩ := h
  have hs := hr o1 h1
  rcases h with ⟨_, rfl⟩ | ⟨o2, h2, h⟩
  · exact behOK_congr (behOK_or_right hs) rfl rfl
  · have h3 : BehOK ((schedA W sch).beh ea t) o1.ctx o2 := by
      cases sch with
      | inl =>
        simp only [schedR] at h2; subst h2
        simp only [schedA, justA]
        split
        · exact behOK_inline
        · exact behOK_unknown _ _
      | res n => exact (hW n).beh _ _ t h2
    rcases h with ⟨ht, rfl⟩ | ⟨ht, rfl⟩
    · exact behOK_or_comm (behOK_seq hs h3 rfl rfl)
    · exact behOK_or_comm (behOK_seq hs h3 rfl rfl)

/-- **C73** (partial: without `let_*` and `affine`, whose claims are wrong, see
`C73_let_violation`, `C73_affine_violation`). If the user's senders and the schedulers keep their word
on every channel, every composition of them does: whatever a composed sender says about a channel —
completes inline, asynchronously, where it was started — is true of every one of its completions, in
every environment, on every context it is started on. -/
theorem C73_behaviour_partial {W : World} (hW : ∀ n, (W n).Uniform) : ∀ (s : S), s.NoLet →
    s.Leaves Leaf.Uniform → ∀ (ea er : Env) (c : Ctx) (o : Out) (t : Tag),
    Runs W s er c o → BehOK ((attrs W s).beh ea t) c o := by
  intro s
  induction s with
  | leaf l => intro _ hl ea er c o t h; exact hl.beh c o t h
  | just t' =>
    intro _ _ ea er c o t h
    simp only [Runs] at h; subst h
    simp only [attrs, justA]
    split
    · exact behOK_inline
    · exact behOK_unknown _ _
  | readEnv thr =>
    intro _ _ ea er c o t h
    obtain ⟨h1, h2, _⟩ := h
    have : o = ⟨o.tag, c, true⟩ := by rw [← h1, ← h2]
    rw [this]
    simp only [attrs, readA]
    split
    · exact behOK_inline
    · split
      · exact behOK_inline
      · exact behOK_unknown _ _
  | sched sch =>
    intro _ _ ea er c o t h
    cases sch with
    | inl =>
      simp only [Runs, schedR] at h; subst h
      simp only [attrs, schedA, justA]
      split
      · exact behOK_inline
      · exact behOK_unknown _ _
    | res n => exact (hW n).beh c o t h
  | thn s thr ih =>
    intro hn hl ea er c o t h
    obtain ⟨o1, h1, rfl | ⟨h2, h3, rfl⟩⟩ := h
    · exact ih hn hl ea er c _ t h1
    · exact behOK_congr (ih hn hl ea er c _ t h1) rfl rfl
  | uponE s thr ih =>
    intro hn hl ea er c o t h
    obtain ⟨o1, h1, ⟨h2, rfl⟩ | ⟨h2, rfl | ⟨h3, rfl⟩⟩⟩ := h <;>
      exact behOK_congr (ih hn hl ea er c _ t h1) rfl rfl
  | uponS s thr ih =>
    intro hn hl ea er c o t h
    obtain ⟨o1, h1, ⟨h2, rfl⟩ | ⟨h2, rfl | ⟨h3, rfl⟩⟩⟩ := h <;>
      exact behOK_congr (ih hn hl ea er c _ t h1) rfl rfl
  | letT => intro hn; exact hn.elim
  | seq s1 s2 thr ih1 ih2 =>
    intro hn hl ea er c o t h
    obtain ⟨o1, h1, h⟩ := h
    have hs := ih1 hn.1 hl.1 ea er c o1 t h1
    rcases h with ⟨_, rfl⟩ | ⟨_, _, rfl⟩ | ⟨_, o2, h2, rfl⟩
    · exact behOK_or_left hs
    · exact behOK_congr (behOK_or_left hs) rfl rfl
    · exact behOK_seq hs (ih2 hn.2 hl.2 _ _ _ _ t h2) rfl rfl
  | contOn s sch thrV thrE ih =>
    intro hn hl ea er c o t h
    exact contR_beh hW (fun o => ih hn hl ea er c o t) h
  | startsOn sch s thr ih => intros; exact behOK_unknown _ _
  | on sch s thr thrV thrE ih =>
    intro hn hl ea er c o t h
    have : (attrs W (.on sch s thr thrV thrE)).beh ea t = unknown := by
      cases ea with
      | none => rfl
      | some st =>
        simp only [attrs, onA, contA, startsA, Beh.or, unknown, Bool.or_true]
    rw [this]; exact behOK_unknown _ _
  | whenAll n f thr stp ih =>
    intro hn hl ea er c o t h
    rcases h with ⟨rfl, rfl⟩ | ⟨g, hg, last, h1, h2, _⟩
    · simp only [attrs, allA, if_pos]; exact behOK_inline
    · have hn0 : n ≠ 0 := by have := last.isLt; omega
      have hb := ih last (hn last) (hl last) ea er c _ t (hg last)
      simp only [attrs, allA, if_neg hn0]
      exact ⟨fun h => h1.trans (hb.aff (orAll_affine h last)),
             fun h => h2.trans (hb.syn (orAll_asyn h last)),
             fun h => h2.trans (hb.asy (orAll_inl h last))⟩
  | affine => intro hn; exact hn.elim

/-! ## C74: advertised completion scheduler, value channel -/

/-- The expression's behaviour does not depend on its environment. -/
def S.EnvFree : S → Prop
  | .leaf _ | .just _ | .readEnv _ | .sched _ => True
  | .thn s _ | .uponE s _ | .uponS s _ | .contOn s _ _ _ | .startsOn _ s _ => s.EnvFree
  | .on .. | .affine .. => False
  | .letT _ s k _ => s.EnvFree ∧ k.EnvFree
  | .seq s k _ => s.EnvFree ∧ k.EnvFree
  | .whenAll _ f _ _ => ∀ i, (f i).EnvFree

theorem runs_envFree {W : World} : ∀ (s : S), s.EnvFree → ∀ (e e' : Env) (c : Ctx) (o : Out),
    Runs W s e c o → Runs W s e' c o := by
  intro s
  have hsch : ∀ (sch : Sched) (e e' : Env) c o, schedR W sch e c o → schedR W sch e' c o := by
    intro sch e e' c o h; cases sch <;> exact h
  have hcont : ∀ (r : Beha) (sch : Sched) (b b' : Bool),
      (∀ e e' c o, r e c o → r e' c o) → ∀ (e e' : Env) c o,
      contR W r sch b b' e c o → contR W r sch b b' e' c o := by
    intro r sch b b' hr e e' c o ⟨o1, h1, h⟩
    refine ⟨o1, hr _ _ _ _ h1, ?_⟩
    rcases h with h | ⟨o2, h2, h⟩
    · exact .inl h
    · exact .inr ⟨o2, hsch _ _ _ _ _ h2, h⟩
  have hseq : ∀ (a : Attr) (r r2 : Beha) (b : Bool),
      (∀ e e' c o, r e c o → r e' c o) → (∀ e e' c o, r2 e c o → r2 e' c o) → ∀ (e e' : Env) c o,
      seqR W a r r2 b e c o → seqR W a r r2 b e' c o := by
    intro a r r2 b hr hr2 e e' c o ⟨o1, h1, h⟩
    refine ⟨o1, hr _ _ _ _ h1, ?_⟩
    rcases h with h | h | ⟨h, o2, h2, h3⟩
    · exact .inl h
    · exact .inr (.inl h)
    · exact .inr (.inr ⟨h, o2, hr2 _ _ _ _ h2, h3⟩)
  induction s with
  | leaf l => intro _ e e' c o h; exact h
  | just t => intro _ e e' c o h; exact h
  | readEnv thr => intro _ e e' c o h; exact h
  | sched sch => intro _ e e' c o h; exact hsch _ _ _ _ _ h
  | thn s thr ih => intro hf e e' c o ⟨o1, h1, h⟩; exact ⟨o1, ih hf _ _ _ _ h1, h⟩
  | uponE s thr ih => intro hf e e' c o ⟨o1, h1, h⟩; exact ⟨o1, ih hf _ _ _ _ h1, h⟩
  | uponS s thr ih => intro hf e e' c o ⟨o1, h1, h⟩; exact ⟨o1, ih hf _ _ _ _ h1, h⟩
  | letT t s k thr ih1 ih2 =>
    intro hf e e' c o ⟨o1, h1, h⟩
    refine ⟨o1, ih1 hf.1 _ _ _ _ h1, ?_⟩
    rcases h with h | h | ⟨h, o2, h2, h3⟩
    · exact .inl h
    · exact .inr (.inl h)
    · exact .inr (.inr ⟨h, o2, ih2 hf.2 _ _ _ _ h2, h3⟩)
  | seq s1 s2 thr ih1 ih2 =>
    intro hf e e' c o h
    exact hseq _ _ _ _ (ih1 hf.1) (ih2 hf.2) _ _ _ _ h
  | contOn s sch thrV thrE ih =>
    intro hf e e' c o h; exact hcont _ _ _ _ (ih hf) _ _ _ _ h
  | startsOn sch s thr ih =>
    intro hf e e' c o h
    exact hseq _ _ _ _ (hcont _ _ _ _ (fun _ _ _ _ h => h)) (ih hf) _ _ _ _ h
  | on => intro hf; exact hf.elim
  | whenAll n f thr stp ih =>
    intro hf e e' c o h
    rcases h with h | ⟨g, hg, h⟩
    · exact .inl h
    · exact .inr ⟨g, fun i => ih i (hf i) _ _ _ _ (hg i), h⟩
  | affine => intro hf; exact hf.elim

/-- The value completion scheduler is known whenever the start scheduler is. -/
def S.Known (W : World) (s : S) : Prop :=
  ∀ m, ((attrs W s).comp (some (.res m)) .value).isSome = true

/-- The senders about which C74 is proved: no `let_*`, `upon_*`, `affine`; `continues_on`,
`starts_on` and `on` name schedulers that own a context; in `sequence(s1, s2)`, where `s1` leaves work is
known, or `s2` contains no `on`. -/
def S.Plain (W : World) : S → Prop
  | .leaf _ | .just _ | .readEnv _ | .sched _ => True
  | .thn s _ => s.Plain W
  | .uponE .. | .uponS .. | .letT .. | .affine .. => False
  | .seq s k _ => s.Plain W ∧ k.Plain W ∧ (s.Known W ∨ k.EnvFree)
  | .contOn s sch _ _ => s.Plain W ∧ sch ≠ .inl
  | .startsOn sch s _ => s.Plain W ∧ sch ≠ .inl
  | .on sch s _ _ _ => s.Plain W ∧ sch ≠ .inl
  | .whenAll _ f _ _ => ∀ i, (f i).Plain W

theorem startsEnv {W : World} (hW : W.OK) {n : Nat} (e : Env) (hs : (W n).sends .value = true) :
    (contA W (justA .value) (.res n) false).sec W e .value = some (.res n) := by
  have hb : (W n).beh .value ≠ inlineB := hW.beh n
  simp [Attr.sec, Attr.comp, contA, schedA, leafA, justA, mkSch, schSelf, hb, hs]

theorem after_just (c : Ctx) (o : Out) : after ⟨.value, c, true⟩ o = o := by
  cases o; simp [after]

/-- What `starts_on(res n, ·)` does: schedule on `n`, then run the child there. -/
theorem starts_cases {W : World} (hW : W.OK) {n : Nat} {r : Beha} {thr : Bool} {e : Env} {c : Ctx}
    {o : Out} (h : startsR W (.res n) r thr e c o) :
    ∃ o1, (W n).runs c o1 ∧
      ((o1.tag ≠ .value ∧ o = o1) ∨ (o1.tag = .value ∧ thr = true ∧ o = o1.err) ∨
       (o1.tag = .value ∧ o1.ctx = n ∧ ∃ o2, r (some (.res n)) n o2 ∧ o = after o1 o2)) := by
  obtain ⟨o1, ⟨o0, rfl, h1⟩, h⟩ := h
  rcases h1 with ⟨h1 | h1, rfl⟩ | ⟨o2, h2, h1⟩
  · simp at h1
  · simp at h1
  · simp only [schedR] at h2
    rcases h1 with ⟨ht, rfl⟩ | ⟨ht, rfl⟩
    · have hc := hW.ctx n c o2 h2 ht
      have hs := (hW.honest n).sends c o2 h2
      rw [ht] at hs
      have h3 : (⟨Tag.value, o2.ctx, true && o2.inl⟩ : Out) = o2 := by cases o2; simp_all
      rw [h3] at h
      refine ⟨o2, h2, ?_⟩
      rcases h with ⟨h, _⟩ | h | ⟨_, o3, h4, h5⟩
      · exact absurd ht h
      · exact .inr (.inl h)
      · refine .inr (.inr ⟨ht, hc, o3, ?_, h5⟩)
        rw [startsEnv hW e hs] at h4
        simpa [join, hc] using h4
    · rw [after_just] at h
      refine ⟨o2, h2, .inl ⟨ht, ?_⟩⟩
      rcases h with ⟨_, rfl⟩ | ⟨h, _⟩ | ⟨h, _⟩
      · rfl
      · exact absurd h ht
      · exact absurd h ht

theorem comp_inline {a : Attr} {e : Env} {c : Ctx} {o : Out} {t : Tag} {sch : Sched}
    (he : EnvOK e c) (hb : BehOK (a.beh e t) c o) (hq : a.csq e t = none)
    (h : a.comp e t = some sch) : sch = .res o.ctx := by
  simp only [Attr.comp, hq] at h
  split at h
  · rename_i hi
    rw [hb.aff (by rw [hi]; rfl)]
    exact he _ h
  · cases h

set_option maxHeartbeats 1000000 in
theorem value_sound {W : World} (hW : W.OK) : ∀ (s : S), s.Plain W →
    s.Leaves Leaf.Honest → ∀ (ea er : Env) (c : Ctx) (o : Out), EnvOK ea c → EnvOK er c →
    (ea.isSome = true → er.isSome = true) → Runs W s er c o → o.tag = .value →
    BehOK ((attrs W s).beh ea .value) c o ∧
    ∀ sch, (attrs W s).comp ea .value = some sch → sch = .res o.ctx := by
  intro s
  induction s with
  | leaf l =>
    intro _ hl ea er c o he _ _ h ht
    have hb := hl.beh c o h
    rw [ht] at hb
    refine ⟨hb, fun sch hs => ?_⟩
    cases hq : l.cs .value with
    | none => exact comp_inline (a := leafA l) he hb hq hs
    | some x =>
      simp only [attrs, leafA, Attr.comp, hq, Option.some.injEq] at hs
      subst hs
      exact hl.cs c o _ h (by rw [ht]; exact hq)
  | just t =>
    intro _ _ ea er c o he _ _ h ht
    simp only [Runs] at h; subst h
    simp only at ht; subst ht
    have hb : BehOK ((attrs W (.just .value)).beh ea .value) c ⟨.value, c, true⟩ := by
      simp only [attrs, justA, if_pos]; exact behOK_inline
    exact ⟨hb, fun sch hs => comp_inline he hb rfl hs⟩
  | readEnv thr =>
    intro _ _ ea er c o he _ _ h ht
    obtain ⟨h1, h2, _⟩ := h
    have : o = ⟨o.tag, c, true⟩ := by rw [← h1, ← h2]
    have hb : BehOK ((attrs W (.readEnv thr)).beh ea .value) c o := by
      rw [this]; simp only [attrs, readA, if_pos]; exact behOK_inline
    exact ⟨hb, fun sch hs => comp_inline he hb rfl hs⟩
  | sched sch =>
    intro _ _ ea er c o he _ _ h ht
    cases sch with
    | inl =>
      simp only [Runs, schedR] at h; subst h
      have hb : BehOK ((attrs W (.sched .inl)).beh ea .value) c ⟨.value, c, true⟩ := by
        simp only [attrs, schedA, justA, if_pos]; exact behOK_inline
      exact ⟨hb, fun sch hs => comp_inline he hb rfl hs⟩
    | res n =>
      have hb := (hW.honest n).beh c o h
      rw [ht] at hb
      refine ⟨hb, fun sch hs => ?_⟩
      cases hq : (W n).cs .value with
      | none => exact comp_inline (a := leafA (W n)) he hb hq hs
      | some x =>
        simp only [attrs, schedA, leafA, Attr.comp, hq, Option.some.injEq] at hs
        subst hs
        exact (hW.honest n).cs c o _ h (by rw [ht]; exact hq)
  | thn s thr ih =>
    intro hp hl ea er c o he he' hee h ht
    obtain ⟨o1, h1, rfl | ⟨h2, h3, rfl⟩⟩ := h
    · exact ih hp hl ea er c _ he he' hee h1 ht
    · cases ht
  | uponE => intro hp; exact hp.elim
  | uponS => intro hp; exact hp.elim
  | letT => intro hp; exact hp.elim
  | seq s1 s2 thr ih1 ih2 =>
    intro hp hl ea er c o he he' hee h ht
    obtain ⟨o1, h1, h⟩ := h
    rcases h with ⟨hne, rfl⟩ | ⟨_, _, rfl⟩ | ⟨hv, o2, h2, rfl⟩
    · exact absurd ht hne
    · cases ht
    · have ht2 : o2.tag = .value := ht
      obtain ⟨hb1, hc1⟩ := ih1 hp.1 hl.1 ea er c o1 he he' hee h1 hv
      -- the environment the attributes are computed with
      have hea2 : EnvOK ((attrs W s1).sec W ea .value) o1.ctx := by
        intro st hst
        simp only [Attr.sec] at hst
        split at hst
        · cases hcs : (attrs W s1).comp ea .value with
          | none => simp [hcs] at hst
          | some x =>
            have hx := hc1 x hcs
            subst hx
            have : (W o1.ctx).beh .value ≠ inlineB := hW.beh _
            simp [hcs, mkSch, schedA, leafA, this] at hst
            exact hst.symm
        · cases hst
      have key : BehOK ((attrs W s2).beh ((attrs W s1).sec W ea .value) .value) o1.ctx o2 ∧
          ∀ sch, (attrs W s2).comp ((attrs W s1).sec W ea .value) .value = some sch →
            sch = .res o2.ctx := by
        rcases hp.2.2 with hk | hf
        · -- the environment the second sender is started with
          have hsd := runs_sends hW s1 hl.1 er c o1 h1
          rw [hv] at hsd
          cases er with
          | none =>
            have hea : ea = none := by
              cases ea with
              | none => rfl
              | some x => simp at hee
            subst hea
            have hj : join ((attrs W s1).sec W none .value) none = (attrs W s1).sec W none .value := by
              simp [join]
            rw [hj] at h2
            exact ih2 hp.2.1 hl.2 _ _ _ _ hea2 hea2 id h2 ht2
          | some st =>
            have hst := he' st rfl
            subst hst
            obtain ⟨x, hx⟩ := Option.isSome_iff_exists.1 (hk c)
            have hx' := (ih1 hp.1 hl.1 _ _ c o1 he' he' id h1 hv).2 x hx
            subst hx'
            have hne : (W o1.ctx).beh .value ≠ inlineB := hW.beh _
            have hsec : (attrs W s1).sec W (some (.res c)) .value = some (.res o1.ctx) := by
              simp [Attr.sec, hsd, hx, mkSch, schedA, leafA, hne]
            rw [hsec] at h2
            have h2' : Runs W s2 (some (.res o1.ctx)) o1.ctx o2 := by simpa [join] using h2
            exact ih2 hp.2.1 hl.2 _ _ _ _ hea2 (by intro st h; cases h; rfl) (by simp) h2' ht2
        · have h2' := runs_envFree s2 hf _ ((attrs W s1).sec W ea .value) _ _ h2
          exact ih2 hp.2.1 hl.2 _ _ _ _ hea2 hea2 id h2' ht2
      refine ⟨behOK_seq hb1 key.1 rfl rfl, fun sch hs => ?_⟩
      have hbs : BehOK ((attrs W (.seq s1 s2 thr)).beh ea .value) c (after o1 o2) :=
        behOK_seq hb1 key.1 rfl rfl
      by_cases hq : (attrs W (.seq s1 s2 thr)).csq ea .value = none
      · exact comp_inline he hbs hq hs
      · have : (attrs W (.seq s1 s2 thr)).comp ea .value
            = (attrs W (.seq s1 s2 thr)).csq ea .value := by
          simp only [Attr.comp]
          cases hcs : (attrs W (.seq s1 s2 thr)).csq ea .value with
          | none => exact absurd hcs hq
          | some x => rfl
        rw [this] at hs
        simp only [attrs, seqA] at hs
        split at hs
        · exact key.2 sch hs
        · cases hs
  | contOn s sch thrV thrE ih =>
    intro hp hl ea er c o he he' hee h ht
    obtain ⟨o1, h1, h⟩ := h
    rcases h with ⟨_, rfl⟩ | ⟨o2, h2, h⟩
    · cases ht
    · obtain ⟨n, rfl⟩ : ∃ n, sch = .res n := by
        cases sch with
        | inl => exact absurd rfl hp.2
        | res n => exact ⟨n, rfl⟩
      rcases h with ⟨ht2, rfl⟩ | ⟨hne, rfl⟩
      · have hb1 := (ih hp.1 hl ea er c o1 he he' hee h1 ht).1
        have hb2 := (hW.honest n).beh _ _ h2
        rw [ht2] at hb2
        have hcx := hW.ctx n _ _ h2 ht2
        refine ⟨behOK_or_comm (behOK_seq hb1 hb2 rfl rfl), fun sch hs => ?_⟩
        have hsd := (hW.honest n).sends _ _ h2
        rw [ht2] at hsd
        simp [attrs, Attr.comp, contA, schedA, leafA, hsd, schSelf] at hs
        rw [hcx]; exact hs.symm
      · exact absurd ht hne
  | startsOn sch s thr ih =>
    intro hp hl ea er c o he he' hee h ht
    refine ⟨behOK_unknown _ _, fun sch' hs => ?_⟩
    obtain ⟨n, rfl⟩ : ∃ n, sch = .res n := by
      cases sch with
      | inl => exact absurd rfl hp.2
      | res n => exact ⟨n, rfl⟩
    obtain ⟨o1, h1, h⟩ := starts_cases hW h
    rcases h with ⟨hne, rfl⟩ | ⟨_, _, rfl⟩ | ⟨hv, hcx, o2, h2, rfl⟩
    · exact absurd ht hne
    · cases ht
    · have hE : EnvOK (some (.res n)) n := by intro st h; cases h; rfl
      obtain ⟨hb, hc⟩ := ih hp.1 hl _ _ n o2 hE hE id h2 ht
      have hne : (W n).beh .value ≠ inlineB := hW.beh n
      have hmk : mkSch W ea (.res n) = .res n := by simp [mkSch, schedA, leafA, hne]
      have hu : unknown ≠ inlineB := by decide
      simp only [attrs, startsA, Attr.comp, hmk, hu, if_false] at hs
      split at hs
      · rename_i x hx
        simp only [Option.some.injEq] at hs; subst hs
        split at hx
        · rename_i haff
          simp only [Option.some.injEq] at hx; subst hx
          simp only [after]; rw [hb.aff haff]
        · exact hc _ hx
      · cases hs
  | on sch s thr thrV thrE ih =>
    intro hp hl ea er c o he he' hee h ht
    have hbu : (attrs W (.on sch s thr thrV thrE)).beh ea .value = unknown := by
      cases ea with
      | none => rfl
      | some st => simp only [attrs, onA, contA, startsA, Beh.or, unknown, Bool.or_true]
    rw [hbu]
    refine ⟨behOK_unknown _ _, fun sch' hs => ?_⟩
    have hu : unknown ≠ inlineB := by decide
    cases ea with
    | none => simp [attrs, onA, Attr.comp, hu] at hs
    | some st =>
      have h1 := he st rfl
      subst h1
      obtain ⟨x, rfl⟩ := Option.isSome_iff_exists.1 (hee rfl)
      have h1 := he' x rfl
      subst h1
      obtain ⟨o1, h1, h⟩ := h
      simp only [Option.getD_some] at h
      rcases h with ⟨_, rfl⟩ | ⟨o2, h2, h⟩
      · cases ht
      · rcases h with ⟨ht2, rfl⟩ | ⟨hne, rfl⟩
        · have hcx := hW.ctx c _ _ h2 ht2
          have hsd := (hW.honest c).sends _ _ h2
          rw [ht2] at hsd
          simp only [Attr.comp, hbu, hu, if_false] at hs
          simp [attrs, onA, contA, schedA, leafA, hsd, schSelf] at hs
          rw [hcx]; exact hs.symm
        · exact absurd ht hne
  | whenAll n f thr stp ih =>
    intro hp hl ea er c o he he' hee h ht
    have hb : BehOK ((attrs W (.whenAll n f thr stp)).beh ea .value) c o := by
      rcases h with ⟨rfl, rfl⟩ | ⟨g, hg, last, h1, h2, h⟩
      · simp only [attrs, allA, if_pos]; exact behOK_inline
      · have hn0 : n ≠ 0 := by have := last.isLt; omega
        have hv : ∀ i, (g i).tag = .value := by
          rcases h with ⟨_, h⟩ | ⟨h, _⟩ | ⟨h, _⟩
          · exact h
          · rw [ht] at h; cases h
          · rw [ht] at h; cases h
        have hb := (ih last (hp last) (hl last) ea er c _ he he' hee (hg last) (hv last)).1
        simp only [attrs, allA, if_neg hn0]
        exact ⟨fun h => h1.trans (hb.aff (orAll_affine h last)),
               fun h => h2.trans (hb.syn (orAll_asyn h last)),
               fun h => h2.trans (hb.asy (orAll_inl h last))⟩
    exact ⟨hb, fun sch hs => comp_inline he hb rfl hs⟩
  | affine => intro hp; exact hp.elim

/-- **C73** on the value channel (partial: senders of `Plain` form). Here the user's senders need only keep
their word about the channel they complete on. -/
theorem C73_value_partial {W : World} (hW : W.OK) (s : S) (hp : s.Plain W)
    (hl : s.Leaves Leaf.Honest) (e : Env) (c : Ctx) (o : Out) (he : EnvOK e c) (h : Runs W s e c o)
    (ht : o.tag = .value) : BehOK ((attrs W s).beh e .value) c o :=
  (value_sound hW s hp hl e e c o he he id h ht).1

/-- **C74** (partial: the value channel of senders of `Plain` form; the other channels and the excluded
adaptors name wrong schedulers, see the violations below). If
`get_completion_scheduler<set_value_t>(get_env(s), env)` names a scheduler, `s` delivers its values on
that scheduler's context. -/
theorem C74_value_partial {W : World} (hW : W.OK) (s : S) (hp : s.Plain W)
    (hl : s.Leaves Leaf.Honest) (e : Env) (c : Ctx) (o : Out) (he : EnvOK e c) (h : Runs W s e c o)
    (ht : o.tag = .value) (sch : Sched) (hs : (attrs W s).comp e .value = some sch) :
    sch = .res o.ctx :=
  (value_sound hW s hp hl e e c o he he id h ht).2 sch hs

/-! ## C75: `on` goes there and comes back -/

/-- Started on `c`, where the environment says work is started. A completion of `on(sch, s)` is delivered
on `c`, unless the very attempt to come back failed. Whatever `s` is. (Partial: storing the result does
not throw; see `C75_throw_violation`.) -/
theorem C75_on_returns_partial {W : World} (hW : W.OK) (sch : Sched) (s : S) (thr : Bool) (c : Ctx)
    (o : Out) (h : Runs W (.on sch s thr false false) (some (.res c)) c o) :
    o.ctx = c ∨ ∃ c' o', (W c).runs c' o' ∧ o'.tag ≠ .value ∧ o.tag = o'.tag ∧ o.ctx = o'.ctx := by
  obtain ⟨o1, h1, h⟩ := h
  rcases h with ⟨h | h, _⟩ | ⟨o2, h2, h⟩
  · simp at h
  · simp at h
  · simp only [Option.getD_some, schedR] at h2
    rcases h with ⟨ht, rfl⟩ | ⟨ht, rfl⟩
    · exact .inl (hW.ctx c _ o2 h2 ht)
    · exact .inr ⟨_, _, h2, ht, rfl, rfl⟩

/-- If neither going nor coming back fails, `on(sch, s)` is `s`, run on `sch`'s context by an operation
that knows it runs there, and completed where it was started, on the channel `s` completed on. -/
theorem C75_on_runs_there_partial {W : World} (hW : W.OK)
    (hI : ∀ n c o, (W n).runs c o → o.tag = .value) (n : Nat) (s : S) (c : Ctx)
    (o : Out) (h : Runs W (.on (.res n) s false false false) (some (.res c)) c o) :
    o.ctx = c ∧ ∃ o2, Runs W s (some (.res n)) n o2 ∧ o.tag = o2.tag := by
  obtain ⟨o1, h1, h⟩ := h
  rcases h with ⟨h | h, _⟩ | ⟨o2, h2, h⟩
  · simp at h
  · simp at h
  · simp only [Option.getD_some, schedR] at h2
    rcases h with ⟨ht, rfl⟩ | ⟨ht, rfl⟩
    · refine ⟨hW.ctx c _ o2 h2 ht, ?_⟩
      obtain ⟨o3, h3, h⟩ := starts_cases hW h1
      rcases h with ⟨hne, _⟩ | ⟨_, h, _⟩ | ⟨_, _, o4, h4, rfl⟩
      · exact absurd (hI _ _ _ h3) hne
      · cases h
      · exact ⟨o4, h4, rfl⟩
    · exact absurd (hI _ _ _ h2) ht

/-- `on(s, sch, closure)`: whatever the closure does, the result is delivered on the context on which the
predecessor delivered its value, unless coming back failed. (Partial: for predecessors whose completion
scheduler is right — `C74_value_partial` — and results that can be stored; see
`C75_closure_violation`.) -/
theorem C75_on_closure_returns_partial {W : World} (hW : W.OK) (s : S) (hp : s.Plain W)
    (hl : s.Leaves Leaf.Honest) (sch old : Sched) (k : Beha → Beha) (thrV thrE : Bool) (e : Env)
    (c : Ctx) (he : EnvOK e c) (hold : (attrs W s).comp e .value = some old)
    (o1 o : Out) (h1 : Runs W s e c o1) (hv : o1.tag = .value)
    (h : onClosureR W (Runs W s) sch old k thrV thrE false false e c o) :
    o.ctx = o1.ctx ∨
      ∃ c' o', schedR W old e c' o' ∧ o'.tag ≠ .value ∧ o.tag = o'.tag ∧ o.ctx = o'.ctx := by
  have hx := C74_value_partial hW s hp hl e c o1 he h1 hv old hold
  subst hx
  obtain ⟨o3, h3, h⟩ := h
  rcases h with ⟨h | h, _⟩ | ⟨o2, h2, h⟩
  · simp at h
  · simp at h
  · rcases h with ⟨ht, rfl⟩ | ⟨ht, rfl⟩
    · exact .inl (hW.ctx o1.ctx _ o2 h2 ht)
    · exact .inr ⟨_, _, h2, ht, rfl, rfl⟩

/-- What the closure's sender is given arrives on `sch`'s context, unless going there failed. -/
theorem C75_on_closure_runs_there_partial {W : World} (hW : W.OK) (r : Beha) (n : Nat) (e : Env)
    (c : Ctx) (o : Out) (h : contR W r (.res n) false false e c o) :
    o.ctx = n ∨ ∃ c' o', (W n).runs c' o' ∧ o'.tag ≠ .value ∧ o.tag = o'.tag ∧ o.ctx = o'.ctx := by
  obtain ⟨o3, h3, h⟩ := h
  rcases h with ⟨h | h, _⟩ | ⟨o2, h2, h⟩
  · simp at h
  · simp at h
  · rcases h with ⟨ht, rfl⟩ | ⟨ht, rfl⟩
    · exact .inl (hW.ctx n _ o2 h2 ht)
    · exact .inr ⟨_, _, h2, ht, rfl, rfl⟩

/-! ## C76: `co_await` in a task resumes where the task runs -/

/-- The claims a sender makes about its completion behaviour are true when it is started on `c`. -/
def Truthful (W : World) (s : S) (e : Env) (c : Ctx) : Prop :=
  ∀ o, Runs W s e c o → BehOK ((attrs W s).beh e o.tag) c o

/-- `affine(s)` — what `stdexec::task` awaits — completes on the context it was started on, on every
channel. (Partial: `s`'s claims are true, and storing its results does not throw.) -/
theorem C76_affine_partial {W : World} (hW : W.OK) (s : S) (hl : s.Leaves Leaf.Honest) (c : Ctx)
    (hs : Truthful W s (some (.res c)) c) (o : Out)
    (h : Runs W (.affine s false) (some (.res c)) c o) : o.ctx = c := by
  rcases h with ⟨h1, h⟩ | ⟨h1, st, he, h2, o1, h3, h⟩
  · refine (hs o h).aff ?_
    have := runs_sends hW s hl _ c o h
    simp only [isAffine, Bool.and_eq_true, Bool.or_eq_true, Bool.not_eq_true'] at h1
    cases hq : o.tag <;> simp_all
  · cases he
    rcases h with ⟨_, h, _⟩ | ⟨o2, h4, h5, rfl⟩
    · cases h
    · exact hW.ctx c _ o2 h4 h5

/-- In particular for every sender without `let_*`. -/
theorem C76_affine_noLet_partial {W : World} (hW : W.OK) (hU : ∀ n, (W n).Uniform) (s : S)
    (hl : s.Leaves Leaf.Honest) (hu : s.Leaves Leaf.Uniform) (hn : s.NoLet) (c : Ctx) (o : Out)
    (h : Runs W (.affine s false) (some (.res c)) c o) : o.ctx = c :=
  C76_affine_partial hW s hl c
    (fun o h => C73_behaviour_partial hU s hn hu _ _ c o o.tag h) o h

/-- `exec::task`: a `co_await` that produces a value resumes the coroutine on the context of the task's
scheduler. (Partial: `s`'s claims are true.) -/
theorem C76_exec_task_value_partial {W : World} (hW : W.OK) (s : S) (c : Ctx) (thrV thrE : Bool)
    (hs : Truthful W s (some (.res c)) c) (o : Out)
    (h : taskAwait W s (.res c) thrV thrE (some (.res c)) c o) (ht : o.tag = .value) : o.ctx = c := by
  simp only [taskAwait] at h
  split at h
  · rename_i ha
    exact (hs o h).aff (by rw [ht]; exact ha)
  · obtain ⟨o1, h1, h⟩ := h
    rcases h with ⟨_, rfl⟩ | ⟨o2, h2, h⟩
    · cases ht
    · rcases h with ⟨ht2, rfl⟩ | ⟨hne, rfl⟩
      · exact hW.ctx c _ o2 h2 ht2
      · exact absurd ht hne

/-! ## C77: awaiting a sender that claims to complete inline -/

/-- `__as_awaitable::__completes_inline` (`__as_awaitable.hpp` 104-112): the operation state is then a
local variable of `await_suspend` (374-389), destroyed as soon as `start` returned. -/
def inlineAwait (a : Attr) (e : Env) : Prop := ∀ t, a.sends e t = true → a.beh e t = inlineB

/-- Every completion arrives before the operation is destroyed. (Partial: `s`'s claims are true.) -/
theorem C77_inline_partial {W : World} (hW : W.OK) (s : S) (hl : s.Leaves Leaf.Honest) (e : Env)
    (c : Ctx) (hs : Truthful W s e c) (ha : inlineAwait (attrs W s) e) (o : Out)
    (h : Runs W s e c o) : o.inl = true ∧ o.ctx = c := by
  have h1 := ha o.tag (runs_sends hW s hl e c o h)
  have h2 := hs o h
  rw [h1] at h2
  exact ⟨h2.syn rfl, h2.aff rfl⟩

/-- In particular for every sender without `let_*`. -/
theorem C77_inline_noLet_partial {W : World} (hW : W.OK) (hU : ∀ n, (W n).Uniform) (s : S)
    (hl : s.Leaves Leaf.Honest) (hu : s.Leaves Leaf.Uniform) (hn : s.NoLet) (e : Env) (c : Ctx)
    (ha : inlineAwait (attrs W s) e) (o : Out) (h : Runs W s e c o) : o.inl = true ∧ o.ctx = c :=
  C77_inline_partial hW s hl e c (fun o h => C73_behaviour_partial hU s hn hu _ _ c o o.tag h) ha o h

/-! ## C78: the start scheduler in the environment -/

/-- `Starts W s e c s' e' c'`: running `s`, started in environment `e` on context `c`, may start its part
`s'` in environment `e'` on context `c'`. -/
inductive Starts (W : World) : S → Env → Ctx → S → Env → Ctx → Prop
  | self (s e c) : Starts W s e c s e c
  | thn {s thr e c s' e' c'} : Starts W s e c s' e' c' → Starts W (.thn s thr) e c s' e' c'
  | uponE {s thr e c s' e' c'} : Starts W s e c s' e' c' → Starts W (.uponE s thr) e c s' e' c'
  | uponS {s thr e c s' e' c'} : Starts W s e c s' e' c' → Starts W (.uponS s thr) e c s' e' c'
  | let1 {t s k thr e c s' e' c'} : Starts W s e c s' e' c' → Starts W (.letT t s k thr) e c s' e' c'
  | let2 {t s k thr e c s' e' c' o1} : Runs W s e c o1 → o1.tag = t →
      Starts W k (join ((attrs W s).sec W e t) e) o1.ctx s' e' c' →
      Starts W (.letT t s k thr) e c s' e' c'
  | seq1 {s k thr e c s' e' c'} : Starts W s e c s' e' c' → Starts W (.seq s k thr) e c s' e' c'
  | seq2 {s k thr e c s' e' c' o1} : Runs W s e c o1 → o1.tag = .value →
      Starts W k (join ((attrs W s).sec W e .value) e) o1.ctx s' e' c' →
      Starts W (.seq s k thr) e c s' e' c'
  | contOn {s sch b b' e c s' e' c'} : Starts W s e c s' e' c' →
      Starts W (.contOn s sch b b') e c s' e' c'
  | startsOn {sch s thr e c s' e' c' o1} :
      contR W (fun _ c o => o = ⟨.value, c, true⟩) sch false false e c o1 → o1.tag = .value →
      Starts W s (join ((contA W (justA .value) sch false).sec W e .value) e) o1.ctx s' e' c' →
      Starts W (.startsOn sch s thr) e c s' e' c'
  | on {sch s thr b b' e c s' e' c' o1} :
      contR W (fun _ c o => o = ⟨.value, c, true⟩) sch false false e c o1 → o1.tag = .value →
      Starts W s (join ((contA W (justA .value) sch false).sec W e .value) e) o1.ctx s' e' c' →
      Starts W (.on sch s thr b b') e c s' e' c'
  | whenAll {n f thr stp e c s' e' c'} (i : Fin n) : Starts W (f i) e c s' e' c' →
      Starts W (.whenAll n f thr stp) e c s' e' c'
  | affine {s thr e c s' e' c'} : Starts W s e c s' e' c' → Starts W (.affine s thr) e c s' e' c'

/-- The senders about which C78 is proved: work is started by a predecessor only on its value channel, the
predecessor is of `Plain` form and where it completes is known; schedulers own a context. -/
def S.Traced (W : World) : S → Prop
  | .leaf _ | .just _ | .readEnv _ | .sched _ => True
  | .thn s _ | .uponE s _ | .uponS s _ | .affine s _ | .contOn s _ _ _ => s.Traced W
  | .letT t s k _ => s.Traced W ∧ k.Traced W ∧ t = .value ∧ s.Plain W ∧ s.Known W
  | .seq s k _ => s.Traced W ∧ k.Traced W ∧ s.Plain W ∧ s.Known W
  | .startsOn sch s _ => s.Traced W ∧ sch ≠ .inl
  | .on sch s _ _ _ => s.Traced W ∧ sch ≠ .inl
  | .whenAll _ f _ _ => ∀ i, (f i).Traced W

theorem starts_env_ok {W : World} (hW : W.OK) {sch : Sched} (hne : sch ≠ .inl) {e : Env} {c : Ctx}
    {o1 : Out} (h : contR W (fun _ c o => o = ⟨.value, c, true⟩) sch false false e c o1)
    (ht : o1.tag = .value) :
    EnvOK (join ((contA W (justA .value) sch false).sec W e .value) e) o1.ctx := by
  cases sch with
  | inl => exact absurd rfl hne
  | res n =>
    obtain ⟨o0, rfl, h⟩ := h
    rcases h with ⟨h | h, _⟩ | ⟨o2, h2, h⟩
    · simp at h
    · simp at h
    · rcases h with ⟨ht2, rfl⟩ | ⟨hne, rfl⟩
      · have hc := hW.ctx n _ _ h2 ht2
        have hs := (hW.honest n).sends _ _ h2
        rw [ht2] at hs
        rw [startsEnv hW e hs]
        intro st h
        simp only [join, Option.some_or, Option.some.injEq] at h
        subst h; rw [hc]
      · exact absurd ht hne

theorem pred_env_ok {W : World} (hW : W.OK) {s : S} (hp : s.Plain W) (hl : s.Leaves Leaf.Honest)
    (hk : s.Known W) {c : Ctx} {o1 : Out} (h : Runs W s (some (.res c)) c o1)
    (ht : o1.tag = .value) :
    join ((attrs W s).sec W (some (.res c)) .value) (some (.res c)) = some (.res o1.ctx) := by
  have he : EnvOK (some (.res c)) c := by intro st h; cases h; rfl
  have hsd := runs_sends hW s hl _ c o1 h
  rw [ht] at hsd
  obtain ⟨x, hx⟩ := Option.isSome_iff_exists.1 (hk c)
  have hx' := C74_value_partial hW s hp hl _ c o1 he h ht x hx
  subst hx'
  have hne : (W o1.ctx).beh .value ≠ inlineB := hW.beh _
  simp [Attr.sec, hsd, hx, mkSch, schedA, leafA, hne, join]

/-- **C78** (partial: senders of `Traced` form). Whatever part of a sender is started, on whatever context:
the start scheduler it finds in its environment is the scheduler of that context. -/
theorem C78_start_scheduler_partial {W : World} (hW : W.OK) {s s' : S} {e e' : Env} {c c' : Ctx}
    (h : Starts W s e c s' e' c') (ht : s.Traced W) (hl : s.Leaves Leaf.Honest)
    (he : e = some (.res c)) : e' = some (.res c') := by
  induction h with
  | self => exact he
  | thn _ ih => exact ih ht hl he
  | uponE _ ih => exact ih ht hl he
  | uponS _ ih => exact ih ht hl he
  | let1 _ ih => exact ih ht.1 hl.1 he
  | let2 h1 h2 _ ih =>
    subst he
    obtain ⟨h3, h4, h5, h6, h7⟩ := ht
    subst h5
    exact ih h4 hl.2 (pred_env_ok hW h6 hl.1 h7 h1 h2)
  | seq1 _ ih => exact ih ht.1 hl.1 he
  | seq2 h1 h2 _ ih =>
    subst he
    exact ih ht.2.1 hl.2 (pred_env_ok hW ht.2.2.1 hl.1 ht.2.2.2 h1 h2)
  | contOn _ ih => exact ih ht hl he
  | @startsOn sch s thr e c s' e' c' o1 h1 h2 _ ih =>
    refine ih ht.1 hl ?_
    obtain ⟨st, hst⟩ : ∃ st, join ((contA W (justA .value) sch false).sec W e .value) e = some st := by
      subst he
      cases hq : (contA W (justA .value) sch false).sec W (some (.res c)) .value with
      | none => exact ⟨_, rfl⟩
      | some x => exact ⟨x, by simp [join]⟩
    rw [hst]
    rw [starts_env_ok hW ht.2 h1 h2 st hst]
  | @on sch s thr b b' e c s' e' c' o1 h1 h2 _ ih =>
    refine ih ht.1 hl ?_
    obtain ⟨st, hst⟩ : ∃ st, join ((contA W (justA .value) sch false).sec W e .value) e = some st := by
      subst he
      cases hq : (contA W (justA .value) sch false).sec W (some (.res c)) .value with
      | none => exact ⟨_, rfl⟩
      | some x => exact ⟨x, by simp [join]⟩
    rw [hst]
    rw [starts_env_ok hW ht.2 h1 h2 st hst]
  | whenAll i _ ih => exact ih (ht i) (hl i) he
  | affine _ ih => exact ih ht hl he

end Verif.Place
