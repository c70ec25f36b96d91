import Verif.Variant.Inv
/-!
# C43 — variant storage never leaks, double-destroys or misreads

Specification vocabulary: `content h v` is what a user can observe of variant `v`: `none` if valueless, else the index
and the value of the alternative. The theorems hold for any number of variants, any sequence of operations, every
choice of throwing constructors, and constructors that destroy their owner.
-/
namespace Verif.Variant

/-- `index()` and the value of the alternative (`__get` / `__visit`). -/
def content (h : H) (v : Nat) : Option (Nat × Option Nat) :=
  match h.idx v with
  | none => none
  | some k => some (k, (h.cell v).bind h.val)

variable {T : Nat → Nat} {n : Nat}

/-- **C43** No undefined behaviour: no object is destroyed or read that is not alive, none is destroyed at a wrong type
or overwritten, no valueless variant is visited. -/
theorem C43_no_fault {h : H} (hr : Reachable T n h) : h.fault = false := (inv_reach hr).ok

/-- Exactly the alternative named by `index()` is alive in a variant's storage; nothing when valueless. -/
theorem C43_index {h : H} (hr : Reachable T n h) (v : Nat) :
    match h.idx v with
    | none => h.cell v = none
    | some k => k < n ∧ h.vlive v = true ∧ ∃ o, h.cell v = some o ∧ h.alive o = true ∧ h.ty o = T k := by
  have hI := inv_reach hr
  cases hk : h.idx v with
  | none => exact (hI.rel v).1 hk
  | some k =>
    have hc : h.cell v ≠ none := fun e => by simp [(hI.rel v).2 e] at hk
    obtain ⟨o, ho⟩ := Option.ne_none_iff_exists'.1 hc
    have h1 := hI.ty v k o hk ho
    refine ⟨h1.1, ?_, o, ho, (hI.own v o ho).2, h1.2⟩
    cases hv : h.vlive v with
    | true => rfl
    | false => simp [hI.vd v hv] at hk

/-- Every object alive is the alternative of exactly one variant that exists. -/
theorem C43_owner {h : H} (hr : Reachable T n h) {o : Nat} (ho : h.alive o = true) :
    ∃ v, h.vlive v = true ∧ h.idx v ≠ none ∧ h.cell v = some o ∧ ∀ w, h.cell w = some o → w = v := by
  have hI := inv_reach hr
  obtain ⟨v, hv⟩ := hI.alv o ho
  have hi : h.idx v ≠ none := fun e => by simp [(hI.rel v).1 e] at hv
  refine ⟨v, ?_, hi, hv, fun w hw => hI.inj _ _ _ hw hv⟩
  cases hl : h.vlive v with
  | true => rfl
  | false => exact absurd (hI.vd v hl) hi

/-- Each constructed object is destroyed at most once, exactly once when it is no longer alive. -/
theorem C43_destroyed_once {h : H} (hr : Reachable T n h) {o : Nat} (ho : o < h.nobj) :
    h.dtors o = if h.alive o then 0 else 1 := by
  rw [(inv_reach hr).dt o]; cases h.alive o <;> simp [ho]

/-- No leak: when no variant is left, every object ever constructed was destroyed exactly once. -/
theorem C43_no_leak {h : H} (hr : Reachable T n h) (hv : ∀ v, h.vlive v = false) {o : Nat} (ho : o < h.nobj) : h.dtors o = 1 := by
  rw [C43_destroyed_once hr ho]
  cases ha : h.alive o with
  | false => rfl
  | true => obtain ⟨v, h1, _⟩ := C43_owner hr ha; simp [hv v] at h1

/-- `emplace<k>`: on success the variant holds the new value at index `k`; if the constructor throws, it is valueless
and nothing was constructed; other variants keep their index. -/
theorem C43_emplace {h h' : H} (hr : Reachable T n h) {v k : Nat} {a : Arg} {out : Out}
    (hs : step T n h (.emplace v k a out) = some h') :
    (out = .ok → content h' v = some (k, argVal h a)) ∧
    (out = .throws → content h' v = none ∧ h'.vlive v = true ∧ h'.nobj = h.nobj) ∧
    (out = .destroysOwner → h'.vlive v = false) ∧
    ∀ w, w ≠ v → h'.idx w = h.idx w ∧ h'.cell w = h.cell w := by
  have hI := inv_reach hr
  simp only [step] at hs
  split at hs
  · rename_i hok
    cases hs
    simp only [Op.ok, Bool.and_eq_true, decide_eq_true_eq] at hok
    have ha : ArgOk h v a := by
      cases a with
      | val x => trivial
      | copyOf w => simp only [Bool.and_eq_true, bne_iff_ne, ne_eq] at hok; exact ⟨hok.2.1.1, hok.2.2⟩
      | moveOf w => simp only [Bool.and_eq_true, bne_iff_ne, ne_eq] at hok; exact ⟨hok.2.1.1, hok.2.2⟩
    obtain ⟨_, e2, e3, e4, e5⟩ := emplace_spec hI hok.1.1 hok.1.2 ha out
    refine ⟨?_, ?_, fun e => (e5 e).1, fun w hw => ⟨e2.idx w hw, e2.cell w hw⟩⟩
    · intro e
      obtain ⟨_, f2, f3, f4⟩ := e3 e
      simp [content, run, f2, f3, f4]
    · intro e
      obtain ⟨f1, f2, f3⟩ := e4 e
      exact ⟨by simp [content, run, f2], f1, f3⟩
  · cases hs

/-- The alternatives have pairwise different types. -/
def Distinct (T : Nat → Nat) (n : Nat) : Prop := ∀ i j, i < n → j < n → T i = T j → i = j

theorem content_of {h h' : H} (hI : Inv T n h) (hd : Distinct T n) {v w : Nat} (hI' : Inv T n h')
    (hx : ∃ k j, h.idx w = some k ∧ h'.idx v = some j ∧ T j = T k ∧ j ≤ k ∧
      ∃ o, h'.cell v = some o ∧ h'.val o = (h.cell w).bind h.val) : content h' v = content h w := by
  obtain ⟨k, j, h1, h2, h3, h4, o, h5, h6⟩ := hx
  have hc : h.cell w ≠ none := fun e => by simp [(hI.rel w).2 e] at h1
  obtain ⟨o', ho'⟩ := Option.ne_none_iff_exists'.1 hc
  have hk := (hI.ty w k o' h1 ho').1
  have := hd j k (by omega) hk h3
  subst this
  simp [content, h1, h2, h5, h6]

/-- Copy and move construction: the new variant holds what the source held (or there is no new variant, if it threw). -/
theorem C43_construct {h h' : H} (hr : Reachable T n h) (hd : Distinct T n) {v w : Nat} {m : Bool} {out : Out}
    (hs : step T n h (.ctorFrom v w m out) = some h') :
    (out = .ok → h'.vlive v = true ∧ content h' v = content h w) ∧
    (out = .throws → h.idx w ≠ none → h'.vlive v = false) ∧ h'.idx w = h.idx w := by
  have hI := inv_reach hr
  have hI' := inv_step _ hI hs
  simp only [step] at hs
  split at hs
  · rename_i hok
    cases hs
    simp only [Op.ok, Bool.and_eq_true, bne_iff_ne, Bool.not_eq_true', ne_eq] at hok
    obtain ⟨_, e2, e3, e4, e5⟩ := ctorFrom_spec hI (m := m) hok.1.1.1 hok.1.2 hok.2
    refine ⟨?_, fun e h1 => e5 h1 e, e2.idx w (Ne.symm hok.1.2)⟩
    intro e
    by_cases hw : h.idx w = none
    · exact ⟨(e3 hw).1, by simp [content, run, (e3 hw).2, hw]⟩
    · exact ⟨(e4 hw e).1, content_of hI hd hI' (e4 hw e).2⟩
  · cases hs

/-- Copy and move assignment: afterwards the variant holds what the source held; valueless if the constructor threw;
self-assignment changes nothing. -/
theorem C43_assign {h h' : H} (hr : Reachable T n h) (hd : Distinct T n) {v w : Nat} {m : Bool} {out : Out}
    (hs : step T n h (.assign v w m out) = some h') :
    (v = w → h' = h) ∧ (out = .ok → content h' v = content h w) ∧
    (out = .throws → v ≠ w → content h' v = none ∧ h'.vlive v = true) := by
  have hI := inv_reach hr
  have hI' := inv_step _ hI hs
  simp only [step] at hs
  split at hs
  · rename_i hok
    cases hs
    simp only [Op.ok, Bool.and_eq_true, bne_iff_ne, ne_eq] at hok
    obtain ⟨_, e2, e3, e4, e5, e6⟩ := assign_spec hI (m := m) (w := w) hok.1.1 hok.2
    refine ⟨?_, ?_, ?_⟩
    · rintro rfl; simp [run, assign]
    · intro e
      by_cases hvw : v = w
      · subst hvw; simp [run, assign]
      · by_cases hw : h.idx w = none
        · simp [content, run, e4 hvw hw, hw]
        · exact content_of hI hd hI' (e5 hvw hw e)
    · intro e hvw
      by_cases hw : h.idx w = none
      · exact ⟨by simp [content, run, e4 hvw hw], e3⟩
      · exact ⟨by simp [content, run, e6 hvw hw e], e3⟩
  · cases hs

/-! ### `swap` -/

theorem emplace_val {h : H} (hI : Inv T n h) {v k : Nat} {a : Arg} {o : Nat} (ho : o < h.nobj)
    (ha : ∀ w, a = .moveOf w → h.cell w ≠ some o) : (emplace T h v k a .ok).val o = h.val o := by
  obtain ⟨_, _, hf⟩ := destroyV_spec hI v
  have hne : o ≠ h.nobj := by omega
  cases a with
  | val x => simp [emplace, readArg, construct, upd, hf.nobj, hf.val, hne]
  | copyOf w =>
    cases hc : h.cell w <;> simp [emplace, readArg, argObj, hc, construct, upd, hf.nobj, hf.val, hne]
  | moveOf w =>
    have := ha w rfl
    cases hc : h.cell w with
    | none => simp [emplace, readArg, argObj, hc, construct, upd, hf.nobj, hf.val, hne]
    | some o' =>
      have h2 : o ≠ o' := by rintro rfl; exact this hc
      simp [emplace, readArg, argObj, hc, construct, upd, hf.nobj, hf.val, hne, h2]

theorem visitInto_val {h : H} (hI : Inv T n h) {v w : Nat} {m : Bool} {o : Nat} (ho : o < h.nobj)
    (hc : h.cell w ≠ some o) : (visitInto T n h v w m .ok).val o = h.val o := by
  unfold visitInto
  split
  · rfl
  · unfold emplaceTy
    split
    · refine emplace_val hI ho ?_
      cases m
      · simp
      · simp only [if_true, Arg.moveOf.injEq]; rintro x rfl; exact hc
    · rfl

theorem ctorFrom_val {h : H} (hI : Inv T n h) {v w : Nat} {m : Bool} {o : Nat} (hv : h.vlive v = false) (hne : v ≠ w)
    (ho : o < h.nobj) (hc : h.cell w ≠ some o) : (ctorFrom T n h v w m .ok).val o = h.val o := by
  obtain ⟨m1, m2, m3, m4, m5⟩ := make_spec hI hv
  unfold ctorFrom
  simp only
  split
  · rfl
  · simp only [reduceCtorEq, if_false]
    rw [visitInto_val m1 (o := o) (by simpa [make] using ho) (by rw [m2.cell w hne.symm]; exact hc), m5]

theorem assign_val {h : H} (hI : Inv T n h) {v w : Nat} {m : Bool} {o : Nat} (hne : v ≠ w)
    (ho : o < h.nobj) (hc : h.cell w ≠ some o) : (assign T n h v w m .ok).val o = h.val o := by
  obtain ⟨d1, d2, d3⟩ := destroyV_spec hI v
  unfold assign
  simp only [hne, if_false]
  split
  · rw [d3.val]
  · rw [visitInto_val d1 (by rw [d3.nobj]; exact ho) (by rw [d3.cell w hne.symm]; exact hc), d3.val]

theorem content_frame {h h' : H} {x : Nat} (h1 : h'.idx x = h.idx x) (h2 : h'.cell x = h.cell x)
    (h3 : ∀ o, h.cell x = some o → h'.val o = h.val o) : content h' x = content h x := by
  unfold content
  rw [h1, h2]
  cases hc : h.cell x with
  | none => rfl
  | some o => simp [h3 o hc]

/-- `swap` exchanges the contents of two variants. -/
theorem C43_swap {h h' : H} (hr : Reachable T n h) (hd : Distinct T n) {v w tmp : Nat} (hvw : v ≠ w)
    (hs : step T n h (.swap v w tmp .ok .ok .ok) = some h') :
    content h' v = content h w ∧ content h' w = content h v ∧ h'.vlive tmp = false := by
  have hI := inv_reach hr
  simp only [step] at hs
  split at hs
  rotate_left
  · cases hs
  rename_i hok
  cases hs
  simp only [Op.ok, Bool.and_eq_true, Bool.not_eq_true'] at hok
  obtain ⟨⟨⟨⟨⟨hv, hw⟩, ht⟩, _⟩, _⟩, _⟩ := hok
  have htv : tmp ≠ v := by rintro rfl; simp [hv] at ht
  have htw : tmp ≠ w := by rintro rfl; simp [hw] at ht
  obtain ⟨a1, a2, a3, a4, _⟩ := ctorFrom_spec hI (v := tmp) (w := v) (m := true) (out := .ok) ht htv (by simp)
  have hl1 : (ctorFrom T n h tmp v true .ok).vlive tmp = true := by
    by_cases e : h.idx v = none
    · exact (a3 e).1
    · exact (a4 e rfl).1
  have c1 : content (ctorFrom T n h tmp v true .ok) tmp = content h v := by
    by_cases e : h.idx v = none
    · simp [content, (a3 e).2, e]
    · exact content_of hI hd a1 (a4 e rfl).2
  have c1w : content (ctorFrom T n h tmp v true .ok) w = content h w := by
    refine content_frame (a2.idx w htw.symm) (a2.cell w htw.symm) fun o ho => ?_
    exact ctorFrom_val hI ht htv (hI.own w o ho).1 (fun e => hvw (hI.inj _ _ _ e ho))
  have hE : run T n h (.swap v w tmp .ok .ok .ok) =
      drop T (assign T n (assign T n (ctorFrom T n h tmp v true .ok) v w true .ok) w tmp true .ok) tmp := by
    simp [run, swap, hl1]
  rw [hE]
  generalize ctorFrom T n h tmp v true .ok = g1 at a1 a2 hl1 c1 c1w
  have hv1 : g1.vlive v = true := by rw [a2.vlive v htv.symm]; exact hv
  obtain ⟨b1, b2, b3, b4, b5, _⟩ := assign_spec a1 (v := v) (w := w) (m := true) (out := .ok) hv1 (by simp)
  have c2 : content (assign T n g1 v w true .ok) v = content g1 w := by
    by_cases e : g1.idx w = none
    · simp [content, b4 hvw e, e]
    · exact content_of a1 hd b1 (b5 hvw e rfl)
  have c2t : content (assign T n g1 v w true .ok) tmp = content g1 tmp := by
    refine content_frame (b2.idx tmp htv) (b2.cell tmp htv) fun o ho => ?_
    exact assign_val a1 hvw (a1.own tmp o ho).1 (fun e => htw (a1.inj _ _ _ ho e))
  have hw2 : (assign T n g1 v w true .ok).vlive w = true := by
    rw [b2.vlive w hvw.symm, a2.vlive w htw.symm]; exact hw
  generalize assign T n g1 v w true .ok = g2 at b1 b2 b3 c2 c2t hw2
  obtain ⟨d1, d2, d3, d4, d5, _⟩ := assign_spec b1 (v := w) (w := tmp) (m := true) (out := .ok) hw2 (by simp)
  have c3 : content (assign T n g2 w tmp true .ok) w = content g2 tmp := by
    by_cases e : g2.idx tmp = none
    · simp [content, d4 htw.symm e, e]
    · exact content_of b1 hd d1 (d5 htw.symm e rfl)
  have c3v : content (assign T n g2 w tmp true .ok) v = content g2 v := by
    refine content_frame (d2.idx v hvw) (d2.cell v hvw) fun o ho => ?_
    exact assign_val b1 htw.symm (b1.own v o ho).1 (fun e => htv (b1.inj _ _ _ e ho))
  generalize assign T n g2 w tmp true .ok = g3 at d1 c3 c3v
  obtain ⟨e1, e2, e3⟩ := drop_spec d1 tmp
  obtain ⟨_, _, f3⟩ := destroyV_spec d1 tmp
  have hval : (drop T g3 tmp).val = g3.val := by simp [drop, f3.val]
  refine ⟨?_, ?_, e3⟩
  · rw [content_frame (e2.idx v htv.symm) (e2.cell v htv.symm) (fun o _ => by rw [hval]), c3v, c2, c1w]
  · rw [content_frame (e2.idx w htw.symm) (e2.cell w htw.symm) (fun o _ => by rw [hval]), c3, c2t, c1]

/-- **Copying changes the alternative** when two alternatives have the same type: the visitors emplace by type (146, 156),
which finds the first such alternative. -/
theorem C43_copy_false : ∃ h, Reachable (fun _ => 0) 2 h ∧ h.idx 0 = some 1 ∧ h.idx 1 = some 0 ∧
    h.vlive 1 = true ∧ h.fault = false := by
  obtain ⟨s, hr, hp⟩ := Reach.witness (init := init) (step := step (fun _ => 0) 2)
    [.make 0, .emplace 0 1 (.val 7) .ok, .ctorFrom 1 0 false .ok]
    (fun h : H => h.idx 0 == some 1 && h.idx 1 == some 0 && h.vlive 1 && !h.fault) (by decide)
  simp only [Bool.and_eq_true, Bool.not_eq_true', beq_iff_eq] at hp
  exact ⟨s, hr, hp.1.1.1, hp.1.1.2, hp.1.2, hp.2⟩

/-- Not vacuous: throwing emplace, a constructor that destroys its owner, copies, swap, destruction; 6 objects made. -/
example : ∃ h, Reachable id 3 h ∧ h.nobj = 9 ∧ h.fault = false ∧ content h 0 = some (2, some 5) ∧ content h 1 = some (1, some 4) := by
  obtain ⟨s, hr, hp⟩ := Reach.witness (init := init) (step := step id 3)
    [.make 0, .make 1, .emplace 0 1 (.val 4) .ok, .emplace 1 2 (.val 5) .ok, .ctorFrom 2 0 false .ok, .swap 0 1 9 .ok .ok .ok,
     .emplace 2 0 (.copyOf 0) .throws, .assign 2 1 false .ok, .make 3, .emplace 3 0 (.moveOf 2) .destroysOwner, .make 3, .emplace 3 0 (.val 1) .ok, .drop 2]
    (fun h : H => h.nobj == 9 && !h.fault && content h 0 == some (2, some 5) && content h 1 == some (1, some 4)) (by decide)
  simp only [Bool.and_eq_true, Bool.not_eq_true', beq_iff_eq] at hp
  exact ⟨s, hr, hp.1.1.1, hp.1.1.2, hp.1.2, hp.2⟩

end Verif.Variant
