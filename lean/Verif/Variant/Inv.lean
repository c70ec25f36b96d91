import Verif.Variant.Model
/-! # `__variant` — invariant -/
namespace Verif.Variant

structure Inv (T : Nat → Nat) (n : Nat) (h : H) : Prop where
  vd : ∀ v, h.vlive v = false → h.idx v = none
  rel : ∀ v, h.idx v = none ↔ h.cell v = none
  ty : ∀ v k o, h.idx v = some k → h.cell v = some o → k < n ∧ h.ty o = T k
  own : ∀ v o, h.cell v = some o → o < h.nobj ∧ h.alive o = true
  inj : ∀ v w o, h.cell v = some o → h.cell w = some o → v = w
  alv : ∀ o, h.alive o = true → ∃ v, h.cell v = some o
  dt : ∀ o, h.dtors o = if o < h.nobj ∧ h.alive o = false then 1 else 0
  ok : h.fault = false

variable {T : Nat → Nat} {n : Nat}

theorem inv_init : Inv T n init := by constructor <;> simp [init]

/-- What `destroyV` leaves alone. -/
structure Frame (v : Nat) (h h' : H) : Prop where
  idx : ∀ w, w ≠ v → h'.idx w = h.idx w
  cell : ∀ w, w ≠ v → h'.cell w = h.cell w
  vlive : h'.vlive = h.vlive
  nobj : h'.nobj = h.nobj
  val : h'.val = h.val
  ty : h'.ty = h.ty
  alive : ∀ o, h.cell v ≠ some o → h'.alive o = h.alive o

theorem destroyV_spec {h : H} (hI : Inv T n h) (v : Nat) :
    Inv T n (destroyV T h v) ∧ (destroyV T h v).idx v = none ∧ Frame v h (destroyV T h v) := by
  unfold destroyV
  cases hk : h.idx v with
  | none => exact ⟨hI, hk, ⟨fun _ _ => rfl, fun _ _ => rfl, rfl, rfl, rfl, rfl, fun _ _ => rfl⟩⟩
  | some k =>
    have hc : h.cell v ≠ none := fun e => by simp [(hI.rel v).2 e] at hk
    obtain ⟨o, ho⟩ := Option.ne_none_iff_exists'.1 hc
    simp only [destroyAt, ho]
    have ht := hI.ty v k o hk ho
    have hal := hI.own v o ho
    refine ⟨⟨?_, ?_, ?_, ?_, ?_, ?_, ?_, ?_⟩, by simp, ⟨?_, ?_, rfl, rfl, rfl, rfl, ?_⟩⟩
    · intro w hw; simp only [upd]; split
      · rfl
      · exact hI.vd w hw
    · intro w; simp only [upd]; split
      · simp
      · exact hI.rel w
    · intro w k' o' h1 h2
      simp only [upd] at h1 h2
      by_cases hw : w = v
      · simp [hw] at h1
      · simp only [hw, if_false] at h1 h2; exact hI.ty w k' o' h1 h2
    · intro w o' h1
      simp only [upd] at h1 ⊢
      by_cases hw : w = v
      · simp [hw] at h1
      · simp only [hw, if_false] at h1
        have hne : o' ≠ o := by rintro rfl; exact hw (hI.inj _ _ _ h1 ho)
        simp only [hne, if_false]; exact hI.own w o' h1
    · intro w w' o' h1 h2
      simp only [upd] at h1 h2
      by_cases hw : w = v
      · simp [hw] at h1
      · by_cases hw' : w' = v
        · simp [hw'] at h2
        · simp only [hw, hw', if_false] at h1 h2; exact hI.inj _ _ _ h1 h2
    · intro o' h1
      simp only [upd] at h1 ⊢
      by_cases hoo : o' = o
      · simp [hoo] at h1
      · simp only [hoo, if_false] at h1
        obtain ⟨w, hw⟩ := hI.alv o' h1
        refine ⟨w, ?_⟩
        have : w ≠ v := by rintro rfl; rw [ho] at hw; exact hoo (by simpa using hw.symm)
        simp [this, hw]
    · intro o'
      have := hI.dt o'
      simp only [upd]
      by_cases hoo : o' = o
      · subst hoo; simp [hal.2] at this; simp [this, hal.1]
      · simp only [hoo, if_false]; exact this
    · simp [hI.ok, hal.2, ht.2]
    · intro w hw; simp [upd, hw]
    · intro w hw; simp [upd, hw]
    · intro o' ho'
      have : o' ≠ o := by rintro rfl; exact ho' ho
      simp [upd, this]

/-- Reading an argument: nothing but values changes, and no fault if the object is alive. -/
theorem readArg_spec {h : H} {a : Arg} {o : Option Nat} (ha : (∃ x, a = .val x) ∨ ∃ o', o = some o' ∧ h.alive o' = true) :
    ∃ vv, (readArg h a o).1 = { h with val := vv } ∧
      (readArg h a o).2 = (match a with | .val x => some x | .copyOf _ | .moveOf _ => (o.bind h.val)) := by
  rcases ha with ⟨x, rfl⟩ | ⟨o', rfl, hal⟩
  · exact ⟨h.val, rfl, rfl⟩
  · cases a with
    | val x => exact ⟨h.val, rfl, rfl⟩
    | copyOf w => exact ⟨h.val, by simp [readArg, hal], by simp [readArg]⟩
    | moveOf w => exact ⟨upd h.val o' none, by simp [readArg, hal], by simp [readArg]⟩

theorem inv_val {h : H} (hI : Inv T n h) (vv : Nat → Option Nat) : Inv T n { h with val := vv } :=
  ⟨hI.vd, hI.rel, hI.ty, hI.own, hI.inj, hI.alv, hI.dt, hI.ok⟩

theorem inv_fill {h : H} (hI : Inv T n h) {v k : Nat} (hv : h.vlive v = true) (hi : h.idx v = none) (hk : k < n)
    (x : Option Nat) : Inv T n (construct { h with idx := upd h.idx v (some k) } v (T k) x) := by
  have hc := (hI.rel v).1 hi
  have hnew : h.alive h.nobj = false := by
    cases e : h.alive h.nobj with
    | false => rfl
    | true => obtain ⟨w, hw⟩ := hI.alv _ e; have := (hI.own w _ hw).1; omega
  unfold construct
  refine ⟨?_, ?_, ?_, ?_, ?_, ?_, ?_, ?_⟩
  · intro w hw; simp only [upd]
    have : w ≠ v := by rintro rfl; simp only [hv] at hw; cases hw
    simp only [this, if_false]; exact hI.vd w hw
  · intro w; simp only [upd]; split
    · simp
    · exact hI.rel w
  · intro w k' o' h1 h2
    simp only [upd] at h1 h2 ⊢
    by_cases hw : w = v
    · simp only [hw, if_true, Option.some.injEq] at h1 h2; subst h1; subst h2; simp [hk]
    · simp only [hw, if_false] at h1 h2
      have := (hI.own w o' h2).1
      have hne : o' ≠ h.nobj := by omega
      simp only [hne, if_false]; exact hI.ty w k' o' h1 h2
  · intro w o' h1
    simp only [upd] at h1 ⊢
    by_cases hw : w = v
    · simp only [hw, if_true, Option.some.injEq] at h1; subst h1; simp
    · simp only [hw, if_false] at h1
      have := hI.own w o' h1
      have hne : o' ≠ h.nobj := by omega
      simp only [hne, if_false]; exact ⟨by omega, this.2⟩
  · intro w w' o' h1 h2
    simp only [upd] at h1 h2
    by_cases hw : w = v <;> by_cases hw' : w' = v
    · rw [hw, hw']
    · simp only [hw, hw', if_true, if_false, Option.some.injEq] at h1 h2
      subst h1; have := (hI.own _ _ h2).1; omega
    · simp only [hw, hw', if_true, if_false, Option.some.injEq] at h1 h2
      subst h2; have := (hI.own _ _ h1).1; omega
    · simp only [hw, hw', if_false] at h1 h2; exact hI.inj _ _ _ h1 h2
  · intro o' h1
    simp only [upd] at h1 ⊢
    by_cases hoo : o' = h.nobj
    · exact ⟨v, by simp [hoo]⟩
    · simp only [hoo, if_false] at h1
      obtain ⟨w, hw⟩ := hI.alv o' h1
      refine ⟨w, ?_⟩
      have : w ≠ v := by rintro rfl; rw [hc] at hw; cases hw
      simp [this, hw]
  · intro o'
    have := hI.dt o'
    simp only [upd]
    by_cases hoo : o' = h.nobj
    · subst hoo; simpa using this
    · simp only [hoo, if_false]; rw [this]
      have : (o' < h.nobj + 1) ↔ o' < h.nobj := by omega
      simp [this]
  · simp [hI.ok, hc]

theorem inv_live_none {h : H} (hI : Inv T n h) (v : Nat) (hi : h.idx v = none) (b : Bool) :
    Inv T n { h with vlive := upd h.vlive v b } := by
  refine ⟨?_, hI.rel, hI.ty, hI.own, hI.inj, hI.alv, hI.dt, hI.ok⟩
  intro w hw; simp only [upd] at hw
  by_cases hwv : w = v
  · rw [hwv]; exact hi
  · simp only [hwv, if_false] at hw; exact hI.vd w hw

/-- An argument that may be passed to `emplace` of `v`. -/
def ArgOk (h : H) (v : Nat) (a : Arg) : Prop :=
  match a with
  | .val _ => True
  | .copyOf w | .moveOf w => w ≠ v ∧ h.idx w ≠ none

/-- The value an argument denotes. -/
def argVal (h : H) : Arg → Option Nat
  | .val x => some x
  | .copyOf w | .moveOf w => (h.cell w).bind h.val

/-- What an operation on variant `v` (with `w` as the source that may be moved from) leaves alone. -/
structure Others (v : Nat) (h h' : H) : Prop where
  idx : ∀ w, w ≠ v → h'.idx w = h.idx w
  cell : ∀ w, w ≠ v → h'.cell w = h.cell w
  vlive : ∀ w, w ≠ v → h'.vlive w = h.vlive w

theorem upd_idem {α : Type} (f : Nat → α) (v : Nat) (a b : α) : upd (upd f v a) v b = upd f v b := by
  funext x; simp only [upd]; split <;> rfl

theorem upd_self {α : Type} (f : Nat → α) (v : Nat) (a : α) (h : f v = a) : upd f v a = f := by
  funext x; simp only [upd]; split
  · subst_vars; rfl
  · rfl

theorem emplace_spec {h : H} (hI : Inv T n h) {v k : Nat} {a : Arg} (hv : h.vlive v = true) (hk : k < n)
    (ha : ArgOk h v a) (out : Out) :
    Inv T n (emplace T h v k a out) ∧ Others v h (emplace T h v k a out) ∧
    (out = .ok → (emplace T h v k a out).vlive v = true ∧ (emplace T h v k a out).idx v = some k ∧
      (emplace T h v k a out).cell v = some h.nobj ∧ (emplace T h v k a out).val h.nobj = argVal h a) ∧
    (out = .throws → (emplace T h v k a out).vlive v = true ∧ (emplace T h v k a out).idx v = none ∧
      (emplace T h v k a out).nobj = h.nobj) ∧
    (out = .destroysOwner → (emplace T h v k a out).vlive v = false ∧ (emplace T h v k a out).idx v = none) := by
  obtain ⟨hI1, hi1, hf⟩ := destroyV_spec hI v
  have harg : (∃ x, a = .val x) ∨ ∃ o', argObj h a = some o' ∧
      ({ (destroyV T h v) with idx := upd (destroyV T h v).idx v (some k) } : H).alive o' = true := by
    have key : ∀ w, w ≠ v → h.idx w ≠ none → ∃ o', h.cell w = some o' ∧ (destroyV T h v).alive o' = true := by
      intro w h1 h2
      have hc : h.cell w ≠ none := fun e => h2 ((hI.rel w).2 e)
      obtain ⟨o, ho⟩ := Option.ne_none_iff_exists'.1 hc
      refine ⟨o, ho, ?_⟩
      rw [hf.alive o (fun e => h1 (hI.inj _ _ _ ho e))]
      exact (hI.own w o ho).2
    cases a with
    | val x => exact Or.inl ⟨x, rfl⟩
    | copyOf w => exact Or.inr (key w ha.1 ha.2)
    | moveOf w => exact Or.inr (key w ha.1 ha.2)
  obtain ⟨vv, e1, e2⟩ := readArg_spec harg
  have hval : (readArg { (destroyV T h v) with idx := upd (destroyV T h v).idx v (some k) } a (argObj h a)).2 = argVal h a := by
    rw [e2]; cases a <;> simp [argVal, argObj, hf.val]
  have hfill := inv_fill (inv_val hI1 vv) (v := v) (k := k) (by rw [← hv]; simp [hf.vlive]) hi1 hk
  cases out with
  | ok =>
    have hE : emplace T h v k a .ok = construct { (destroyV T h v) with idx := upd (destroyV T h v).idx v (some k), val := vv } v (T k)
        (argVal h a) := by
      simp only [emplace, e1, hval]
    rw [hE]
    refine ⟨hfill _, ⟨?_, ?_, ?_⟩, fun _ => ⟨by simp [construct, hf.vlive, hv], by simp [construct], by simp [construct, hf.nobj],
      by simp [construct, hf.nobj]⟩, by simp, by simp⟩
    · intro w hw; simp [construct, upd, hw, hf.idx w hw]
    · intro w hw; simp [construct, upd, hw, hf.cell w hw]
    · intro w hw; simp [construct, hf.vlive]
  | throws =>
    have hE : emplace T h v k a .throws = { (destroyV T h v) with val := vv } := by
      simp only [emplace, e1, upd_idem]
      rw [upd_self _ _ _ hi1]
    rw [hE]
    refine ⟨inv_val hI1 vv, ⟨?_, ?_, ?_⟩, by simp, fun _ => ⟨by simp [hf.vlive, hv], hi1, hf.nobj⟩, by simp⟩
    · intro w hw; exact hf.idx w hw
    · intro w hw; exact hf.cell w hw
    · intro w hw; simp [hf.vlive]
  | destroysOwner =>
    have hE : emplace T h v k a .destroysOwner =
        { destroyV T (construct { (destroyV T h v) with idx := upd (destroyV T h v).idx v (some k), val := vv } v (T k) (argVal h a)) v with
          vlive := upd (destroyV T (construct { (destroyV T h v) with idx := upd (destroyV T h v).idx v (some k), val := vv } v (T k) (argVal h a)) v).vlive v false } := by
      simp only [emplace, e1, hval]
    rw [hE]
    obtain ⟨hI2, hi2, hf2⟩ := destroyV_spec (hfill (argVal h a)) v
    refine ⟨inv_live_none hI2 v hi2 false, ⟨?_, ?_, ?_⟩, by simp, by simp, fun _ => ⟨by simp, hi2⟩⟩
    · intro w hw; simp only; rw [hf2.idx w hw]; simp [construct, upd, hw, hf.idx w hw]
    · intro w hw; simp only; rw [hf2.cell w hw]; simp [construct, upd, hw, hf.cell w hw]
    · intro w hw; simp only [upd, hw, if_false]; rw [hf2.vlive]; simp [construct, hf.vlive]

theorem make_spec {h : H} (hI : Inv T n h) {v : Nat} (hv : h.vlive v = false) :
    Inv T n (make h v) ∧ Others v h (make h v) ∧ (make h v).vlive v = true ∧ (make h v).idx v = none ∧ (make h v).val = h.val := by
  have hi := hI.vd v hv
  have hc := (hI.rel v).1 hi
  have e : make h v = { h with vlive := upd h.vlive v true } := by
    simp only [make, upd_self _ _ _ hi, upd_self _ _ _ hc]
  rw [e]
  exact ⟨inv_live_none hI v hi true, ⟨fun _ _ => rfl, fun _ _ => rfl, fun w hw => by simp [upd, hw]⟩, by simp, hi, rfl⟩

theorem drop_spec {h : H} (hI : Inv T n h) (v : Nat) :
    Inv T n (drop T h v) ∧ Others v h (drop T h v) ∧ (drop T h v).vlive v = false := by
  obtain ⟨h1, h2, h3⟩ := destroyV_spec hI v
  refine ⟨inv_live_none h1 v h2 false, ⟨h3.idx, h3.cell, ?_⟩, by simp [drop]⟩
  intro w hw; simp [drop, upd, hw, h3.vlive]

theorem indexOf_spec {k : Nat} (hk : k < n) : ∃ j, indexOf T n (T k) = some j ∧ j < n ∧ T j = T k ∧ j ≤ k := by
  have hs : (indexOf T n (T k)).isSome := by
    simp only [indexOf, List.find?_isSome, List.mem_range]
    exact ⟨k, hk, by simp⟩
  obtain ⟨j, hj⟩ := Option.isSome_iff_exists.1 hs
  refine ⟨j, hj, ?_, ?_, ?_⟩
  · have := List.mem_of_find?_eq_some hj; simpa using this
  · have := List.find?_some hj; simpa using this
  · have h1 := hj
    simp only [indexOf] at h1
    rcases Nat.lt_or_ge k j with hlt | hge
    · exfalso
      rw [List.find?_range_eq_some] at h1
      have := h1.2.2 k hlt
      simp at this
    · exact hge

/-- Copying or moving from `w` into an empty `v`. -/
theorem visitInto_spec {h : H} (hI : Inv T n h) {v w : Nat} {m : Bool} {out : Out} (hv : h.vlive v = true) (hw : h.idx w ≠ none)
    (hne : v ≠ w) (ho : out ≠ .destroysOwner) :
    Inv T n (visitInto T n h v w m out) ∧ Others v h (visitInto T n h v w m out) ∧
    (visitInto T n h v w m out).vlive v = true ∧
    (out = .ok → ∃ k j, h.idx w = some k ∧ (visitInto T n h v w m out).idx v = some j ∧ T j = T k ∧ j ≤ k ∧
      ∃ o, (visitInto T n h v w m out).cell v = some o ∧ (visitInto T n h v w m out).val o = (h.cell w).bind h.val) ∧
    (out = .throws → (visitInto T n h v w m out).idx v = none) := by
  obtain ⟨k, hk⟩ := Option.ne_none_iff_exists'.1 hw
  have hc : h.cell w ≠ none := fun e => hw ((hI.rel w).2 e)
  obtain ⟨o, hwo⟩ := Option.ne_none_iff_exists'.1 hc
  have hkn := (hI.ty w k o hk hwo).1
  obtain ⟨j, j1, j2, j3, j4⟩ := indexOf_spec (T := T) hkn
  have hE : visitInto T n h v w m out = emplace T h v j (if m then .moveOf w else .copyOf w) out := by
    simp only [visitInto, hk, emplaceTy, j1]
  have hA : ArgOk h v (if m then .moveOf w else .copyOf w) := by cases m <;> exact ⟨hne.symm, hw⟩
  have hV : argVal h (if m then .moveOf w else .copyOf w) = (h.cell w).bind h.val := by cases m <;> rfl
  obtain ⟨a1, a2, a3, a4, a5⟩ := emplace_spec hI hv j2 hA out
  rw [hE]
  refine ⟨a1, a2, ?_, ?_, fun e => (a4 e).2.1⟩
  · cases out with
    | ok => exact (a3 rfl).1
    | throws => exact (a4 rfl).1
    | destroysOwner => exact absurd rfl ho
  · intro e
    obtain ⟨_, b2, b3, b4⟩ := a3 e
    exact ⟨k, j, hk, b2, j3, j4, h.nobj, b3, by rw [b4, hV]⟩

theorem ctorFrom_spec {h : H} (hI : Inv T n h) {v w : Nat} {m : Bool} {out : Out} (hv : h.vlive v = false) (hne : v ≠ w)
    (ho : out ≠ .destroysOwner) :
    Inv T n (ctorFrom T n h v w m out) ∧ Others v h (ctorFrom T n h v w m out) ∧
    (h.idx w = none → (ctorFrom T n h v w m out).vlive v = true ∧ (ctorFrom T n h v w m out).idx v = none) ∧
    (h.idx w ≠ none → out = .ok → (ctorFrom T n h v w m out).vlive v = true ∧
      ∃ k j, h.idx w = some k ∧ (ctorFrom T n h v w m out).idx v = some j ∧ T j = T k ∧ j ≤ k ∧
      ∃ o, (ctorFrom T n h v w m out).cell v = some o ∧ (ctorFrom T n h v w m out).val o = (h.cell w).bind h.val) ∧
    (h.idx w ≠ none → out = .throws → (ctorFrom T n h v w m out).vlive v = false) := by
  obtain ⟨m1, m2, m3, m4, m5⟩ := make_spec hI hv
  have hiw : (make h v).idx w = h.idx w := m2.idx w hne.symm
  have hcw : (make h v).cell w = h.cell w := m2.cell w hne.symm
  have hE : ctorFrom T n h v w m out = (if h.idx w = none then make h v else
      (if out = .throws then { visitInto T n (make h v) v w m out with vlive := upd (visitInto T n (make h v) v w m out).vlive v false }
        else visitInto T n (make h v) v w m out)) := by
    simp only [ctorFrom, hiw]
  rw [hE]
  by_cases hw : h.idx w = none
  · simp only [hw, if_true]
    exact ⟨m1, m2, fun _ => ⟨m3, m4⟩, fun e => absurd rfl e, fun e => absurd rfl e⟩
  · rw [if_neg hw]
    obtain ⟨a1, a2, a3, a4, a5⟩ := visitInto_spec m1 (v := v) (w := w) (m := m) (out := out) m3 (by rw [hiw]; exact hw) hne ho
    have hO : Others v h (visitInto T n (make h v) v w m out) :=
      ⟨fun x hx => by rw [a2.idx x hx, m2.idx x hx], fun x hx => by rw [a2.cell x hx, m2.cell x hx],
       fun x hx => by rw [a2.vlive x hx, m2.vlive x hx]⟩
    cases out with
    | ok =>
      rw [if_neg (by simp)]
      refine ⟨a1, hO, fun e => absurd e hw, fun _ _ => ⟨a3, ?_⟩, fun _ e => nomatch e⟩
      obtain ⟨k, j, b1, b2, b3, b4, o, b5, b6⟩ := a4 rfl
      exact ⟨k, j, by rw [← hiw]; exact b1, b2, b3, b4, o, b5, by rw [b6, hcw, m5]⟩
    | throws =>
      rw [if_pos rfl]
      refine ⟨inv_live_none a1 v (a5 rfl) false, ⟨hO.idx, hO.cell, fun x hx => by simp [upd, hx, hO.vlive x hx]⟩,
        fun e => absurd e hw, ?_, ?_⟩
      · intro _ e; cases e
      · intro _ _; simp
    | destroysOwner => exact absurd rfl ho

theorem assign_spec {h : H} (hI : Inv T n h) {v w : Nat} {m : Bool} {out : Out} (hv : h.vlive v = true)
    (ho : out ≠ .destroysOwner) :
    Inv T n (assign T n h v w m out) ∧ Others v h (assign T n h v w m out) ∧ (assign T n h v w m out).vlive v = true ∧
    (v ≠ w → h.idx w = none → (assign T n h v w m out).idx v = none) ∧
    (v ≠ w → h.idx w ≠ none → out = .ok →
      ∃ k j, h.idx w = some k ∧ (assign T n h v w m out).idx v = some j ∧ T j = T k ∧ j ≤ k ∧
      ∃ o, (assign T n h v w m out).cell v = some o ∧ (assign T n h v w m out).val o = (h.cell w).bind h.val) ∧
    (v ≠ w → h.idx w ≠ none → out = .throws → (assign T n h v w m out).idx v = none) := by
  by_cases hvw : v = w
  · subst hvw
    have : assign T n h v v m out = h := by simp [assign]
    rw [this]
    exact ⟨hI, ⟨fun _ _ => rfl, fun _ _ => rfl, fun _ _ => rfl⟩, hv, fun e => absurd rfl e, fun e => absurd rfl e, fun e => absurd rfl e⟩
  · obtain ⟨d1, d2, d3⟩ := destroyV_spec hI v
    have hiw := d3.idx w (Ne.symm hvw)
    have hcw := d3.cell w (Ne.symm hvw)
    have hE : assign T n h v w m out = (if h.idx w = none then destroyV T h v else visitInto T n (destroyV T h v) v w m out) := by
      simp only [assign, hvw, if_false, hiw]
    rw [hE]
    by_cases hw : h.idx w = none
    · simp only [hw, if_true]
      exact ⟨d1, ⟨d3.idx, d3.cell, fun x _ => by rw [d3.vlive]⟩, by rw [d3.vlive]; exact hv, fun _ _ => d2,
        fun _ e => absurd rfl e, fun _ e => absurd rfl e⟩
    · rw [if_neg hw]
      obtain ⟨a1, a2, a3, a4, a5⟩ := visitInto_spec d1 (v := v) (w := w) (m := m) (out := out) (by rw [d3.vlive]; exact hv)
        (by rw [hiw]; exact hw) hvw ho
      refine ⟨a1, ⟨fun x hx => by rw [a2.idx x hx, d3.idx x hx], fun x hx => by rw [a2.cell x hx, d3.cell x hx],
        fun x hx => by rw [a2.vlive x hx, d3.vlive]⟩, a3, fun _ e => absurd e hw, ?_, fun _ _ e => a5 e⟩
      intro _ _ e
      obtain ⟨k, j, b1, b2, b3, b4, o, b5, b6⟩ := a4 e
      exact ⟨k, j, by rw [← hiw]; exact b1, b2, b3, b4, o, b5, by rw [b6, hcw, d3.val]⟩

theorem swap_inv {h : H} (hI : Inv T n h) {v w tmp : Nat} {o1 o2 o3 : Out} (hv : h.vlive v = true) (hw : h.vlive w = true)
    (ht : h.vlive tmp = false) (h1 : o1 ≠ .destroysOwner) (h2 : o2 ≠ .destroysOwner) (h3 : o3 ≠ .destroysOwner) :
    Inv T n (swap T n h v w tmp o1 o2 o3) := by
  have htv : tmp ≠ v := by rintro rfl; simp [hv] at ht
  have htw : tmp ≠ w := by rintro rfl; simp [hw] at ht
  obtain ⟨a1, a2, _⟩ := ctorFrom_spec hI (v := tmp) (w := v) (m := true) (out := o1) ht htv h1
  unfold swap
  simp only
  split
  · exact a1
  · obtain ⟨b1, b2, b3, _⟩ := assign_spec a1 (v := v) (w := w) (m := true) (out := o2) (by rw [a2.vlive v htv.symm]; exact hv) h2
    split
    · exact (drop_spec b1 tmp).1
    · have hwl : (assign T n (ctorFrom T n h tmp v true o1) v w true o2).vlive w = true := by
        by_cases e : w = v
        · subst e; exact b3
        · rw [b2.vlive w e, a2.vlive w htw.symm]; exact hw
      exact (drop_spec (assign_spec b1 (v := w) (w := tmp) (m := true) (out := o3) hwl h3).1 tmp).1

theorem inv_step {h h' : H} (op : Op) (hI : Inv T n h) (hs : step T n h op = some h') : Inv T n h' := by
  simp only [step] at hs
  split at hs
  · rename_i hok
    cases hs
    cases op with
    | make v => exact (make_spec hI (by simpa [Op.ok] using hok)).1
    | emplace v k a out =>
      simp only [Op.ok, Bool.and_eq_true, decide_eq_true_eq] at hok
      refine (emplace_spec hI hok.1.1 hok.1.2 ?_ out).1
      cases a with
      | val x => trivial
      | copyOf w => simpa [ArgOk, and_assoc] using ⟨(by simpa using hok.2 : (w ≠ v ∧ h.vlive w = true) ∧ h.idx w ≠ none).1.1, (by simpa using hok.2 : (w ≠ v ∧ h.vlive w = true) ∧ h.idx w ≠ none).2⟩
      | moveOf w => simpa [ArgOk, and_assoc] using ⟨(by simpa using hok.2 : (w ≠ v ∧ h.vlive w = true) ∧ h.idx w ≠ none).1.1, (by simpa using hok.2 : (w ≠ v ∧ h.vlive w = true) ∧ h.idx w ≠ none).2⟩
    | ctorFrom v w m out =>
      simp only [Op.ok, Bool.and_eq_true, bne_iff_ne, Bool.not_eq_true', ne_eq] at hok
      exact (ctorFrom_spec hI hok.1.1.1 hok.1.2 hok.2).1
    | assign v w m out =>
      simp only [Op.ok, Bool.and_eq_true, bne_iff_ne, ne_eq] at hok
      exact (assign_spec hI hok.1.1 hok.2).1
    | swap v w tmp o1 o2 o3 =>
      simp only [Op.ok, Bool.and_eq_true, bne_iff_ne, Bool.not_eq_true', ne_eq] at hok
      exact swap_inv hI hok.1.1.1.1.1 hok.1.1.1.1.2 hok.1.1.1.2 hok.1.1.2 hok.1.2 hok.2
    | drop v => exact (drop_spec hI v).1
  · cases hs

theorem inv_reach {h : H} (hr : Reachable T n h) : Inv T n h :=
  Reach.inv (Inv T n) inv_init (fun _ a _ h hs => inv_step a h hs) h hr

end Verif.Variant
