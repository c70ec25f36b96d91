import Verif.Heap.Model
import Mathlib.Data.Nat.Bitwise
/-! # `intrusive_heap` — invariants and helper lemmas -/
namespace Verif.Heap

/-- Occurrences of a node in a tree. -/
@[grind] def cntT (a : Node) : T → Nat
  | .nil => 0
  | .node l x r => cntT a l + cntT a r + (if x = a then 1 else 0)

/-- `t` is the part below position `k` of the complete binary tree with positions `1..n`. -/
@[grind] def Comp (n : Nat) : Nat → T → Prop
  | k, .nil => n < k
  | k, .node l _ r => k ≤ n ∧ Comp n (2 * k) l ∧ Comp n (2 * k + 1) r

def b2n (b : Bool) : Nat := if b then 1 else 0

def idx : Nat → List Bool → Nat
  | k, [] => k
  | k, b :: p => idx (2 * k + b2n b) p

theorem idx_ge (p : List Bool) : ∀ k, k ≤ idx k p := by
  induction p with
  | nil => intro k; exact Nat.le_refl _
  | cons b p ih => intro k; have := ih (2 * k + b2n b); simp only [idx]; omega

/-- `k` is an ancestor-or-self of position `m`. -/
def Desc (k m : Nat) : Prop := ∃ j, m / 2 ^ j = k

theorem idx_desc (p : List Bool) : ∀ k, Desc k (idx k p) := by
  induction p with
  | nil => intro k; exact ⟨0, by simp [idx]⟩
  | cons b p ih =>
      intro k
      obtain ⟨j, hj⟩ := ih (2 * k + b2n b)
      refine ⟨j + 1, ?_⟩
      simp only [idx, Nat.pow_succ]
      rw [← Nat.div_div_eq_div_mul, hj]
      cases b <;> simp [b2n] <;> omega

theorem desc_disj {k m : Nat} (hk : 1 ≤ k) (h1 : Desc (2 * k) m) (h2 : Desc (2 * k + 1) m) : False := by
  obtain ⟨a, ha⟩ := h1
  obtain ⟨b, hb⟩ := h2
  rcases Nat.lt_trichotomy a b with h | h | h
  · obtain ⟨d, rfl⟩ : ∃ d, b = a + (d + 1) := ⟨b - a - 1, by omega⟩
    rw [Nat.pow_add, ← Nat.div_div_eq_div_mul, ha] at hb
    have : 2 * k / 2 ^ (d + 1) ≤ 2 * k := Nat.div_le_self _ _
    omega
  · subst h; omega
  · obtain ⟨d, rfl⟩ : ∃ d, a = b + (d + 1) := ⟨a - b - 1, by omega⟩
    rw [Nat.pow_add, ← Nat.div_div_eq_div_mul, hb, Nat.pow_succ, Nat.mul_comm (2 ^ d),
      ← Nat.div_div_eq_div_mul] at ha
    have : (2 * k + 1) / 2 / 2 ^ d ≤ (2 * k + 1) / 2 := Nat.div_le_self _ _
    omega

theorem desc_self (k : Nat) : Desc k k := ⟨0, by simp⟩

theorem desc_child {k m : Nat} (b : Bool) (h : Desc (2 * k + b2n b) m) : Desc k m := by
  obtain ⟨j, hj⟩ := h
  refine ⟨j + 1, ?_⟩
  rw [Nat.pow_succ, ← Nat.div_div_eq_div_mul, hj]
  cases b <;> simp [b2n] <;> omega

theorem desc_l {k m : Nat} (h : Desc (2 * k) m) : Desc k m := desc_child false (by simpa [b2n] using h)
theorem desc_r {k m : Nat} (h : Desc (2 * k + 1) m) : Desc k m := desc_child true (by simpa [b2n] using h)

/-- Adding or removing position `m` does not concern a subtree it does not lie in. -/
theorem comp_succ {n : Nat} : ∀ {t : T} {k : Nat}, ¬ Desc k (n + 1) → (Comp n k t ↔ Comp (n + 1) k t) := by
  intro t
  induction t with
  | nil =>
      intro k h
      have : k ≠ n + 1 := by rintro rfl; exact h (desc_self _)
      simp only [Comp]; omega
  | node l x r ihl ihr =>
      intro k h
      have : k ≠ n + 1 := by rintro rfl; exact h (desc_self _)
      have h1 := ihl (k := 2 * k) (fun hd => h (desc_l hd))
      have h2 := ihr (k := 2 * k + 1) (fun hd => h (desc_r hd))
      simp only [Comp, h1, h2]
      constructor <;> rintro ⟨a, b, c⟩ <;> exact ⟨by omega, b, c⟩

theorem pathLoop_zero (n : Nat) : pathLoop 0 n = [] := rfl

theorem pathLoopAux_fuel (n : Nat) : ∀ (f g m : Nat), m ≤ f → m ≤ g →
    pathLoopAux f m n = pathLoopAux g m n := by
  intro f
  induction f with
  | zero =>
      intro g m hf hg
      have : m = 0 := by omega
      subst this
      cases g <;> simp [pathLoopAux]
  | succ f ih =>
      intro g m hf hg
      cases g with
      | zero =>
          have : m = 0 := by omega
          subst this; simp [pathLoopAux]
      | succ g =>
          simp only [pathLoopAux]
          by_cases hm : m = 0
          · simp [hm]
          · have hh : m >>> 1 = m / 2 := by rw [Nat.shiftRight_eq_div_pow]
            rw [if_neg hm, if_neg hm, ih g (m >>> 1) (by omega) (by omega)]

theorem pathLoop_pos {m n : Nat} (h : m ≠ 0) :
    pathLoop m n = decide (m &&& n ≠ 0) :: pathLoop (m >>> 1) n := by
  have hh : m >>> 1 = m / 2 := by rw [Nat.shiftRight_eq_div_pow]
  obtain ⟨k, rfl⟩ : ∃ k, m = k + 1 := ⟨m - 1, by omega⟩
  show pathLoopAux (k + 1) (k + 1) n = _
  rw [pathLoopAux, if_neg h, pathLoopAux_fuel n k ((k + 1) >>> 1) ((k + 1) >>> 1) (by omega) (by omega)]
  rfl

theorem bit_step (n j : Nat) :
    2 * (n / 2 ^ (j + 1)) + b2n (decide (2 ^ j &&& n ≠ 0)) = n / 2 ^ j := by
  have h1 : b2n (decide (2 ^ j &&& n ≠ 0)) = n / 2 ^ j % 2 := by
    rw [Nat.and_comm, Nat.and_two_pow]
    have hp : 0 < 2 ^ j := Nat.two_pow_pos j
    have : n.testBit j = decide (n / 2 ^ j % 2 = 1) := Nat.testBit_eq_decide_div_mod_eq
    rw [this]
    by_cases h : n / 2 ^ j % 2 = 1
    · simp [h, b2n]
    · have h0 : n / 2 ^ j % 2 = 0 := by omega
      simp [h0, b2n]
  rw [h1, Nat.pow_succ, ← Nat.div_div_eq_div_mul]
  omega

theorem idx_pathLoop (n : Nat) : ∀ j, idx (n / 2 ^ (j + 1)) (pathLoop (2 ^ j) n) = n := by
  intro j
  induction j with
  | zero =>
      rw [pathLoop_pos (by simp)]
      have := bit_step n 0
      simp only [Nat.pow_zero, Nat.div_one] at this
      have h0 : 1 >>> 1 = 0 := by decide
      simp only [Nat.pow_zero, idx, h0, pathLoop_zero]
      exact this
  | succ j ih =>
      rw [pathLoop_pos (by have := Nat.two_pow_pos (j + 1); omega)]
      have h0 : 2 ^ (j + 1) >>> 1 = 2 ^ j := by
        rw [Nat.shiftRight_eq_div_pow, Nat.pow_succ]; omega
      simp only [idx, h0]
      rw [bit_step]
      exact ih

/-- The branch decisions computed from the bits of `n` lead to position `n`. -/
theorem idx_path {n : Nat} (hn : 1 ≤ n) : idx 1 (path n) = n := by
  have h1 : pathMask n = 2 ^ (Nat.log2 n + 1) / 4 := by
    unfold pathMask bitCeil
    rw [Nat.shiftRight_eq_div_pow, if_neg (by omega)]
    simp
  have h2 : n / 2 ^ Nat.log2 n = 1 := by
    have hl := Nat.log2_self_le (n := n) (by omega)
    have hu := Nat.lt_log2_self (n := n)
    rw [Nat.pow_succ] at hu
    have hp : 0 < 2 ^ Nat.log2 n := Nat.two_pow_pos _
    apply Nat.le_antisymm
    · have : n / 2 ^ n.log2 < 2 := (Nat.div_lt_iff_lt_mul hp).2 (by omega)
      omega
    · exact (Nat.le_div_iff_mul_le hp).2 (by omega)
  unfold path
  rw [h1]
  cases hl : Nat.log2 n with
  | zero =>
      rw [hl] at h2
      simp at h2
      simp [pathLoop_zero, idx, h2]
  | succ j =>
      have : 2 ^ (j + 1 + 1) / 4 = 2 ^ j := by rw [Nat.pow_succ, Nat.pow_succ]; omega
      rw [this]
      rw [hl] at h2
      have := idx_pathLoop n j
      rw [h2] at this
      exact this

section
variable {K : Type} [LinearOrder K] (key : Node → K)

/-- Heap order, below an optional bound. -/
@[grind] def HB : Option Node → T → Prop
  | _, .nil => True
  | b, .node l y r => (∀ z, b = some z → key z ≤ key y) ∧ HB (some y) l ∧ HB (some y) r

theorem HB_mono {t : T} {b b' : Option Node}
    (h : ∀ z', b' = some z' → ∃ z, b = some z ∧ key z' ≤ key z) (ht : HB key b t) : HB key b' t := by
  cases t with
  | nil => trivial
  | node l y r =>
      refine ⟨fun z' hz' => ?_, ht.2.1, ht.2.2⟩
      obtain ⟨z, hz, hle⟩ := h z' hz'
      exact le_trans hle (ht.1 z hz)

theorem HB_le {t : T} {x y : Node} (h : key x ≤ key y) (ht : HB key (some y) t) : HB key (some x) t :=
  HB_mono key (b := some y) (fun z' hz' => ⟨y, rfl, by cases hz'; exact h⟩) ht

theorem HB_none {t : T} {b : Option Node} (ht : HB key b t) : HB key none t :=
  HB_mono key (fun z' hz' => by simp at hz') ht

theorem HB_bound {t : T} : ∀ {b : Option Node} {z a : Node}, HB key b t → b = some z → 0 < cntT a t →
    key z ≤ key a := by
  induction t with
  | nil => intro b z a _ _ h; simp [cntT] at h
  | node l y r ihl ihr =>
      intro b z a h hb hc
      have hzy := h.1 z hb
      by_cases hl : 0 < cntT a l
      · exact le_trans hzy (ihl h.2.1 rfl hl)
      by_cases hr : 0 < cntT a r
      · exact le_trans hzy (ihr h.2.2 rfl hr)
      have : y = a := by
        simp only [cntT] at hc
        by_contra hne
        simp [hne] at hc; omega
      exact this ▸ hzy

/-- Every node's `Prev` link is its parent. -/
@[grind] def PO (prev : Prev) : Option Node → T → Prop
  | _, .nil => True
  | par, .node l y r => prev y = par ∧ PO prev (some y) l ∧ PO prev (some y) r

theorem PO_frame {prev prev' : Prev} : ∀ {t : T} {par : Option Node},
    (∀ a, 0 < cntT a t → prev' a = prev a) → PO prev par t → PO prev' par t := by
  intro t
  induction t with
  | nil => intros; trivial
  | node l y r ihl ihr =>
      intro par hf h
      refine ⟨?_, ihl (fun a ha => hf a (by simp only [cntT]; omega)) h.2.1,
        ihr (fun a ha => hf a (by simp only [cntT]; omega)) h.2.2⟩
      rw [hf y (by simp [cntT])]
      exact h.1

theorem PO_upd {prev : Prev} {t : T} {par : Option Node} {a : Node} {v : Option Node}
    (hc : cntT a t = 0) (h : PO prev par t) : PO (upd prev a v) par t := by
  refine PO_frame (fun b hb => upd_other _ _ ?_) h
  rintro rfl; omega

/-- Re-parenting a subtree: only its root's link changes. -/
theorem PO_reparent {prev : Prev} {t : T} {par v : Option Node} (hn : ∀ a, cntT a t ≤ 1)
    (h : PO prev par t) : PO (setP prev t.root v) v t := by
  cases t with
  | nil => trivial
  | node l y r =>
      have hy := hn y
      simp only [cntT, if_true] at hy
      refine ⟨by simp [setP, T.root], ?_, ?_⟩
      · exact PO_upd (by omega) h.2.1
      · exact PO_upd (by omega) h.2.2

theorem setP_other {prev : Prev} {t : T} {v : Option Node} {a : Node} (h : cntT a t = 0) :
    setP prev t.root v a = prev a := by
  cases t with
  | nil => rfl
  | node l y r =>
      simp only [T.root, setP]
      refine upd_other _ _ ?_
      rintro rfl
      simp [cntT] at h

theorem PO_setP {prev : Prev} {t u : T} {par v : Option Node}
    (hd : ∀ a, 0 < cntT a t → cntT a u = 0) (h : PO prev par t) : PO (setP prev u.root v) par t :=
  PO_frame (fun a ha => setP_other (hd a ha)) h

theorem root_cnt {t : T} {x : Node} (h : t.root = some x) : 0 < cntT x t := by
  cases t with
  | nil => simp [T.root] at h
  | node l y r => simp [T.root] at h; simp [cntT, h]

/-! ## insert -/

theorem pushDown_spec : ∀ (p : List Bool) (t : T) (x : Node) (xr : T) (prev : Prev) (k n : Nat),
    1 ≤ k → Comp n k t → idx k p = n + 1 → (p = [] → xr = .nil) →
    cntT x t = 0 → (∀ a, cntT a t ≤ 1) → HB key (some x) t → PO prev (some x) t →
    ∃ t' prev', pushDown p t x xr prev = some (t', prev') ∧ Comp (n + 1) k t' ∧
      (∀ a, cntT a t' = cntT a t + if x = a then 1 else 0) ∧
      (∀ b, (∀ z, b = some z → key z ≤ key x) → HB key b t') ∧
      PO prev' (prev x) t' ∧ (∀ a, cntT a t = 0 → prev' a = prev a) := by
  intro p
  induction p with
  | nil =>
      intro t x xr prev k n hk hc hi hxr hx hnd hh hp
      have hxr := hxr rfl
      subst hxr
      simp only [idx] at hi
      cases t with
      | node l y r => simp only [Comp] at hc; omega
      | nil =>
          refine ⟨_, _, rfl, ?_, ?_, ?_, ?_, ?_⟩
          · simp only [Comp]; omega
          · intro a; simp [cntT]
          · intro b hb; exact ⟨hb, trivial, trivial⟩
          · exact ⟨rfl, trivial, trivial⟩
          · intros; rfl
  | cons b p ih =>
      intro t x xr prev k n hk hc hi hxr hx hnd hh hp
      simp only [idx] at hi
      have hge := idx_ge p (2 * k + b2n b)
      cases t with
      | nil => simp only [Comp] at hc; omega
      | node l y r =>
          simp only [Comp] at hc
          obtain ⟨hkn, hcl, hcr⟩ := hc
          have hndl : ∀ a, cntT a l ≤ 1 := fun a => by have := hnd a; simp only [cntT] at this; omega
          have hndr : ∀ a, cntT a r ≤ 1 := fun a => by have := hnd a; simp only [cntT] at this; omega
          have hy := hnd y
          simp only [cntT, if_true] at hy
          have hdisj : ∀ a, 0 < cntT a l → cntT a r = 0 := fun a ha => by
            have := hnd a; simp only [cntT] at this; omega
          have hxl : cntT x l = 0 := by simp only [cntT] at hx; omega
          have hxr' : cntT x r = 0 := by simp only [cntT] at hx; omega
          have hxy : y ≠ x := by rintro rfl; simp [cntT] at hx
          have hkx : key x ≤ key y := hh.1 x rfl
          cases b with
          | true =>
              simp only [b2n, if_true] at hi
              have hl : ∃ ll lx lr, l = .node ll lx lr := by
                cases l with
                | nil => simp only [Comp] at hcl; simp [b2n] at hge; omega
                | node ll lx lr => exact ⟨_, _, _, rfl⟩
              obtain ⟨ll, lx, lr, rfl⟩ := hl
              have hlx : 0 < cntT lx (.node ll lx lr) := by simp [cntT]
              have hlxy : lx ≠ y := by rintro rfl; omega
              have hlxr : cntT lx r = 0 := hdisj lx hlx
              have hlxx : lx ≠ x := by rintro rfl; omega
              obtain ⟨t', prev', he, h1, h2, h3, h4, h5⟩ :=
                ih r y r (upd prev lx (some x)) (2 * k + 1) n (by omega) hcr hi
                  (by
                    rintro rfl
                    cases r with
                    | nil => rfl
                    | node => simp only [Comp] at hcr; simp only [idx] at hi; omega)
                  (by omega) hndr hh.2.2 (PO_upd hlxr hp.2.2)
              refine ⟨.node (.node ll lx lr) x t', prev', ?_, ?_, ?_, ?_, ?_, ?_⟩
              · simp only [pushDown, T.root, he, Option.map]
              · refine ⟨by omega, ?_, h1⟩
                refine (comp_succ ?_).1 hcl
                intro hd
                exact desc_disj hk hd (hi ▸ idx_desc p _)
              · intro a
                have := h2 a
                simp only [cntT] at this ⊢
                rw [this]; omega
              · intro b' hb'
                exact ⟨hb', HB_le key hkx hh.2.1, h3 _ (by simp; exact hkx)⟩
              · refine ⟨?_, ?_, ?_⟩
                · rw [h5 x hxr', upd_other _ _ (Ne.symm hlxx)]
                · have := PO_reparent (v := some x) hndl hp.2.1
                  refine PO_frame (fun a ha => ?_) this
                  rw [h5 a (hdisj a ha)]
                  rfl
                · rw [upd_other _ _ (Ne.symm hlxy), hp.1] at h4
                  exact h4
              · intro a ha
                simp only [cntT] at ha
                rw [h5 a (by omega), upd_other]
                rintro rfl
                simp at ha
          | false =>
              simp only [b2n] at hi
              simp at hi
              obtain ⟨t', prev', he, h1, h2, h3, h4, h5⟩ :=
                ih l y r (setP prev r.root (some x)) (2 * k) n (by omega) hcl hi
                  (by
                    rintro rfl
                    cases r with
                    | nil => rfl
                    | node => simp only [Comp] at hcr; simp only [idx] at hi; omega)
                  (by omega) hndl hh.2.1 (PO_setP hdisj hp.2.1)
              refine ⟨.node t' x r, prev', ?_, ?_, ?_, ?_, ?_, ?_⟩
              · simp only [pushDown, he, Option.map]
              · refine ⟨by omega, h1, ?_⟩
                refine (comp_succ ?_).1 hcr
                intro hd
                exact desc_disj hk (hi ▸ idx_desc p _) hd
              · intro a
                have := h2 a
                simp only [cntT] at this ⊢
                rw [this]; omega
              · intro b' hb'
                exact ⟨hb', h3 _ (by simp; exact hkx), HB_le key hkx hh.2.2⟩
              · refine ⟨?_, ?_, ?_⟩
                · rw [h5 x hxl, setP_other hxr']
                · rw [setP_other (by omega), hp.1] at h4
                  exact h4
                · have := PO_reparent (v := some x) hndr hp.2.2
                  refine PO_frame (fun a ha => ?_) this
                  rw [h5 a]
                  have := hnd a; simp only [cntT] at this; omega
              · intro a ha
                simp only [cntT] at ha
                rw [h5 a (by omega), setP_other (by omega)]

theorem insertAt_spec : ∀ (p : List Bool) (t : T) (x : Node) (par : Option Node) (prev : Prev) (k n : Nat),
    1 ≤ k → Comp n k t → idx k p = n + 1 →
    cntT x t = 0 → (∀ a, cntT a t ≤ 1) → HB key par t → (∀ z, par = some z → key z ≤ key x) →
    PO prev par t →
    ∃ t' prev', insertAt key p t x par prev = some (t', prev') ∧ Comp (n + 1) k t' ∧
      (∀ a, cntT a t' = cntT a t + if x = a then 1 else 0) ∧
      HB key par t' ∧ PO prev' par t' ∧ (∀ a, a ≠ x → cntT a t = 0 → prev' a = prev a) := by
  intro p
  induction p with
  | nil =>
      intro t x par prev k n hk hc hi hx hnd hh hpx hp
      simp only [idx] at hi
      cases t with
      | node l y r => simp only [Comp] at hc; omega
      | nil =>
          refine ⟨_, _, rfl, ?_, ?_, ?_, ?_, ?_⟩
          · simp only [Comp]; omega
          · intro a; simp [cntT]
          · exact ⟨hpx, trivial, trivial⟩
          · exact ⟨by simp, trivial, trivial⟩
          · intro a ha _; exact upd_other _ _ ha
  | cons b p ih =>
      intro t x par prev k n hk hc hi hx hnd hh hpx hp
      have hi0 := hi
      simp only [idx] at hi
      have hge := idx_ge p (2 * k + b2n b)
      cases t with
      | nil => simp only [Comp] at hc; omega
      | node l y r =>
          have hc0 := hc
          simp only [Comp] at hc
          obtain ⟨hkn, hcl, hcr⟩ := hc
          have hndl : ∀ a, cntT a l ≤ 1 := fun a => by have := hnd a; simp only [cntT] at this; omega
          have hndr : ∀ a, cntT a r ≤ 1 := fun a => by have := hnd a; simp only [cntT] at this; omega
          have hy := hnd y
          simp only [cntT, if_true] at hy
          have hdisj : ∀ a, 0 < cntT a l → cntT a r = 0 := fun a ha => by
            have := hnd a; simp only [cntT] at this; omega
          have hxl : cntT x l = 0 := by simp only [cntT] at hx; omega
          have hxr' : cntT x r = 0 := by simp only [cntT] at hx; omega
          have hxy : y ≠ x := by rintro rfl; simp [cntT] at hx
          by_cases hlt : key x < key y
          · have hle : key x ≤ key y := le_of_lt hlt
            obtain ⟨t', prev', he, h1, h2, h3, h4, h5⟩ :=
              pushDown_spec key (b :: p) (.node l y r) x .nil (upd (upd prev x par) y (some x)) k n hk
                hc0 hi0 (by simp) hx hnd ⟨by simpa using hle, hh.2.1, hh.2.2⟩
                ⟨by simp, PO_upd (by omega) (PO_upd hxl hp.2.1), PO_upd (by omega) (PO_upd hxr' hp.2.2)⟩
            refine ⟨t', prev', ?_, h1, h2, ?_, ?_, ?_⟩
            · simp only [insertAt, if_pos hlt]; exact he
            · exact h3 _ hpx
            · rw [upd_other _ _ (Ne.symm hxy), upd_same] at h4; exact h4
            · intro a ha hca
              rw [h5 a hca, upd_other, upd_other _ _ ha]
              rintro rfl; simp [cntT] at hca
          · have hle : key y ≤ key x := le_of_not_gt hlt
            cases b with
            | true =>
                simp only [b2n, if_true] at hi
                obtain ⟨t', prev', he, h1, h2, h3, h4, h5⟩ :=
                  ih r x (some y) prev (2 * k + 1) n (by omega) hcr hi hxr' hndr hh.2.2
                    (by simp; exact hle) hp.2.2
                refine ⟨.node l y t', prev', ?_, ?_, ?_, ?_, ?_, ?_⟩
                · simp only [insertAt, if_neg hlt, he, Option.map]; rfl
                · refine ⟨by omega, ?_, h1⟩
                  refine (comp_succ ?_).1 hcl
                  intro hd
                  exact desc_disj hk hd (hi ▸ idx_desc p _)
                · intro a
                  have := h2 a
                  simp only [cntT] at this ⊢
                  rw [this]; omega
                · exact ⟨hh.1, hh.2.1, h3⟩
                · refine ⟨?_, ?_, h4⟩
                  · rw [h5 y hxy (by omega)]; exact hp.1
                  · refine PO_frame (fun a ha => h5 a ?_ (hdisj a ha)) hp.2.1
                    rintro rfl; omega
                · intro a ha hca
                  simp only [cntT] at hca
                  exact h5 a ha (by omega)
            | false =>
                simp only [b2n] at hi
                simp at hi
                obtain ⟨t', prev', he, h1, h2, h3, h4, h5⟩ :=
                  ih l x (some y) prev (2 * k) n (by omega) hcl hi hxl hndl hh.2.1
                    (by simp; exact hle) hp.2.1
                refine ⟨.node t' y r, prev', ?_, ?_, ?_, ?_, ?_, ?_⟩
                · simp only [insertAt, if_neg hlt, he, Option.map]; rfl
                · refine ⟨by omega, h1, ?_⟩
                  refine (comp_succ ?_).1 hcr
                  intro hd
                  exact desc_disj hk (hi ▸ idx_desc p _) hd
                · intro a
                  have := h2 a
                  simp only [cntT] at this ⊢
                  rw [this]; omega
                · exact ⟨hh.1, h3, hh.2.2⟩
                · refine ⟨?_, h4, ?_⟩
                  · rw [h5 y hxy (by omega)]; exact hp.1
                  · refine PO_frame (fun a ha => h5 a ?_ ?_) hp.2.2
                    · rintro rfl; omega
                    · have := hnd a; simp only [cntT] at this; omega
                · intro a ha hca
                  simp only [cntT] at hca
                  exact h5 a ha (by omega)

end
end Verif.Heap
