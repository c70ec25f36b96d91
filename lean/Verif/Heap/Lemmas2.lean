import Verif.Heap.Lemmas
/-! # `intrusive_heap` — removal, sifting -/
namespace Verif.Heap

section
variable {K : Type} [LinearOrder K] (key : Node → K)

/-- The node at position `n / 2` (if it is in this subtree, whose root has position `k`) is not above `c`. -/
def LB (n : Nat) (c : Node) : Nat → T → Prop
  | _, .nil => True
  | k, .node l y r => (k = n / 2 → key y ≤ key c) ∧ LB n c (2 * k) l ∧ LB n c (2 * k + 1) r

theorem LB_off {n : Nat} {c : Node} : ∀ {t : T} {k : Nat}, ¬ Desc k (n / 2) → LB key n c k t := by
  intro t
  induction t with
  | nil => intros; trivial
  | node l y r ihl ihr =>
      intro k h
      exact ⟨fun he => absurd (he ▸ desc_self _) h, ihl (fun hd => h (desc_l hd)), ihr (fun hd => h (desc_r hd))⟩

theorem desc_half {k n : Nat} (hk : k ≠ n) (h : Desc k n) : Desc k (n / 2) := by
  obtain ⟨j, hj⟩ := h
  cases j with
  | zero => simp at hj; exact absurd hj.symm hk
  | succ j =>
      refine ⟨j, ?_⟩
      rw [Nat.pow_succ, Nat.mul_comm, ← Nat.div_div_eq_div_mul] at hj
      exact hj

theorem desc_le {k n : Nat} (h : Desc k n) : k ≤ n := by
  obtain ⟨j, rfl⟩ := h
  exact Nat.div_le_self _ _

theorem idx_half (p : List Bool) : ∀ {k n : Nat}, 1 ≤ k → idx k p = n → k = n / 2 → ∃ b, p = [b] := by
  intro k n hk hi hh
  match p with
  | [] => simp only [idx] at hi; omega
  | [b] => exact ⟨b, rfl⟩
  | b :: b' :: p =>
      simp only [idx] at hi
      have := idx_ge p (2 * (2 * k + b2n b) + b2n b')
      omega

theorem removeLast_spec : ∀ (p : List Bool) (t : T) (k n : Nat) (par : Option Node),
    1 ≤ k → Comp (n + 1) k t → idx k p = n + 1 → HB key par t →
    ∃ t1 c, removeLast p t = some (t1, c) ∧ Comp n k t1 ∧
      (∀ a, cntT a t = cntT a t1 + if c = a then 1 else 0) ∧ HB key par t1 ∧
      (∀ prev q, PO prev q t → PO prev q t1) ∧
      LB key (n + 1) c k t1 ∧
      (p ≠ [] → t1.root = t.root) := by
  intro p
  induction p with
  | nil =>
      intro t k n par hk hc hi hh
      simp only [idx] at hi
      subst hi
      cases t with
      | nil => simp only [Comp] at hc; omega
      | node l x r =>
          have hl : l = .nil := by
            cases l with
            | nil => rfl
            | node => simp only [Comp] at hc; omega
          have hr : r = .nil := by
            cases r with
            | nil => rfl
            | node => simp only [Comp] at hc; omega
          subst hl hr
          refine ⟨_, _, rfl, ?_, ?_, trivial, fun _ _ _ => trivial, trivial, by simp⟩
          · simp only [Comp]; omega
          · intro a; simp [cntT]
  | cons b p ih =>
      intro t k n par hk hc hi hh
      simp only [idx] at hi
      have hge := idx_ge p (2 * k + b2n b)
      cases t with
      | nil => simp only [Comp] at hc; omega
      | node l y r =>
          simp only [Comp] at hc
          obtain ⟨hkn, hcl, hcr⟩ := hc
          cases b with
          | true =>
              simp only [b2n, if_true] at hi hge
              obtain ⟨t1, c, he, h1, h2, h3, h4, h5, h6⟩ := ih r (2 * k + 1) n (some y) (by omega) hcr hi hh.2.2
              have hd := idx_desc p (2 * k + 1)
              rw [hi] at hd
              refine ⟨.node l y t1, c, ?_, ⟨by omega, ?_, h1⟩, ?_, ⟨hh.1, hh.2.1, h3⟩, ?_, ?_, by simp [T.root]⟩
              · simp only [removeLast, he, Option.map]
              · refine (comp_succ ?_).2 hcl
                intro hd'
                exact desc_disj hk hd' hd
              · intro a; have := h2 a; simp only [cntT] at this ⊢; omega
              · intro prev q hp; exact ⟨hp.1, hp.2.1, h4 _ _ hp.2.2⟩
              · refine ⟨?_, ?_, h5⟩
                · intro _
                  exact HB_bound key hh.2.2 rfl (by have := h2 c; simp at this; omega)
                · apply LB_off
                  intro hd'
                  by_cases hx : 2 * k + 1 = n + 1
                  · have := desc_le hd'; omega
                  · exact desc_disj hk hd' (desc_half hx hd)
          | false =>
              simp only [b2n] at hi hge
              simp at hi hge
              obtain ⟨t1, c, he, h1, h2, h3, h4, h5, h6⟩ := ih l (2 * k) n (some y) (by omega) hcl hi hh.2.1
              have hd := idx_desc p (2 * k)
              rw [hi] at hd
              refine ⟨.node t1 y r, c, ?_, ⟨by omega, h1, ?_⟩, ?_, ⟨hh.1, h3, hh.2.2⟩, ?_, ?_, by simp [T.root]⟩
              · simp only [removeLast, he, Option.map]
              · refine (comp_succ ?_).2 hcr
                intro hd'
                exact desc_disj hk hd hd'
              · intro a; have := h2 a; simp only [cntT] at this ⊢; omega
              · intro prev q hp; exact ⟨hp.1, h4 _ _ hp.2.1, hp.2.2⟩
              · refine ⟨?_, h5, ?_⟩
                · intro _
                  exact HB_bound key hh.2.1 rfl (by have := h2 c; simp at this; omega)
                · apply LB_off
                  intro hd'
                  by_cases hx : 2 * k = n + 1
                  · have := desc_le hd'; omega
                  · exact desc_disj hk (desc_half hx hd) hd'

/-! ## siftDown -/

theorem siftDown_spec : ∀ (m : Nat) (l : T) (h : Node) (r : T) (x : Node) (par : Option Node) (prev : Prev) (k n : Nat),
    sizeOf (T.node l h r) ≤ m →
    1 ≤ k → Comp n k (.node l h r) →
    cntT x l = 0 → cntT x r = 0 → (∀ a, cntT a (.node l h r) ≤ 1) →
    HB key par l → HB key par r → (∀ z, par = some z → key z ≤ key x) →
    PO prev (some h) l → PO prev (some h) r →
    ∃ l' z r' prev', siftDown key (.node l h r) x par prev = (.node l' z r', prev') ∧
      Comp n k (.node l' z r') ∧
      (∀ a, cntT a (.node l' z r') = cntT a l + cntT a r + if x = a then 1 else 0) ∧
      HB key par (.node l' z r') ∧
      PO prev' (some z) l' ∧ PO prev' (some z) r' ∧
      (prev' z = par ∨ prev' z = some h) ∧
      (∀ a, a ≠ x → cntT a l = 0 → cntT a r = 0 → prev' a = prev a) := by
  intro m
  induction m with
  | zero => intro l h r _ _ _ _ _ hm; simp at hm
  | succ m ih =>
      intro l h r x par prev k n hm hk hc hxl hxr hnd hbl hbr hpx hpl hpr
      cases l with
      | nil =>
          have hr : r = .nil := by
            cases r with
            | nil => rfl
            | node => simp only [Comp] at hc; omega
          subst hr
          refine ⟨.nil, x, .nil, upd prev x par, rfl, hc, ?_, ⟨hpx, trivial, trivial⟩, trivial, trivial, ?_, ?_⟩
          · intro a; simp [cntT]
          · left; simp
          · intro a ha _ _; exact upd_other _ _ ha
      | node ll lx lr =>
          have hlx := hnd lx
          simp only [cntT, if_true] at hlx
          have hndl : ∀ a, cntT a (.node ll lx lr) ≤ 1 := fun a => by
            have := hnd a; simp only [cntT] at this ⊢; omega
          have hxlx : lx ≠ x := by rintro rfl; simp [cntT] at hxl
          have hxll : cntT x ll = 0 := by simp only [cntT] at hxl; omega
          have hxlr : cntT x lr = 0 := by simp only [cntT] at hxl; omega
          cases r with
          | nil =>
              by_cases hlt : key lx < key x
              · obtain ⟨l', z, r', prev', he, h1, h2, h3, h4, h5, h6, h7⟩ :=
                  ih ll lx lr x (some lx) prev (2 * k) n (by simp at hm ⊢; omega) (by omega) hc.2.1
                    hxll hxlr hndl hbl.2.1 hbl.2.2
                    (by simp; exact le_of_lt hlt) hpl.2.1 hpl.2.2
                refine ⟨.node l' z r', lx, .nil, prev', ?_, ⟨hc.1, h1, hc.2.2⟩, ?_, ⟨hbl.1, h3, trivial⟩,
                  ⟨by simpa using h6, h4, h5⟩, trivial, ?_, ?_⟩
                · simp only [siftDown, if_pos hlt, he]
                · intro a; have := h2 a; simp only [cntT] at this ⊢; omega
                · right; rw [h7 lx hxlx (by omega) (by omega)]; exact hpl.1
                · intro a ha hal har
                  simp only [cntT] at hal
                  exact h7 a ha (by omega) (by omega)
              · have hle : key x ≤ key lx := le_of_not_gt hlt
                refine ⟨.node ll lx lr, x, .nil, upd (upd prev lx (some x)) x par, by simp only [siftDown, if_neg hlt], ⟨hc.1, hc.2.1, hc.2.2⟩, ?_,
                  ⟨hpx, ⟨by simp; exact hle, hbl.2.1, hbl.2.2⟩, trivial⟩, ?_, trivial, ?_, ?_⟩
                · intro a; simp [cntT]
                · refine ⟨?_, ?_, ?_⟩
                  · rw [upd_other _ _ hxlx]; simp
                  · exact PO_upd hxll (PO_upd (by omega) hpl.2.1)
                  · exact PO_upd hxlr (PO_upd (by omega) hpl.2.2)
                · left; simp
                · intro a ha hal _
                  rw [upd_other _ _ ha, upd_other]
                  rintro rfl; simp [cntT] at hal
          | node rl rx rr =>
              have hrx := hnd rx
              simp only [cntT, if_true] at hrx
              have hndr : ∀ a, cntT a (.node rl rx rr) ≤ 1 := fun a => by
                have := hnd a; simp only [cntT] at this ⊢; omega
              have hxrx : rx ≠ x := by rintro rfl; simp [cntT] at hxr
              have hxrl : cntT x rl = 0 := by simp only [cntT] at hxr; omega
              have hxrr : cntT x rr = 0 := by simp only [cntT] at hxr; omega
              have hlr : lx ≠ rx := by rintro rfl; simp only [if_true, cntT] at hlx; omega
              simp only [cntT, if_neg hlr, if_neg (Ne.symm hlr)] at hlx hrx
              have stop : ∀ (hle1 : key x ≤ key lx) (hle2 : key x ≤ key rx),
                  ∃ l' z r' prev', ((.node (.node ll lx lr) x (.node rl rx rr),
                      upd (upd (upd prev rx (some x)) lx (some x)) x par) : T × Prev) =
                      (.node l' z r', prev') ∧
                    Comp n k (.node l' z r') ∧
                    (∀ a, cntT a (.node l' z r') =
                      cntT a (.node ll lx lr) + cntT a (.node rl rx rr) + if x = a then 1 else 0) ∧
                    HB key par (.node l' z r') ∧
                    PO prev' (some z) l' ∧ PO prev' (some z) r' ∧
                    (prev' z = par ∨ prev' z = some h) ∧
                    (∀ a, a ≠ x → cntT a (.node ll lx lr) = 0 → cntT a (.node rl rx rr) = 0 →
                      prev' a = prev a) := by
                intro hle1 hle2
                refine ⟨_, _, _, _, rfl, ⟨hc.1, hc.2.1, hc.2.2⟩, ?_, ⟨hpx, ⟨by simp; exact hle1, hbl.2.1, hbl.2.2⟩,
                  ⟨by simp; exact hle2, hbr.2.1, hbr.2.2⟩⟩, ?_, ?_, ?_, ?_⟩
                · intro a; simp only [cntT]
                · refine ⟨?_, ?_, ?_⟩
                  · rw [upd_other _ _ hxlx]; simp
                  · exact PO_upd hxll (PO_upd (by omega) (PO_upd (by omega) hpl.2.1))
                  · exact PO_upd hxlr (PO_upd (by omega) (PO_upd (by omega) hpl.2.2))
                · refine ⟨?_, ?_, ?_⟩
                  · rw [upd_other _ _ hxrx, upd_other _ _ (Ne.symm hlr)]; simp
                  · exact PO_upd hxrl (PO_upd (by omega) (PO_upd (by omega) hpr.2.1))
                  · exact PO_upd hxrr (PO_upd (by omega) (PO_upd (by omega) hpr.2.2))
                · left; simp
                · intro a ha hal har
                  rw [upd_other _ _ ha, upd_other, upd_other]
                  · rintro rfl; simp [cntT] at har
                  · rintro rfl; simp [cntT] at hal
              by_cases hrl : key rx < key lx
              · by_cases hlt : key rx < key x
                · obtain ⟨l', z, r', prev', he, h1, h2, h3, h4, h5, h6, h7⟩ :=
                    ih rl rx rr x (some rx) (upd prev lx (some rx)) (2 * k + 1) n (by simp at hm ⊢; omega)
                      (by omega) hc.2.2 hxrl hxrr hndr hbr.2.1 hbr.2.2
                      (by simp; exact le_of_lt hlt) (PO_upd (by omega) hpr.2.1) (PO_upd (by omega) hpr.2.2)
                  refine ⟨.node ll lx lr, rx, .node l' z r', prev', ?_, ⟨hc.1, hc.2.1, h1⟩, ?_,
                    ⟨hbr.1, ⟨by simp; exact le_of_lt hrl, hbl.2.1, hbl.2.2⟩, h3⟩, ?_, ⟨by simpa using h6, h4, h5⟩, ?_, ?_⟩
                  · simp only [siftDown, if_pos hrl, if_pos hlt, he]
                  · intro a; have := h2 a; simp only [cntT] at this ⊢; omega
                  · have hfr : ∀ a, 0 < cntT a ll ∨ 0 < cntT a lr → a ≠ x ∧ a ≠ lx ∧ cntT a rl = 0 ∧ cntT a rr = 0 := by
                      intro a ha
                      have hna := hnd a
                      simp only [cntT] at hna
                      refine ⟨?_, ?_, by omega, by omega⟩ <;> rintro rfl <;> omega
                    refine ⟨?_, ?_, ?_⟩
                    · rw [h7 lx hxlx (by omega) (by omega)]; simp
                    · refine PO_frame (fun a ha => ?_) hpl.2.1
                      obtain ⟨h1, h2, h3, h4⟩ := hfr a (.inl ha)
                      rw [h7 a h1 h3 h4, upd_other _ _ h2]
                    · refine PO_frame (fun a ha => ?_) hpl.2.2
                      obtain ⟨h1, h2, h3, h4⟩ := hfr a (.inr ha)
                      rw [h7 a h1 h3 h4, upd_other _ _ h2]
                  · right; rw [h7 rx hxrx (by omega) (by omega), upd_other _ _ (Ne.symm hlr)]; exact hpr.1
                  · intro a ha hal har
                    simp only [cntT] at hal har
                    rw [h7 a ha (by omega) (by omega), upd_other]
                    rintro rfl; simp at hal
                · have hle : key x ≤ key rx := le_of_not_gt hlt
                  obtain ⟨l', z, r', prev', he, hrest⟩ := stop (le_trans hle (le_of_lt hrl)) hle
                  exact ⟨l', z, r', prev', by simp only [siftDown, if_pos hrl, if_neg hlt, he], hrest⟩
              · have hlr' : key lx ≤ key rx := le_of_not_gt hrl
                by_cases hlt : key lx < key x
                · obtain ⟨l', z, r', prev', he, h1, h2, h3, h4, h5, h6, h7⟩ :=
                    ih ll lx lr x (some lx) (upd prev rx (some lx)) (2 * k) n (by simp at hm ⊢; omega)
                      (by omega) hc.2.1 hxll hxlr hndl hbl.2.1 hbl.2.2
                      (by simp; exact le_of_lt hlt) (PO_upd (by omega) hpl.2.1) (PO_upd (by omega) hpl.2.2)
                  refine ⟨.node l' z r', lx, .node rl rx rr, prev', ?_, ⟨hc.1, h1, hc.2.2⟩, ?_,
                    ⟨hbl.1, h3, ⟨by simp; exact hlr', hbr.2.1, hbr.2.2⟩⟩, ⟨by simpa using h6, h4, h5⟩, ?_, ?_, ?_⟩
                  · simp only [siftDown, if_neg hrl, if_pos hlt, he]
                  · intro a; have := h2 a; simp only [cntT] at this ⊢; omega
                  · have hfr : ∀ a, 0 < cntT a rl ∨ 0 < cntT a rr → a ≠ x ∧ a ≠ rx ∧ cntT a ll = 0 ∧ cntT a lr = 0 := by
                      intro a ha
                      have hna := hnd a
                      simp only [cntT] at hna
                      refine ⟨?_, ?_, by omega, by omega⟩ <;> rintro rfl <;> omega
                    refine ⟨?_, ?_, ?_⟩
                    · rw [h7 rx hxrx (by omega) (by omega)]; simp
                    · refine PO_frame (fun a ha => ?_) hpr.2.1
                      obtain ⟨h1, h2, h3, h4⟩ := hfr a (.inl ha)
                      rw [h7 a h1 h3 h4, upd_other _ _ h2]
                    · refine PO_frame (fun a ha => ?_) hpr.2.2
                      obtain ⟨h1, h2, h3, h4⟩ := hfr a (.inr ha)
                      rw [h7 a h1 h3 h4, upd_other _ _ h2]
                  · right; rw [h7 lx hxlx (by omega) (by omega), upd_other _ _ hlr]; exact hpl.1
                  · intro a ha hal har
                    simp only [cntT] at hal har
                    rw [h7 a ha (by omega) (by omega), upd_other]
                    rintro rfl; simp at har
                · have hle : key x ≤ key lx := le_of_not_gt hlt
                  obtain ⟨l', z, r', prev', he, hrest⟩ := stop hle (le_trans hle hlr')
                  exact ⟨l', z, r', prev', by simp only [siftDown, if_neg hrl, if_neg hlt, he], hrest⟩

/-! ## Contexts -/

def ctxPar : List Frame → Option Node
  | [] => none
  | f :: _ => some f.y

def cntC (a : Node) : List Frame → Nat
  | [] => 0
  | f :: ctx => (if f.y = a then 1 else 0) + cntT a f.sib + cntC a ctx

def CtxComp (n : Nat) : Nat → List Frame → Prop
  | j, [] => j = 1
  | j, f :: ctx => j / 2 ≤ n ∧ j % 2 = b2n f.right ∧ 2 ≤ j ∧
      (if f.right then Comp n (j - 1) f.sib else Comp n (j + 1) f.sib) ∧ CtxComp n (j / 2) ctx

def CtxHB : List Frame → Prop
  | [] => True
  | f :: ctx => HB key (some f.y) f.sib ∧ (∀ z, ctxPar ctx = some z → key z ≤ key f.y) ∧ CtxHB ctx

def CtxPO (prev : Prev) : List Frame → Prop
  | [] => True
  | f :: ctx => prev f.y = ctxPar ctx ∧ PO prev (some f.y) f.sib ∧ CtxPO prev ctx

theorem cnt_plug (a : Node) : ∀ (ctx : List Frame) (t : T), cntT a (plug ctx t) = cntC a ctx + cntT a t := by
  intro ctx
  induction ctx with
  | nil => intro t; simp [plug, cntC]
  | cons f ctx ih =>
      intro t
      rw [plug, ih]
      simp only [cntC, Frame.fill]
      split <;> simp only [cntT] <;> omega

theorem HB_plug : ∀ (ctx : List Frame) (t : T),
    HB key none (plug ctx t) ↔ CtxHB key ctx ∧ HB key (ctxPar ctx) t := by
  intro ctx
  induction ctx with
  | nil => intro t; simp [plug, CtxHB, ctxPar]
  | cons f ctx ih =>
      intro t
      rw [plug, ih]
      simp only [CtxHB, Frame.fill, ctxPar]
      cases f.right <;> simp [HB] <;> constructor <;> intro h <;> simp_all

theorem PO_plug {prev : Prev} : ∀ (ctx : List Frame) (t : T),
    PO prev none (plug ctx t) ↔ CtxPO prev ctx ∧ PO prev (ctxPar ctx) t := by
  intro ctx
  induction ctx with
  | nil => intro t; simp [plug, CtxPO, ctxPar]
  | cons f ctx ih =>
      intro t
      rw [plug, ih]
      simp only [CtxPO, Frame.fill, ctxPar]
      cases f.right <;> simp [PO] <;> constructor <;> intro h <;> simp_all

theorem Comp_plug {n : Nat} : ∀ (ctx : List Frame) (t : T),
    Comp n 1 (plug ctx t) ↔ ∃ j, CtxComp n j ctx ∧ Comp n j t := by
  intro ctx
  induction ctx with
  | nil => intro t; simp [plug, CtxComp]
  | cons f ctx ih =>
      intro t
      rw [plug, ih]
      constructor
      · rintro ⟨j, hj, hc⟩
        have h1 : 1 ≤ j := by
          cases ctx with
          | nil => simp only [CtxComp] at hj; omega
          | cons => simp only [CtxComp] at hj; omega
        simp only [Frame.fill] at hc
        cases hf : f.right
        · simp only [hf] at hc
          refine ⟨2 * j, ?_, hc.2.1⟩
          simp only [CtxComp, hf, b2n]
          exact ⟨by have := hc.1; omega, by simp, by omega, hc.2.2, by rwa [show 2 * j / 2 = j by omega]⟩
        · simp only [hf] at hc
          refine ⟨2 * j + 1, ?_, hc.2.2⟩
          simp only [CtxComp, hf, b2n]
          exact ⟨by have := hc.1; omega, by simp, by omega, hc.2.1, by rwa [show (2 * j + 1) / 2 = j by omega]⟩
      · rintro ⟨j, hj, hc⟩
        simp only [CtxComp] at hj
        obtain ⟨h1, h2, h3, h4, h5⟩ := hj
        refine ⟨j / 2, h5, ?_⟩
        simp only [Frame.fill]
        cases hf : f.right
        · simp only [hf, b2n] at h2 h4 ⊢
          simp at h2 h4 ⊢
          refine ⟨h1, ?_, ?_⟩
          · rwa [show 2 * (j / 2) = j by omega]
          · rwa [show 2 * (j / 2) + 1 = j + 1 by omega]
        · simp only [hf, b2n] at h2 h4 ⊢
          simp at h2 h4 ⊢
          refine ⟨h1, ?_, ?_⟩
          · rwa [show 2 * (j / 2) = j - 1 by omega]
          · rwa [show 2 * (j / 2) + 1 = j by omega]

theorem LB_plug {m : Nat} {c : Node} {n : Nat} : ∀ (ctx : List Frame) (t : T) (j : Nat),
    CtxComp n j ctx → LB key m c 1 (plug ctx t) → LB key m c j t := by
  intro ctx
  induction ctx with
  | nil => intro t j hj h; simp only [CtxComp] at hj; subst hj; exact h
  | cons f ctx ih =>
      intro t j hj h
      simp only [CtxComp] at hj
      obtain ⟨h1, h2, h3, h4, h5⟩ := hj
      rw [plug] at h
      have := ih _ _ h5 h
      simp only [Frame.fill] at this
      cases hf : f.right
      · simp only [hf] at this h2
        simp [b2n] at h2
        have := this.2.1
        rwa [show 2 * (j / 2) = j by omega] at this
      · simp only [hf] at this h2
        simp [b2n] at h2
        have := this.2.2
        rwa [show 2 * (j / 2) + 1 = j by omega] at this

theorem LB_plug_par {m : Nat} {c : Node} {n : Nat} (f : Frame) (ctx : List Frame) (t : T) (j : Nat)
    (hj : CtxComp n j (f :: ctx)) (h : LB key m c 1 (plug (f :: ctx) t)) :
    j / 2 = m / 2 → key f.y ≤ key c := by
  simp only [CtxComp] at hj
  rw [plug] at h
  have := LB_plug key ctx _ _ hj.2.2.2.2 h
  simp only [Frame.fill] at this
  split at this <;> exact this.1

theorem focusIn_spec (x : Node) : ∀ (t : T) (ctx : List Frame),
    (0 < cntT x t → ∃ ctx' l r, focusIn x ctx t = some (ctx', l, r) ∧
      plug ctx' (.node l x r) = plug ctx t) ∧
    (cntT x t = 0 → focusIn x ctx t = none) := by
  intro t
  induction t with
  | nil => intro ctx; exact ⟨fun h => by simp [cntT] at h, fun _ => rfl⟩
  | node l y r ihl ihr =>
      intro ctx
      by_cases hy : y = x
      · subst hy
        refine ⟨fun _ => ⟨ctx, l, r, by simp [focusIn], rfl⟩, fun h => by simp [cntT] at h⟩
      · simp only [cntT, hy, if_false, focusIn]
        by_cases hl : 0 < cntT x l
        · obtain ⟨ctx', l', r', he, hp⟩ := (ihl (⟨false, y, r⟩ :: ctx)).1 hl
          refine ⟨fun _ => ⟨ctx', l', r', by rw [he], ?_⟩, fun h => by omega⟩
          rw [hp]; rfl
        · have hn := (ihl (⟨false, y, r⟩ :: ctx)).2 (by omega)
          rw [hn]
          refine ⟨fun h => ?_, fun h => (ihr _).2 (by omega)⟩
          obtain ⟨ctx', l', r', he, hp⟩ := (ihr (⟨true, y, l⟩ :: ctx)).1 (by omega)
          exact ⟨ctx', l', r', he, by rw [hp]; rfl⟩

def CtxMin (c : Node) : List Frame → Prop
  | [] => True
  | [f] => key f.y ≤ key c
  | _ :: g :: ctx => CtxMin c (g :: ctx)

theorem plug_root_min {c : Node} : ∀ (ctx : List Frame) (t : T),
    (∀ z, (plug ctx t).root = some z → key z ≤ key c) → CtxMin key c ctx := by
  intro ctx
  induction ctx with
  | nil => intros; trivial
  | cons f ctx ih =>
      intro t h
      cases ctx with
      | nil =>
          simp only [plug, Frame.fill] at h
          apply h
          split <;> rfl
      | cons g ctx => exact ih (f.fill t) h

theorem CtxPO_frame {prev prev' : Prev} : ∀ {ctx : List Frame},
    (∀ a, 0 < cntC a ctx → prev' a = prev a) → CtxPO prev ctx → CtxPO prev' ctx := by
  intro ctx
  induction ctx with
  | nil => intros; trivial
  | cons f ctx ih =>
      intro hf h
      refine ⟨?_, ?_, ?_⟩
      · rw [hf _ (by simp only [cntC, if_true]; omega)]; exact h.1
      · exact PO_frame (fun a ha => hf a (by simp only [cntC]; omega)) h.2.1
      · exact ih (fun a ha => hf a (by simp only [cntC]; omega)) h.2.2

theorem setP_of {prev : Prev} {o : Option Node} {v : Option Node} {a : Node} (h : o ≠ some a) :
    setP prev o v a = prev a := by
  cases o with
  | none => rfl
  | some b => simp only [setP]; apply upd_other; rintro rfl; exact h rfl

theorem siftUp_spec (c : Node) : ∀ (ctx : List Frame) (l r : T) (child0 : Option Node) (prev : Prev) (j n : Nat) (dummy : Node),
    CtxComp n j ctx → Comp n j (.node l dummy r) →
    (∀ a, cntC a ctx + cntT a l + cntT a r + (if c = a then 1 else 0) ≤ 1) →
    (∀ f ctx', ctx = f :: ctx' → f.sib ≠ .nil ∧ key c < key f.y) → ctx ≠ [] →
    CtxMin key c ctx → CtxHB key ctx → HB key (ctxPar ctx) l → HB key (ctxPar ctx) r →
    CtxPO prev ctx →
    (∀ f ctx', ctx = f :: ctx' →
      PO (setP prev child0 (some f.y)) (some f.y) l ∧ PO (setP prev child0 (some f.y)) (some f.y) r) →
    (∀ a, child0 = some a → 0 < cntT a l ∨ 0 < cntT a r) →
    ∃ t' prev', siftUp key c ctx l r child0 prev = some (t', prev') ∧ Comp n 1 t' ∧
      (∀ a, cntT a t' = cntC a ctx + cntT a l + cntT a r + if c = a then 1 else 0) ∧
      HB key none t' ∧ PO prev' none t' ∧
      (∀ a, a ≠ c → cntC a ctx = 0 → cntT a l = 0 → cntT a r = 0 → prev' a = prev a) := by
  intro ctx
  induction ctx with
  | nil => intro _ _ _ _ _ _ _ _ _ _ _ h; exact absurd rfl h
  | cons f ctx ih =>
      intro l r child0 prev j n dummy hcc hc hnd hlt _ hmin hch hl hr hcp hpo hc0
      obtain ⟨hsib, hclt⟩ := hlt f ctx rfl
      obtain ⟨hpl, hpr⟩ := hpo f ctx rfl
      have hcle : key c ≤ key f.y := le_of_lt hclt
      obtain ⟨sl, z, sr, hs⟩ : ∃ sl z sr, f.sib = .node sl z sr := by
        cases hs : f.sib with
        | nil => exact absurd hs hsib
        | node a b d => exact ⟨a, b, d, rfl⟩
      cases ctx with
      | nil => exact absurd hclt (not_lt_of_ge hmin)
      | cons g ctx =>
          have hz : 0 < cntT z f.sib := by rw [hs]; simp [cntT]
          have hfy : (if f.y = f.y then 1 else 0) = 1 := by simp
          simp only [cntC] at hnd
          have hndfy := hnd f.y
          have hndz := hnd z
          have hndc := hnd c
          rw [if_pos rfl] at hndfy hndc
          have hzc : z ≠ c := by rintro rfl; omega
          have hyc : f.y ≠ c := by intro h; rw [if_pos h] at hndc; omega
          have hyz : f.y ≠ z := by intro h; rw [if_pos h] at hndz; omega
          have hgy : f.y ≠ g.y := by
            intro h; rw [if_pos h.symm] at hndfy; omega
          have hgc : g.y ≠ c := by
            intro h; rw [if_pos h] at hndc; omega
          have hc0' : ∀ a, cntT a l = 0 → cntT a r = 0 → setP prev child0 (some f.y) a = prev a := by
            intro a h1 h2
            apply setP_of
            intro h
            have := hc0 a h
            omega
          have hcp1 : CtxPO (setP prev child0 (some f.y)) (f :: g :: ctx) := by
            refine CtxPO_frame (fun a ha => hc0' a ?_ ?_) hcp <;>
            · have := hnd a; simp only [cntC] at ha; omega
          generalize hp1 : setP prev child0 (some f.y) = prev1 at *
          simp only [CtxComp] at hcc
          obtain ⟨a1, a2, a3, a4, a5, a6, a7, a8, a9⟩ := hcc
          have hcur : ∀ y, Comp n (j / 2) (if f.right then .node f.sib y (.node l f.y r) else .node (.node l f.y r) y f.sib) := by
            intro y
            cases hf : f.right
            · simp [hf, b2n] at a2 a4 ⊢
              refine ⟨a1, ?_, ?_⟩
              · rw [show 2 * (j / 2) = j by omega]; exact hc
              · rw [show 2 * (j / 2) + 1 = j + 1 by omega]; exact a4
            · simp [hf, b2n] at a2 a4 ⊢
              refine ⟨a1, ?_, ?_⟩
              · rw [show 2 * (j / 2) = j - 1 by omega]; exact a4
              · rw [show 2 * (j / 2) + 1 = j by omega]; exact hc
          have hHl : HB key (some f.y) l := hl
          have hHr : HB key (some f.y) r := hr
          have hgf : key g.y ≤ key f.y := hch.2.1 g.y rfl
          by_cases hlt2 : key c < key g.y
          · -- continue
            have key1 : ∀ (l' r' : T), (l' = f.sib ∧ r' = .node l f.y r ∨ l' = .node l f.y r ∧ r' = f.sib) →
                Comp n (j / 2) (.node l' dummy r') →
                ∃ t' prev', siftUp key c (g :: ctx) l' r' (some z) prev1 = some (t', prev') ∧ Comp n 1 t' ∧
                  (∀ a, cntT a t' = cntC a (g :: ctx) + cntT a l' + cntT a r' + if c = a then 1 else 0) ∧
                  HB key none t' ∧ PO prev' none t' ∧
                  (∀ a, a ≠ c → cntC a (g :: ctx) = 0 → cntT a l' = 0 → cntT a r' = 0 → prev' a = prev1 a) := by
              intro l' r' hlr hcomp
              have hs1 : PO (setP prev1 (some z) (some g.y)) (some g.y) f.sib := by
                have := PO_reparent (v := some g.y) (t := f.sib)
                  (fun a => by have := hnd a; omega) hcp1.2.1
                rw [hs] at this ⊢
                exact this
              have hfl : PO (setP prev1 (some z) (some g.y)) (some g.y) (.node l f.y r) := by
                refine ⟨?_, ?_, ?_⟩
                · rw [setP_of (by simpa using Ne.symm hyz)]; exact hcp1.1
                · exact PO_upd (by omega) hpl
                · exact PO_upd (by omega) hpr
              have hH1 : HB key (some g.y) f.sib := HB_le key hgf hch.1
              have hH2 : HB key (some g.y) (.node l f.y r) := ⟨by simpa using hgf, hHl, hHr⟩
              apply ih l' r' (some z) prev1 (j / 2) n dummy ⟨a5, a6, a7, a8, a9⟩ hcomp
              · intro a
                have := hnd a
                simp only [cntC]
                rcases hlr with ⟨rfl, rfl⟩ | ⟨rfl, rfl⟩ <;> simp only [cntT] <;> omega
              · rintro f' ctx' heq
                obtain ⟨rfl, rfl⟩ := List.cons.inj heq
                refine ⟨?_, hlt2⟩
                intro hnil
                rw [hnil] at a8
                have hjn : j ≤ n := hc.1
                cases hf : g.right
                · simp [hf, Comp] at a8; omega
                · simp [hf, Comp] at a8; omega
              · simp
              · exact hmin
              · exact hch.2.2
              · rcases hlr with ⟨rfl, rfl⟩ | ⟨rfl, rfl⟩ <;> assumption
              · rcases hlr with ⟨rfl, rfl⟩ | ⟨rfl, rfl⟩ <;> assumption
              · exact hcp1.2.2
              · rintro f' ctx' heq
                obtain ⟨rfl, rfl⟩ := List.cons.inj heq
                rcases hlr with ⟨rfl, rfl⟩ | ⟨rfl, rfl⟩ <;> exact ⟨by assumption, by assumption⟩
              · intro a ha
                obtain rfl := Option.some.inj ha
                rcases hlr with ⟨rfl, rfl⟩ | ⟨rfl, rfl⟩ <;> simp [hz]
            have hcd := hcur dummy
            cases hf : f.right
            · simp only [hf] at hcd
              obtain ⟨t', prev', he, h1, h2, h3, h4, h5⟩ := key1 _ _ (.inr ⟨rfl, rfl⟩) hcd
              refine ⟨t', prev', ?_, h1, ?_, h3, h4, ?_⟩
              · rw [siftUp]
                simp only [hp1, hf, if_pos hlt2]
                rw [hs] at he ⊢
                exact he
              · intro a; rw [h2 a]; simp only [cntC, cntT]; omega
              · intro a ha h6 h7 h8
                simp only [cntC] at h6
                rw [h5 a ha (by simp only [cntC]; omega) (by simp only [cntT]; omega) (by omega), hc0' a h7 h8]
            · simp only [hf] at hcd
              obtain ⟨t', prev', he, h1, h2, h3, h4, h5⟩ := key1 _ _ (.inl ⟨rfl, rfl⟩) hcd
              refine ⟨t', prev', ?_, h1, ?_, h3, h4, ?_⟩
              · rw [siftUp]
                simp only [hp1, hf, if_pos hlt2]
                rw [hs] at he ⊢
                exact he
              · intro a; rw [h2 a]; simp only [cntC, cntT]; omega
              · intro a ha h6 h7 h8
                simp only [cntC] at h6
                rw [h5 a ha (by simp only [cntC]; omega) (by omega) (by simp only [cntT]; omega), hc0' a h7 h8]
          · -- stop
            have hgle : key g.y ≤ key c := le_of_not_gt hlt2
            refine ⟨_, _, by rw [siftUp]; simp only [hp1, if_neg hlt2]; rw [hs]; rfl, ?_, ?_, ?_, ?_, ?_⟩
            · rw [Comp_plug]
              refine ⟨j / 2, ⟨a5, a6, a7, a8, a9⟩, ?_⟩
              rw [← hs]; exact hcur c
            · intro a
              rw [cnt_plug, ← hs]
              simp only [cntC]
              cases hf : f.right <;> simp [cntT] <;> omega
            · rw [HB_plug, ← hs]
              refine ⟨hch.2.2, ?_⟩
              have hH1 : HB key (some c) f.sib := HB_le key hcle hch.1
              have hH2 : HB key (some c) (.node l f.y r) := ⟨by simpa using hcle, hHl, hHr⟩
              cases hf : f.right
              · exact ⟨by simpa [ctxPar] using hgle, hH2, hH1⟩
              · exact ⟨by simpa [ctxPar] using hgle, hH1, hH2⟩
            · rw [PO_plug, ← hs]
              have hfr : ∀ a, a ≠ z → a ≠ f.y → a ≠ c →
                  upd (upd (upd prev1 z (some c)) f.y (some c)) c (some g.y) a = prev1 a := by
                intro a h1 h2 h3
                rw [upd_other _ _ h3, upd_other _ _ h2, upd_other _ _ h1]
              refine ⟨?_, ?_⟩
              · refine CtxPO_frame (fun a ha => hfr a ?_ ?_ ?_) hcp1.2.2 <;> rintro rfl <;>
                (first | omega | (simp only [cntC] at ha; omega))
              · have hP1 : PO (upd (upd (upd prev1 z (some c)) f.y (some c)) c (some g.y)) (some c) f.sib := by
                  have := PO_reparent (v := some c) (t := f.sib)
                    (fun a => by have := hnd a; omega) hcp1.2.1
                  refine PO_upd (by omega) (PO_upd (by omega) ?_)
                  rw [hs] at this ⊢
                  exact this
                have hP2 : PO (upd (upd (upd prev1 z (some c)) f.y (some c)) c (some g.y)) (some c) (.node l f.y r) := by
                  refine ⟨?_, ?_, ?_⟩
                  · rw [upd_other _ _ hyc]; simp
                  · exact PO_upd (by omega) (PO_upd (by omega) (PO_upd (by omega) hpl))
                  · exact PO_upd (by omega) (PO_upd (by omega) (PO_upd (by omega) hpr))
                cases hf : f.right
                · exact ⟨by simp [ctxPar], hP2, hP1⟩
                · exact ⟨by simp [ctxPar], hP1, hP2⟩
            · intro a ha h6 h7 h8
              simp only [cntC] at h6
              rw [upd_other _ _ ha, upd_other, upd_other, hc0' a h7 h8]
              · rintro rfl; omega
              · rintro rfl; rw [if_pos rfl] at h6; omega

end
end Verif.Heap
