import Verif.Heap.Lemmas2
/-!
# C40 — the timer heap is a priority queue

A client drives one heap with any finite sequence of operations. Beside the heap the specification
keeps the plain set `S` of nodes that should be in it. The client's obligations are those of an
intrusive container: a node that is inserted is not already in this heap, and its `Prev` link is null
(a fresh node, or one that left the heap earlier), and `pop_front` is called on a non-empty heap only.
`erase` may be called with any node.
-/
namespace Verif.Heap

section
variable {K : Type} [LinearOrder K] (key : Node → K)

inductive Op
  | insert (x : Node)
  | pop
  | erase (x : Node)

structure Sys where
  h : H
  /-- specification: the set of nodes that should be in the heap -/
  S : Node → Bool
  /-- a null pointer was dereferenced -/
  ub : Bool
  /-- result of the last `erase` and what it should have been -/
  erased : Option (Bool × Bool)

def Sys.init : Sys := ⟨⟨.nil, 0, fun _ => none⟩, fun _ => false, false, none⟩

def step (s : Sys) : Op → Option Sys
  | .insert x =>
      if s.S x then none
      else match insert key s.h x with
        | none => some { s with ub := true }
        | some h' => some { h := h', S := upd s.S x true, ub := s.ub, erased := none }
  | .pop =>
      match front s.h with
      | none => none
      | some m => match popFront key s.h with
        | none => some { s with ub := true }
        | some h' => some { h := h', S := upd s.S m false, ub := s.ub, erased := none }
  | .erase x =>
      match erase key s.h x with
      | none => some { s with ub := true }
      | some (h', b) => some { h := h', S := upd s.S x false, ub := s.ub, erased := some (b, s.S x) }

structure HInv (h : H) : Prop where
  comp : Comp h.size 1 h.t
  heap : HB key none h.t
  nd : ∀ a, cntT a h.t ≤ 1
  po : PO h.prev none h.t
  out : ∀ a, cntT a h.t = 0 → h.prev a = none

theorem insert_ok {h : H} (hi : HInv key h) {x : Node} (hx : cntT x h.t = 0) :
    ∃ h', insert key h x = some h' ∧ HInv key h' ∧
      ∀ a, cntT a h'.t = cntT a h.t + if x = a then 1 else 0 := by
  obtain ⟨t', prev', he, h1, h2, h3, h4, h5⟩ :=
    insertAt_spec key (path (h.size + 1)) h.t x none h.prev 1 h.size (by omega) hi.comp
      (idx_path (by omega)) hx hi.nd hi.heap (by simp) hi.po
  refine ⟨⟨t', h.size + 1, prev'⟩, by simp [insert, he], ⟨h1, h3, ?_, h4, ?_⟩, h2⟩
  · intro a
    rw [h2 a]
    have := hi.nd a
    by_cases hxa : x = a
    · subst hxa; simp [hx]
    · simp [hxa, this]
  · intro a ha
    rw [h2 a] at ha
    have hxa : a ≠ x := by rintro rfl; simp at ha
    show prev' a = none
    rw [h5 a hxa (by omega)]
    exact hi.out a (by omega)

theorem comp_size_pos {n : Nat} {t : T} (hc : Comp n 1 t) (ht : t ≠ .nil) : 1 ≤ n := by
  cases t with
  | nil => exact absurd rfl ht
  | node => exact hc.1

theorem comp_zero {t : T} (hc : Comp 0 1 t) : t = .nil := by
  cases t with
  | nil => rfl
  | node => simp [Comp] at hc

theorem popFront_ok {h : H} (hi : HInv key h) {m : Node} (hm : h.t.root = some m) :
    ∃ h', popFront key h = some h' ∧ HInv key h' ∧
      ∀ a, cntT a h.t = cntT a h'.t + if m = a then 1 else 0 := by
  cases ht : h.t with
  | nil => rw [ht] at hm; simp [T.root] at hm
  | node l0 y r0 =>
  have hmy : y = m := by rw [ht] at hm; simpa [T.root] using hm
  subst hmy
  have hcomp := hi.comp
  rw [ht] at hcomp
  have hprev : h.prev y = none := by have := hi.po; rw [ht] at this; exact this.1
  by_cases hs : h.size ≤ 1
  · have hl : l0 = .nil := by
      cases l0 with
      | nil => rfl
      | node => have := hcomp.2.1.1; omega
    have hr : r0 = .nil := by
      cases r0 with
      | nil => rfl
      | node => have := hcomp.2.2.1; omega
    subst hl hr
    refine ⟨⟨.nil, 0, h.prev⟩, by simp [popFront, hs], ⟨?_, trivial, ?_, trivial, ?_⟩, ?_⟩
    · simp [Comp]
    · intro a; simp [cntT]
    · intro a _
      by_cases hya : y = a
      · exact hya ▸ hprev
      · exact hi.out a (by rw [ht]; simp [cntT, hya])
    · intro a; simp [cntT]
  · obtain ⟨n, hn⟩ : ∃ n, h.size = n + 1 := ⟨h.size - 1, by omega⟩
    have hheap := hi.heap
    obtain ⟨t1, c, he, h1, h2, h3, h4, h5, h6⟩ :=
      removeLast_spec key (path h.size) h.t 1 n none (by omega) (hn ▸ hi.comp)
        (hn ▸ idx_path (by omega)) hheap
    have hpne : path h.size ≠ [] := by
      intro hp
      have := idx_path (n := h.size) (by omega)
      rw [hp] at this
      simp only [idx] at this
      omega
    have hroot := h6 hpne
    cases t1 with
    | nil => rw [ht] at hroot; simp [T.root] at hroot
    | node l y' r =>
        rw [ht] at hroot
        simp [T.root] at hroot
        subst hroot
        have hnd1 : ∀ a, cntT a (.node l y' r) ≤ 1 := fun a => by
          have := hi.nd a; rw [h2 a] at this; omega
        have hc0 : cntT c (.node l y' r) = 0 := by
          have := hi.nd c; rw [h2 c] at this; simp at this; omega
        have hcy : y' ≠ c := by rintro rfl; simp [cntT] at hc0
        have hpo1 := h4 _ _ hi.po
        obtain ⟨l', z, r', prev', hse, g1, g2, g3, g4, g5, g6, g7⟩ :=
          siftDown_spec key _ l y' r c none h.prev 1 n (Nat.le_refl _) (by omega) h1
            (by simp only [cntT] at hc0; omega) (by simp only [cntT] at hc0; omega) hnd1
            (HB_none key h3.2.1) (HB_none key h3.2.2) (by simp) hpo1.2.1 hpo1.2.2
        have hcnt : ∀ a, cntT a h.t = cntT a (.node l' z r') + if y' = a then 1 else 0 := by
          intro a
          rw [h2 a, g2 a]
          simp only [cntT]; omega
        have hnd' : ∀ a, cntT a (.node l' z r') ≤ 1 := fun a => by
          have := hi.nd a; rw [hcnt a] at this; omega
        refine ⟨⟨.node l' z r', n, upd prev' z none⟩, ?_, ⟨g1, g3, hnd', ?_, ?_⟩, ?_⟩
        · simp only [popFront, if_neg hs, he, hse, T.root, setP]
          simp [hn]
        · have hz := hnd' z
          simp only [cntT, if_true] at hz
          exact ⟨by simp, PO_upd (by omega) g4, PO_upd (by omega) g5⟩
        · intro a ha
          show upd prev' z none a = none
          have hza : a ≠ z := by rintro rfl; simp [cntT] at ha
          rw [upd_other _ _ hza]
          have ha' := hcnt a
          rw [ha] at ha'
          have hac : a ≠ c := by
            rintro rfl
            have := g2 a; rw [ha] at this; simp at this
          have h8 := h2 a
          have ha0 : cntT a (.node l' z r') = 0 := ha
          rw [g7 a hac (by have := g2 a; omega) (by have := g2 a; omega)]
          by_cases hya : y' = a
          · exact hya ▸ hprev
          · simp [hya] at ha'; exact hi.out a ha'
        · rw [← ht]; exact hcnt

theorem root_min {h : H} (hi : HInv key h) {m a : Node} (hm : h.t.root = some m) (ha : 0 < cntT a h.t) :
    key m ≤ key a := by
  have hh := hi.heap
  cases ht : h.t with
  | nil => rw [ht] at hm; simp [T.root] at hm
  | node l y r =>
      rw [ht] at hm ha hh
      simp [T.root] at hm
      subst hm
      simp only [cntT] at ha
      by_cases h1 : 0 < cntT a l
      · exact HB_bound key hh.2.1 rfl h1
      by_cases h2 : 0 < cntT a r
      · exact HB_bound key hh.2.2 rfl h2
      by_cases h3 : y = a
      · exact h3 ▸ le_refl _
      · simp [h3] at ha; omega

theorem PO_prev_some {prev : Prev} {t : T} : ∀ {par : Option Node} {a : Node}, PO prev par t → 0 < cntT a t →
    par ≠ none ∨ t.root ≠ some a → prev a ≠ none := by
  induction t with
  | nil => intro par a _ h; simp [cntT] at h
  | node l y r ihl ihr =>
      intro par a hp ha hor
      by_cases h1 : 0 < cntT a l
      · exact ihl hp.2.1 h1 (.inl (by simp))
      by_cases h2 : 0 < cntT a r
      · exact ihr hp.2.2 h2 (.inl (by simp))
      have h3 : y = a := by
        simp only [cntT] at ha
        by_contra h3
        simp [h3] at ha; omega
      subst h3
      rw [hp.1]
      rcases hor with h | h
      · exact h
      · exact absurd rfl h

theorem erase_ok {h : H} (hi : HInv key h) (x : Node) :
    ∃ h' b, erase key h x = some (h', b) ∧ HInv key h' ∧ (b = true ↔ 0 < cntT x h.t) ∧
      ∀ a, cntT a h'.t = if a = x then 0 else cntT a h.t := by
  by_cases hx : cntT x h.t = 0
  · refine ⟨h, false, ?_, hi, by simp [hx], ?_⟩
    · have h1 : h.t.root ≠ some x := fun hr => by have := root_cnt hr; omega
      simp [erase, hi.out x hx, h1]
    · intro a
      by_cases hax : a = x
      · subst hax; simp [hx]
      · simp [hax]
  · have hxpos : 0 < cntT x h.t := by omega
    have hguard : ¬ (h.prev x = none ∧ h.t.root ≠ some x) := fun ⟨h1, h2⟩ =>
      PO_prev_some hi.po hxpos (.inr h2) h1
    have hne : h.t ≠ .nil := by rintro hn; rw [hn] at hxpos; simp [cntT] at hxpos
    have hsz := comp_size_pos hi.comp hne
    obtain ⟨n, hn⟩ : ∃ n, h.size = n + 1 := ⟨h.size - 1, by omega⟩
    obtain ⟨t1, c, he, h1, h2, h3, h4, h5, h6⟩ :=
      removeLast_spec key (path h.size) h.t 1 n none (by omega) (hn ▸ hi.comp)
        (hn ▸ idx_path (by omega)) hi.heap
    have hpo1 := h4 _ _ hi.po
    have hc1 : cntT c t1 = 0 := by have := hi.nd c; rw [h2 c] at this; simp at this; omega
    have hnd1 : ∀ a, cntT a t1 ≤ 1 := fun a => by have := hi.nd a; rw [h2 a] at this; omega
    by_cases hcx : c = x
    · subst hcx
      refine ⟨⟨t1, n, upd h.prev c none⟩, true, ?_, ⟨h1, h3, hnd1, PO_upd hc1 hpo1, ?_⟩, by simp [hxpos], ?_⟩
      · unfold erase; rw [if_neg hguard, he]; simp [hn]
      · intro a ha
        show upd h.prev c none a = none
        by_cases hac : a = c
        · simp [hac]
        · rw [upd_other _ _ hac]
          exact hi.out a (by rw [h2 a, ha]; simp [Ne.symm hac])
      · intro a
        by_cases hac : a = c
        · subst hac; simp [hc1]
        · rw [if_neg hac, h2 a]; simp [Ne.symm hac]
    · have hx1 : 0 < cntT x t1 := by rw [h2 x] at hxpos; simpa [hcx] using hxpos
      obtain ⟨ctx, l, r, hf, hplug⟩ := (focusIn_spec x t1 []).1 hx1
      simp only [plug] at hplug
      have hcnt1 : ∀ a, cntT a t1 = cntC a ctx + (cntT a l + cntT a r + if x = a then 1 else 0) := by
        intro a; rw [← hplug, cnt_plug]; rfl
      have hxz := hnd1 x
      rw [hcnt1 x] at hxz
      simp only [if_true] at hxz
      have hcz := hc1
      rw [hcnt1 c] at hcz
      rw [← hplug] at h1 h3 hpo1 h5
      rw [HB_plug] at h3
      rw [PO_plug] at hpo1
      obtain ⟨j, hj, hcj⟩ := (Comp_plug ctx _).1 h1
      have hj1 : 1 ≤ j := by
        cases ctx with
        | nil => simp only [CtxComp] at hj; omega
        | cons => simp only [CtxComp] at hj; omega
      have hndu : ∀ a, cntT a (.node l x r) ≤ 1 := fun a => by
        have := hnd1 a; rw [hcnt1 a] at this; simp only [cntT]; omega
      -- the case in which the replacement sifts down
      have down : (∀ z, ctxPar ctx = some z → key z ≤ key c) →
          ∃ l' z r' prev', siftDown key (.node l x r) c (ctxPar ctx) h.prev = (.node l' z r', prev') ∧
            HInv key ⟨plug ctx (.node l' z r'), n, upd (upd prev' z (ctxPar ctx)) x none⟩ ∧
            ∀ a, cntT a (plug ctx (.node l' z r')) = if a = x then 0 else cntT a h.t := by
        intro hkc
        obtain ⟨l', z, r', prev', hse, g1, g2, g3, g4, g5, g6, g7⟩ :=
          siftDown_spec key _ l x r c (ctxPar ctx) h.prev j n (Nat.le_refl _) hj1 hcj
            (by omega) (by omega) hndu
            (HB_mono key (b := some x) (fun z hz => ⟨x, rfl, h3.2.1 z hz⟩) h3.2.2.1)
            (HB_mono key (b := some x) (fun z hz => ⟨x, rfl, h3.2.1 z hz⟩) h3.2.2.2) hkc hpo1.2.2.1 hpo1.2.2.2
        have hcnt : ∀ a, cntT a (plug ctx (.node l' z r')) = if a = x then 0 else cntT a h.t := by
          intro a
          rw [cnt_plug, g2 a, h2 a, hcnt1 a]
          by_cases hax : a = x
          · subst hax; simp [hcx]; omega
          · simp [hax, Ne.symm hax]; omega
        have hnd' : ∀ a, cntT a (plug ctx (.node l' z r')) ≤ 1 := fun a => by
          rw [hcnt a]; have := hi.nd a; split <;> omega
        have hzc := hnd' z
        rw [cnt_plug] at hzc
        simp only [cntT, if_true] at hzc
        have hxc := hcnt x
        rw [if_pos rfl, cnt_plug] at hxc
        have hxz' : z ≠ x := by rintro rfl; simp [cntT] at hxc
        refine ⟨l', z, r', prev', hse, ⟨?_, ?_, hnd', ?_, ?_⟩, hcnt⟩
        · exact (Comp_plug ctx _).2 ⟨j, hj, g1⟩
        · exact (HB_plug key ctx _).2 ⟨h3.1, g3⟩
        · refine (PO_plug ctx _).2 ⟨?_, ?_, ?_, ?_⟩
          · refine CtxPO_frame (fun a ha => ?_) hpo1.1
            have ha2 := hnd1 a
            rw [hcnt1 a] at ha2
            show upd (upd prev' z (ctxPar ctx)) x none a = h.prev a
            have e1 : a ≠ x := by rintro rfl; omega
            have e2 : a ≠ z := by rintro rfl; omega
            have e3 : a ≠ c := by rintro rfl; omega
            rw [upd_other _ _ e1, upd_other _ _ e2, g7 a e3 (by omega) (by omega)]
          · show upd (upd prev' z (ctxPar ctx)) x none z = _
            rw [upd_other _ _ hxz']; simp
          · simp only [cntT] at hxc
            exact PO_upd (by omega) (PO_upd (by omega) g4)
          · simp only [cntT] at hxc
            exact PO_upd (by omega) (PO_upd (by omega) g5)
        · intro a ha
          show upd (upd prev' z (ctxPar ctx)) x none a = none
          by_cases hax : a = x
          · simp [hax]
          · have h0 := hcnt a
            rw [show cntT a (plug ctx (.node l' z r')) = 0 from ha, if_neg hax] at h0
            have ha' : cntT a (plug ctx (.node l' z r')) = 0 := ha
            rw [cnt_plug] at ha'
            have e2 : a ≠ z := by rintro rfl; simp [cntT] at ha'
            have g2a := g2 a
            have e3 : a ≠ c := by rintro rfl; simp at g2a; omega
            rw [upd_other _ _ hax, upd_other _ _ e2, g7 a e3 (by omega) (by omega)]
            exact hi.out a h0.symm
      cases ctx with
      | nil =>
          obtain ⟨l', z, r', prev', hse, hinv, hcnt⟩ := down (by simp [ctxPar])
          simp only [ctxPar] at hse hinv
          refine ⟨_, true, ?_, hinv, by simp [hxpos], hcnt⟩
          unfold erase
          rw [if_neg hguard, he]
          simp only [if_neg hcx, hf, hse, T.root, setP, plug]
          simp [hn]
      | cons f ctx =>
          by_cases hlt : key c < key f.y
          · have hsib : f.sib ≠ .nil := by
              intro hnil
              have hj' := hj
              simp only [CtxComp, hnil, Comp] at hj'
              obtain ⟨a1, a2, a3, a4, a5⟩ := hj'
              have hjn := hcj.1
              cases hfr : f.right
              · simp [hfr, b2n] at a2 a4
                have := LB_plug_par key f ctx _ j hj h5 (by omega)
                exact absurd hlt (not_lt_of_ge this)
              · simp [hfr, b2n] at a2 a4
                omega
            have hmin : CtxMin key c (f :: ctx) := by
              apply plug_root_min key (f :: ctx) (.node l x r)
              intro z hz
              rw [hplug] at hz
              have hp : path h.size ≠ [] := by
                intro hp
                have hi2 := idx_path (n := h.size) (by omega)
                rw [hp] at hi2
                simp only [idx] at hi2
                have hn0 : n = 0 := by omega
                rw [hn0] at h1
                rw [comp_zero h1] at hplug
                rw [← hplug] at hx1
                simp [cntT] at hx1
              rw [h6 hp] at hz
              exact root_min key hi hz (by rw [h2 c]; simp)
            have hlr : ∀ a, cntT a l + cntT a r ≤ 1 := fun a => by
              have := hnd1 a; rw [hcnt1 a] at this; omega
            have hyf : cntT f.y l = 0 ∧ cntT f.y r = 0 := by
              have := hnd1 f.y; rw [hcnt1 f.y] at this; simp only [cntC, if_true] at this; omega
            have hrl : ∀ a, 0 < cntT a r → cntT a l = 0 := fun a ha => by have := hlr a; omega
            have hlr' : ∀ a, 0 < cntT a l → cntT a r = 0 := fun a ha => by have := hlr a; omega
            obtain ⟨t', prev', hse, g1, g2, g3, g4, g5⟩ :=
              siftUp_spec key c (f :: ctx) l r l.root (setP h.prev r.root (some f.y)) j n x hj hcj
                (by
                  intro a
                  have := hnd1 a; rw [hcnt1 a] at this
                  by_cases hca : c = a
                  · subst hca; simp; omega
                  · simp [hca]; omega)
                (by rintro f' ctx' heq; obtain ⟨rfl, rfl⟩ := List.cons.inj heq; exact ⟨hsib, hlt⟩)
                (by simp) hmin h3.1
                (HB_mono key (b := some x) (fun z hz => ⟨x, rfl, h3.2.1 z hz⟩) h3.2.2.1)
                (HB_mono key (b := some x) (fun z hz => ⟨x, rfl, h3.2.1 z hz⟩) h3.2.2.2)
                (CtxPO_frame (fun a ha => setP_other (by have := hnd1 a; rw [hcnt1 a] at this; omega)) hpo1.1)
                (by
                  rintro f' ctx' heq
                  obtain ⟨rfl, rfl⟩ := List.cons.inj heq
                  refine ⟨?_, ?_⟩
                  · exact PO_reparent (fun a => by have := hlr a; omega) (PO_setP hlr' hpo1.2.2.1)
                  · exact PO_setP hrl (PO_reparent (fun a => by have := hlr a; omega) hpo1.2.2.2))
                (fun a ha => .inl (root_cnt ha))
            have hcnt : ∀ a, cntT a t' = if a = x then 0 else cntT a h.t := by
              intro a
              rw [g2 a, h2 a, hcnt1 a]
              by_cases hax : a = x
              · subst hax; simp [hcx]; omega
              · simp [hax, Ne.symm hax]; omega
            refine ⟨⟨t', n, upd prev' x none⟩, true, ?_, ⟨g1, g3, ?_, ?_, ?_⟩, by simp [hxpos], hcnt⟩
            · unfold erase
              rw [if_neg hguard, he]
              simp only [if_neg hcx, hf, if_pos hlt, hse, Option.map]
              simp [hn]
            · intro a
              show cntT a t' ≤ 1
              rw [hcnt a]; have := hi.nd a; split <;> omega
            · refine PO_upd ?_ g4
              have := hcnt x; simpa using this
            · intro a ha
              show upd prev' x none a = none
              have ha' : cntT a t' = 0 := ha
              by_cases hax : a = x
              · simp [hax]
              · have h0 := hcnt a
                rw [ha', if_neg hax] at h0
                have g2a := g2 a
                rw [ha'] at g2a
                have e3 : a ≠ c := by rintro rfl; simp at g2a
                rw [upd_other _ _ hax, g5 a e3 (by omega) (by omega) (by omega), setP_other (by omega)]
                exact hi.out a h0.symm
          · obtain ⟨l', z, r', prev', hse, hinv, hcnt⟩ := down (by
              simp only [ctxPar]; rintro z hz; obtain rfl := Option.some.inj hz; exact le_of_not_gt hlt)
            simp only [ctxPar] at hse hinv
            refine ⟨_, true, ?_, hinv, by simp [hxpos], hcnt⟩
            unfold erase
            rw [if_neg hguard, he]
            simp only [if_neg hcx, hf, if_neg hlt, hse, T.root, setP]
            simp [hn]

/-! ## The whole history -/

/-- The nodes linked into the heap, in tree order. -/
def T.nodes : T → List Node
  | .nil => []
  | .node l x r => l.nodes ++ x :: r.nodes

theorem count_nodes (a : Node) : ∀ t : T, t.nodes.count a = cntT a t
  | .nil => rfl
  | .node l x r => by
      simp only [T.nodes, List.count_append, List.count_cons, count_nodes a l, count_nodes a r, cntT]
      by_cases h : x = a <;> simp [h] <;> omega

theorem insert_size {h h' : H} {x : Node} (he : insert key h x = some h') : h'.size = h.size + 1 := by
  simp only [insert, Option.map_eq_some_iff] at he
  obtain ⟨r, _, rfl⟩ := he
  rfl

theorem popFront_size {h h' : H} (he : popFront key h = some h') : h'.size = h.size - 1 := by
  simp only [popFront] at he
  split at he
  · obtain rfl := Option.some.inj he
    show 0 = _; omega
  · split at he
    · cases he
    · split at he
      · cases he
      · obtain rfl := Option.some.inj he; rfl

theorem erase_size {h h' : H} {x : Node} {b : Bool} (he : erase key h x = some (h', b)) :
    h'.size = if b then h.size - 1 else h.size := by
  simp only [erase] at he
  repeat' split at he
  all_goals simp at he
  all_goals (first | (obtain ⟨rfl, rfl⟩ := he; rfl) | (obtain ⟨_, _, _, rfl, rfl⟩ := he; rfl))

theorem nodes_length_succ {t t' : T} {x : Node} (h : ∀ a, cntT a t' = cntT a t + if x = a then 1 else 0) :
    t'.nodes.length = t.nodes.length + 1 := by
  have : t'.nodes.Perm (x :: t.nodes) := by
    rw [List.perm_iff_count]
    intro a
    rw [List.count_cons, count_nodes, count_nodes, h a]
    simp
  simpa using this.length_eq

theorem nodes_length_eq {t t' : T} (h : ∀ a, cntT a t' = cntT a t) :
    t'.nodes.length = t.nodes.length := by
  have : t'.nodes.Perm t.nodes := by
    rw [List.perm_iff_count]
    intro a
    rw [count_nodes, count_nodes, h a]
  simpa using this.length_eq


structure SInv (s : Sys) : Prop where
  hinv : HInv key s.h
  mem : ∀ a, s.S a = true ↔ 0 < cntT a s.h.t
  noub : s.ub = false
  er : ∀ b c, s.erased = some (b, c) → b = c
  size : s.h.size = s.h.t.nodes.length

theorem sinv_init : SInv key Sys.init := by
  refine ⟨⟨?_, trivial, ?_, trivial, ?_⟩, ?_, rfl, ?_, ?_⟩ <;> simp [Sys.init, Comp, cntT, T.nodes]

theorem sinv_step {s s' : Sys} {o : Op} (hs : SInv key s) (h : step key s o = some s') : SInv key s' := by
  cases o with
  | insert x =>
      simp only [step] at h
      split at h
      · cases h
      · rename_i hx
        have hx0 : cntT x s.h.t = 0 := by
          have := hs.mem x
          simp [hx] at this; exact this
        obtain ⟨h', he, hi', hc⟩ := insert_ok key hs.hinv hx0
        rw [he] at h
        obtain rfl := Option.some.inj h
        refine ⟨hi', ?_, hs.noub, by simp, by
          show h'.size = h'.t.nodes.length
          rw [insert_size key he, nodes_length_succ hc, hs.size]⟩
        intro a
        show upd s.S x true a = true ↔ 0 < cntT a h'.t
        rw [hc a]
        by_cases hax : a = x
        · subst hax; simp
        · rw [upd_other _ _ hax, hs.mem a]; simp [Ne.symm hax]
  | pop =>
      simp only [step] at h
      split at h
      · cases h
      · rename_i m hm
        obtain ⟨h', he, hi', hc⟩ := popFront_ok key hs.hinv hm
        rw [he] at h
        obtain rfl := Option.some.inj h
        refine ⟨hi', ?_, hs.noub, by simp, by
          show h'.size = h'.t.nodes.length
          rw [popFront_size key he, hs.size, nodes_length_succ hc]; rfl⟩
        intro a
        show upd s.S m false a = true ↔ 0 < cntT a h'.t
        have hca := hc a
        by_cases ham : a = m
        · subst ham
          have := hs.hinv.nd a
          simp at hca ⊢
          omega
        · rw [upd_other _ _ ham, hs.mem a, hca]; simp [Ne.symm ham]
  | erase x =>
      simp only [step] at h
      obtain ⟨h', b, he, hi', hb, hc⟩ := erase_ok key hs.hinv x
      rw [he] at h
      obtain rfl := Option.some.inj h
      refine ⟨hi', ?_, hs.noub, ?_, ?_⟩
      · intro a
        show upd s.S x false a = true ↔ 0 < cntT a h'.t
        rw [hc a]
        by_cases hax : a = x
        · subst hax; simp
        · rw [upd_other _ _ hax, hs.mem a]; simp [hax]
      · intro b' c' hbc
        simp at hbc
        obtain ⟨rfl, rfl⟩ := hbc
        have := hs.mem x
        rw [← hb] at this
        cases hB : b <;> cases hC : s.S x <;> simp_all
      · show h'.size = h'.t.nodes.length
        rw [erase_size key he]
        cases hB : b with
        | false =>
            have h0 : cntT x s.h.t = 0 := by rw [hB] at hb; simp at hb; exact hb
            rw [nodes_length_eq (t' := h'.t) (t := s.h.t), ← hs.size]; rfl
            intro a
            rw [hc a]
            by_cases hax : a = x
            · subst hax; simp [h0]
            · simp [hax]
        | true =>
            have h1 : 0 < cntT x s.h.t := hb.1 hB
            have := nodes_length_succ (t' := s.h.t) (t := h'.t) (x := x) (fun a => by
              rw [hc a]
              by_cases hax : a = x
              · subst hax; have := hs.hinv.nd a; simp; omega
              · simp [hax, Ne.symm hax])
            rw [hs.size, this]; rfl

theorem sinv_reach {s : Sys} (h : Reach Sys.init (step key) s) : SInv key s :=
  Reach.inv (SInv key) (sinv_init key) (fun _ _ _ hi hs => sinv_step key hi hs) s h

/-- **C40 (contents).** After every history of insertions, pops and erasures: no null pointer was ever
    dereferenced, the nodes linked into the heap are exactly the nodes inserted and not removed since,
    and none is linked twice; the stored size is their number. -/
theorem C40_contents {s : Sys} (h : Reach Sys.init (step key) s) :
    s.ub = false ∧ s.h.t.nodes.Nodup ∧ (∀ a, a ∈ s.h.t.nodes ↔ s.S a = true) ∧
      s.h.size = s.h.t.nodes.length := by
  have hi := sinv_reach key h
  refine ⟨hi.noub, ?_, ?_, hi.size⟩
  · rw [List.nodup_iff_count]
    intro a
    rw [count_nodes]; exact hi.hinv.nd a
  · intro a
    rw [hi.mem a, ← count_nodes, List.count_pos_iff]

/-- **C40 (front).** `front()` is null iff the heap should be empty; otherwise it is a node of the heap
    whose key is minimal. -/
theorem C40_front {s : Sys} (h : Reach Sys.init (step key) s) :
    (front s.h = none ↔ ∀ a, s.S a = false) ∧
    ∀ m, front s.h = some m → s.S m = true ∧ ∀ a, s.S a = true → key m ≤ key a := by
  have hi := sinv_reach key h
  refine ⟨?_, fun m hm => ⟨(hi.mem m).2 (root_cnt hm), fun a ha => root_min key hi.hinv hm ((hi.mem a).1 ha)⟩⟩
  constructor
  · intro hf a
    have ht : s.h.t = .nil := by
      cases hc : s.h.t with
      | nil => rfl
      | node => simp [front, hc, T.root] at hf
    have := hi.mem a
    rw [ht] at this
    simp [cntT] at this
    exact this
  · intro hall
    cases hc : s.h.t with
    | nil => simp [front, hc, T.root]
    | node l y r =>
        have := (hi.mem y).2 (by rw [hc]; simp [cntT])
        rw [hall y] at this; cases this

/-- **C40 (erase's answer).** `erase(x)` answers whether `x` was in the heap. -/
theorem C40_erase_answer {s : Sys} (h : Reach Sys.init (step key) s) (x : Node) :
    ∃ s', step key s (.erase x) = some s' ∧ s'.erased = some (s.S x, s.S x) ∧ s'.S = upd s.S x false := by
  have hi := sinv_reach key h
  obtain ⟨h', b, he, hi', hb, hc⟩ := erase_ok key hi.hinv x
  have hbS : b = s.S x := by
    have := hi.mem x
    rw [← hb] at this
    cases hB : b <;> cases hC : s.S x <;> simp_all
  refine ⟨⟨h', upd s.S x false, s.ub, some (b, s.S x)⟩, by simp [step, he], by simp [hbS], rfl⟩

/-- **C40 (progress).** Every legal operation can be carried out: the only operations that are refused are
    those the client must not call. -/
theorem C40_enabled {s : Sys} (h : Reach Sys.init (step key) s) :
    (∀ x, s.S x = false → ∃ s', step key s (.insert x) = some s' ∧ s'.S = upd s.S x true) ∧
    (∀ m, front s.h = some m → ∃ s', step key s .pop = some s' ∧ s'.S = upd s.S m false) := by
  have hi := sinv_reach key h
  refine ⟨fun x hx => ?_, fun m hm => ?_⟩
  · obtain ⟨h', he, _, _⟩ := insert_ok key hi.hinv (x := x) (by
      have := hi.mem x; simp [hx] at this; exact this)
    exact ⟨_, by simp [step, hx, he]; rfl, rfl⟩
  · obtain ⟨h', he, _, _⟩ := popFront_ok key hi.hinv hm
    exact ⟨_, by simp [step, hm, he]; rfl, rfl⟩

end

/-- Non-vacuity: a history with insertions out of order, a pop, an erasure from the middle (which sifts
    up) and an erasure of an absent node. -/
def demo : List Op :=
  [.insert 5, .insert 1, .insert 4, .insert 2, .insert 3, .erase 2, .pop, .erase 9, .insert 0]

example : ∃ s, Reach Sys.init (step (fun n : Node => n)) s ∧ front s.h = some 0 ∧ s.h.size = 4 ∧
    s.S 3 = true ∧ s.S 2 = false := by
  obtain ⟨s, hs, h⟩ := Reach.witness (init := Sys.init) (step := step (fun n : Node => n)) demo
    (fun s => decide (front s.h = some 0 ∧ s.h.size = 4 ∧ s.S 3 = true ∧ s.S 2 = false)) (by decide)
  exact ⟨s, hs, by simpa using h⟩

end Verif.Heap
