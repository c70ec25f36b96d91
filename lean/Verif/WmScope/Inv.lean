import Verif.WmScope.Model
import Verif.WM.Lemmas
import Verif.WM.Wf
/-!
# Counting scopes under the C++ memory model — invariant (C99)
-/
namespace Verif.WmScope

open Verif.WM

/-- Associations that exist. -/
def na (c : Cfg) (s : St) : Nat := cnt (fun i => decide (s.st i = .act)) c.n

/-- Control. -/
structure Ctl (c : Cfg) (s : St) : Prop where
  num : s.cnt = na c s
  nd : 0 < s.cnt → s.need = true
  jn : s.jng = true → 0 < s.cnt
  jd : s.jd = true → s.cnt = 0 ∧ s.cls = true ∧ s.need = false ∧ s.jng = false
  dq : ∀ i, s.st i = .deq → s.jd = true ∧ s.hc = false
  cp : ∀ i, s.st i = .comp → s.hc = true
  hc : s.hc = true → s.jd = true
  one : ∀ i j, s.st i = .deq ∨ s.st i = .comp → s.st j = .deq ∨ s.st j = .comp → i = j
  out : ∀ i, c.n ≤ i → s.st i = .idle
  jout : ∀ j, c.k ≤ j → s.jc j = .idle

/-- Join operations. -/
structure Jn (s : St) : Prop where
  l1 : ∀ j, j ∈ s.lst ↔ s.hc = false ∧ s.jc j = .wait
  l2 : ∀ j, j ∈ s.todo ↔ s.hc = true ∧ s.jc j = .wait
  l3 : s.lst.Nodup
  l4 : s.todo.Nodup
  v1 : ∀ j, s.jc j = .reg ∨ s.jc j = .wait → s.via j = true
  v2 : ∀ j, s.via j = true → s.jc j ≠ .idle ∧ s.jc j ≠ .made
  v3 : s.jng = true → s.via s.jw = true
  v4 : ∀ i, s.st i = .deq → s.via s.jw = true
  v5 : s.hc = true → s.via s.jw = true
  v6 : ∀ j, s.via j = true → s.jc j = .inl ∨ s.jc j = .done → s.hc = true
  v7 : ∀ j, s.jc j = .inl ∨ s.jc j = .done → s.jd = true
  me : ∀ j, s.met j = true → s.jc j = .done
  d1 : s.d ≠ .live → s.jd = true
  d2 : ∀ j, s.d ≠ .live → s.jc j ≠ .idle → s.met j = true
  d3 : ∀ i, s.d ≠ .live → s.st i ≠ .deq
  d4 : s.d ≠ .live → ∃ j, s.met j = true

/-- Values. -/
structure Val (s : St) : Prop where
  ab : ∀ j, s.kb < j → s.m.hist .bits j = none
  gb : ∀ j, j ≤ s.kb → s.m.hist .bits j ≠ none
  ah : ∀ j, s.kh < j → s.m.hist .head j = none
  gh : ∀ j, j ≤ s.kh → s.m.hist .head j ≠ none
  vb : ∀ g, s.m.hist .bits s.kb = some g → g.val = enc s.cnt s.jng s.need s.cls
  vh : ∀ ts g, s.m.hist .head ts = some g → g.val = 1 → s.hc = true ∧ ts = s.kh
  vh1 : ∀ g, s.hc = true → s.m.hist .head s.kh = some g → g.val = 1
  pj : s.jd = true → s.pJ ≤ s.kb
  pv : ∀ ts g, s.jd = true → s.pJ ≤ ts → s.m.hist .bits ts = some g → g.val = 1
  s1 : ∀ j, s.jc j = .inl → s.pJ ≤ (s.m.cur (tj j)).seen .bits
  s2 : ∀ j, s.jc j = .done → s.pJ ≤ (s.cv j).seen .bits
  s3 : ∀ j, s.met j = true → s.pJ ≤ (s.m.cur 0).seen .bits
  s4 : ∀ i, s.st i = .deq ∨ s.st i = .comp → s.pJ ≤ (s.m.cur (ta i)).seen .bits
  s5 : ∀ g, s.hc = true → s.m.hist .head s.kh = some g → s.pJ ≤ g.view.seen .bits
  tm : s.term = false

/-- What an association does before it is given up. -/
def early (a : Acc) : Prop := a.what = .bits ∨ a.what = .work

/-- Knowledge. -/
structure Kn (s : St) : Prop where
  own : ∀ x a, s.m.logged x a → (s.m.cur a.who).know x = true
  wa : ∀ x a, s.m.logged x a → a.who % 2 = 1 → s.st (a.who / 2) ≠ .idle
  wj : ∀ x a j, s.m.logged x a → a.who = tj j → s.jc j ≠ .idle
  kop : ∀ x a j, s.m.logged x a → a.what = .op j → a.who = tj j ∨ s.jc j = .done
  kds : ∀ x a, s.m.logged x a → a.what = .destroy → s.d = .gone
  k1 : ∀ x a g, s.m.logged x a → a.who % 2 = 1 → early a → s.st (a.who / 2) ≠ .act → s.m.hist .bits s.kb = some g → g.view.know x = true
  k2 : ∀ x a g, s.m.logged x a → a.who % 2 = 1 → a.what = .head → s.m.hist .head s.kh = some g → s.hc = true ∧ g.view.know x = true
  k3 : ∀ x a g, s.hc = true → s.m.logged x a → a.who % 2 = 1 → early a → s.m.hist .head s.kh = some g → g.view.know x = true
  k4 : ∀ x a j, s.jc j = .inl → s.m.logged x a → a.who % 2 = 1 → early a → (s.m.cur (tj j)).know x = true
  k5 : ∀ x a j, s.st j = .deq ∨ s.st j = .comp → s.m.logged x a → a.who % 2 = 1 → early a → (s.m.cur (ta j)).know x = true
  k6 : ∀ x a j, s.jc j = .done → s.m.logged x a → a.who % 2 = 1 → early a → (s.cv j).know x = true
  k7 : ∀ x a j, s.via j = true → s.jc j = .inl → s.m.logged x a → a.who % 2 = 1 → a.what = .head → (s.m.cur (tj j)).know x = true
  k7d : ∀ x a j, s.via j = true → s.jc j = .done → s.m.logged x a → a.who % 2 = 1 → a.what = .head → (s.cv j).know x = true
  k7c : ∀ x a j, s.st j = .comp → s.m.logged x a → a.who % 2 = 1 → a.what = .head → (s.m.cur (ta j)).know x = true
  k9 : ∀ x a j g, s.jc j = .wait → s.hc = false → s.m.logged x a → a.who = tj j → s.m.hist .head s.kh = some g → g.view.know x = true
  k9c : ∀ x a i j, s.jc j = .wait → s.st i = .comp → s.m.logged x a → a.who = tj j → (s.m.cur (ta i)).know x = true
  k10 : ∀ x a j, s.jc j = .done → s.m.logged x a → a.who = tj j ∨ a.what = .op j → (s.cv j).know x = true
  k12 : ∀ x j, s.met j = true → (s.cv j).know x = true → (s.m.cur 0).know x = true
  k13 : ∀ x a, s.m.logged x a → a.who = 0 → a.what = .bits ∨ a.what = .destroy
  k14 : ∀ x a, s.m.logged x a → a.who % 2 = 1 → a.what ≠ .destroy
  k15 : ∀ x a, s.m.logged x a → a.who ≠ 0 → a.who % 2 = 0 → a.what ≠ .work ∧ a.what ≠ .destroy
  last : ∀ x y a b, s.m.logged x a → s.m.logged y b → a.what = .destroy → y ≤ x

structure Inv (c : Cfg) (s : St) : Prop where
  ctl : Ctl c s
  j : Jn s
  v : Val s
  k : Kn s
  noRace : s.m.race = false

theorem inv_init (c : Cfg) : Inv c init := by
  have h0 : na c init = 0 := by
    simp only [na, init]
    rw [cnt_zero_iff]
    intro i _; rfl
  refine ⟨?_, ?_, ?_, ?_, rfl⟩
  · constructor <;> (try rw [h0]) <;> simp [init]
  · constructor <;> simp [init]
  · constructor <;> simp (config := { contextual := true }) [init, Mem.init, View.bot, enc]
    all_goals grind
  · constructor <;> simp (config := { contextual := true }) [init, Mem.init, Mem.logged]

theorem na_eq {c : Cfg} {s s' : St} (h : s'.st = s.st) : na c s' = na c s := by simp only [na, h]

theorem na_eq' {c : Cfg} {s s' : St} {i : Nat} {x : AC} (h : s'.st = upd s.st i x) (h0 : s.st i ≠ .act) (h1 : x ≠ .act) : na c s' = na c s := by
  simp only [na]
  refine cnt_congr fun j _ => ?_
  rw [h, upd_apply]
  by_cases e : j = i <;> simp [e, h0, h1]

theorem na_add {c : Cfg} {s s' : St} {i : Nat} (hi : i < c.n) (h0 : s.st i ≠ .act) (h : s'.st = upd s.st i .act) : na c s' = na c s + 1 := by
  refine cnt_flip (a := i) hi ?_ ?_ ?_
  · simp [h0]
  · simp [h, upd_same]
  · intro j hj; simp [h, upd_other _ _ hj]

theorem na_sub {c : Cfg} {s s' : St} {i : Nat} {x : AC} (hi : i < c.n) (h0 : s.st i = .act) (hx : x ≠ .act) (h : s'.st = upd s.st i x) :
    na c s = na c s' + 1 := by
  refine cnt_flip (a := i) hi ?_ ?_ ?_
  · simp [h, upd_same, hx]
  · simp [h0]
  · intro j hj; simp [h, upd_other _ _ hj]

/-- An existing association is counted. -/
theorem na_pos {c : Cfg} {s : St} (h : Ctl c s) {i : Nat} (hi : s.st i = .act) : 0 < s.cnt := by
  rw [h.num]
  rcases Nat.eq_zero_or_pos (na c s) with e | e
  · simp only [na] at e
    rw [cnt_zero_iff] at e
    have hl : i < c.n := by
      rcases Nat.lt_or_ge i c.n with hl | hl
      · exact hl
      · have := h.out i hl; rw [hi] at this; cases this
    have := e i hl
    simp [hi] at this
  · exact e

theorem enc_div (c : Nat) (j n x : Bool) : enc c j n x / 8 = c := by cases j <;> cases n <;> cases x <;> simp [enc] <;> omega
theorem enc_mod (c : Nat) (j n x : Bool) : enc c j n x % 2 = x.toNat := by cases j <;> cases n <;> cases x <;> simp [enc] <;> omega
theorem enc_one (c : Nat) (j n x : Bool) (h : enc c j n x = 1) : c = 0 ∧ j = false ∧ n = false ∧ x = true := by
  cases j <;> cases n <;> cases x <;> simp [enc] at h ⊢ <;> omega
theorem fInc_enc (c : Nat) (j n x : Bool) : fInc (enc c j n x) = enc (c + 1) j true x := by
  cases j <;> cases n <;> cases x <;> simp [enc, fInc] <;> omega
theorem fCls_enc (c : Nat) (j n x : Bool) : fCls (enc c j n x) = enc c j n true := by
  cases j <;> cases n <;> cases x <;> simp [enc, fCls] <;> omega
theorem fJng_enc (c : Nat) (j n x : Bool) : fJng (enc c j n x) = enc c true n x := by
  cases j <;> cases n <;> cases x <;> simp [enc, fJng] <;> omega
theorem fDec_enc (c : Nat) (j n x : Bool) : fDec (enc c j n x) = if c = 1 ∧ j = true then 1 else enc (c - 1) j n x := by
  cases j <;> cases n <;> cases x <;> simp [enc, fDec] <;> grind

theorem enc_joined : enc 0 false false true = 1 := rfl

end Verif.WmScope
