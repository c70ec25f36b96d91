import Verif.MemRes.Model
import Mathlib.Tactic.ByContra
/-! # `__memory_resource_adaptor` — C70 -/
namespace Verif.MemRes

theorem read_write (mem : Nat → Nat) (q v : Nat) (h : v < W) : readPtr (writePtr mem q v) q = v := by
  have h1 : ∀ n, q + (n + 1) ≠ q := by omega
  simp only [readPtr, writePtr, W] at *
  simp
  omega

theorem read_congr {m m' : Nat → Nat} {q : Nat} (h : ∀ a, q ≤ a → a < q + 8 → m a = m' a) :
    readPtr m q = readPtr m' q := by
  simp only [readPtr]
  rw [h q, h (q + 1), h (q + 2), h (q + 3), h (q + 4), h (q + 5), h (q + 6), h (q + 7)] <;> omega

theorem write_other {mem : Nat → Nat} {q v a : Nat} (h : a < q ∨ q + 8 ≤ a) :
    writePtr mem q v a = mem a := by
  simp only [writePtr]
  repeat' split
  all_goals first | rfl | omega

/-- Specification: the request does not overflow `std::size_t` when the adaptor adds its overhead. -/
def NoWrap (bytes align : Nat) : Prop := bytes + align - 1 + 8 < W

theorem align_spec {al bytes ptr space : Nat} (h0 : 0 < al) (hs : bytes + al - 1 ≤ space) :
    ∃ p sp, stdAlign al bytes ptr space = some (p, sp) ∧ ptr ≤ p ∧ p ≤ ptr + (al - 1) ∧ p % al = 0 ∧
      p + sp = ptr + space := by
  have hd : (al - ptr % al) % al ≤ al - 1 := by have := Nat.mod_lt (al - ptr % al) h0; omega
  refine ⟨ptr + (al - ptr % al) % al, space - (al - ptr % al) % al, ?_, by omega, by omega, ?_, by omega⟩
  · simp only [stdAlign]; rw [if_pos (by omega)]
  · have hm := Nat.mod_lt ptr h0
    by_cases hz : ptr % al = 0
    · simp [hz]
    · rw [Nat.mod_eq_of_lt (show al - ptr % al < al by omega)]
      have := Nat.div_add_mod ptr al
      rw [show ptr + (al - ptr % al) = al * (ptr / al) + al by omega]
      simp

structure Inv (s : St) : Prop where
  in1 : ∀ p b, s.blk p = some b → b.base ≤ p ∧ p + b.bytes + 8 ≤ b.base + upstream b.bytes b.align ∧
    p % b.align = 0 ∧ s.up b.base = some (upstream b.bytes b.align) ∧ b.base < W ∧
    readPtr s.mem (p + b.bytes) = b.base
  in2 : ∀ a n, s.up a = some n → ∃ p b, s.blk p = some b ∧ b.base = a
  in3 : ∀ p b p' b', s.blk p = some b → s.blk p' = some b' → b.base = b'.base → p = p'
  in4 : ∀ a n b m, s.up a = some n → s.up b = some m → a ≠ b → a + n ≤ b ∨ b + m ≤ a
  in5 : ∀ a n, s.up a = some n → 0 < a ∧ a + n ≤ W
  noub : s.ub = false

theorem inv_init : Inv init := by constructor <;> simp [init]

/-- The requests made so far did not overflow. -/
def Okay : Act → Prop
  | .alloc bytes k _ => NoWrap bytes (2 ^ k)
  | _ => True

variable {s s' : St}

theorem inv_alloc {bytes k base} (h : Inv s) (hok : NoWrap bytes (2 ^ k))
    (hs : step s (.alloc bytes k base) = some s') : Inv s' ∧
      ∃ p, s'.blk p = some ⟨bytes, 2 ^ k, base⟩ ∧ s.blk p = none := by
  simp only [step] at hs
  split at hs
  · rename_i hg
    obtain ⟨hb, hk, hf0, hf1, hf2⟩ := hg
    have hn : upstream bytes (2 ^ k) = bytes + 2 ^ k - 1 + 8 := Nat.mod_eq_of_lt hok
    have hpos : 0 < 2 ^ k := Nat.two_pow_pos k
    obtain ⟨p, sp, ha, hp1, hp2, hp3, hp4⟩ := align_spec (al := 2 ^ k) (bytes := bytes) (ptr := base)
      (space := upstream bytes (2 ^ k)) hpos (by omega)
    rw [ha] at hs
    simp only [Option.some.injEq] at hs
    subst hs
    have hbase : s.up base = none := by
      cases hu : s.up base with
      | none => rfl
      | some m => have h1 := hf2 base m hu
                  obtain ⟨q, b, h3, h4⟩ := h.in2 base m hu
                  have h5 := h.in1 q b h3
                  rw [h4, hu] at h5
                  simp only [Option.some.injEq] at h5
                  omega
    have hdis : ∀ q b, s.blk q = some b → p + bytes + 8 ≤ q ∨ q + b.bytes + 8 ≤ p := by
      intro q b hq
      have h1 := h.in1 q b hq
      have h2 := hf2 _ _ h1.2.2.2.1
      omega
    have hnone : s.blk p = none := by
      cases hq : s.blk p with
      | none => rfl
      | some b => have := hdis p b hq; omega
    have hne : ∀ q b, s.blk q = some b → q ≠ p ∧ b.base ≠ base := by
      intro q b hq
      constructor
      · intro he; rw [he, hnone] at hq; cases hq
      · intro he
        have h1 := (h.in1 q b hq).2.2.2.1
        rw [he, hbase] at h1; cases h1
    refine ⟨?_, p, by simp, hnone⟩
    constructor
    · intro q b hq
      simp only [upd_apply] at hq ⊢
      split at hq
      · rename_i he; subst he
        simp only [Option.some.injEq] at hq
        subst hq
        simp only [if_true]
        refine ⟨hp1, by omega, hp3, trivial, by omega, read_write _ _ _ (by omega)⟩
      · have h1 := h.in1 q b hq
        have h2 := hne q b hq
        have h3 := hdis q b hq
        simp only [h2.2, if_false]
        refine ⟨h1.1, h1.2.1, h1.2.2.1, h1.2.2.2.1, h1.2.2.2.2.1, ?_⟩
        rw [← h1.2.2.2.2.2]
        apply read_congr
        intro a _ _
        apply write_other; omega
    · intro a n hu
      simp only [upd_apply] at hu ⊢
      split at hu
      · rename_i he; subst he
        exact ⟨p, ⟨bytes, 2 ^ k, a⟩, by simp, rfl⟩
      · obtain ⟨q, b, h3, h4⟩ := h.in2 a n hu
        exact ⟨q, b, by simp [(hne q b h3).1, h3], h4⟩
    · intro q b q' b' h1 h2 h3
      simp only [upd_apply] at h1 h2
      split at h1 <;> split at h2
      · omega
      · simp only [Option.some.injEq] at h1; subst h1
        exact absurd h3.symm (hne q' b' h2).2
      · simp only [Option.some.injEq] at h2; subst h2
        exact absurd h3 (hne q b h1).2
      · exact h.in3 q b q' b' h1 h2 h3
    · intro a n b m h1 h2 h3
      simp only [upd_apply] at h1 h2
      split at h1 <;> split at h2
      · omega
      · simp only [Option.some.injEq] at h1; have := hf2 b m h2; omega
      · simp only [Option.some.injEq] at h2; have := hf2 a n h1; omega
      · exact h.in4 a n b m h1 h2 h3
    · intro a n h1
      simp only [upd_apply] at h1
      split at h1
      · simp only [Option.some.injEq] at h1; omega
      · exact h.in5 a n h1
    · simp only [h.noub, Bool.false_or, decide_eq_false_iff_not]; omega
  · cases hs

theorem inv_dealloc {p} (h : Inv s) (hs : step s (.dealloc p) = some s') : Inv s' := by
  simp only [step] at hs
  split at hs
  · cases hs
  · rename_i b hb
    have h1 := h.in1 p b hb
    rw [h1.2.2.2.2.2] at hs
    simp only [Option.some.injEq] at hs
    subst hs
    have hne : ∀ q c, s.blk q = some c → q ≠ p → c.base ≠ b.base := by
      intro q c hq hqp he
      exact hqp (h.in3 q c p b hq hb he)
    constructor
    · intro q c hq
      simp only [upd_apply] at hq ⊢
      split at hq
      · cases hq
      · rename_i hqp
        have h2 := h.in1 q c hq
        simp only [hne q c hq hqp, if_false]
        exact h2
    · intro a n hu
      simp only [upd_apply] at hu
      split at hu
      · cases hu
      · rename_i hab
        obtain ⟨q, c, h3, h4⟩ := h.in2 a n hu
        refine ⟨q, c, ?_, h4⟩
        have : q ≠ p := by
          intro he; subst he; rw [hb] at h3; cases h3; exact hab h4.symm
        simp [upd_apply, this, h3]
    · intro q c q' c' h2 h3 h4
      simp only [upd_apply] at h2 h3
      split at h2 <;> split at h3 <;> first | (cases h2; done) | (cases h3; done) | skip
      exact h.in3 q c q' c' h2 h3 h4
    · intro a n c m h2 h3 h4
      simp only [upd_apply] at h2 h3
      split at h2 <;> split at h3 <;> first | (cases h2; done) | (cases h3; done) | skip
      exact h.in4 a n c m h2 h3 h4
    · intro a n h2
      simp only [upd_apply] at h2
      split at h2
      · cases h2
      · exact h.in5 a n h2
    · simp [h.noub, h1.2.2.2.1]

theorem blocks_apart (h : Inv s) {p q b c} (hb : s.blk p = some b) (hc : s.blk q = some c)
    (hne : p ≠ q) : p + b.bytes + 8 ≤ q ∨ q + c.bytes + 8 ≤ p := by
  have h1 := h.in1 p b hb
  have h2 := h.in1 q c hc
  have h3 : b.base ≠ c.base := fun he => hne (h.in3 p b q c hb hc he)
  have h4 := h.in4 _ _ _ _ h1.2.2.2.1 h2.2.2.2.1 h3
  omega

theorem inv_write {p off v} (h : Inv s) (hs : step s (.write p off v) = some s') : Inv s' := by
  simp only [step] at hs
  split at hs
  · cases hs
  · rename_i b hb
    split at hs
    · rename_i hg
      simp only [Option.some.injEq] at hs
      subst hs
      refine ⟨?_, h.in2, h.in3, h.in4, h.in5, h.noub⟩
      intro q c hq
      have h2 := h.in1 q c hq
      refine ⟨h2.1, h2.2.1, h2.2.2.1, h2.2.2.2.1, h2.2.2.2.2.1, ?_⟩
      have h5 := h2.2.2.2.2.2
      refine Eq.trans (read_congr ?_) h5
      intro a h3 h4
      apply upd_other
      have h1 := h.in1 p b hb
      by_cases hqp : q = p
      · subst hqp; rw [hb] at hq; cases hq; omega
      · have := blocks_apart h hb hq (fun he => hqp he.symm)
        omega
    · cases hs

/-- Histories whose requests do not overflow `std::size_t`. -/
inductive OkReach : St → Prop
  | refl : OkReach init
  | tail {s s' : St} (a : Act) : OkReach s → Okay a → step s a = some s' → OkReach s'

theorem inv_ok (h : OkReach s) : Inv s := by
  induction h with
  | refl => exact inv_init
  | tail a _ hok hs ih =>
    cases a with
    | alloc bytes k base => exact (inv_alloc ih hok hs).1
    | dealloc p => exact inv_dealloc ih hs
    | write p off v => exact inv_write ih hs

/-- Every block given out is aligned as requested and lies inside a buffer of the allocator underneath
    that has not been deallocated. -/
theorem C70_aligned_partial (h : OkReach s) {p : Nat} {b : Blk} (hb : s.blk p = some b) :
    p % b.align = 0 ∧ ∃ a n, s.up a = some n ∧ a ≤ p ∧ p + b.bytes ≤ a + n ∧ 0 < p := by
  have h1 := (inv_ok h).in1 p b hb
  have h2 := (inv_ok h).in5 _ _ h1.2.2.2.1
  exact ⟨h1.2.2.1, b.base, _, h1.2.2.2.1, h1.1, by omega, by omega⟩

/-- Two blocks given out and not yet returned never overlap. -/
theorem C70_disjoint_partial (h : OkReach s) {p q : Nat} {b c : Blk} (hb : s.blk p = some b)
    (hc : s.blk q = some c) (hne : p ≠ q) : p + b.bytes ≤ q ∨ q + c.bytes ≤ p := by
  have := blocks_apart (inv_ok h) hb hc hne
  omega

/-- `allocate` gives out a block of the requested size at an address where no block is in use;
    whatever users write into their blocks and in whatever order blocks are returned, no buffer is
    overrun and the allocator underneath gets back exactly the buffers it handed out, with their
    sizes (`ub` is never set); and it has an allocated buffer only while a block placed in it is in
    use, so returning all blocks returns all buffers. -/
theorem C70_returns_partial (h : OkReach s) :
    s.ub = false ∧ ((∀ p, s.blk p = none) → ∀ a, s.up a = none) := by
  have hi := inv_ok h
  refine ⟨hi.noub, fun hn a => ?_⟩
  cases hu : s.up a with
  | none => rfl
  | some n => obtain ⟨q, c, h3, _⟩ := hi.in2 a n hu; rw [hn q] at h3; cases h3

theorem C70_allocates_partial (h : OkReach s) {bytes k base : Nat} (hok : NoWrap bytes (2 ^ k))
    (hs : step s (.alloc bytes k base) = some s') :
    ∃ p, s'.blk p = some ⟨bytes, 2 ^ k, base⟩ ∧ s.blk p = none :=
  (inv_alloc (inv_ok h) hok hs).2

/-- Bytes written by the user stay: other users' writes, allocations and deallocations do not change
    the contents of a block in use. -/
theorem C70_contents_partial (h : OkReach s) {p : Nat} {b : Blk} (hb : s.blk p = some b) (a : Act)
    (hok : Okay a) (hs : step s a = some s') (hw : ∀ off v, a ≠ .write p off v)
    (hd : a ≠ .dealloc p) (i : Nat) (hi : i < b.bytes) :
    s'.blk p = some b ∧ s'.mem (p + i) = s.mem (p + i) := by
  have hinv := inv_ok h
  cases a with
  | alloc bytes k base =>
    obtain ⟨hinv', q, hq1, hq2⟩ := inv_alloc hinv hok hs
    have hne : q ≠ p := by intro he; subst he; rw [hb] at hq2; cases hq2
    have hq1' := hq1
    simp only [step] at hs
    split at hs
    · split at hs
      · simp only [Option.some.injEq] at hs; subst hs
        rw [hq1] at hq2; cases hq2
      · rename_i q' sp _
        simp only [Option.some.injEq] at hs
        have hqq : q = q' := by
          subst hs
          simp only [upd_apply] at hq1
          split at hq1
          · assumption
          · rw [hq2] at hq1; cases hq1
        subst hqq
        have hb' : s'.blk p = some b := by subst hs; simp [upd_apply, Ne.symm hne, hb]
        have hap := blocks_apart hinv' hb' hq1' (Ne.symm hne)
        refine ⟨hb', ?_⟩
        subst hs
        apply write_other
        simp only at hap
        omega
    · cases hs
  | dealloc q =>
    have hne : p ≠ q := by intro he; subst he; exact hd rfl
    simp only [step] at hs
    split at hs
    · cases hs
    · simp only [Option.some.injEq] at hs; subst hs
      exact ⟨by simp [upd_apply, hne, hb], rfl⟩
  | write q off v =>
    have hne : p ≠ q := by intro he; subst he; exact hw off v rfl
    simp only [step] at hs
    split at hs
    · cases hs
    · rename_i c hc
      split at hs
      · rename_i hg
        simp only [Option.some.injEq] at hs; subst hs
        refine ⟨hb, ?_⟩
        apply upd_other
        have := blocks_apart hinv hb hc hne
        omega
      · cases hs

/-! ## The size computation can overflow -/

/-- `allocate(2^64 - 8, 1)` asks the allocator underneath for 0 bytes, gets them, and goes on with a
    null pointer instead of failing. -/
theorem C70_violation : ∃ s, Reachable s ∧ s.ub = true := by
  refine ⟨_, Reach.tail (.alloc (W - 8) 0 1) .refl
    (s' := { init with up := upd init.up 1 (some 0), ub := true }) ?_, rfl⟩
  have hf : Fresh init 1 (upstream (W - 8) (2 ^ 0)) := by
    refine ⟨by omega, by decide, ?_⟩
    intro b m hm; cases hm
  have hn : upstream (W - 8) (2 ^ 0) = 0 := by decide
  simp only [step]
  rw [if_pos ⟨by decide, by decide, hf⟩]
  rw [hn]
  have : stdAlign (2 ^ 0) (W - 8) 1 0 = none := by decide
  rw [this]

/-! ## A concrete history: an unaligned buffer, a 16-aligned block, a write, and its return -/
example : ∃ s, OkReach s ∧ s.blk 16 = some ⟨24, 16, 3⟩ ∧ s.up 3 = some 47 := by
  have hf : Fresh init 3 (upstream 24 (2 ^ 4)) :=
    ⟨by omega, by decide, fun b m hm => by cases hm⟩
  refine ⟨_, OkReach.tail (.alloc 24 4 3) .refl (by simp [Okay, NoWrap, W])
    (s' := { mem := writePtr init.mem 40 3, up := upd init.up 3 (some 47),
             blk := upd init.blk 16 (some ⟨24, 2 ^ 4, 3⟩), ub := false }) ?_, by simp, by simp⟩
  simp only [step]
  rw [if_pos ⟨by decide, by decide, hf⟩]
  have h1 : upstream 24 (2 ^ 4) = 47 := by decide
  have h2 : stdAlign (2 ^ 4) 24 3 47 = some (16, 34) := by decide
  rw [h1, h2]
  simp [init]

end Verif.MemRes
