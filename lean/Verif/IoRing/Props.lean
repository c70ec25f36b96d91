import Verif.IoRing.Model
/-! # The rings shared with the kernel are bounded queues (C103) -/
namespace Verif.IoRing

theorem mask_eq (s : St) (x : Nat) : x &&& mask s = x % 2 ^ s.k := Nat.and_two_pow_sub_one_eq_mod x s.k

theorem W_eq : W = 2 ^ 32 := rfl

theorem mod_slot {k : Nat} (hk : k ≤ 31) (x : Nat) : x % W % 2 ^ k = x % 2 ^ k := by
  rw [W_eq]; exact Nat.mod_mod_of_dvd x (Nat.pow_dvd_pow 2 (by omega))

theorem pow_le {k : Nat} (hk : k ≤ 31) : 2 ^ k ≤ 2147483648 := by
  have := Nat.pow_le_pow_right (n := 2) (by decide) hk
  simpa using this

theorem inc32_eq (x : Nat) : inc32 (x % W) = (x + 1) % W := by unfold inc32 W; omega

theorem sub32_eq {a b x : Nat} (h1 : a ≤ b) (h2 : b ≤ a + 2147483648) : sub32 ((x + b) % W) ((x + a) % W) = b - a := by
  unfold sub32 W; omega

theorem slot_ne {p b i j : Nat} (h1 : i < j) (h2 : j < i + p) : (b + i) % p ≠ (b + j) % p := by
  intro e
  have hp : 0 < p := by omega
  have h3 := Nat.le_of_dvd (by omega) (Nat.dvd_of_mod_eq_zero (Nat.sub_mod_eq_zero_of_mod_eq e.symm))
  omega

theorem idx_ne {a b x : Nat} (h1 : a ≤ b) (h2 : b ≤ a + 2147483648) (h : (x + a) % W = (x + b) % W) : a = b := by
  unfold W at h; omega

/-- A history of stores to an index. -/
structure HistOk (b : Nat) (g : Hist) (top : Nat) : Prop where
  pos : 0 < g.n
  val : ∀ j, j < g.n → g.val j = (b + g.cnt j) % W
  mono : ∀ i j, i ≤ j → j < g.n → g.cnt i ≤ g.cnt j
  top : ∀ j, j < g.n → g.cnt j ≤ top

theorem HistOk.push {b : Nat} {g : Hist} {top : Nat} (h : HistOk b g top) : HistOk b (g.push ((b + top) % W) top) top := by
  obtain ⟨h1, h2, h3, h4⟩ := h
  refine ⟨?_, ?_, ?_, ?_⟩ <;> simp only [Hist.push]
  · omega
  · intro j hj; split
    · rfl
    · exact h2 j (by omega)
  · intro i j hi hj
    split <;> split
    · omega
    · omega
    · exact h4 i (by omega)
    · exact h3 i j hi (by omega)
  · intro j hj; split
    · omega
    · exact h4 j (by omega)

theorem HistOk.grow {b : Nat} {g : Hist} {top top' : Nat} (h : HistOk b g top) (ht : top ≤ top') : HistOk b g top' :=
  ⟨h.pos, h.val, h.mono, fun j hj => Nat.le_trans (h.top j hj) ht⟩

/-- `b` is the initial value of the indices. -/
structure Inv (b : Nat) (s : St) : Prop where
  hk : s.k ≤ 31
  hd : HistOk b s.head s.out.length
  tl : HistOk b s.tail s.inp.length
  pS : s.pSeen < s.head.n
  cS : s.cSeen < s.tail.n
  tOff : s.pOn = false → s.tail.cnt (s.tail.n - 1) = s.inp.length
  tOn : s.pOn = true → s.t = (b + s.inp.length) % W
  room : s.inp.length ≤ s.head.cnt s.pSeen + 2 ^ s.k
  more : s.pOn = true → s.ns ≤ s.mx ∧ s.inp.length + (s.mx - s.ns) ≤ s.head.cnt s.pSeen + 2 ^ s.k
  hOff : s.cOn = false → s.head.cnt (s.head.n - 1) = s.out.length
  hOn : s.cOn = true → s.h = (b + s.out.length) % W ∧ s.te = (b + s.tail.cnt s.cSeen) % W
  avail : s.out.length ≤ s.tail.cnt s.cSeen
  cell : ∀ i x, s.out.length ≤ i → s.inp[i]? = some x → s.cells ((b + i) % 2 ^ s.k) = x ∧ s.array ((b + i) % 2 ^ s.k) = (b + i) % 2 ^ s.k
  fifo : s.out = s.inp.take s.out.length

theorem inv_init (k b : Nat) (hk : k ≤ 31) : Inv b (init k b) := by
  refine ⟨hk, ⟨?_, ?_, ?_, ?_⟩, ⟨?_, ?_, ?_, ?_⟩, ?_, ?_, ?_, ?_, ?_, ?_, ?_, ?_, ?_, ?_, ?_⟩ <;> simp [init]

theorem inv_step (b : Nat) (s : St) (a : Act) (s' : St) (hi : Inv b s) (h : step s a = some s') : Inv b s' := by
  obtain ⟨hk, hd, tl, pS, cS, tOff, tOn, room, more, hOff, hOn, avail, cell, fifo⟩ := hi
  have hp := pow_le hk
  have hpos : 0 < 2 ^ s.k := Nat.pow_pos (by decide)
  have hin := tl.top s.cSeen cS
  have hout := hd.top s.pSeen pS
  cases a with
  | pBegin j m =>
    simp only [step] at h
    split at h
    case isFalse => cases h
    rename_i hc; cases h
    obtain ⟨c1, c2, c3⟩ := hc
    have e1 := tl.val (s.tail.n - 1) (by have := tl.pos; omega)
    rw [tOff c1] at e1
    have e2 := hd.val j c3
    have e3 := hd.mono s.pSeen j c2 c3
    have e4 := hd.top j c3
    have e5 : sub32 (s.tail.val (s.tail.n - 1)) (s.head.val j) = s.inp.length - s.head.cnt j := by
      rw [e1, e2]; exact sub32_eq (by omega) (by omega)
    refine ⟨hk, hd, tl, c3, cS, by simp, fun _ => e1, ?_, fun _ => ⟨by simp, ?_⟩, hOff, hOn, avail, cell, fifo⟩
    · dsimp only; omega
    · dsimp only; rw [e5]; omega
  | pWrite x =>
    simp only [step] at h
    split at h
    case isFalse => cases h
    rename_i hc; cases h
    obtain ⟨c1, c2⟩ := hc
    have hm := more c1
    have ht := tOn c1
    have hidx : s.t &&& mask s = (b + s.inp.length) % 2 ^ s.k := by rw [mask_eq, ht, mod_slot hk]
    refine ⟨hk, hd, tl.grow (by simp), pS, cS, fun e => by simp [c1] at e, fun _ => ?_, ?_, fun _ => ⟨?_, ?_⟩, hOff, hOn, avail, ?_, ?_⟩
    · dsimp only; rw [ht, inc32_eq, List.length_append]; rfl
    · dsimp only; rw [List.length_append]; simp; omega
    · dsimp only; omega
    · dsimp only; rw [List.length_append]; simp; omega
    · intro i y hi hy
      dsimp only at hi hy ⊢
      rw [hidx]
      by_cases e : i = s.inp.length
      · subst e
        simp at hy
        simp [hy]
      · have hlt : i < s.inp.length := by
          have := (List.getElem?_eq_some_iff.1 hy).1
          rw [List.length_append] at this; simp at this; omega
        rw [List.getElem?_append_left hlt] at hy
        have hne := slot_ne (p := 2 ^ s.k) (b := b) hlt (by omega)
        simp only [hne, if_false]
        exact cell i y hi hy
    · dsimp only
      rw [List.take_append_of_le_length (by omega)]; exact fifo
  | pEnd =>
    simp only [step] at h
    split at h
    case isFalse => cases h
    rename_i c1; cases h
    have ht := tOn c1
    have hpush := tl.push
    rw [← ht] at hpush
    have ec : (s.tail.push s.t s.inp.length).cnt s.cSeen = s.tail.cnt s.cSeen := by
      simp only [Hist.push]; rw [if_neg (by omega)]
    refine ⟨hk, hd, hpush, pS, by simp only [Hist.push]; omega, fun _ => by simp [Hist.push], fun e => by simp at e, room,
      fun e => by simp at e, hOff, ?_, ?_, cell, fifo⟩
    · dsimp only; rw [ec]; exact hOn
    · dsimp only; rw [ec]; exact avail
  | cBegin j =>
    simp only [step] at h
    split at h
    case isFalse => cases h
    rename_i hc; cases h
    obtain ⟨c1, c2, c3⟩ := hc
    have e1 := hd.val (s.head.n - 1) (by have := hd.pos; omega)
    rw [hOff c1] at e1
    have e3 := tl.mono s.cSeen j c2 c3
    exact ⟨hk, hd, tl, pS, c3, tOff, tOn, room, more, by simp, fun _ => ⟨e1, tl.val j c3⟩, Nat.le_trans avail e3, cell, fifo⟩
  | cRead =>
    simp only [step] at h
    split at h
    case isFalse => cases h
    rename_i hc; cases h
    obtain ⟨c1, c2⟩ := hc
    obtain ⟨eh, et⟩ := hOn c1
    have hlt : s.out.length < s.tail.cnt s.cSeen := by
      rcases Nat.lt_or_ge s.out.length (s.tail.cnt s.cSeen) with h | h
      · exact h
      · have : s.out.length = s.tail.cnt s.cSeen := by omega
        exact absurd (by rw [eh, et, this]) c2
    have hlt' : s.out.length < s.inp.length := by omega
    have hx := List.getElem?_eq_getElem hlt'
    have hcell := cell s.out.length _ (Nat.le_refl _) hx
    have hidx : s.h &&& mask s = (b + s.out.length) % 2 ^ s.k := by rw [mask_eq, eh, mod_slot hk]
    refine ⟨hk, hd.grow (by simp), tl, pS, cS, tOff, tOn, room, more, fun e => by simp [c1] at e, fun _ => ⟨?_, et⟩, ?_, ?_, ?_⟩
    · dsimp only; rw [eh, inc32_eq, List.length_append]; rfl
    · dsimp only; rw [List.length_append]; simp; omega
    · intro i y hi hy
      dsimp only at hi hy ⊢
      rw [List.length_append] at hi; simp at hi
      exact cell i y (by omega) hy
    · dsimp only
      rw [hidx, hcell.2, hcell.1, List.length_append]
      have : s.inp.take (s.out.length + [s.inp[s.out.length]].length) = s.inp.take s.out.length ++ [s.inp[s.out.length]] := by
        simp
      rw [this, ← fifo]
  | cLoad j =>
    simp only [step] at h
    split at h
    case isFalse => cases h
    rename_i hc; cases h
    obtain ⟨c1, c2, c3⟩ := hc
    have e3 := tl.mono s.cSeen j c2 c3
    exact ⟨hk, hd, tl, pS, c3, tOff, tOn, room, more, hOff, fun _ => ⟨(hOn c1).1, tl.val j c3⟩, Nat.le_trans avail e3, cell, fifo⟩
  | cEnd =>
    simp only [step] at h
    split at h
    case isFalse => cases h
    rename_i c1; cases h
    obtain ⟨eh, et⟩ := hOn c1
    have hpush := hd.push
    rw [← eh] at hpush
    have ec : (s.head.push s.h s.out.length).cnt s.pSeen = s.head.cnt s.pSeen := by
      simp only [Hist.push]; rw [if_neg (by omega)]
    refine ⟨hk, hpush, tl, by simp only [Hist.push]; omega, cS, tOff, tOn, ?_, ?_, fun _ => by simp [Hist.push], fun e => by simp at e,
      avail, cell, fifo⟩
    · dsimp only; rw [ec]; exact room
    · dsimp only; rw [ec]; exact more

theorem inv_reach {k b : Nat} (hk : k ≤ 31) {s : St} (h : Reach (init k b) step s) : Inv b s :=
  Reach.inv (Inv b) (inv_init k b hk) (fun s a s' hi he => inv_step b s a s' hi he) s h

theorem k_reach {k b : Nat} {s : St} (h : Reach (init k b) step s) : s.k = k := by
  refine Reach.inv (fun s => s.k = k) rfl (fun s a s' hi he => ?_) s h
  cases a <;> simp only [step] at he <;> split at he <;> first | (cases he; exact hi) | cases he

/-! ## C103 -/

/-- **C103.** What comes out is what went in, in order, nothing twice, nothing left out, for any initial value of the indices, any number
    of wrap-arounds, and however stale the indices are that the two sides read of each other. -/
theorem C103_fifo {k b : Nat} (hk : k ≤ 31) {s : St} (h : Reach (init k b) step s) : s.out <+: s.inp :=
  ⟨s.inp.drop s.out.length, by
    have := (inv_reach hk h).fifo
    calc s.out ++ s.inp.drop s.out.length = s.inp.take s.out.length ++ s.inp.drop s.out.length := by rw [← this]
      _ = s.inp := List.take_append_drop ..⟩

/-- **C103.** At most `2^k` entries are in the ring. -/
theorem C103_bound {k b : Nat} (hk : k ≤ 31) {s : St} (h : Reach (init k b) step s) : s.inp.length ≤ s.out.length + 2 ^ k := by
  have hi := inv_reach hk h
  have := hi.room
  have := hi.hd.top s.pSeen hi.pS
  rw [k_reach h] at *
  omega

/-- **C103.** The entry that the producer writes next held an item whose consumption was published by a store of the head that the
    producer has read (acquired), or none: it never writes while the consumer may be reading. -/
theorem C103_no_overwrite {k b : Nat} (hk : k ≤ 31) {s s' : St} (h : Reach (init k b) step s) (x : Nat) (hw : step s (.pWrite x) = some s')
    (i : Nat) (hi : i < s.inp.length) (he : (b + i) % 2 ^ k = (s.t &&& mask s)) : i < s.head.cnt s.pSeen := by
  have hI := inv_reach hk h
  simp only [step] at hw
  split at hw
  case isFalse => cases hw
  rename_i hc
  have hm := hI.more hc.1
  have ht := hI.tOn hc.1
  rcases Nat.lt_or_ge i (s.head.cnt s.pSeen) with h1 | h1
  · exact h1
  · rw [mask_eq, ht, mod_slot hI.hk] at he
    rw [k_reach h] at *
    exact absurd he (slot_ne hi (by omega))

/-- **C103.** The entry that the consumer reads next was published by a store of the tail that the consumer has read (acquired). -/
theorem C103_no_early_read {k b : Nat} (hk : k ≤ 31) {s s' : St} (h : Reach (init k b) step s) (hr : step s .cRead = some s') :
    s.out.length < s.tail.cnt s.cSeen ∧ s.tail.cnt s.cSeen ≤ s.inp.length := by
  have hI := inv_reach hk h
  simp only [step] at hr
  split at hr
  case isFalse => cases hr
  rename_i hc
  obtain ⟨eh, et⟩ := hI.hOn hc.1
  have ha := hI.avail
  refine ⟨?_, hI.tl.top _ hI.cS⟩
  rcases Nat.lt_or_ge s.out.length (s.tail.cnt s.cSeen) with h | h
  · exact h
  · have : s.out.length = s.tail.cnt s.cSeen := by omega
    exact absurd (by rw [eh, et, this]) hc.2

/-- **C103.** Equal indices mean an empty ring, not a full one: when the consumer stops because its head equals the tail it has read, it
    has taken everything that this store of the tail had published. -/
theorem C103_stops_empty {k b : Nat} (hk : k ≤ 31) {s : St} (h : Reach (init k b) step s) (hc : s.cOn = true) (he : s.h = s.te) :
    s.out = s.inp.take (s.tail.cnt s.cSeen) := by
  have hI := inv_reach hk h
  obtain ⟨eh, et⟩ := hI.hOn hc
  have ha := hI.avail
  have hin := hI.tl.top _ hI.cS
  have hb := C103_bound hk h
  have hp := pow_le hk
  have : s.out.length = s.tail.cnt s.cSeen := by
    rw [eh, et] at he
    exact idx_ne ha (by omega) he
  rw [← this]; exact hI.fifo

/-- **C103.** The ring can be filled: a producer that has read the consumer's last head may write until `2^k` entries are in the ring, or as
    many as it was allowed. -/
theorem C103_room {k b : Nat} (hk : k ≤ 31) {s s' : St} (h : Reach (init k b) step s) (m : Nat)
    (hb : step s (.pBegin (s.head.n - 1) m) = some s') :
    s'.mx = min m (s.head.cnt (s.head.n - 1) + 2 ^ k - s.inp.length) ∧ s'.ns = 0 := by
  have hI := inv_reach hk h
  have hp := pow_le hk
  simp only [step] at hb
  split at hb
  case isFalse => cases hb
  rename_i hc
  cases hb
  have e1 := hI.tl.val (s.tail.n - 1) (by have := hI.tl.pos; omega)
  rw [hI.tOff hc.1] at e1
  have e2 := hI.hd.val (s.head.n - 1) hc.2.2
  have e3 := hI.hd.mono s.pSeen _ hc.2.1 hc.2.2
  have e4 := hI.hd.top (s.head.n - 1) hc.2.2
  have hr := hI.room
  have hb := C103_bound hk h
  have hfi := congrArg List.length hI.fifo
  rw [List.length_take] at hfi
  have e5 : sub32 (s.tail.val (s.tail.n - 1)) (s.head.val (s.head.n - 1)) = s.inp.length - s.head.cnt (s.head.n - 1) := by
    rw [e1, e2]; refine sub32_eq (by omega) ?_
    rw [k_reach h] at hr; omega
  refine ⟨?_, rfl⟩
  dsimp only
  rw [e5, k_reach h]
  rw [k_reach h] at hr
  congr 1
  omega

/-- A ring of two entries whose indices start just below the wrap-around: five entries pass through it, the producer at one time reading a
    stale head. -/
example : ∃ s, Reach (init 1 4294967294) step s ∧ (s.out == [10, 11, 12, 13] && s.inp == [10, 11, 12, 13, 14] && s.t == 3) = true :=
  Reach.witness (init := init 1 4294967294) (step := step)
    [.pBegin 0 9, .pWrite 10, .pWrite 11, .pEnd, .cBegin 1, .cRead, .cEnd, .cBegin 1, .cRead, .cEnd, .pBegin 1 9, .pWrite 12, .pEnd,
      .pBegin 2 9, .pWrite 13, .pEnd, .cBegin 2, .cRead, .cLoad 3, .cRead, .cEnd, .pBegin 3 9, .pWrite 14]
    (fun s : St => s.out == [10, 11, 12, 13] && s.inp == [10, 11, 12, 13, 14] && s.t == 3) (by decide +kernel)

end Verif.IoRing
