import Verif.NvQueue.Model
/-!
# nvexec's task queue — properties (C80)
-/
set_option maxHeartbeats 2000000
namespace Verif.NvQueue

/-- The list as the poller follows it. -/
def St.chain (s : St) : List Nat := 0 :: s.linked

/-- The poller's position in it. -/
def St.pos (s : St) : Nat := s.executed.length + if s.hpc = .exec then 1 else 0

def inList : PPc → Bool
  | .store _ | .upd _ | .done => true
  | _ => false

def inProg : PPc → Bool
  | .idle | .done => false
  | _ => true

structure Inv (s : St) : Prop where
  nod : s.chain.Nodup
  an : ∀ (j x : Nat), s.chain[j]? = some x → s.anext x = s.chain[j+1]?
  nx : ∀ (j x : Nat), s.chain[j]? = some x → s.next x = s.chain[j+1]? ∨
    (s.next x = none ∧ s.pos ≤ j ∧ ∃ y, s.chain[j+1]? = some y ∧ s.pc y = .store x)
  out : ∀ x, x ∉ s.chain → s.anext x = none ∧ s.next x = none ∧ s.freed x = 0
  cu : s.chain[s.pos]? = some s.cur
  tk : ∀ n, s.hpc = .take n → s.next s.cur = some n
  ex : s.executed = s.linked.take s.executed.length
  fr : ∀ (j x : Nat), s.chain[j]? = some x → s.freed x = if j < s.pos ∨ j = s.pos ∧ s.hpc = .exit then 1 else 0
  tl : s.chain.getLast? = some s.tail ∨
    ∃ i, s.chain.getLast? = some i ∧ (s.pc i = .store s.tail ∨ s.pc i = .upd s.tail)
  lk : ∀ i o, s.pc i = .store o ∨ s.pc i = .upd o → o = s.tail ∧ ∃ l, s.chain = l ++ [o, i]
  cas : ∀ i o, s.pc i = .cas o → o ∈ s.chain ∧ (o = 0 ∨ s.pc o = .done)
  sn : ∀ i o, s.pc i = .store o → s.next o = none
  td : s.tail = 0 ∨ s.pc s.tail = .done
  mem : ∀ i, i ∈ s.linked ↔ inList (s.pc i) = true
  zero : s.pc 0 = .idle
  act : ∀ i, i ∈ s.active ↔ inProg (s.pc i) = true
  actn : s.active.Nodup
  stp : s.stopped = true → s.active = []
  xit : s.hpc = .exit → s.stopped = true
  fin : ∀ i, i ∈ s.finished ↔ s.pc i = .done
  bf0 : ∀ i, ∀ j ∈ s.before i, j ∈ s.finished
  bf : ∀ (i n : Nat), s.linked[n]? = some i → ∀ j ∈ s.before i, ∃ m : Nat, m < n ∧ s.linked[m]? = some j

theorem inv_init : Inv init := by
  refine ⟨?_, ?_, ?_, ?_, ?_, ?_, ?_, ?_, ?_, ?_, ?_, ?_, ?_, ?_, ?_, ?_, ?_, ?_, ?_, ?_, ?_, ?_⟩ <;>
    simp [init, St.chain, St.pos, inList, inProg]

theorem inv_begin {b : Bool} {s s' : St} {i : Nat} (h : Inv s) (he : step b s (.begin i) = some s') : Inv s' := by
  simp only [step] at he
  split at he
  · rename_i hc
    obtain ⟨c1, c2, c3, c4, c5⟩ := hc
    cases he
    obtain ⟨nod, an, nx, out, cu, tk, ex, fr, tl, lk, cas, sn, td, mem, zero, act, actn, stp, xit, fin, bf0, bf⟩ := h
    have hni : i ∉ s.linked := by rw [mem]; simp [c2, inList]
    have hna : i ∉ s.active := by rw [act]; simp [c2, inProg]
    have hch : i ∉ s.chain := by simp [St.chain, hni]; omega
    constructor
    case nod => exact nod
    case an => exact an
    case nx =>
      intro j x hx
      rcases nx j x hx with h | ⟨h1, h2, y, h3, h4⟩
      · exact .inl h
      · refine .inr ⟨h1, h2, y, h3, ?_⟩
        have : y ≠ i := by rintro rfl; rw [c2] at h4; cases h4
        simp [upd_apply, this, h4]
    case tl =>
      rcases tl with h | ⟨y, h1, h2⟩
      · exact .inl h
      · refine .inr ⟨y, h1, ?_⟩
        have : y ≠ i := by rintro rfl; rw [c2] at h2; simp at h2
        simp [upd_apply, this, h2]
    all_goals first | assumption | skip
    case lk =>
      intro k o hk
      have : k ≠ i := by rintro rfl; simp at hk
      simp only [upd_apply, this, if_false] at hk
      exact lk k o hk
    case cas =>
      intro k o hk
      have : k ≠ i := by rintro rfl; simp at hk
      simp only [upd_apply, this, if_false] at hk
      obtain ⟨h1, h2⟩ := cas k o hk
      refine ⟨h1, ?_⟩
      rcases h2 with h2 | h2
      · exact .inl h2
      · refine .inr ?_
        have : o ≠ i := by rintro rfl; rw [c2] at h2; cases h2
        simp [upd_apply, this, h2]
    case sn =>
      intro k o hk
      have : k ≠ i := by rintro rfl; simp at hk
      simp only [upd_apply, this, if_false] at hk
      exact sn k o hk
    case td =>
      rcases td with h2 | h2
      · exact .inl h2
      · refine .inr ?_
        have : s.tail ≠ i := by intro h; rw [h, c2] at h2; cases h2
        simp [upd_apply, this, h2]
    case mem =>
      intro k
      by_cases hk : k = i
      · subst hk; simp [inList, hni]
      · simp only [upd_apply, hk, if_false]; exact mem k
    case zero => have : (0:Nat) ≠ i := by omega
                 simp [upd_apply, this, zero]
    case act =>
      intro k
      by_cases hk : k = i
      · subst hk; simp [inProg]
      · simp only [upd_apply, hk, if_false, List.mem_cons, false_or]; exact act k
    case actn => exact List.nodup_cons.2 ⟨hna, actn⟩
    case stp => grind
    case fin => grind
    case bf0 => grind
    case bf =>
      intro k n hn j hj
      have : k ≠ i := by rintro rfl; exact hni (List.mem_of_getElem? hn)
      simp [upd_apply, this] at hj
      exact bf k n hn j hj
  · cases he

theorem getElem?_snoc {l : List Nat} {a : Nat} {j : Nat} {x : Nat} :
    (l ++ [a])[j]? = some x ↔ l[j]? = some x ∨ (j = l.length ∧ x = a) := by
  rw [List.getElem?_append]
  split
  · constructor
    · exact .inl
    · rintro (h | ⟨rfl, _⟩)
      · exact h
      · omega
  · rename_i hlt
    have : l[j]? = none := by rw [List.getElem?_eq_none_iff]; omega
    rw [this]
    rcases Nat.lt_or_ge l.length j with h | h
    · have : [a][j - l.length]? = none := by rw [List.getElem?_eq_none_iff]; simp; omega
      rw [this]; simp; omega
    · have : j = l.length := by omega
      subst this; simp [eq_comm]

theorem chain_pos {s : St} : 0 < s.chain.length := by simp [St.chain]

theorem last_idx {l : List Nat} {x : Nat} (h : l.getLast? = some x) : l[l.length - 1]? = some x := by
  rw [← List.getLast?_eq_getElem?]; exact h

theorem nodup_idx {l : List Nat} (h : l.Nodup) {i j : Nat} {x : Nat} (hi : l[i]? = some x) (hj : l[j]? = some x) :
    i = j := by
  have hl : i < l.length := by
    rcases Nat.lt_or_ge i l.length with h | h
    · exact h
    · rw [List.getElem?_eq_none h] at hi; cases hi
  exact (List.getElem?_inj hl h).1 (hi.trans hj.symm)

/-- A thread that has not linked its task yet goes to line 53 or 57. -/
theorem Inv.setpc {s : St} (h : Inv s) {i : Nat} {p : PPc} (h1 : inProg (s.pc i) = true)
    (h2 : inList (s.pc i) = false)
    (h3 : p = .load ∨ ∃ o, p = .cas o ∧ o ∈ s.chain ∧ (o = 0 ∨ s.pc o = .done)) :
    Inv { s with pc := upd s.pc i p } := by
  obtain ⟨nod, an, nx, out, cu, tk, ex, fr, tl, lk, cas, sn, td, mem, zero, act, actn, stp, xit, fin, bf0, bf⟩ := h
  have hp1 : inProg p = true := by rcases h3 with rfl | ⟨o, rfl, _⟩ <;> rfl
  have hp2 : inList p = false := by rcases h3 with rfl | ⟨o, rfl, _⟩ <;> rfl
  have hi0 : i ≠ 0 := by rintro rfl; rw [zero] at h1; cases h1
  have hd : ∀ x, s.pc x = .done → upd s.pc i p x = .done := by
    intro x hx
    have : x ≠ i := by rintro rfl; rw [hx] at h1; cases h1
    simp [upd_apply, this, hx]
  have hl : ∀ x q, inList q = true → (upd s.pc i p x = q ↔ s.pc x = q) := by
    intro x q hq
    by_cases hx : x = i
    · subst hx
      constructor
      · intro h; simp at h; rw [h, hq] at hp2; cases hp2
      · intro h; rw [h, hq] at h2; cases h2
    · simp [upd_apply, hx]
  constructor
  case nx =>
    intro j x hx
    rcases nx j x hx with h | ⟨h1, h2, y, h3, h4⟩
    · exact .inl h
    · exact .inr ⟨h1, h2, y, h3, (hl y _ rfl).2 h4⟩
  case tl =>
    rcases tl with h | ⟨y, h1, h2⟩
    · exact .inl h
    · exact .inr ⟨y, h1, h2.imp (hl y _ rfl).2 (hl y _ rfl).2⟩
  all_goals first | assumption | skip
  case lk =>
    intro k o hk
    exact lk k o (hk.imp (hl k _ rfl).1 (hl k _ rfl).1)
  case cas =>
    intro k o hk
    by_cases hki : k = i
    · subst hki
      simp at hk
      rcases h3 with rfl | ⟨o', rfl, h4, h5⟩
      · cases hk
      · cases hk; exact ⟨h4, h5.imp id (hd o)⟩
    · simp only [upd_apply, hki, if_false] at hk
      obtain ⟨h4, h5⟩ := cas k o hk
      exact ⟨h4, h5.imp id (hd o)⟩
  case sn =>
    intro k o hk
    exact sn k o ((hl k _ rfl).1 hk)
  case td => exact td.imp id (hd _)
  case mem =>
    intro k
    by_cases hk : k = i
    · subst hk; simp only [upd_same, hp2, mem, h2]
    · simp only [upd_apply, hk, if_false]; exact mem k
  case zero => have : (0:Nat) ≠ i := by omega
               simp [upd_apply, this, zero]
  case act =>
    intro k
    by_cases hk : k = i
    · subst hk; simp only [upd_same, hp1, act, h1]
    · simp only [upd_apply, hk, if_false]; exact act k
  case fin =>
    intro k
    rw [fin]; exact (hl k _ rfl).symm

theorem inv_link {s : St} {i old : Nat} (h : Inv s) (hpc : s.pc i = .cas old) (hc1 : s.anext old = none)
    (hfr : ¬ 0 < s.freed old) :
    Inv { s with anext := upd s.anext old (some i), pc := upd s.pc i (.store old), linked := s.linked ++ [i] } := by
  obtain ⟨nod, an, nx, out, cu, tk, ex, fr, tl, lk, cas, sn, td, mem, zero, act, actn, stp, xit, fin, bf0, bf⟩ := h
  have hi0 : i ≠ 0 := by rintro rfl; rw [zero] at hpc; cases hpc
  have hni : i ∉ s.linked := by rw [mem]; simp [hpc, inList]
  have hic : i ∉ s.chain := by simp [St.chain, hni, hi0]
  obtain ⟨hold, hod⟩ := cas i old hpc
  obtain ⟨jo, hjo⟩ := List.getElem?_of_mem hold
  have hjn := an jo old hjo
  rw [hc1] at hjn
  have hjl : jo < s.chain.length := by
    rcases Nat.lt_or_ge jo s.chain.length with h | h
    · exact h
    · rw [List.getElem?_eq_none h] at hjo; cases hjo
  have hje : jo + 1 = s.chain.length := by
    have : s.chain.length ≤ jo + 1 := List.getElem?_eq_none_iff.1 hjn.symm
    omega
  have hlast : s.chain.getLast? = some old := by
    rw [List.getLast?_eq_getElem?, ← hjo]; congr 1; omega
  have hnolk : ∀ k o, ¬ (s.pc k = .store o ∨ s.pc k = .upd o) := by
    intro k o hk
    obtain ⟨h1, l, hl⟩ := lk k o hk
    have h2 : s.chain.getLast? = some k := by rw [hl]; simp
    rw [h2] at hlast
    simp only [Option.some.injEq] at hlast
    subst hlast
    rcases hod with rfl | hod
    · rw [zero] at hk; simp at hk
    · rw [hod] at hk; simp at hk
  have htail : s.tail = old := by
    rcases tl with h | ⟨y, h1, h2⟩
    · rw [hlast] at h; simpa using h.symm
    · exact absurd h2 (hnolk y _)
  have hoi : old ≠ i := by rintro rfl; exact hic hold
  have hch : 0 :: (s.linked ++ [i]) = s.chain ++ [i] := rfl
  have hd : ∀ x, s.pc x = .done → upd s.pc i (.store old) x = .done := by
    intro x hx
    have : x ≠ i := by rintro rfl; rw [hx] at hpc; cases hpc
    simp [upd_apply, this, hx]
  constructor
  case nod =>
    simp only [St.chain, hch]
    rw [List.nodup_append]
    exact ⟨nod, by simp, by intro a ha b hb; simp at hb; subst hb; rintro rfl; exact hic ha⟩
  case an =>
    intro j x hx
    change (s.chain ++ [i])[j]? = some x at hx
    change upd s.anext old (some i) x = (s.chain ++ [i])[j+1]?
    rw [getElem?_snoc] at hx
    rcases hx with hx | ⟨rfl, rfl⟩
    · by_cases hxo : x = old
      · subst hxo
        have := nodup_idx nod hx hjo
        subst this
        rw [upd_same, hje]; simp
      · rw [upd_other _ _ hxo, an j x hx]
        have : j + 1 < s.chain.length := by
          rcases Nat.lt_or_ge (j + 1) s.chain.length with h | h
          · exact h
          · exfalso
            have hj : j < s.chain.length := by
              rcases Nat.lt_or_ge j s.chain.length with h | h
              · exact h
              · rw [List.getElem?_eq_none h] at hx; cases hx
            have : j = jo := by omega
            subst this
            rw [hx] at hjo; simp at hjo; exact hxo hjo
        rw [List.getElem?_append_left this]
    · rw [upd_other _ _ (Ne.symm hoi), (out x hic).1]
      symm; rw [List.getElem?_eq_none_iff]; simp
  case nx =>
    intro j x hx
    change (s.chain ++ [i])[j]? = some x at hx
    change s.next x = (s.chain ++ [i])[j+1]? ∨ (s.next x = none ∧ s.pos ≤ j ∧
      ∃ y, (s.chain ++ [i])[j+1]? = some y ∧ upd s.pc i (.store old) y = .store x)
    rw [getElem?_snoc] at hx
    rcases hx with hx | ⟨rfl, rfl⟩
    · by_cases hxo : x = old
      · subst hxo
        have := nodup_idx nod hx hjo
        subst this
        refine .inr ⟨?_, ?_, i, by rw [hje]; simp, by simp⟩
        · rcases nx j x hx with h | ⟨h, _⟩
          · rw [h, ← hjn]
          · exact h
        · show s.pos ≤ j
          have := fr j x hx
          split at this
          · rename_i hh; omega
          · rename_i hh; omega
      · have : j + 1 < s.chain.length := by
          rcases Nat.lt_or_ge (j + 1) s.chain.length with h | h
          · exact h
          · exfalso
            have hj : j < s.chain.length := by
              rcases Nat.lt_or_ge j s.chain.length with h | h
              · exact h
              · rw [List.getElem?_eq_none h] at hx; cases hx
            have : j = jo := by omega
            subst this
            rw [hx] at hjo; simp at hjo; exact hxo hjo
        rw [List.getElem?_append_left this]
        rcases nx j x hx with h | ⟨h1, h2, y, h3, h4⟩
        · exact .inl h
        · exact absurd (.inl h4) (hnolk y x)
    · refine .inl ?_
      rw [(out x hic).2.1]
      symm; rw [List.getElem?_eq_none_iff]; simp
  case out =>
    intro x hx
    simp only [St.chain, hch, List.mem_append, List.mem_singleton, not_or] at hx
    have : x ≠ old := by rintro rfl; exact hx.1 hold
    simp only [upd_other _ _ this]
    exact out x hx.1
  case cu =>
    show (0 :: (s.linked ++ [i]))[s.pos]? = some s.cur
    rw [hch, getElem?_snoc]; exact .inl cu
  case tk => exact tk
  case ex =>
    have hlen : s.executed.length ≤ s.linked.length := by
      have := congrArg List.length ex
      simp only [List.length_take] at this; omega
    show s.executed = (s.linked ++ [i]).take s.executed.length
    rw [List.take_append_of_le_length hlen]; exact ex
  case fr =>
    intro j x hx
    change (s.chain ++ [i])[j]? = some x at hx
    rw [getElem?_snoc] at hx
    rcases hx with hx | ⟨rfl, rfl⟩
    · exact fr j x hx
    · show s.freed x = if s.chain.length < s.pos ∨ s.chain.length = s.pos ∧ s.hpc = .exit then 1 else 0
      have hp : s.pos < s.chain.length := by
        rcases Nat.lt_or_ge s.pos s.chain.length with h | h
        · exact h
        · rw [List.getElem?_eq_none h] at cu; cases cu
      rw [if_neg (by omega)]; exact (out x hic).2.2
  case tl =>
    refine .inr ⟨i, ?_, ?_⟩
    · show (0 :: (s.linked ++ [i])).getLast? = some i
      rw [hch]; simp
    · left; simp [htail]
  case lk =>
    intro k o hk
    by_cases hki : k = i
    · subst hki
      simp at hk
      subst hk
      refine ⟨htail.symm, s.chain.dropLast, ?_⟩
      show 0 :: (s.linked ++ [k]) = _
      rw [hch]
      have : s.chain = s.chain.dropLast ++ [old] := by
        have hne : s.chain ≠ [] := by simp [St.chain]
        have h1 := List.dropLast_concat_getLast hne
        rw [List.getLast?_eq_some_getLast hne] at hlast
        simp only [Option.some.injEq] at hlast
        rw [hlast] at h1; exact h1.symm
      conv => lhs; rw [this]
      simp
    · simp only [upd_apply, hki, if_false] at hk
      exact absurd hk (hnolk k o)
  case cas =>
    intro k o hk
    have hki : k ≠ i := by rintro rfl; simp at hk
    simp only [upd_apply, hki, if_false] at hk
    obtain ⟨h1, h2⟩ := cas k o hk
    refine ⟨?_, h2.imp id (hd o)⟩
    show o ∈ 0 :: (s.linked ++ [i])
    rw [hch]; exact List.mem_append_left _ h1
  case sn =>
    intro k o hk
    by_cases hki : k = i
    · subst hki
      simp at hk
      subst hk
      show s.next old = none
      rcases nx jo old hjo with h | ⟨h, _⟩
      · rw [h, ← hjn]
      · exact h
    · simp only [upd_apply, hki, if_false] at hk
      exact absurd (.inl hk) (hnolk k o)
  case td => exact td.imp id (hd _)
  case mem =>
    intro k
    by_cases hk : k = i
    · subst hk; simp [inList]
    · simp only [upd_apply, hk, if_false, List.mem_append, List.mem_singleton, or_false]; exact mem k
  case zero => have : (0:Nat) ≠ i := by omega
               simp [upd_apply, this, zero]
  case act =>
    intro k
    by_cases hk : k = i
    · subst hk; simp [inProg, act, hpc]
    · simp only [upd_apply, hk, if_false]; exact act k
  case actn => exact actn
  case stp => exact stp
  case xit => exact xit
  case fin =>
    intro k
    rw [fin]
    by_cases hk : k = i
    · subst hk; simp [hpc]
    · simp only [upd_apply, hk, if_false]
  case bf0 => exact bf0
  case bf =>
    intro k n hn j hj
    simp only [getElem?_snoc] at hn ⊢
    rcases hn with hn | ⟨rfl, rfl⟩
    · obtain ⟨m, h1, h2⟩ := bf k n hn j hj
      exact ⟨m, h1, .inl h2⟩
    · have h1 := bf0 k j hj
      have h2 : j ∈ s.linked := by rw [mem, (fin j).1 h1]; rfl
      obtain ⟨m, hm⟩ := List.getElem?_of_mem h2
      have : m < s.linked.length := by
        rcases Nat.lt_or_ge m s.linked.length with h | h
        · exact h
        · rw [List.getElem?_eq_none h] at hm; cases hm
      exact ⟨m, this, .inl hm⟩

theorem idx_lt {l : List Nat} {j x : Nat} (h : l[j]? = some x) : j < l.length := by
  rcases Nat.lt_or_ge j l.length with h' | h'
  · exact h'
  · rw [List.getElem?_eq_none h'] at h; cases h

theorem Inv.noLk {s : St} (h : Inv s) {i o : Nat} (hi : s.pc i = .store o ∨ s.pc i = .upd o) :
    ∀ k o', s.pc k = .store o' ∨ s.pc k = .upd o' → k = i ∧ o' = o := by
  intro k o' hk
  obtain ⟨h1, l, h2⟩ := h.lk i o hi
  obtain ⟨h3, l', h4⟩ := h.lk k o' hk
  refine ⟨?_, h3.trans h1.symm⟩
  rw [h2] at h4
  have := congrArg List.getLast? h4
  simpa using this.symm

theorem inv_store {s : St} {i old : Nat} (h : Inv s) (hpc : s.pc i = .store old) :
    Inv { s with next := upd s.next old (some i), pc := upd s.pc i (.upd old) } := by
  have hno := h.noLk (.inl hpc)
  obtain ⟨nod, an, nx, out, cu, tk, ex, fr, tl, lk, cas, sn, td, mem, zero, act, actn, stp, xit, fin, bf0, bf⟩ := h
  have hi0 : i ≠ 0 := by rintro rfl; rw [zero] at hpc; cases hpc
  obtain ⟨h1, l, h2⟩ := lk i old (.inl hpc)
  have hx0 : s.chain[l.length]? = some old := by rw [h2]; simp
  have hx1 : s.chain[l.length + 1]? = some i := by rw [h2]; simp
  have hd : ∀ x, s.pc x = .done → upd s.pc i (.upd old) x = .done := by
    intro x hx
    have : x ≠ i := by rintro rfl; rw [hx] at hpc; cases hpc
    simp [upd_apply, this, hx]
  constructor
  all_goals first | assumption | skip
  case nx =>
    intro j x hx
    left
    change s.chain[j]? = some x at hx
    show upd s.next old (some i) x = s.chain[j+1]?
    by_cases hxo : x = old
    · subst hxo
      have := nodup_idx nod hx hx0
      subst this
      rw [upd_same, hx1]
    · rw [upd_other _ _ hxo]
      rcases nx j x hx with h | ⟨_, _, y, _, h4⟩
      · exact h
      · exact absurd (hno y x (.inl h4)).2 hxo
  case out =>
    intro x hx
    have : x ≠ old := by rintro rfl; exact hx (List.mem_of_getElem? hx0)
    simp only [upd_other _ _ this]
    exact out x hx
  case tk =>
    intro n hn
    show upd s.next old (some i) s.cur = some n
    by_cases hc : s.cur = old
    · have h3 := tk n hn
      have h4 := nx s.pos s.cur cu
      rcases h4 with h4 | ⟨h4, _⟩
      · have hp : s.pos = l.length := nodup_idx nod cu (hc ▸ hx0)
        rw [hp, hx1, h3] at h4
        rw [hc, upd_same, ← h4]
      · rw [h4] at h3; cases h3
    · rw [upd_other _ _ hc]; exact tk n hn
  case tl =>
    refine .inr ⟨i, ?_, ?_⟩
    · show s.chain.getLast? = some i
      rw [h2]; simp
    · right; simp [h1]
  case lk =>
    intro k o hk
    by_cases hki : k = i
    · subst hki
      simp at hk
      subst hk
      exact ⟨h1, l, h2⟩
    · simp only [upd_apply, hki, if_false] at hk
      exact absurd (hno k o hk).1 hki
  case cas =>
    intro k o hk
    have hki : k ≠ i := by rintro rfl; simp at hk
    simp only [upd_apply, hki, if_false] at hk
    obtain ⟨h1, h2⟩ := cas k o hk
    exact ⟨h1, h2.imp id (hd o)⟩
  case sn =>
    intro k o hk
    have hki : k ≠ i := by rintro rfl; simp at hk
    simp only [upd_apply, hki, if_false] at hk
    exact absurd (hno k o (.inl hk)).1 hki
  case td => exact td.imp id (hd _)
  case mem =>
    intro k
    by_cases hk : k = i
    · subst hk; simp [inList, mem, hpc]
    · simp only [upd_apply, hk, if_false]; exact mem k
  case zero => have : (0:Nat) ≠ i := by omega
               simp [upd_apply, this, zero]
  case act =>
    intro k
    by_cases hk : k = i
    · subst hk; simp [inProg, act, hpc]
    · simp only [upd_apply, hk, if_false]; exact act k
  case fin =>
    intro k
    rw [fin]
    by_cases hk : k = i
    · subst hk; simp [hpc]
    · simp only [upd_apply, hk, if_false]

theorem inv_upd {s : St} {i old : Nat} (h : Inv s) (hpc : s.pc i = .upd old) :
    Inv { s with tail := if s.tail = old then i else s.tail, pc := upd s.pc i .done
                 active := s.active.erase i, finished := s.finished ++ [i] } := by
  have hno := h.noLk (.inr hpc)
  obtain ⟨nod, an, nx, out, cu, tk, ex, fr, tl, lk, cas, sn, td, mem, zero, act, actn, stp, xit, fin, bf0, bf⟩ := h
  have hi0 : i ≠ 0 := by rintro rfl; rw [zero] at hpc; cases hpc
  obtain ⟨h1, l, h2⟩ := lk i old (.inr hpc)
  rw [if_pos h1.symm]
  have hd : ∀ x, s.pc x = .done → upd s.pc i .done x = .done := by
    intro x hx
    by_cases h : x = i
    · subst h; simp
    · simp [upd_apply, h, hx]
  constructor
  all_goals first | assumption | skip
  case nx =>
    intro j x hx
    left
    rcases nx j x hx with h | ⟨_, _, y, _, h4⟩
    · exact h
    · have := (hno y x (.inl h4)).1
      subst this; rw [hpc] at h4; cases h4
  case tl =>
    refine .inl ?_
    show s.chain.getLast? = some i
    rw [h2]; simp
  case lk =>
    intro k o hk
    by_cases hki : k = i
    · subst hki; simp at hk
    · simp only [upd_apply, hki, if_false] at hk
      exact absurd (hno k o hk).1 hki
  case cas =>
    intro k o hk
    have hki : k ≠ i := by rintro rfl; simp at hk
    simp only [upd_apply, hki, if_false] at hk
    obtain ⟨h1, h2⟩ := cas k o hk
    exact ⟨h1, h2.imp id (hd o)⟩
  case sn =>
    intro k o hk
    have hki : k ≠ i := by rintro rfl; simp at hk
    simp only [upd_apply, hki, if_false] at hk
    exact absurd (hno k o (.inl hk)).1 hki
  case td => right; simp
  case mem =>
    intro k
    by_cases hk : k = i
    · subst hk; simp [inList, mem, hpc]
    · simp only [upd_apply, hk, if_false]; exact mem k
  case zero => have : (0:Nat) ≠ i := by omega
               simp [upd_apply, this, zero]
  case act =>
    intro k
    by_cases hk : k = i
    · subst hk
      have : k ∉ s.active.erase k := fun h => by
        have := (List.Nodup.mem_erase_iff actn).1 h
        exact this.1 rfl
      simp [inProg, this]
    · simp only [upd_apply, hk, if_false]
      rw [List.mem_erase_of_ne hk]; exact act k
  case actn => exact actn.erase i
  case stp => intro h; show s.active.erase i = []; rw [stp h]; rfl
  case fin =>
    intro k
    simp only [List.mem_append, List.mem_singleton, fin]
    by_cases hk : k = i
    · subst hk; simp
    · simp only [upd_apply, hk, if_false, or_false]
  case bf0 => intro k j hj; exact List.mem_append_left _ (bf0 k j hj)

theorem inv_prod {b sp : Bool} {s s' : St} {i : Nat} (h : Inv s) (he : step b s (.prod i sp) = some s')
    (hu : s'.uaf = false) : Inv s' := by
  simp only [step] at he
  split at he
  · cases he
  split at he
  · rename_i hpc
    cases he
    refine h.setpc (by simp [hpc, inProg]) (by simp [hpc, inList]) (.inr ⟨_, rfl, ?_, h.td⟩)
    rcases h.tl with h' | ⟨y, h1, h2⟩
    · exact List.mem_of_getLast? h'
    · obtain ⟨_, l, hl⟩ := h.lk y _ h2
      rw [hl]; simp
  · rename_i hpc
    split at he
    · cases he; cases hu
    · split at he
      · rename_i hf hc
        cases he; exact inv_link h hpc hc.1 hf
      · cases he
        exact h.setpc (by simp [hpc, inProg]) (by simp [hpc, inList]) (.inl rfl)
  · rename_i hpc
    split at he
    · cases he; cases hu
    · cases he; exact inv_store h hpc
  · rename_i hpc
    cases he; exact inv_upd h hpc
  · cases he

theorem inv_poll {b : Bool} {s s' : St} (h : Inv s) (he : step b s .poll = some s')
    (hu : s'.uaf = false) : Inv s' := by
  simp only [step] at he
  split at he
  · cases he
  obtain ⟨nod, an, nx, out, cu, tk, ex, fr, tl, lk, cas, sn, td, mem, zero, act, actn, stp, xit, fin, bf0, bf⟩ := h
  split at he
  · rename_i hp
    split at he
    · cases he; cases hu
    · split at he
      · cases he
        have hpos : St.pos { s with hpc := .test } = s.pos := by simp [St.pos, hp]
        constructor <;> (try rw [hpos]) <;> first | assumption | skip
        · intro n hn; cases hn
        · intro j x hx
          have := fr j x hx
          simpa [hp] using this
        · intro h; cases h
      · rename_i n hn
        cases he
        have hpos : St.pos { s with hpc := .take n } = s.pos := by simp [St.pos, hp]
        constructor <;> (try rw [hpos]) <;> first | assumption | skip
        · intro m hm; cases hm; exact hn
        · intro j x hx
          have := fr j x hx
          simpa [hp] using this
        · intro h; cases h
  · rename_i hp
    split at he
    · rename_i hst
      cases he
      have hpos : St.pos { s with hpc := .exit, freed := upd s.freed s.cur (s.freed s.cur + 1) } = s.pos := by
        simp [St.pos, hp]
      constructor <;> (try rw [hpos]) <;> first | assumption | skip
      case out =>
        intro x hx
        have : x ≠ s.cur := by rintro rfl; exact hx (List.mem_of_getElem? cu)
        simp only [upd_other _ _ this]; exact out x hx
      case tk => intro n hn; cases hn
      case fr =>
        intro j x hx
        change s.chain[j]? = some x at hx
        have h1 := fr j x hx
        simp only [hp, reduceCtorEq, and_false, or_false] at h1
        by_cases hxc : x = s.cur
        · subst hxc
          have := nodup_idx nod hx cu
          subst this
          simp [h1]
        · have : j ≠ s.pos := by rintro rfl; rw [hx] at cu; simp at cu; exact hxc cu
          simp [upd_apply, hxc, this, h1]
      case xit => intro _; exact hst
    · cases he
      have hpos : St.pos { s with hpc := .loop } = s.pos := by simp [St.pos, hp]
      constructor <;> (try rw [hpos]) <;> first | assumption | skip
      · intro n hn; cases hn
      · intro j x hx
        have := fr j x hx
        simpa [hp] using this
      · intro h; cases h
  · rename_i n hp
    cases he
    have hpos : St.pos { s with hpc := .exec, freed := upd s.freed s.cur (s.freed s.cur + 1), cur := n } =
        s.pos + 1 := by simp [St.pos, hp]
    have hn := tk n hp
    have hn1 : s.chain[s.pos + 1]? = some n := by
      rcases nx s.pos s.cur cu with h | ⟨h, _⟩
      · rw [← h, hn]
      · rw [h] at hn; cases hn
    constructor <;> (try rw [hpos]) <;> first | assumption | skip
    case nx =>
      intro j x hx
      rcases nx j x hx with h | ⟨h1, h2, h3⟩
      · exact .inl h
      · refine .inr ⟨h1, ?_, h3⟩
        have : j ≠ s.pos := by
          rintro rfl
          change s.chain[s.pos]? = some x at hx
          rw [hx] at cu; simp at cu; subst cu; rw [h1] at hn; cases hn
        omega
    case out =>
      intro x hx
      have : x ≠ s.cur := by rintro rfl; exact hx (List.mem_of_getElem? cu)
      simp only [upd_other _ _ this]; exact out x hx
    case tk => intro n hn; cases hn
    case fr =>
      intro j x hx
      change s.chain[j]? = some x at hx
      have h1 := fr j x hx
      simp only [hp, reduceCtorEq, and_false, or_false] at h1
      by_cases hxc : x = s.cur
      · subst hxc
        have := nodup_idx nod hx cu
        subst this
        simp [h1]
      · have : j ≠ s.pos := by rintro rfl; rw [hx] at cu; simp at cu; exact hxc cu
        simp only [upd_apply, hxc, if_false, h1, reduceCtorEq, and_false, or_false]
        by_cases hjp : j < s.pos
        · rw [if_pos hjp, if_pos (by omega)]
        · rw [if_neg hjp, if_neg (by omega)]
    case xit => intro h; cases h
  · rename_i hp
    split at he
    · cases he; cases hu
    · cases he
      have hpos : St.pos { s with hpc := .loop, executed := s.executed ++ [s.cur] } = s.pos := by
        simp [St.pos, hp]
      have hp1 : s.pos = s.executed.length + 1 := by simp [St.pos, hp]
      constructor <;> (try rw [hpos]) <;> first | assumption | skip
      case tk => intro n hn; cases hn
      case ex =>
        have h1 : s.linked[s.executed.length]? = some s.cur := by
          rw [hp1] at cu
          simpa [St.chain] using cu
        show s.executed ++ [s.cur] = s.linked.take (s.executed ++ [s.cur]).length
        rw [List.length_append, List.length_singleton, List.take_add_one, h1, ← ex]
        rfl
      case fr =>
        intro j x hx
        have := fr j x hx
        simpa [hp] using this
      case xit => intro h; cases h
  · cases he

theorem inv_stop {b : Bool} {s s' : St} (h : Inv s) (he : step b s .stop = some s') : Inv s' := by
  simp only [step] at he
  split at he
  · rename_i hc
    cases he
    obtain ⟨nod, an, nx, out, cu, tk, ex, fr, tl, lk, cas, sn, td, mem, zero, act, actn, stp, xit, fin, bf0, bf⟩ := h
    exact ⟨nod, an, nx, out, cu, tk, ex, fr, tl, lk, cas, sn, td, mem, zero, act, actn, fun _ => hc.2,
      fun h => rfl, fin, bf0, bf⟩
  · cases he

theorem uaf_pre {b : Bool} {s s' : St} {a : Act} (he : step b s a = some s') : s.uaf = false := by
  cases a <;> simp only [step] at he
  · split at he
    · rename_i h; exact h.1
    · cases he
  · split at he
    · cases he
    · simp_all
  · split at he
    · cases he
    · simp_all
  · split at he
    · rename_i h; exact h.1
    · cases he

theorem inv_step {b : Bool} {s s' : St} {a : Act} (h : Inv s) (he : step b s a = some s')
    (hu : s'.uaf = false) : Inv s' := by
  cases a with
  | «begin» i => exact inv_begin h he
  | prod i sp => exact inv_prod h he hu
  | poll => exact inv_poll h he hu
  | stop => exact inv_stop h he

theorem reach_inv {b : Bool} {s : St} (h : Reach init (step b) s) : s.uaf = false → Inv s :=
  Reach.inv (fun s => s.uaf = false → Inv s) (fun _ => inv_init)
    (fun _ _ _ hi he hu => inv_step (hi (uaf_pre he)) he hu) s h

/-! ## One push at a time -/

structure SInv (s : St) : Prop where
  one : ∀ i ∈ s.active, ∀ j ∈ s.active, i = j
  cast : ∀ i o, s.pc i = .cas o → o = s.tail

theorem sinv_step {s s' : St} {a : Act} (h : Inv s) (hs : SInv s) (he : step true s a = some s') :
    s'.uaf = false ∧ SInv s' := by
  have h0 := uaf_pre he
  obtain ⟨one, cast⟩ := hs
  have hpr : ∀ i, inProg (s.pc i) = true → ∀ j, inProg (s.pc j) = true → i = j :=
    fun i hi j hj => one i ((h.act i).2 hi) j ((h.act j).2 hj)
  have hpos : s.hpc ≠ .exit → s.freed s.cur = 0 := by
    intro hx
    have := h.fr _ _ h.cu
    simpa [hx] using this
  have hxa : s.hpc = .exit → s.active = [] := fun hx => h.stp (h.xit hx)
  cases a with
  | «begin» i =>
    simp only [step] at he
    split at he
    · rename_i hc
      cases he
      refine ⟨h0, ?_, ?_⟩
      · simp [hc.2.2.2.2 trivial]
      · intro k o hk
        have hki : k ≠ i := by rintro rfl; simp at hk
        simp only [upd_apply, hki, if_false] at hk
        exact cast k o hk
    · cases he
  | prod i sp =>
    simp only [step] at he
    split at he
    · cases he
    split at he
    · rename_i hpc
      cases he
      refine ⟨h0, one, ?_⟩
      intro k o hk
      by_cases hki : k = i
      · subst hki; simp at hk; exact hk.symm
      · simp only [upd_apply, hki, if_false] at hk
        exact cast k o hk
    · rename_i old hpc
      have hot := cast i old hpc
      have hlast : s.chain.getLast? = some old := by
        rcases h.tl with h1 | ⟨y, h1, h2⟩
        · rw [h1, hot]
        · exfalso
          have hy : inProg (s.pc y) = true := by rcases h2 with h2 | h2 <;> rw [h2] <;> rfl
          have := hpr i (by rw [hpc]; rfl) y hy
          subst this
          rw [hpc] at h2; simp at h2
      have hidx := last_idx hlast
      have hfr : s.freed old = 0 := by
        have h1 := h.fr _ _ hidx
        have h2 := idx_lt h.cu
        have h3 : s.hpc ≠ .exit := by
          intro hx
          have := (h.act i).2 (by rw [hpc]; rfl)
          rw [hxa hx] at this; cases this
        rw [h1, if_neg]
        intro hor
        rcases hor with hor | hor
        · omega
        · exact h3 hor.2
      rw [hfr] at he
      simp only [Nat.lt_irrefl, if_false] at he
      split at he
      · cases he
        refine ⟨h0, one, ?_⟩
        intro k o hk
        have hki : k ≠ i := by rintro rfl; simp at hk
        simp only [upd_apply, hki, if_false] at hk
        exact cast k o hk
      · cases he
        refine ⟨h0, one, ?_⟩
        intro k o hk
        have hki : k ≠ i := by rintro rfl; simp at hk
        simp only [upd_apply, hki, if_false] at hk
        exact cast k o hk
    · rename_i old hpc
      obtain ⟨h1, l, h2⟩ := h.lk i old (.inl hpc)
      have hx0 : s.chain[l.length]? = some old := by rw [h2]; simp
      have hfr : s.freed old = 0 := by
        have h3 := h.fr _ _ hx0
        rw [h3, if_neg]
        intro hor
        rcases hor with hor | hor
        · have hl := congrArg List.length h2
          simp at hl
          have hp := idx_lt h.cu
          have hpe : s.pos = l.length + 1 := by omega
          have hci : s.cur = i := by
            have := h.cu
            rw [hpe, h2] at this
            simpa using this.symm
          -- the poller is past `old`: its `next_` has been stored
          rcases h.nx _ _ hx0 with h5 | ⟨h5, h6, _⟩
          · rw [h.sn i old hpc] at h5
            have : s.chain[l.length + 1]? = some i := by rw [h2]; simp
            rw [this] at h5; cases h5
          · omega
        · have := (h.act i).2 (by rw [hpc]; rfl)
          rw [hxa hor.2] at this; cases this
      rw [hfr] at he
      simp only [Nat.lt_irrefl, if_false] at he
      cases he
      refine ⟨h0, one, ?_⟩
      intro k o hk
      have hki : k ≠ i := by rintro rfl; simp at hk
      simp only [upd_apply, hki, if_false] at hk
      exact cast k o hk
    · rename_i old hpc
      cases he
      refine ⟨h0, ?_, ?_⟩
      · intro a ha b hb
        exact one a (List.mem_of_mem_erase ha) b (List.mem_of_mem_erase hb)
      · intro k o hk
        have hki : k ≠ i := by rintro rfl; simp at hk
        simp only [upd_apply, hki, if_false] at hk
        exact absurd (hpr k (by rw [hk]; rfl) i (by rw [hpc]; rfl)) hki
    · cases he
  | poll =>
    simp only [step] at he
    split at he
    · cases he
    split at he
    · rename_i hp
      rw [hpos (by rw [hp]; simp)] at he
      simp only [Nat.lt_irrefl, if_false] at he
      split at he <;> cases he <;> exact ⟨h0, one, cast⟩
    · split at he <;> cases he <;> exact ⟨h0, one, cast⟩
    · cases he; exact ⟨h0, one, cast⟩
    · rename_i hp
      rw [hpos (by rw [hp]; simp)] at he
      simp only [Nat.lt_irrefl, if_false] at he
      cases he; exact ⟨h0, one, cast⟩
    · cases he
  | stop =>
    simp only [step] at he
    split at he
    · cases he; exact ⟨h0, one, cast⟩
    · cases he

/-! ## The properties -/

/-- **C80** (partial: pushes do not overlap; see `C80_uaf_violation`). No task is accessed after it was
freed. -/
theorem C80_safe_partial {s : St} (h : Reach init (step true) s) : s.uaf = false := by
  have : s.uaf = false ∧ Inv s ∧ SInv s :=
    Reach.inv (fun s => s.uaf = false ∧ Inv s ∧ SInv s)
      ⟨rfl, inv_init, ⟨by simp [init], by simp [init]⟩⟩
      (fun s a s' hi he => by
        obtain ⟨h1, h2⟩ := sinv_step hi.2.1 hi.2.2 he
        exact ⟨h1, inv_step hi.2.1 he h1, h2⟩) s h
  exact this.1

theorem Inv.prefix {s : St} (h : Inv s) : s.executed <+: s.linked := by
  rw [h.ex]; exact List.take_prefix _ _

theorem Inv.nodupL {s : St} (h : Inv s) : s.linked.Nodup := (List.nodup_cons.1 h.nod).2

/-- **C80**. A task is executed at most once, only if a push of it has begun, and is freed at most once, and
not before it is executed (the poller executes before it frees); overlapping pushes included. -/
theorem C80_once {b : Bool} {s : St} (h : Reach init (step b) s) (hu : s.uaf = false) :
    s.executed.Nodup ∧ (∀ i ∈ s.executed, s.pc i ≠ .idle) ∧
    ∀ i, s.freed i ≤ 1 ∧ (0 < i → s.freed i = 1 → i ∈ s.executed) := by
  have hi := reach_inv h hu
  refine ⟨hi.nodupL.sublist hi.prefix.sublist, ?_, ?_⟩
  · intro i hx h0
    have := (hi.mem i).1 (hi.prefix.subset hx)
    rw [h0] at this; cases this
  · intro i
    by_cases hc : i ∈ s.chain
    · obtain ⟨j, hj⟩ := List.getElem?_of_mem hc
      have hf := hi.fr j i hj
      refine ⟨by rw [hf]; split <;> omega, fun h0 h1 => ?_⟩
      rw [h1] at hf
      split at hf
      · rename_i hor
        have hje : j ≤ s.executed.length := by
          have hp : s.pos ≤ s.executed.length + 1 := by unfold St.pos; split <;> omega
          rcases hor with hor | ⟨hor, hx⟩
          · omega
          · have : s.pos = s.executed.length := by simp [St.pos, hx]
            omega
        cases j with
        | zero =>
          simp [St.chain] at hj; omega
        | succ j =>
          have hl : s.linked[j]? = some i := by simpa [St.chain] using hj
          have : s.executed[j]? = some i := by
            rw [hi.ex, List.getElem?_take_of_lt (by omega)]; exact hl
          exact List.mem_of_getElem? this
      · cases hf
    · have := (hi.out i hc).2.2
      omega

/-- **C80**. Tasks are executed in the order in which they were pushed: if the push of `j` had returned when
that of `i` began, `j` is executed before `i`. -/
theorem C80_fifo {b : Bool} {s : St} (h : Reach init (step b) s) (hu : s.uaf = false) (i j : Nat)
    (hi : i ∈ s.executed) (hj : j ∈ s.before i) :
    ∃ m n : Nat, m < n ∧ s.executed[m]? = some j ∧ s.executed[n]? = some i := by
  have hv := reach_inv h hu
  obtain ⟨n, hn⟩ := List.getElem?_of_mem hi
  have hnl := idx_lt hn
  have hn' : s.linked[n]? = some i := by
    have h1 := hn
    rw [hv.ex, List.getElem?_take_of_lt hnl] at h1; exact h1
  obtain ⟨m, hm, hmj⟩ := hv.bf i n hn' j hj
  refine ⟨m, n, hm, ?_, hn⟩
  rw [hv.ex, List.getElem?_take_of_lt (by omega)]; exact hmj

/-! ### Progress -/

def phase : HPc → Nat
  | .test => 3 | .loop => 2 | .take _ => 1 | .exec => 0 | .exit => 0

/-- Steps of the poller until the `n`-th task has been executed. -/
def rank (n : Nat) (s : St) : Nat := 4 * (n - s.executed.length) + phase s.hpc

theorem exec_idx {s : St} (hv : Inv s) {i n : Nat} (hn : s.linked[n]? = some i) (hx : i ∉ s.executed) :
    s.executed.length ≤ n := by
  rcases Nat.lt_or_ge n s.executed.length with h | h
  · exfalso
    apply hx
    have : s.executed[n]? = some i := by rw [hv.ex, List.getElem?_take_of_lt h]; exact hn
    exact List.mem_of_getElem? this
  · exact h

theorem poll_progress {b : Bool} {s : St} (hv : Inv s) (hu : s.uaf = false) (hst : s.stopped = false)
    {i n : Nat} (hn : s.linked[n]? = some i) (hd : s.pc i = .done) (hx : i ∉ s.executed) :
    ∃ s', step b s .poll = some s' ∧ s'.uaf = false ∧ (i ∈ s'.executed ∨ rank n s' < rank n s) := by
  have hle := exec_idx hv hn hx
  have hxit : s.hpc ≠ .exit := fun h => by rw [hv.xit h] at hst; cases hst
  have hfr : s.freed s.cur = 0 := by
    have := hv.fr _ _ hv.cu
    simpa [hxit] using this
  simp only [step, hu, Bool.false_eq_true, if_false, hfr, Nat.lt_irrefl, hst]
  cases hp : s.hpc with
  | exit => exact absurd hp hxit
  | test => exact ⟨_, rfl, rfl, .inr (by simp [rank, phase, hp])⟩
  | take n => exact ⟨_, rfl, rfl, .inr (by simp [rank, phase, hp])⟩
  | loop =>
    have hpos : s.pos = s.executed.length := by simp [St.pos, hp]
    have hc : s.chain[n + 1]? = some i := by simpa [St.chain] using hn
    have hnx : s.next s.cur ≠ none := by
      rcases hv.nx _ _ hv.cu with h | ⟨_, _, y, h1, h2⟩
      · rw [h]
        intro h'
        have h1 := List.getElem?_eq_none_iff.1 h'
        have h2 := idx_lt hc
        omega
      · exfalso
        obtain ⟨_, l, hl⟩ := hv.lk y _ (.inl h2)
        have h3 : s.chain[l.length + 1]? = some y := by rw [hl]; simp
        have h4 := nodup_idx hv.nod h1 h3
        have h5 := congrArg List.length hl
        simp at h5
        have h6 := idx_lt hc
        have h7 : n + 1 = s.pos + 1 := by omega
        rw [h7, h1] at hc
        simp only [Option.some.injEq] at hc
        rw [hc, hd] at h2; cases h2
    cases hq : s.next s.cur with
    | none => exact absurd hq hnx
    | some m => exact ⟨_, rfl, rfl, .inr (by simp [rank, phase, hp])⟩
  | exec =>
    refine ⟨_, rfl, rfl, ?_⟩
    have hpos : s.pos = s.executed.length + 1 := by simp [St.pos, hp]
    have hcl : s.linked[s.executed.length]? = some s.cur := by
      have := hv.cu
      rw [hpos] at this
      simpa [St.chain] using this
    rcases Nat.eq_or_lt_of_le hle with h | h
    · left
      rw [h] at hcl
      rw [hcl] at hn
      simp only [Option.some.injEq] at hn
      subst hn; simp
    · right
      simp [rank, phase, hp]; omega

theorem other_rank {b : Bool} {s s' : St} {a : Act} (ha : a ≠ .poll) (he : step b s a = some s') :
    s'.hpc = s.hpc ∧ s'.executed = s.executed := by
  cases a with
  | «begin» i =>
    simp only [step] at he
    split at he <;> cases he; exact ⟨rfl, rfl⟩
  | prod i sp =>
    simp only [step] at he
    split at he
    · cases he
    split at he
    · cases he; exact ⟨rfl, rfl⟩
    · split at he
      · cases he; exact ⟨rfl, rfl⟩
      · split at he <;> cases he <;> exact ⟨rfl, rfl⟩
    · split at he <;> cases he <;> exact ⟨rfl, rfl⟩
    · cases he; exact ⟨rfl, rfl⟩
    · cases he
  | poll => exact absurd rfl ha
  | stop =>
    simp only [step] at he
    split at he <;> cases he; exact ⟨rfl, rfl⟩

/-- What never changes again. -/
theorem step_keeps {b : Bool} {s s' : St} {a : Act} (he : step b s a = some s') :
    (∀ (n i : Nat), s.linked[n]? = some i → s'.linked[n]? = some i) ∧ (∀ i, s.pc i = .done → s'.pc i = .done) ∧
    (s.stopped = true → s'.stopped = true) ∧ (∀ i ∈ s.executed, i ∈ s'.executed) := by
  cases a with
  | «begin» i =>
    simp only [step] at he
    split at he
    · rename_i hc
      cases he
      refine ⟨fun _ _ h => h, ?_, id, fun _ h => h⟩
      intro k hk
      have : k ≠ i := by rintro rfl; rw [hc.2.1] at hk; cases hk
      simp [upd_apply, this, hk]
    · cases he
  | prod i sp =>
    simp only [step] at he
    split at he
    · cases he
    have hd : ∀ p, s.pc i ≠ .done → ∀ k, s.pc k = .done → upd s.pc i p k = .done := by
      intro p h k hk
      have : k ≠ i := by rintro rfl; exact h hk
      simp [upd_apply, this, hk]
    split at he
    · rename_i hp
      cases he
      exact ⟨fun _ _ h => h, hd _ (by rw [hp]; simp), id, fun _ h => h⟩
    · rename_i hp
      split at he
      · cases he; exact ⟨fun _ _ h => h, fun _ h => h, id, fun _ h => h⟩
      · split at he <;> cases he
        · refine ⟨fun n k h => ?_, hd _ (by rw [hp]; simp), id, fun _ h => h⟩
          rw [getElem?_snoc]; exact .inl h
        · exact ⟨fun _ _ h => h, hd _ (by rw [hp]; simp), id, fun _ h => h⟩
    · rename_i hp
      split at he <;> cases he
      · exact ⟨fun _ _ h => h, fun _ h => h, id, fun _ h => h⟩
      · exact ⟨fun _ _ h => h, hd _ (by rw [hp]; simp), id, fun _ h => h⟩
    · rename_i hp
      cases he
      exact ⟨fun _ _ h => h, hd _ (by rw [hp]; simp), id, fun _ h => h⟩
    · cases he
  | poll =>
    simp only [step] at he
    split at he
    · cases he
    split at he
    · split at he
      · cases he; exact ⟨fun _ _ h => h, fun _ h => h, id, fun _ h => h⟩
      · split at he <;> cases he <;> exact ⟨fun _ _ h => h, fun _ h => h, id, fun _ h => h⟩
    · split at he <;> cases he <;> exact ⟨fun _ _ h => h, fun _ h => h, id, fun _ h => h⟩
    · cases he; exact ⟨fun _ _ h => h, fun _ h => h, id, fun _ h => h⟩
    · split at he <;> cases he
      · exact ⟨fun _ _ h => h, fun _ h => h, id, fun _ h => h⟩
      · exact ⟨fun _ _ h => h, fun _ h => h, id, fun _ h => List.mem_append_left _ h⟩
    · cases he
  | stop =>
    simp only [step] at he
    split at he <;> cases he
    exact ⟨fun _ _ h => h, fun _ h => h, fun _ => rfl, fun _ h => h⟩

theorem executed_within {b : Bool} : ∀ (as : List Act) (s s' : St), Inv s → s.uaf = false →
    exec (step b) s as = some s' → s'.uaf = false → s'.stopped = false →
    ∀ i n : Nat, s.linked[n]? = some i → s.pc i = .done → rank n s < as.count .poll → i ∈ s'.executed
  | [], s, s', _, _, he, _, _, _, _, _, _, hr => by simp at hr
  | a :: as, s, s', hv, hu, he, hu', hst', i, n, hn, hd, hr => by
    have keep : ∀ (as : List Act) (s s' : St), exec (step b) s as = some s' →
        (s.stopped = true → s'.stopped = true) ∧ (∀ i ∈ s.executed, i ∈ s'.executed) := by
      intro as
      induction as with
      | nil => intro s s' he; cases he; exact ⟨id, fun _ h => h⟩
      | cons a as ih =>
        intro s s' he
        simp only [exec] at he
        split at he
        · rename_i s1 h1
          obtain ⟨_, _, k1, k2⟩ := step_keeps h1
          obtain ⟨k3, k4⟩ := ih s1 s' he
          exact ⟨fun h => k3 (k1 h), fun i h => k4 i (k2 i h)⟩
        · cases he
    by_cases hx : i ∈ s.executed
    · exact (keep _ _ _ he).2 i hx
    simp only [exec] at he
    split at he
    · rename_i s1 h1
      have hst : s.stopped = false := by
        cases h : s.stopped with
        | false => rfl
        | true =>
          have h2 := (step_keeps h1).2.2.1 h
          have h3 := (keep _ _ _ he).1 h2
          rw [h3] at hst'; cases hst'
      have hu1 : s1.uaf = false := by
        cases as with
        | nil => cases he; exact hu'
        | cons a' as' =>
          simp only [exec] at he
          split at he
          · exact uaf_pre ‹_›
          · cases he
      have hv1 := inv_step hv h1 hu1
      obtain ⟨k1, k2, _, _⟩ := step_keeps h1
      by_cases ha : a = .poll
      · subst ha
        obtain ⟨s2, h2, h3, h4⟩ := poll_progress (b := b) hv hu hst hn hd hx
        rw [h2] at h1; simp only [Option.some.injEq] at h1; subst h1
        rcases h4 with h4 | h4
        · exact (keep _ _ _ he).2 i h4
        · refine executed_within as s2 s' hv1 hu1 he hu' hst' i n (k1 n i hn) (k2 i hd) ?_
          simp at hr; omega
      · obtain ⟨e1, e2⟩ := other_rank ha h1
        refine executed_within as s1 s' hv1 hu1 he hu' hst' i n (k1 n i hn) (k2 i hd) ?_
        have : rank n s1 = rank n s := by simp only [rank, e1, e2]
        rw [List.count_cons_of_ne (fun h => ha h)] at hr
        omega
    · cases he

/-- **C80**. A task whose push has returned is executed within `4 * (k + 1)` steps of the poller, where `k` is
the number of tasks pushed so far, whatever else happens meanwhile (unless the poller is told to stop). -/
theorem C80_completes {b : Bool} {s s' : St} (h : Reach init (step b) s) (hu : s.uaf = false)
    (i : Nat) (hi : s.pc i = .done) (as : List Act) (he : exec (step b) s as = some s') (hu' : s'.uaf = false)
    (hst : s'.stopped = false) (hc : 4 * (s.linked.length + 1) ≤ as.count .poll) : i ∈ s'.executed := by
  have hv := reach_inv h hu
  have hm : i ∈ s.linked := (hv.mem i).2 (by rw [hi]; rfl)
  obtain ⟨n, hn⟩ := List.getElem?_of_mem hm
  refine executed_within as s s' hv hu he hu' hst i n hn hi ?_
  have h1 := idx_lt hn
  have h2 : phase s.hpc ≤ 3 := by cases s.hpc <;> simp [phase]
  simp only [rank]; omega

/-! ### Shutdown -/

theorem drained_inv {b : Bool} {s : St} (h : Reach init (step b) s) : s.uaf = false →
    (s.stopped = true → s.drained = true → s.executed = s.linked) ∧ (s.drained = true → s.stopped = true) := by
  refine Reach.inv' (fun s => s.uaf = false → (s.stopped = true → s.drained = true → s.executed = s.linked) ∧
    (s.drained = true → s.stopped = true)) (fun _ => by simp [init]) ?_ s h
  intro s a s' hr hi he hu
  have hu0 := uaf_pre he
  have hv := reach_inv hr hu0
  obtain ⟨h1, h2⟩ := hi hu0
  have hna : s.stopped = true → ∀ i, inProg (s.pc i) = false := by
    intro hs i
    cases hq : inProg (s.pc i) with
    | false => rfl
    | true => have := (hv.act i).2 hq; rw [hv.stp hs] at this; cases this
  cases a with
  | «begin» i =>
    simp only [step] at he
    split at he <;> cases he
    exact ⟨h1, h2⟩
  | prod i sp =>
    simp only [step] at he
    split at he
    · cases he
    have hns : inProg (s.pc i) = true → s.stopped = true → False := by
      intro h3 h4; rw [hna h4 i] at h3; cases h3
    split at he
    · rename_i hp
      cases he
      exact ⟨h1, h2⟩
    · rename_i hp
      split at he
      · cases he; cases hu
      · split at he <;> cases he
        · exact ⟨fun h _ => (hns (by rw [hp]; rfl) h).elim, h2⟩
        · exact ⟨h1, h2⟩
    · split at he <;> cases he <;> exact ⟨h1, h2⟩
    · cases he; exact ⟨h1, h2⟩
    · cases he
  | poll =>
    simp only [step] at he
    split at he
    · cases he
    split at he
    · split at he
      · cases he; exact ⟨h1, h2⟩
      · split at he <;> cases he <;> exact ⟨h1, h2⟩
    · split at he <;> cases he <;> exact ⟨h1, h2⟩
    · cases he; exact ⟨h1, h2⟩
    · rename_i hp
      split at he <;> cases he
      · exact ⟨h1, h2⟩
      · refine ⟨fun h3 h4 => ?_, h2⟩
        exfalso
        have h5 := h1 h3 h4
        have h6 := idx_lt hv.cu
        have h7 : s.pos = s.executed.length + 1 := by simp [St.pos, hp]
        simp [St.chain] at h6
        rw [h7, h5] at h6; omega
    · cases he
  | stop =>
    simp only [step] at he
    split at he
    · cases he
      refine ⟨fun _ hd => ?_, fun _ => rfl⟩
      simp only [decide_eq_true_eq] at hd
      rcases hd with ⟨a1, a2⟩ | ⟨_, a2⟩
      · exact h1 a1 a2
      · exact a2
    · cases he

/-- **C80** (partial: the queue is destroyed after all tasks have been executed; see `C80_lost_violation`).
When the poller has exited, all tasks have been executed, and all of them, and the root, freed exactly once. -/
theorem C80_shutdown_partial {b : Bool} {s : St} (h : Reach init (step b) s) (hu : s.uaf = false)
    (hx : s.hpc = .exit) (hd : s.drained = true) :
    (∀ i, s.pc i ≠ .idle → i ∈ s.executed ∧ s.freed i = 1) ∧ s.freed 0 = 1 := by
  have hv := reach_inv h hu
  obtain ⟨h1, h2⟩ := drained_inv h hu
  have hst := h2 hd
  have he := h1 hst hd
  have hall : ∀ (j x : Nat), s.chain[j]? = some x → s.freed x = 1 := by
    intro j x hj
    have hpos : s.pos = s.executed.length := by simp [St.pos, hx]
    have hl := idx_lt hj
    simp [St.chain] at hl
    rw [hv.fr j x hj, if_pos]
    rw [hpos, he, hx]; simp; omega
  refine ⟨fun i hi => ?_, hall 0 0 (by simp [St.chain])⟩
  have hp : inProg (s.pc i) = false := by
    cases hq : inProg (s.pc i) with
    | false => rfl
    | true => have := (hv.act i).2 hq; rw [hv.stp hst] at this; cases this
  have hdn : s.pc i = .done := by
    cases hq : s.pc i <;> simp_all [inProg]
  have hm : i ∈ s.linked := (hv.mem i).2 (by rw [hdn]; rfl)
  refine ⟨by rw [he]; exact hm, ?_⟩
  obtain ⟨j, hj⟩ := List.getElem?_of_mem (List.mem_cons_of_mem 0 hm : i ∈ s.chain)
  exact hall j i hj

/-- The poller can always go on until it has exited. -/
theorem C80_never_stuck {b : Bool} {s : St} (hu : s.uaf = false) (hx : s.hpc ≠ .exit) :
    ∃ s', step b s .poll = some s' := by
  simp only [step, hu, Bool.false_eq_true, if_false]
  cases hp : s.hpc with
  | exit => exact absurd hp hx
  | loop =>
    by_cases h : 0 < s.freed s.cur
    · simp [h]
    · simp only [h, if_false]
      cases hq : s.next s.cur <;> exact ⟨_, rfl⟩
  | test => cases s.stopped <;> simp
  | take n => exact ⟨_, rfl⟩
  | exec =>
    by_cases h : 0 < s.freed s.cur <;> simp [h]

/-! ## Executions -/

/-- One whole push. -/
def push (i : Nat) : List Act := [.begin i, .prod i false, .prod i false, .prod i false, .prod i false]

/-- Two tasks pushed one after the other, executed in order, and everything freed at the end. -/
example : ∃ s, Reach init (step true) s ∧ s.executed = [1, 2] ∧ s.before 2 = [1] ∧ s.hpc = .exit ∧
    s.drained = true ∧ s.freed 0 = 1 ∧ s.freed 1 = 1 ∧ s.freed 2 = 1 := by
  obtain ⟨s, h1, h2⟩ := Reach.witness (init := init) (step := step true)
    (push 1 ++ push 2 ++ [.poll, .poll, .poll, .poll, .poll, .poll, .stop, .poll, .poll])
    (fun x : St => decide (x.executed = [1, 2] ∧ x.before 2 = [1] ∧ x.hpc = .exit ∧ x.drained = true ∧
      x.freed 0 = 1 ∧ x.freed 1 = 1 ∧ x.freed 2 = 1)) (by rfl)
  simp only [decide_eq_true_eq] at h2
  exact ⟨s, h1, h2⟩

/-! ## Violations -/

/-- Thread 1 has linked its task and is about to move the tail (line 73). The poller sees the link and frees the
old tail. Thread 2 loads the tail, which is still the freed task, and reads its `atom_next_` (line 57). -/
theorem C80_uaf_violation : ∃ s, Reach init (step false) s ∧ s.uaf = true := by
  obtain ⟨s, h1, h2⟩ := Reach.witness (init := init) (step := step false)
    [.begin 1, .prod 1 false, .prod 1 false, .prod 1 false, .poll, .poll, .begin 2, .prod 2 false, .prod 2 false]
    (fun x : St => x.uaf) (by rfl)
  exact ⟨s, h1, h2⟩

/-- The poller finds no successor; a task is pushed; the queue is destroyed; the poller sees the flag and exits
without looking again: the task is never executed. -/
theorem C80_lost_violation : ∃ s, Reach init (step true) s ∧ s.uaf = false ∧ s.hpc = .exit ∧ s.pc 1 = .done ∧
    1 ∉ s.executed := by
  obtain ⟨s, h1, h2⟩ := Reach.witness (init := init) (step := step true)
    ([.poll] ++ push 1 ++ [.stop, .poll])
    (fun x : St => decide (x.uaf = false ∧ x.hpc = .exit ∧ x.pc 1 = .done ∧ 1 ∉ x.executed)) (by rfl)
  simp only [decide_eq_true_eq] at h2
  exact ⟨s, h1, h2⟩

end Verif.NvQueue
