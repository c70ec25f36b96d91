import Verif.Mpsc.Model
/-! # `__intrusive_mpsc_queue`: the inductive invariant -/
namespace Verif.Mpsc

/-- Following `succ` from `p` visits exactly `l`. -/
def Chain (succ : Nat → Option Nat) : Option Nat → List Nat → Prop
  | p, [] => p = none
  | p, a :: l => p = some a ∧ Chain succ (succ a) l

theorem Chain.frame {next next' : Nat → Option Nat} : ∀ {l : List Nat} {p},
    (∀ n ∈ l, next' n = next n) → Chain next p l → Chain next' p l
  | [], _, _, h => h
  | a :: l, _, hf, h => ⟨h.1, by
      rw [hf a (by simp)]; exact Chain.frame (fun n hn => hf n (by simp [hn])) h.2⟩

/-- Appending a node at the end. -/
theorem Chain.snoc {succ : Nat → Option Nat} {z n : Nat} : ∀ {l : List Nat} {p},
    l.Nodup → l.getLast? = some z → n ∉ l → Chain succ p l →
    Chain (upd (upd succ z (some n)) n none) p (l ++ [n])
  | [], _, _, h, _, _ => by simp at h
  | [a], p, _, h, hn, hc => by
      simp at h; subst h
      simp only [List.mem_singleton] at hn
      refine ⟨hc.1, ?_⟩
      rw [upd_other _ _ (Ne.symm hn), upd_same]
      exact ⟨rfl, by rw [upd_same]; rfl⟩
  | a :: b :: l, p, hd, h, hn, hc => by
      rw [List.nodup_cons] at hd
      simp only [List.mem_cons, not_or] at hn
      have hz : (b :: l).getLast? = some z := by simpa [List.getLast?_cons_cons] using h
      refine ⟨hc.1, ?_⟩
      have haz : a ≠ z := fun e => hd.1 (e ▸ List.mem_of_getLast? hz)
      rw [upd_other _ _ (Ne.symm hn.1), upd_other _ _ haz]
      exact Chain.snoc hd.2 hz (by simp [hn.2]) hc.2

/-- The consumer has the tail at a real node. -/
def past : CPc → Prop
  | .ld2 | .hd | .st0 | .st1 | .st2 _ | .ld3 => True
  | _ => False

structure Inv (s : St) : Prop where
  chain : Chain s.succ (some s.tail) s.seq
  nodup : s.seq.Nodup
  last : s.seq.getLast? = some s.head
  headN : s.next s.head = none ∧ s.succ s.head = none
  link : ∀ n ∈ s.seq, s.next n = s.succ n ∨
    (s.next n = none ∧ ((∃ t m, s.prod t = .link m n ∧ s.succ n = some m) ∨ (s.cons = .st2 n ∧ s.succ n = some 0)))
  busyS : ∀ n ∈ s.seq, s.busy n = true
  busy0 : s.busy 0 = true
  exchP : ∀ t n, s.prod t = .exch n → s.next n = none ∧ n ∉ s.seq ∧ s.busy n = true ∧ n ≠ 0
  exchU : ∀ t u n, s.prod t = .exch n → s.prod u = .exch n → t = u
  linkP : ∀ t n p, s.prod t = .link n p → p ∈ s.seq ∧ n ∈ s.seq ∧ s.succ p = some n ∧ s.next p = none ∧ n ≠ 0
  linkU : ∀ t u n p, s.prod t = .link n p → s.prod u = .link n p → t = u
  st2P : ∀ p, s.cons = .st2 p → p ∈ s.seq ∧ 0 ∈ s.seq ∧ s.succ p = some 0 ∧ s.next p = none
  stub : (s.cons = .st0 ∨ s.cons = .st1) → 0 ∉ s.seq
  st1N : s.cons = .st1 → s.next 0 = none
  pastT : past s.cons → s.tail ≠ 0
  eff : s.effect = s.got ++ s.seq.filter (· ≠ 0)

theorem inv_init : Inv init := by
  constructor <;> simp [init, Chain, past]

theorem Inv.cons_seq {s} (h : Inv s) : ∃ l, s.seq = s.tail :: l := by
  have := h.chain
  cases hq : s.seq with
  | nil => rw [hq] at this; cases this
  | cons a l => rw [hq] at this; have := this.1; injection this with this; subst this; exact ⟨l, rfl⟩

theorem Inv.head_mem {s} (h : Inv s) : s.head ∈ s.seq := List.mem_of_getLast? h.last

/-- Advancing the tail along an established link. -/
theorem Inv.advance {s} (h : Inv s) {nx} (hn : s.next s.tail = some nx) :
    ∃ l, s.seq = s.tail :: nx :: l ∧ Chain s.succ (some nx) (nx :: l) ∧ (nx :: l).getLast? = some s.head ∧
      s.succ s.tail = some nx := by
  obtain ⟨l, hl⟩ := h.cons_seq
  have hc := h.chain
  rw [hl] at hc
  have hs : s.succ s.tail = some nx := by
    rcases h.link s.tail (by simp [hl]) with h1 | ⟨h1, _⟩
    · rw [← h1]; exact hn
    · rw [hn] at h1; cases h1
  have hc2 := hc.2
  rw [hs] at hc2
  cases l with
  | nil => cases hc2
  | cons b l =>
      have := hc2.1; injection this with this; subst this
      refine ⟨l, hl, hc2, ?_, hs⟩
      have := h.last; rw [hl] at this
      simpa [List.getLast?_cons_cons] using this

theorem inv_take {s nx} (h : Inv s) (hn : s.next s.tail = some nx) (ht : s.tail ≠ 0)
    (hc : ∀ p, s.cons ≠ .st2 p) : Inv (s.take nx) := by
  obtain ⟨l, hl, hch, hla, hsu⟩ := h.advance hn
  have hnd := h.nodup; rw [hl, List.nodup_cons] at hnd
  have hsub : ∀ n, n ∈ nx :: l → n ∈ s.seq := fun n hm => by rw [hl]; exact List.mem_cons_of_mem _ hm
  have hne : ∀ n, n ∈ nx :: l → n ≠ s.tail := fun n hm e => hnd.1 (e ▸ hm)
  have hmem : ∀ n, n ∈ s.seq → n ≠ s.tail → n ∈ nx :: l := fun n hm he => by
    rw [hl] at hm; exact (List.mem_cons.1 hm).resolve_left he
  constructor
  all_goals simp only [St.take, hl, List.tail_cons]
  · exact hch
  · exact hnd.2
  · exact hla
  · exact h.headN
  · intro n hm
    rcases h.link n (hsub n hm) with h1 | ⟨h1, h2⟩
    · exact .inl h1
    · exact .inr ⟨h1, h2.imp id fun h3 => absurd h3.1 (hc n)⟩
  · intro n hm; rw [upd_other _ _ (hne n hm)]; exact h.busyS n (hsub n hm)
  · rw [upd_other _ _ (Ne.symm ht)]; exact h.busy0
  · intro t n hp
    obtain ⟨h1, h2, h3, h4⟩ := h.exchP t n hp
    refine ⟨h1, fun hm => h2 (hsub n hm), ?_, h4⟩
    rw [upd_other _ _ (fun e => h2 (by rw [e, hl]; simp))]; exact h3
  · exact h.exchU
  · intro t n p hp
    obtain ⟨h1, h2, h3, h4, h5⟩ := h.linkP t n p hp
    have hpt : p ≠ s.tail := fun e => by rw [e, hn] at h4; cases h4
    have hnt : n ≠ s.tail := by
      rintro rfl
      -- the tail has no predecessor in the chain
      have key : ∀ (l : List Nat) (q : Option Nat), Chain s.succ q l → ∀ p ∈ l, ∀ m, s.succ p = some m → m ∈ l.tail := by
        intro l
        induction l with
        | nil => intro q _ p hp; cases hp
        | cons a l ih =>
            intro q hq p hp m hm
            rcases List.mem_cons.1 hp with rfl | hp
            · have := hq.2; rw [hm] at this
              cases l with
              | nil => cases this
              | cons b l => have := this.1; injection this with this; subst this; simp
            · have := ih _ hq.2 p hp m hm
              simp only [List.tail_cons]; exact List.mem_of_mem_tail this
      have := key _ _ h.chain p h1 _ h3
      rw [hl] at this; exact hnd.1 this
    exact ⟨hmem p h1 hpt, hmem n h2 hnt, h3, h4, h5⟩
  · exact h.linkU
  · intro p hp; cases hp
  · intro hp; rcases hp with hp | hp <;> cases hp
  · intro hp; cases hp
  · intro hp; exact absurd hp (by simp [past])
  · have := h.eff; rw [hl] at this
    rw [this]; simp [List.filter_cons, ht]

theorem inv_null {s} (h : Inv s) (hc : ∀ p, s.cons ≠ .st2 p) : Inv s.null := by
  constructor
  case link =>
    intro n hm
    rcases h.link n hm with h1 | ⟨h1, h2⟩
    · exact .inl h1
    · exact .inr ⟨h1, h2.imp id fun h3 => absurd h3.1 (hc n)⟩
  case st2P => intro p hp; cases hp
  case stub => intro hp; rcases hp with hp | hp <;> cases hp
  case st1N => intro hp; cases hp
  case pastT => intro hp; exact absurd hp (by simp [past, St.null])
  all_goals first
    | exact h.chain | exact h.nodup | exact h.last | exact h.headN | exact h.busyS | exact h.busy0
    | exact h.exchP | exact h.exchU | exact h.linkP | exact h.linkU | exact h.eff

/-- Only the consumer's program counter changes. -/
theorem inv_pc {s c} (h : Inv s) (hc : ∀ p, s.cons ≠ .st2 p) (hc' : ∀ p, c ≠ .st2 p)
    (hst : c = .st0 ∨ c = .st1 → 0 ∉ s.seq) (h1N : c = .st1 → s.next 0 = none) (hp : past c → s.tail ≠ 0) (lg : List Ev) :
    Inv { s with cons := c, log := lg } := by
  constructor
  case link =>
    intro n hm
    rcases h.link n hm with h1 | ⟨h1, h2⟩
    · exact .inl h1
    · exact .inr ⟨h1, h2.imp id fun h3 => absurd h3.1 (hc n)⟩
  case st2P => intro p hp; exact absurd hp (hc' p)
  case stub => exact hst
  case st1N => exact h1N
  case pastT => exact hp
  all_goals first
    | exact h.chain | exact h.nodup | exact h.last | exact h.headN | exact h.busyS | exact h.busy0
    | exact h.exchP | exact h.exchU | exact h.linkP | exact h.linkU | exact h.eff

/-- The predecessor's link is stored. -/
theorem Inv.store {s} (h : Inv s) {p n : Nat} (hp : s.succ p = some n) :
    p ≠ s.head := fun e => by rw [e, h.headN.2] at hp; cases hp

theorem chain_mem_tail {succ : Nat → Option Nat} : ∀ {l : List Nat} {q : Option Nat}, Chain succ q l →
    ∀ p ∈ l, ∀ m, succ p = some m → m ∈ l.tail := by
  intro l
  induction l with
  | nil => intro q _ p hp; cases hp
  | cons a l ih =>
      intro q hq p hp m hm
      rcases List.mem_cons.1 hp with rfl | hp
      · have := hq.2; rw [hm] at this
        cases l with
        | nil => cases this
        | cons b l => have := this.1; injection this with this; subst this; simp
      · have := ih hq.2 p hp m hm
        simp only [List.tail_cons]; exact List.mem_of_mem_tail this

set_option maxHeartbeats 4000000 in
theorem inv_step {s s' : St} {a : Act} (h : Inv s) (hs : step s a = some s') : Inv s' := by
  cases a with
  | push t n =>
      simp only [step] at hs
      split at hs
      · rename_i hg; cases hs
        obtain ⟨hg1, hg2⟩ := hg
        have hns : n ∉ s.seq := fun hm => by have := h.busyS n hm; rw [hg2] at this; cases this
        have hnh : n ≠ s.head := fun e => hns (e ▸ h.head_mem)
        have hn0 : n ≠ 0 := fun e => by rw [e, h.busy0] at hg2; cases hg2
        obtain ⟨a1, a2, a3, a4, a5, a6, a7, a8, a9, b1, b2, b3, b4, b4', b5, b6⟩ := h
        constructor
        case chain => exact a1
        case nodup => exact a2
        case last => exact a3
        case headN => clear a1 a5; grind
        case link =>
          intro m hm
          have hmn : m ≠ n := fun e => hns (e ▸ hm)
          simp only [upd_other _ _ hmn]
          rcases a5 m hm with h1 | ⟨h1, ⟨u, k, h2, h3⟩ | h2⟩
          · exact .inl h1
          · refine .inr ⟨h1, .inl ⟨u, k, ?_, h3⟩⟩
            rw [upd_other _ _ (by rintro rfl; rw [hg1] at h2; cases h2)]; exact h2
          · exact .inr ⟨h1, .inr h2⟩
        case eff => exact b6
        all_goals (clear a1 a5; grind)
      · cases hs
  | prod t =>
      simp only [step] at hs
      split at hs
      · rename_i n hp; cases hs
        have hhm := h.head_mem
        obtain ⟨e1, e2, e3, e4⟩ := h.exchP t n hp
        have hnh : n ≠ s.head := fun e => e2 (e ▸ hhm)
        obtain ⟨a1, a2, a3, a4, a5, a6, a7, a8, a9, b1, b2, b3, b4, b4', b5, b6⟩ := h
        constructor
        case chain => exact a1.snoc a2 a3 e2
        case nodup => clear a1 a5; grind
        case last => simp
        case headN => clear a1 a5; grind
        case link =>
          intro m hm
          simp only
          by_cases hmn : m = n
          · subst hmn; left; simp [e1]
          · rw [upd_other _ _ hmn]
            have hms : m ∈ s.seq := by simpa [hmn] using hm
            by_cases hmh : m = s.head
            · subst hmh; right
              exact ⟨a4.1, .inl ⟨t, n, by simp, by simp⟩⟩
            · rw [upd_other _ _ hmh]
              rcases a5 m hms with h1 | ⟨h1, ⟨u, k, h2, h3⟩ | h2⟩
              · exact .inl h1
              · refine .inr ⟨h1, .inl ⟨u, k, ?_, h3⟩⟩
                rw [upd_other _ _ (by rintro rfl; rw [hp] at h2; cases h2)]; exact h2
              · exact .inr ⟨h1, .inr h2⟩
        case eff => simp [b6, List.filter_append, e4]
        all_goals (clear a1 a5; grind)
      · rename_i n p hp; cases hs
        obtain ⟨e1, e2, e3, e4, e5⟩ := h.linkP t n p hp
        have hph := h.store e3
        obtain ⟨a1, a2, a3, a4, a5, a6, a7, a8, a9, b1, b2, b3, b4, b4', b5, b6⟩ := h
        constructor
        case chain => exact a1
        case link =>
          intro m hm
          simp only
          by_cases hmp : m = p
          · subst hmp; left; simp [e3]
          · rw [upd_other _ _ hmp]
            rcases a5 m hm with h1 | ⟨h1, ⟨u, k, h2, h3⟩ | h2⟩
            · exact .inl h1
            · refine .inr ⟨h1, .inl ⟨u, k, ?_, h3⟩⟩
              rw [upd_other _ _ (by rintro rfl; rw [hp] at h2; injection h2 with _ h2; exact hmp h2.symm)]; exact h2
            · exact .inr ⟨h1, .inr h2⟩
        case eff => exact b6
        all_goals (clear a1 a5; grind)
      · rename_i n p hp; cases hs
        obtain ⟨a1, a2, a3, a4, a5, a6, a7, a8, a9, b1, b2, b3, b4, b4', b5, b6⟩ := h
        constructor
        case chain => exact a1
        case link =>
          intro m hm
          rcases a5 m hm with h1 | ⟨h1, ⟨u, k, h2, h3⟩ | h2⟩
          · exact .inl h1
          · refine .inr ⟨h1, .inl ⟨u, k, ?_, h3⟩⟩
            simp only
            rw [upd_other _ _ (by rintro rfl; rw [hp] at h2; cases h2)]; exact h2
          · exact .inr ⟨h1, .inr h2⟩
        case eff => exact b6
        all_goals (clear a1 a5; grind)
      · cases hs
  | pop =>
      simp only [step] at hs
      split at hs
      · rename_i hc; cases hs
        exact inv_pc h (by simp [hc]) (by simp) (by simp) (by simp) (by simp [past]) _
      · cases hs
  | cons =>
      simp only [step] at hs
      split at hs
      · cases hs
      · rename_i hc
        split at hs
        · rename_i ht
          split at hs
          · cases hs; exact inv_null h (by simp [hc])
          · rename_i nx hn; cases hs
            rw [← ht] at hn
            obtain ⟨l, hl, hch, hla, hsu⟩ := h.advance hn
            have hnd := h.nodup; rw [hl, List.nodup_cons] at hnd
            have hkey := fun p hp m hm => chain_mem_tail h.chain p hp m hm
            rw [hl] at hkey; simp only [List.tail_cons] at hkey
            obtain ⟨a1, a2, a3, a4, a5, a6, a7, a8, a9, b1, b2, b3, b4, b4', b5, b6⟩ := h
            constructor
            all_goals simp only [hl, List.tail_cons]
            case chain => exact hch
            case nodup => exact hnd.2
            case last => exact hla
            case link =>
              intro m hm
              rcases a5 m (by rw [hl]; exact List.mem_cons_of_mem _ hm) with h1 | ⟨h1, h2⟩
              · exact .inl h1
              · exact .inr ⟨h1, h2.imp id fun h3 => by rw [hc] at h3; cases h3.1⟩
            case eff => rw [b6, hl]; simp [ht, List.filter_cons]
            case linkP =>
              intro u n p hp
              obtain ⟨h1, h2, h3, h4, h5⟩ := b1 u n p hp
              refine ⟨?_, ?_, h3, h4, h5⟩
              · rw [hl] at h1
                rcases List.mem_cons.1 h1 with rfl | h1
                · rw [hn] at h4; cases h4
                · exact h1
              · exact hkey p (by rw [hl] at h1; exact h1) n h3
            all_goals (clear a1 a5 hch; grind [past])
        · rename_i ht
          split at hs
          · rename_i nx hn; cases hs; exact inv_take h hn ht (by simp [hc])
          · cases hs; exact inv_pc h (by simp [hc]) (by simp) (by simp) (by simp) (fun _ => ht) _
      · rename_i hc
        have ht := h.pastT (by simp [hc, past])
        split at hs
        · rename_i nx hn; cases hs; exact inv_take h hn ht (by simp [hc])
        · cases hs; exact inv_pc h (by simp [hc]) (by simp) (by simp) (by simp) (fun _ => ht) _
      · rename_i hc
        have ht := h.pastT (by simp [hc, past])
        split at hs
        · rename_i hh; cases hs
          refine inv_pc h (by simp [hc]) (by simp) (fun _ => ?_) (by simp) (fun _ => ht) _
          obtain ⟨l, hl⟩ := h.cons_seq
          have h1 := h.chain; rw [hl] at h1
          have h2 := h1.2; rw [hh, h.headN.2] at h2
          cases l with
          | nil => rw [hl]; simpa using Ne.symm ht
          | cons b l => cases h2.1
        · cases hs; exact inv_null h (by simp [hc])
      · rename_i hc; cases hs
        have ht := h.pastT (by simp [hc, past])
        have h0 := h.stub (.inl hc)
        obtain ⟨a1, a2, a3, a4, a5, a6, a7, a8, a9, b1, b2, b3, b4, b4', b5, b6⟩ := h
        have hhm : s.head ∈ s.seq := List.mem_of_getLast? a3
        constructor
        case chain => exact a1
        case link =>
          intro m hm
          simp only
          rw [upd_other _ _ (by rintro rfl; exact h0 hm)]
          rcases a5 m hm with h1 | ⟨h1, h2⟩
          · exact .inl h1
          · exact .inr ⟨h1, h2.imp id fun h3 => by rw [hc] at h3; cases h3.1⟩
        case eff => exact b6
        all_goals (clear a1 a5; grind [past])
      · rename_i hc; cases hs
        have ht := h.pastT (by simp [hc, past])
        have h0 := h.stub (.inr hc)
        have h1N := h.st1N hc
        have hhm := h.head_mem
        have hnh : s.head ≠ 0 := fun e => h0 (e ▸ hhm)
        obtain ⟨a1, a2, a3, a4, a5, a6, a7, a8, a9, b1, b2, b3, b4, b4', b5, b6⟩ := h
        constructor
        case chain => exact a1.snoc a2 a3 h0
        case nodup => clear a1 a5; grind
        case last => simp
        case headN => clear a1 a5; grind
        case link =>
          intro m hm
          simp only
          by_cases hmn : m = 0
          · subst hmn; left; simp [h1N]
          · rw [upd_other _ _ hmn]
            have hms : m ∈ s.seq := by simpa [hmn] using hm
            by_cases hmh : m = s.head
            · subst hmh; right
              exact ⟨a4.1, .inr ⟨rfl, by simp⟩⟩
            · rw [upd_other _ _ hmh]
              rcases a5 m hms with h1 | ⟨h1, h2⟩
              · exact .inl h1
              · exact .inr ⟨h1, h2.imp id fun h3 => by rw [hc] at h3; cases h3.1⟩
        case eff => simp [b6, List.filter_append]
        all_goals (clear a1 a5; grind [past])
      · rename_i p hc; cases hs
        have ht := h.pastT (by simp [hc, past])
        obtain ⟨e1, e2, e3, e4⟩ := h.st2P p hc
        have hph := h.store e3
        obtain ⟨a1, a2, a3, a4, a5, a6, a7, a8, a9, b1, b2, b3, b4, b4', b5, b6⟩ := h
        constructor
        case chain => exact a1
        case link =>
          intro m hm
          simp only
          by_cases hmp : m = p
          · subst hmp; left; simp [e3]
          · rw [upd_other _ _ hmp]
            rcases a5 m hm with h1 | ⟨h1, h2⟩
            · exact .inl h1
            · exact .inr ⟨h1, h2.imp id fun h3 => by
                rw [hc] at h3; have := h3.1; injection this with this; exact absurd this.symm hmp⟩
        case eff => exact b6
        all_goals (clear a1 a5; grind [past])
      · rename_i hc
        have ht := h.pastT (by simp [hc, past])
        split at hs
        · rename_i nx hn; cases hs; exact inv_take h hn ht (by simp [hc])
        · cases hs; exact inv_null h (by simp [hc])

theorem inv_reach {s} (h : Reachable s) : Inv s :=
  Reach.inv Inv inv_init (fun _ _ _ h hs => inv_step h hs) s h

end Verif.Mpsc
