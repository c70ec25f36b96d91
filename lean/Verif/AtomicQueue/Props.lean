import Verif.AtomicQueue.Model
import Mathlib.Data.List.Nodup
/-! # `__atomic_intrusive_queue`: invariant and property C11 -/
namespace Verif.AtomicQueue

/-- Following next pointers from `p` visits exactly `l` and ends at null. -/
def Chain (next : Nat → Option Nat) : Option Nat → List Nat → Prop
  | p, [] => p = none
  | p, a :: l => p = some a ∧ Chain next (next a) l

/-- Consecutive nodes of the list are linked. -/
def Links (next : Nat → Option Nat) : List Nat → Prop
  | a :: b :: l => next a = some b ∧ Links next (b :: l)
  | _ => True

theorem Chain.frame {next next' : Nat → Option Nat} : ∀ {l : List Nat} {p},
    (∀ n ∈ l, next' n = next n) → Chain next p l → Chain next' p l
  | [], _, _, h => h
  | a :: l, _, hf, h => ⟨h.1, by
      rw [hf a (by simp)]; exact Chain.frame (fun n hn => hf n (by simp [hn])) h.2⟩

theorem Links.frame {next next' : Nat → Option Nat} : ∀ {l : List Nat},
    (∀ n ∈ l, next' n = next n) → Links next l → Links next' l
  | [], _, _ => trivial
  | [_], _, _ => trivial
  | a :: b :: l, hf, h => ⟨by rw [hf a (by simp)]; exact h.1,
      Links.frame (fun n hn => hf n (by simp [hn])) h.2⟩

theorem link_other {l : List Nat} : ∀ {next : Nat → Option Nat} {n}, n ∉ l → link next l n = next n := by
  induction l with
  | nil => intro next n _; rfl
  | cons a l ih =>
      intro next n hn
      cases l with
      | nil => rfl
      | cons b l =>
          simp only [link]
          simp only [List.mem_cons, not_or] at hn
          rw [ih (by simp [hn.2]), upd_other _ _ hn.1]

theorem link_links {l : List Nat} : ∀ {next : Nat → Option Nat}, l.Nodup → Links (link next l) l := by
  induction l with
  | nil => intro _ _; trivial
  | cons a l ih =>
      intro next hd
      cases l with
      | nil => trivial
      | cons b l =>
          simp only [link]
          rw [List.nodup_cons] at hd
          refine ⟨?_, ih hd.2⟩
          rw [link_other hd.1, upd_same]

/-- Setting the last next pointer does not break the links. -/
theorem Links.upd_last {next : Nat → Option Nat} {v} : ∀ {l : List Nat} {z}, l.Nodup → l.getLast? = some z →
    Links next l → Links (upd next z v) l
  | [], _, _, _, _ => trivial
  | [_], _, _, _, _ => trivial
  | a :: b :: l, z, hd, hz, h => by
      rw [List.nodup_cons] at hd
      have hz' : (b :: l).getLast? = some z := by simpa [List.getLast?_cons_cons] using hz
      refine ⟨?_, Links.upd_last hd.2 hz' h.2⟩
      have : a ≠ z := fun e => hd.1 (e ▸ List.mem_of_getLast? hz')
      rw [upd_other _ _ this]; exact h.1

/-- A linked segment whose last node points to a chain is a chain. -/
theorem Links.chain {next : Nat → Option Nat} {q : List Nat} {old : Option Nat} : ∀ {l : List Nat} {z},
    l.getLast? = some z → next z = old → Chain next old q → Links next l → Chain next l.head? (l ++ q)
  | [], _, h, _, _, _ => by simp at h
  | [a], z, h, hz, hq, _ => by simp at h; subst h; exact ⟨rfl, hz ▸ hq⟩
  | a :: b :: l, z, h, hz, hq, hl => by
      refine ⟨rfl, ?_⟩
      have := Links.chain (l := b :: l) (by simpa [List.getLast?_cons_cons] using h) hz hq hl.2
      rw [hl.1]; exact this

/-- All of the first `n` batches in order. -/
def flat (bs : Nat → List Nat) : Nat → List Nat
  | 0 => []
  | n + 1 => flat bs n ++ bs n

theorem flat_upd {bs : Nat → List Nat} {b} : ∀ {n m}, n ≤ m → flat (upd bs m b) n = flat bs n
  | 0, _, _ => rfl
  | n + 1, m, h => by
      rw [flat, flat, flat_upd (by omega), upd_other _ _ (by omega)]

/-- What call `i` must return for the batch `b`. -/
def out (f : Bool) (b : List Nat) : List Nat := if f then b else b.reverse

def POk (s : St) (t : Nat) (seg : List Nat) : Prop :=
  seg ≠ [] ∧ seg.Nodup ∧ (∀ n ∈ seg, s.owner n = .prod t) ∧ Links s.next seg

def ProdOk (s : St) (t : Nat) : PPc → Prop
  | .idle => True
  | .load seg _ => POk s t seg
  | .store seg _ _ => POk s t seg
  | .cas seg _ old => POk s t seg ∧ ∃ z, seg.getLast? = some z ∧ s.next z = old

def ConsOk (s : St) (b : List Nat) (i : Nat) : CPc → Prop
  | .none => s.pops ≤ i
  | .rev cur prev => i < s.pops ∧ s.fifo i = true ∧ ∃ l1 l2, Chain s.next cur l1 ∧ Chain s.next prev l2 ∧
      l1.reverse ++ l2 = b ∧ b.Nodup ∧ ∀ n ∈ b, s.owner n = .cons i
  | .walk cur acc => i < s.pops ∧ ∃ l, Chain s.next cur l ∧ acc ++ l = out (s.fifo i) b ∧ l.Nodup ∧
      ∀ n ∈ l, s.owner n = .cons i
  | .done acc => i < s.pops ∧ acc = out (s.fifo i) b

structure Inv (s : St) (q : List Nat) (bs : Nat → List Nat) : Prop where
  chain : Chain s.next s.head q
  nodup : q.Nodup
  own : ∀ n, n ∈ q ↔ s.owner n = .inq
  eff : s.effect = flat bs s.pops ++ q.reverse
  prods : ∀ t, ProdOk s t (s.prod t)
  conss : ∀ i, ConsOk s (bs i) i (s.cons i)

/-- Producers and consumers not concerned by a change of next pointers and ownership. -/
theorem ProdOk.frame {s s' : St} {t pc} (h : ProdOk s t pc)
    (hn : ∀ n, s.owner n = .prod t → s'.next n = s.next n ∧ s'.owner n = .prod t) : ProdOk s' t pc := by
  have key : ∀ seg, POk s t seg → POk s' t seg := fun seg ⟨h1, h2, h3, h4⟩ =>
    ⟨h1, h2, fun n hm => (hn n (h3 n hm)).2, h4.frame fun n hm => (hn n (h3 n hm)).1⟩
  cases pc with
  | idle => trivial
  | load seg o => exact key seg h
  | store seg o old => exact key seg h
  | cas seg o old =>
      obtain ⟨h1, z, h2, h3⟩ := h
      exact ⟨key seg h1, z, h2, by rw [(hn z (h1.2.2.1 z (List.mem_of_getLast? h2))).1]; exact h3⟩

theorem ConsOk.frame {s s' : St} {b i pc} (h : ConsOk s b i pc)
    (hn : ∀ n, s.owner n = .cons i → s'.next n = s.next n ∧ s'.owner n = .cons i)
    (hp : s'.pops = s.pops ∨ (i < s.pops ∧ s.pops ≤ s'.pops)) (hf : s'.fifo i = s.fifo i) :
    ConsOk s' b i pc := by
  cases pc with
  | none => simp only [ConsOk] at *; omega
  | rev cur prev =>
      obtain ⟨h0, h1, l1, l2, h2, h3, h4, h5, h6⟩ := h
      refine ⟨by omega, by rw [hf]; exact h1, l1, l2, h2.frame ?_, h3.frame ?_, h4, h5, fun n hm => (hn n (h6 n hm)).2⟩
      · intro n hm; exact (hn n (h6 n (by rw [← h4]; simp [hm]))).1
      · intro n hm; exact (hn n (h6 n (by rw [← h4]; simp [hm]))).1
  | walk cur acc =>
      obtain ⟨h0, l, h1, h2, h3, h4⟩ := h
      exact ⟨by omega, l, h1.frame fun n hm => (hn n (h4 n hm)).1, by rw [hf]; exact h2, h3,
        fun n hm => (hn n (h4 n hm)).2⟩
  | done acc => exact ⟨by have := h.1; omega, by rw [hf]; exact h.2⟩

theorem inv_init : Inv init [] (fun _ => []) :=
  ⟨rfl, List.nodup_nil, by simp [init], rfl, fun _ => trivial, fun i => Nat.zero_le i⟩

theorem give_in {o : Nat → Own} {l n w} (h : n ∈ l) : give o l w n = w := by simp [give, h]
theorem give_out {o : Nat → Own} {l n w} (h : n ∉ l) : give o l w n = o n := by simp [give, h]

theorem inv_step {s s' : St} {a : Act} {q bs} (h : Inv s q bs) (hs : step s a = some s') :
    ∃ q' bs', Inv s' q' bs' := by
  have chq : ∀ (next' : Nat → Option Nat), (∀ n, s.owner n = .inq → next' n = s.next n) →
      Chain next' s.head q := fun next' hf => h.chain.frame fun n hm => hf n ((h.own n).1 hm)
  cases a with
  | call t seg once =>
      simp only [step] at hs
      split at hs
      · rename_i hg; cases hs
        obtain ⟨h1, h2, h3, h4⟩ := hg
        have hne : ∀ {n o}, o ≠ .free → s.owner n = o → n ∉ seg := fun ho e hm => ho (e ▸ h4 _ hm)
        refine ⟨q, bs, ⟨chq _ fun n hn => link_other (hne (by simp) hn), h.nodup, ?_, h.eff, ?_, ?_⟩⟩
        · intro n; rw [h.own n]
          by_cases hm : n ∈ seg
          · simp [give_in hm, h4 n hm]
          · simp [give_out hm]
        · intro t'
          by_cases ht : t' = t
          · subst ht
            simp only [upd_same]
            exact ⟨h2, h3, fun n hm => give_in hm, link_links h3⟩
          · simp only [upd_other _ _ ht]
            refine (h.prods t').frame fun n hn => ?_
            have := hne (by simp) hn
            exact ⟨link_other this, by simp [give_out this, hn]⟩
        · intro i
          refine (h.conss i).frame (fun n hn => ?_) (.inl rfl) rfl
          have := hne (by simp) hn
          exact ⟨link_other this, by simp [give_out this, hn]⟩
      · cases hs
  | load t =>
      simp only [step] at hs
      split at hs
      · rename_i seg once hp; cases hs
        have := h.prods t; rw [hp] at this
        refine ⟨q, bs, ⟨h.chain, h.nodup, h.own, h.eff, fun t' => ?_, h.conss⟩⟩
        by_cases ht : t' = t
        · subst ht; simp only [upd_same]; exact this
        · simp only [upd_other _ _ ht]; exact h.prods t'
      · cases hs
  | store t =>
      simp only [step] at hs
      split at hs
      · rename_i seg once old hp
        have hpo := h.prods t; rw [hp] at hpo
        obtain ⟨h1, h2, h3, h4⟩ := hpo
        cases hz : seg.getLast? with
        | none => simp at hz; exact absurd hz h1
        | some z =>
          rw [hz] at hs; cases hs
          have hzo : s.owner z = .prod t := h3 z (List.mem_of_getLast? hz)
          have hne : ∀ {n o}, o ≠ .prod t → s.owner n = o → n ≠ z := fun ho e hm => ho (by rw [← e, hm, hzo])
          refine ⟨q, bs, ⟨chq _ fun n hn => upd_other _ _ (hne (by simp) hn), h.nodup, h.own, h.eff, fun t' => ?_, fun i => ?_⟩⟩
          · by_cases ht : t' = t
            · subst ht; simp only [upd_same]
              exact ⟨⟨h1, h2, h3, h4.upd_last h2 hz⟩, z, hz, by simp⟩
            · simp only [upd_other _ _ ht]
              refine (h.prods t').frame fun n hn => ⟨upd_other _ _ (hne (by simpa using ht) hn), hn⟩
          · refine (h.conss i).frame (fun n hn => ⟨upd_other _ _ (hne (by simp) hn), hn⟩) (.inl rfl) rfl
      · cases hs
  | cas t ok =>
      simp only [step] at hs
      split at hs
      · rename_i seg once old hp
        have hpo := h.prods t; rw [hp] at hpo
        obtain ⟨⟨h1, h2, h3, h4⟩, z, hz, hzn⟩ := hpo
        have hne : ∀ {n o}, o ≠ .prod t → s.owner n = o → n ∉ seg := fun ho e hm => ho (e ▸ h3 _ hm)
        split at hs
        · split at hs
          · rename_i hh; cases hs
            refine ⟨seg ++ q, bs, ⟨Links.chain hz hzn (hh ▸ h.chain) h4, ?_, ?_, ?_, fun t' => ?_, fun i => ?_⟩⟩
            · refine List.nodup_append.2 ⟨h2, h.nodup, ?_⟩
              rintro a ha b hb rfl
              exact hne (by simp) ((h.own a).1 hb) ha
            · intro n
              by_cases hm : n ∈ seg
              · simp [hm, give_in hm]
              · simp [hm, give_out hm, h.own n]
            · simp only [h.eff, List.reverse_append, List.append_assoc]
            · by_cases ht : t' = t
              · subst ht; simp only [upd_same]; trivial
              · simp only [upd_other _ _ ht]
                refine (h.prods t').frame fun n hn => ⟨rfl, ?_⟩
                simp [give_out (hne (by simpa using ht) hn), hn]
            · refine (h.conss i).frame (fun n hn => ⟨rfl, ?_⟩) (.inl rfl) rfl
              simp [give_out (hne (by simp) hn), hn]
          · cases hs
        · split at hs
          · split at hs
            · cases hs
            · cases hs
              refine ⟨q, bs, ⟨h.chain, h.nodup, ?_, h.eff, fun t' => ?_, fun i => ?_⟩⟩
              · intro n
                by_cases hm : n ∈ seg
                · simp [give_in hm, h.own n, h3 n hm]
                · simp [give_out hm, h.own n]
              · by_cases ht : t' = t
                · subst ht; simp only [upd_same]; trivial
                · simp only [upd_other _ _ ht]
                  refine (h.prods t').frame fun n hn => ⟨rfl, ?_⟩
                  simp [give_out (hne (by simpa using ht) hn), hn]
              · refine (h.conss i).frame (fun n hn => ⟨rfl, ?_⟩) (.inl rfl) rfl
                simp [give_out (hne (by simp) hn), hn]
          · cases hs
            refine ⟨q, bs, ⟨h.chain, h.nodup, h.own, h.eff, fun t' => ?_, h.conss⟩⟩
            by_cases ht : t' = t
            · subst ht; simp only [upd_same]; exact ⟨h1, h2, h3, h4⟩
            · simp only [upd_other _ _ ht]; exact h.prods t'
      · cases hs
  | pop fifo =>
      simp only [step, Option.some.injEq] at hs
      subst hs
      have hold : ∀ i, i ≠ s.pops → ConsOk s (bs i) i (s.cons i) := fun i _ => h.conss i
      refine ⟨[], upd bs s.pops q.reverse, ⟨rfl, List.nodup_nil, ?_, ?_, fun t' => ?_, fun i => ?_⟩⟩
      · intro n; simp; split <;> simp_all
      · simp [flat, flat_upd (Nat.le_refl _), h.eff]
      · refine (h.prods t').frame fun n hn => ⟨rfl, ?_⟩
        simp [hn]
      · by_cases hi : i = s.pops
        · subst hi
          simp only [upd_same]
          cases fifo
          · refine ⟨Nat.lt_succ_self _, q, h.chain, ?_, h.nodup, ?_⟩
            · simp [out, List.reverse_reverse]
            · intro n hn; simp [(h.own n).1 hn]
          · refine ⟨Nat.lt_succ_self _, by simp, q, [], h.chain, rfl, by simp, List.nodup_reverse.2 h.nodup, ?_⟩
            intro n hn; simp [(h.own n).1 (by simpa using hn)]
        · simp only [upd_other _ _ hi]
          have hc := h.conss i
          have hlt : s.cons i ≠ .none → i < s.pops := by
            intro hne; cases hcc : s.cons i <;> rw [hcc] at hc
            · exact absurd hcc hne
            · exact hc.1
            · exact hc.1
            · exact hc.1
          by_cases hno : s.cons i = .none
          · rw [hno] at hc ⊢; simp only [ConsOk] at hc ⊢; omega
          · refine hc.frame (fun n hn => ⟨rfl, by simp [hn]⟩) (.inr ⟨hlt hno, Nat.le_succ _⟩) (by simp [upd_other _ _ hi])
  | cons i =>
      simp only [step] at hs
      have hc := h.conss i
      split at hs
      · rename_i n prev hci; cases hs
        rw [hci] at hc
        obtain ⟨h0, h1, l1, l2, h2, h3, h4, h5, h6⟩ := hc
        cases l1 with
        | nil => cases h2
        | cons a l1 =>
          obtain ⟨ha, h2⟩ := h2; injection ha with ha; subst ha
          have hno : s.owner n = .cons i := h6 n (by rw [← h4]; simp)
          have hne : ∀ {m o}, o ≠ .cons i → s.owner m = o → m ≠ n := fun ho e hm => ho (by rw [← e, hm, hno])
          have h5' : n ∉ l1 ∧ n ∉ l2 := by
            rw [← h4, List.nodup_append] at h5
            have := List.nodup_reverse.1 h5.1
            exact ⟨(List.nodup_cons.1 this).1, fun hm => h5.2.2 n (by simp) n hm rfl⟩
          refine ⟨q, bs, ⟨chq _ fun m hm => upd_other _ _ (hne (by simp) hm), h.nodup, h.own, h.eff, fun t' => ?_, fun j => ?_⟩⟩
          · exact (h.prods t').frame fun m hm => ⟨upd_other _ _ (hne (by simp) hm), hm⟩
          · by_cases hj : j = i
            · subst hj
              simp only [upd_same]
              refine ⟨h0, h1, l1, n :: l2, h2.frame ?_, ⟨rfl, ?_⟩, by rw [← h4]; simp, h5, h6⟩
              · intro m hm; exact upd_other _ _ (fun e => h5'.1 (e ▸ hm))
              · simp only [upd_same]
                exact h3.frame fun m hm => upd_other _ _ (fun e => h5'.2 (e ▸ hm))
            · simp only [upd_other _ _ hj]
              exact (h.conss j).frame (fun m hm => ⟨upd_other _ _ (hne (by simpa using hj) hm), hm⟩) (.inl rfl) rfl
      · rename_i prev hci; cases hs
        rw [hci] at hc
        obtain ⟨h0, h1, l1, l2, h2, h3, h4, h5, h6⟩ := hc
        refine ⟨q, bs, ⟨h.chain, h.nodup, h.own, h.eff, h.prods, fun j => ?_⟩⟩
        by_cases hj : j = i
        · subst hj
          simp only [upd_same]
          cases l1 with
          | cons a l1 => cases h2.1
          | nil =>
            simp only [List.reverse_nil, List.nil_append] at h4; subst h4
            exact ⟨h0, bs j, h3, by simp [out, h1], h5, h6⟩
        · simp only [upd_other _ _ hj]; exact h.conss j
      · rename_i n acc hci; cases hs
        rw [hci] at hc
        obtain ⟨h0, l, h1, h2, h3, h4⟩ := hc
        cases l with
        | nil => cases h1
        | cons a l =>
          obtain ⟨ha, h1⟩ := h1; injection ha with ha; subst ha
          have hno : s.owner n = .cons i := h4 n (by simp)
          have hne : ∀ {m o}, o ≠ .cons i → s.owner m = o → m ≠ n := fun ho e hm => ho (by rw [← e, hm, hno])
          refine ⟨q, bs, ⟨h.chain, h.nodup, ?_, h.eff, fun t' => ?_, fun j => ?_⟩⟩
          · intro m
            by_cases hm : m = n
            · subst hm; simp [h.own m, hno]
            · simp [upd_other _ _ hm, h.own m]
          · exact (h.prods t').frame fun m hm => ⟨rfl, by simp [upd_other _ _ (hne (by simp) hm), hm]⟩
          · by_cases hj : j = i
            · subst hj
              simp only [upd_same]
              refine ⟨h0, l, h1, by rw [← h2]; simp, (List.nodup_cons.1 h3).2, ?_⟩
              intro m hm
              have : m ≠ n := fun e => (List.nodup_cons.1 h3).1 (e ▸ hm)
              simp [upd_other _ _ this, h4 m (by simp [hm])]
            · simp only [upd_other _ _ hj]
              exact (h.conss j).frame (fun m hm => ⟨rfl, by simp [upd_other _ _ (hne (by simpa using hj) hm), hm]⟩) (.inl rfl) rfl
      · rename_i acc hci; cases hs
        rw [hci] at hc
        obtain ⟨h0, l, h1, h2, h3, h4⟩ := hc
        refine ⟨q, bs, ⟨h.chain, h.nodup, h.own, h.eff, h.prods, fun j => ?_⟩⟩
        by_cases hj : j = i
        · subst hj
          simp only [upd_same]
          cases l with
          | cons a l => cases h1.1
          | nil => exact ⟨h0, by simpa using h2⟩
        · simp only [upd_other _ _ hj]; exact h.conss j
      · cases hs

theorem inv_reach {s : St} (h : Reachable s) : ∃ q bs, Inv s q bs :=
  Reach.inv (fun s => ∃ q bs, Inv s q bs) ⟨_, _, inv_init⟩
    (fun _ _ _ ⟨_, _, h⟩ hs => inv_step h hs) s h

/-! ## C11 -/

/-- **C11**. The items in the order in which their pushes took effect are exactly: the batches taken by
the `pop_all` calls, in the order of those calls, followed by what is still in the queue (`rest`, empty
iff the head is null). A call that has returned delivered exactly its batch, in FIFO order (in LIFO
order for the non-reversing `pop_all`), whatever other pushes, pops and node reuses went on meanwhile. -/
theorem C11_batches (s : St) (h : Reachable s) : ∃ (batch : Nat → List Nat) (rest : List Nat),
    s.effect = ((List.range s.pops).map batch).flatten ++ rest ∧
    (rest = [] ↔ s.head = none) ∧
    ∀ i acc, s.cons i = .done acc →
      i < s.pops ∧ acc = if s.fifo i then batch i else (batch i).reverse := by
  obtain ⟨q, bs, h⟩ := inv_reach h
  have hflat : ∀ n, ((List.range n).map bs).flatten = flat bs n := by
    intro n
    induction n with
    | zero => rfl
    | succ n ih => simp [List.range_succ, flat, ih]
  refine ⟨bs, q.reverse, by rw [hflat]; exact h.eff, ?_, ?_⟩
  · have := h.chain
    cases q with
    | nil => simp [show s.head = none from this]
    | cons a q => simp [show s.head = some a from this.1]
  · intro i acc hd
    have := h.conss i; rw [hd] at this
    exact this

/-- A push reports "was empty" iff, at the moment it took effect, every earlier item had been taken. -/
theorem C11_was_empty (s s' : St) (t : Nat) (hs : step s (.cas t true) = some s') :
    ∃ b, s'.rets = s.rets ++ [(t, true, b)] ∧ (b = true ↔ s.head = none) := by
  simp only [step] at hs
  split at hs
  · simp only [↓reduceIte] at hs
    split at hs
    · rename_i hh; cases hs
      refine ⟨_, rfl, ?_⟩
      rw [← hh]; simp
    · cases hs
  · cases hs

/-- Every node is in at most one place: in particular no node is delivered to two live consumers. -/
theorem C11_no_share (s : St) (h : Reachable s) (i j n : Nat) (cj : Option Nat) (ai aj : List Nat)
    (hi : s.cons i = .walk (some n) ai) (hj : s.cons j = .walk cj aj) (hij : i ≠ j) : cj ≠ some n := by
  obtain ⟨q, bs, h⟩ := inv_reach h
  have h1 := h.conss i; have h2 := h.conss j
  rw [hi] at h1; rw [hj] at h2
  obtain ⟨_, l, hc, _, _, ho⟩ := h1
  obtain ⟨_, l', hc', _, _, ho'⟩ := h2
  rintro rfl
  cases l with
  | nil => cases hc
  | cons a l =>
    cases l' with
    | nil => cases hc'
    | cons b l' =>
      have e1 := hc.1; have e2 := hc'.1
      injection e1 with e1; injection e2 with e2; subst e1 e2
      have a1 := ho n (by simp); have a2 := ho' n (by simp)
      rw [a1] at a2; injection a2 with a2; exact hij a2

/-- Two producers race (one CAS fails), a consumer takes both items in FIFO order while item 7 is pushed
again. -/
example : ∃ s, Reachable s ∧ (s.cons 0 == .done [7, 8] && s.head == some 7 && s.effect == [7, 8, 7]) = true :=
  Reach.witness [.call 0 [7] false, .call 1 [8] false, .load 0, .load 1, .store 0, .store 1, .cas 0 true,
    .cas 1 false, .store 1, .cas 1 true, .pop true, .cons 0, .cons 0, .cons 0, .cons 0, .call 0 [7] false,
    .load 0, .store 0, .cas 0 true, .cons 0, .cons 0] _ (by decide)

/-- `prepend` of three nodes and a non-reversing `pop_all`. -/
example : ∃ s, Reachable s ∧ (s.cons 0 == .done [1, 2, 3, 9] && s.head == none) = true :=
  Reach.witness [.call 0 [9] true, .load 0, .store 0, .cas 0 true, .call 5 [1, 2, 3] false, .load 5, .store 5,
    .cas 5 true, .pop false, .cons 0, .cons 0, .cons 0, .cons 0, .cons 0] _ (by decide)

end Verif.AtomicQueue
