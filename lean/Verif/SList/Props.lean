import Verif.SList.Model
import Verif.IQueue.Lemmas
/-!
# `__intrusive_slist`: property C46

`Rep m h l`: following `_Next` from the head `h` visits exactly the nodes of `l`, without repetition, and ends in
null. Each operation is specified by its effect on `l`; nodes outside the list are not written.
-/
namespace Verif.SList
open Verif.IQueue (Mem Ptr Node Chain Chain.congr Chain.upd)

def Rep (m : Mem) (h : Ptr) (l : List Node) : Prop := Chain m h l ∧ l.Nodup

theorem C46_push {m : Mem} {h : Ptr} {l : List Node} {x : Node} (hr : Rep m h l) (hx : x ∉ l) :
    Rep (pushFront m h x).1 (pushFront m h x).2 (x :: l) ∧ ∀ y, y ≠ x → (pushFront m h x).1 y = m y :=
  ⟨⟨⟨rfl, by simp only [pushFront, upd_same]; exact hr.1.upd hx⟩, List.nodup_cons.2 ⟨hx, hr.2⟩⟩,
    fun _ hy => upd_other _ _ hy⟩

theorem C46_pop {m : Mem} {h : Ptr} {l : List Node} {x : Node} (hr : Rep m h (x :: l)) :
    ∃ h', popFront m h = some (h', x) ∧ Rep m h' l := by
  obtain ⟨⟨h1, h2⟩, h3⟩ := hr
  exact ⟨m x, by simp [popFront, h1], h2, (List.nodup_cons.1 h3).2⟩

theorem removeLoop_spec {fuel : Nat} {m : Mem} {c x : Node} {l : List Node} (h : Chain m (some c) (c :: l))
    (hn : (c :: l).Nodup) (hc : c ≠ x) (hf : l.length < fuel) :
    ∃ m', removeLoop fuel m (some c) x = some (m', decide (x ∈ l)) ∧ Chain m' (some c) (c :: l.erase x) ∧
      ∀ y, y ∉ c :: l → m' y = m y := by
  induction l generalizing fuel c with
  | nil =>
    cases fuel with
    | zero => simp at hf
    | succ n =>
      have h2 : m c = none := h.2
      refine ⟨m, ?_, h, fun _ _ => rfl⟩
      simp only [removeLoop, h2]
      cases n <;> simp [removeLoop]
  | cons d l ih =>
    cases fuel with
    | zero => simp at hf
    | succ n =>
      have h2 : m c = some d := h.2.1
      have h3 : Chain m (m d) l := h.2.2
      rw [List.nodup_cons] at hn
      by_cases hd : d = x
      · subst hd
        refine ⟨upd m c (m d), by simp [removeLoop, h2], ⟨rfl, ?_⟩, ?_⟩
        · simp only [upd_same, List.erase_cons_head]
          exact h3.upd (fun hm => hn.1 (List.mem_cons_of_mem _ hm))
        · intro y hy; exact upd_other _ _ (by rintro rfl; simp at hy)
      · obtain ⟨m', e1, e2, e3⟩ := ih (fuel := n) (c := d) ⟨rfl, h3⟩ hn.2 hd (by simpa using hf)
        have hne : ¬ (some d = some x) := by simp [hd]
        refine ⟨m', ?_, ?_, ?_⟩
        · simp only [removeLoop, h2, if_neg hne, e1]
          have : (x ∈ d :: l) = (x ∈ l) := by simp [Ne.symm hd]
          simp only [this]
        · have hb : (d == x) = false := by simp [hd]
          rw [List.erase_cons_tail (by simp [hd])]
          refine ⟨rfl, ?_⟩
          rw [e3 c hn.1, h2]
          exact e2
        · intro y hy
          exact e3 y (fun hm => hy (List.mem_cons_of_mem _ hm))

/-- Removing a node unlinks it if it is in the list and reports whether it was; everything else stays, in order. -/
theorem C46_remove {fuel : Nat} {m : Mem} {h : Ptr} {l : List Node} (x : Node) (hr : Rep m h l) (hf : l.length ≤ fuel) :
    ∃ m' h', remove fuel m h x = some (m', h', decide (x ∈ l)) ∧ Rep m' h' (l.erase x) ∧ ∀ y, y ∉ l → m' y = m y := by
  obtain ⟨h1, h2⟩ := hr
  cases l with
  | nil =>
    have h1 : h = none := h1
    subst h1
    refine ⟨m, none, ?_, ⟨rfl, by simp⟩, fun _ _ => rfl⟩
    cases fuel <;> simp [remove, removeLoop]
  | cons c l =>
    have hc := h1.1
    subst hc
    by_cases hcx : c = x
    · subst hcx
      refine ⟨m, m c, by simp [remove], ?_, fun _ _ => rfl⟩
      rw [List.erase_cons_head]
      exact ⟨h1.2, (List.nodup_cons.1 h2).2⟩
    · obtain ⟨m', e1, e2, e3⟩ := removeLoop_spec (fuel := fuel) (x := x) h1 h2 hcx (by simp at hf; omega)
      refine ⟨m', some c, ?_, ⟨?_, ?_⟩, e3⟩
      · have hne : ¬ (some c = some x) := by simp [hcx]
        have : (x ∈ c :: l) = (x ∈ l) := by simp [Ne.symm hcx]
        simp only [remove, if_neg hne, e1, Option.map_some, this]
      · rw [List.erase_cons_tail (by simp [hcx])]; exact e2
      · exact h2.erase x

/-- An operation of a user of the list. -/
inductive Op
  | push (x : Node)
  | pop
  | remove (x : Node)
  deriving DecidableEq, Repr

/-- The list after an operation, run on memory and head; `none`: undefined behaviour. -/
def run (fuel : Nat) (s : Mem × Ptr) : Op → Option (Mem × Ptr)
  | .push x => some (pushFront s.1 s.2 x)
  | .pop => (popFront s.1 s.2).map fun r => (s.1, r.1)
  | .remove x => (remove fuel s.1 s.2 x).map fun r => (r.1, r.2.1)

/-- The abstract list after the same operation; `none`: a precondition is violated (pushing a linked node, popping
an empty list). -/
def spec (l : List Node) : Op → Option (List Node)
  | .push x => if x ∈ l then none else some (x :: l)
  | .pop => match l with
    | [] => none
    | _ :: l => some l
  | .remove x => some (l.erase x)

/-- Every history of operations that respects the preconditions leaves the list the abstract history yields. -/
theorem C46_refines {ops : List Op} {m : Mem} {h : Ptr} {l l' : List Node} (hr : Rep m h l)
    (hs : ops.foldlM spec l = some l') {fuel : Nat} (hf : l.length + ops.length ≤ fuel) :
    ∃ m' h', ops.foldlM (run fuel) (m, h) = some (m', h') ∧ Rep m' h' l' := by
  induction ops generalizing m h l with
  | nil => simp at hs; exact ⟨m, h, rfl, hs ▸ hr⟩
  | cons o ops ih =>
    simp only [List.foldlM_cons, Option.bind_eq_bind] at hs ⊢
    simp only [List.length_cons] at hf
    cases o with
    | push x =>
      by_cases hx : x ∈ l
      · simp [spec, hx] at hs
      · simp only [spec, hx, if_false, Option.bind_some] at hs
        exact ih (C46_push hr hx).1 hs (by simp only [List.length_cons]; omega)
    | pop =>
      cases l with
      | nil => simp [spec] at hs
      | cons x l =>
        obtain ⟨h', e1, e2⟩ := C46_pop hr
        simp only [spec, Option.bind_some] at hs
        simp only [run, e1, Option.map_some, Option.bind_some]
        exact ih e2 hs (by simp only [List.length_cons] at hf; omega)
    | remove x =>
      obtain ⟨m', h', e1, e2, _⟩ := C46_remove (fuel := fuel) x hr (by omega)
      simp only [spec, Option.bind_some] at hs
      simp only [run, e1, Option.map_some, Option.bind_some]
      refine ih e2 hs ?_
      have := List.length_erase_le (a := x) (l := l)
      omega

/-- Not vacuous: three pushes, removal of the middle node, of the head, and of an absent node. -/
example : [Op.push 1, .push 2, .push 3, .remove 2, .remove 9, .remove 3].foldlM spec [] = some [1] := by decide

end Verif.SList
