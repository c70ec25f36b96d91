import Mathlib.Order.Defs.LinearOrder
import Mathlib.Order.Basic
import Mathlib.Data.List.Sort
/-!
# Canonical type lists of `exec::function` — model and C71

Models `/repo/include/exec/function.hpp` lines 446-475 (`__canonicalize_splice`, `__canonicalize_impl`,
`__canonicalize`): the completion signatures, queries and attributes in the arguments of
`exec::function<...>` are sorted and made unique, so that two declarations that list the same ones are
the same type. Types are compared through `__type_index` (`/repo/include/stdexec/__detail/__typeinfo.hpp`
lines 142-152, 205-215), that is by their printed name: `operator==` and `operator<=>` compare names.
`T` is the set of C++ types, `name` the printed name; `std::ranges::sort` is unspecified about the order
of equivalent elements, so any sorted permutation is allowed.
-/
namespace Verif.Canon

variable {T K : Type} [LinearOrder K]

/-- `std::ranges::unique` after its first element: drop every element equivalent to the last one
    kept (function.hpp line 456, and `__static_vector::erase` of the rest, line 457). -/
def uniqFrom (name : T → K) : T → List T → List T
  | _, [] => []
  | a, b :: l => if name a = name b then uniqFrom name a l else b :: uniqFrom name b l

/-- Lines 456-457. -/
def uniq (name : T → K) : List T → List T
  | [] => []
  | a :: l => a :: uniqFrom name a l

/-- Line 455, `std::ranges::sort`: `s` is a permutation of `l` in non-decreasing order of names. -/
def IsSort (name : T → K) (l s : List T) : Prop :=
  s.Perm l ∧ s.Pairwise (fun a b => name a ≤ name b)

/-- Lines 452-475: `c` is a possible result of canonicalising the type list `l`. -/
def IsCanonical (name : T → K) (l c : List T) : Prop := ∃ s, IsSort name l s ∧ c = uniq name s

variable {name : T → K} {l l' c c' : List T}

theorem uniqFrom_mem {a x : T} : ∀ {s : List T}, x ∈ uniqFrom name a s → x ∈ s := by
  intro s
  induction s generalizing a with
  | nil => simp [uniqFrom]
  | cons b s ih =>
    simp only [uniqFrom]
    split
    · intro h; exact List.mem_cons_of_mem _ (ih h)
    · intro h
      rcases List.mem_cons.1 h with h | h
      · simp [h]
      · exact List.mem_cons_of_mem _ (ih h)

theorem uniqFrom_cover {a x : T} : ∀ {s : List T}, x ∈ s →
    name x = name a ∨ ∃ y ∈ uniqFrom name a s, name y = name x := by
  intro s
  induction s generalizing a with
  | nil => simp
  | cons b s ih =>
    intro hx
    simp only [uniqFrom]
    rcases List.mem_cons.1 hx with rfl | hx
    · split
      · rename_i h; exact Or.inl h.symm
      · exact Or.inr ⟨x, by simp, rfl⟩
    · split
      · exact ih hx
      · rcases ih (a := b) hx with h | ⟨y, hy, h⟩
        · exact Or.inr ⟨b, by simp, h.symm⟩
        · exact Or.inr ⟨y, by simp [hy], h⟩

theorem uniqFrom_sorted {a : T} : ∀ {s : List T}, (∀ x ∈ s, name a ≤ name x) →
    s.Pairwise (fun a b => name a ≤ name b) →
    (∀ x ∈ uniqFrom name a s, name a < name x) ∧
    (uniqFrom name a s).Pairwise (fun a b => name a < name b) := by
  intro s
  induction s generalizing a with
  | nil => simp [uniqFrom]
  | cons b s ih =>
    intro h1 h2
    rw [List.pairwise_cons] at h2
    simp only [uniqFrom]
    split
    · exact ih (fun x hx => h1 x (by simp [hx])) h2.2
    · rename_i hne
      obtain ⟨h3, h4⟩ := ih h2.1 h2.2
      have hab : name a < name b := lt_of_le_of_ne (h1 b (by simp)) hne
      refine ⟨?_, List.pairwise_cons.2 ⟨h3, h4⟩⟩
      intro x hx
      rcases List.mem_cons.1 hx with rfl | hx
      · exact hab
      · exact lt_trans hab (h3 x hx)

theorem uniq_sorted {s : List T} (h : s.Pairwise (fun a b => name a ≤ name b)) :
    (uniq name s).Pairwise (fun a b => name a < name b) := by
  cases s with
  | nil => simp [uniq]
  | cons a s =>
    rw [List.pairwise_cons] at h
    have := uniqFrom_sorted h.1 h.2
    exact List.pairwise_cons.2 this

theorem uniq_mem {s : List T} {x : T} (h : x ∈ uniq name s) : x ∈ s := by
  cases s with
  | nil => simp [uniq] at h
  | cons a s =>
    rcases List.mem_cons.1 h with rfl | h
    · simp
    · exact List.mem_cons_of_mem _ (uniqFrom_mem h)

theorem uniq_cover {s : List T} {x : T} (h : x ∈ s) : ∃ y ∈ uniq name s, name y = name x := by
  cases s with
  | nil => simp at h
  | cons a s =>
    rcases List.mem_cons.1 h with rfl | h
    · exact ⟨x, by simp [uniq], rfl⟩
    · rcases uniqFrom_cover (name := name) (a := a) h with h | ⟨y, hy, h⟩
      · exact ⟨a, by simp [uniq], h.symm⟩
      · exact ⟨y, by simp [uniq, hy], h⟩

/-- Two lists in strictly increasing order of names with the same elements are equal. -/
theorem ext_sorted : ∀ {a b : List T}, a.Pairwise (fun x y => name x < name y) →
    b.Pairwise (fun x y => name x < name y) → (∀ x, x ∈ a ↔ x ∈ b) → a = b := by
  intro a
  induction a with
  | nil =>
    intro b _ _ h
    cases b with
    | nil => rfl
    | cons y b => exact absurd ((h y).2 (by simp)) (by simp)
  | cons x a ih =>
    intro b ha hb h
    rw [List.pairwise_cons] at ha
    cases b with
    | nil => exact absurd ((h x).1 (by simp)) (by simp)
    | cons y b =>
      rw [List.pairwise_cons] at hb
      have hxy : x = y := by
        rcases List.mem_cons.1 ((h x).1 (by simp)) with h1 | h1
        · exact h1
        · rcases List.mem_cons.1 ((h y).2 (by simp)) with h2 | h2
          · exact h2.symm
          · exact absurd (lt_trans (hb.1 x h1) (ha.1 y h2)) (lt_irrefl _)
      subst hxy
      congr 1
      apply ih ha.2 hb.2
      intro z
      constructor
      · intro hz
        rcases List.mem_cons.1 ((h z).1 (by simp [hz])) with h1 | h1
        · subst h1; exact absurd (ha.1 z hz) (lt_irrefl _)
        · exact h1
      · intro hz
        rcases List.mem_cons.1 ((h z).2 (by simp [hz])) with h1 | h1
        · subst h1; exact absurd (hb.1 z hz) (lt_irrefl _)
        · exact h1

/-- The canonical list contains only types of the list, no two with the same name (so no type twice),
    in increasing order of names; and every name in the list occurs in it. -/
theorem C71_contents (h : IsCanonical name l c) :
    (∀ x ∈ c, x ∈ l) ∧ (∀ x ∈ l, ∃ y ∈ c, name y = name x) ∧
    c.Pairwise (fun a b => name a < name b) := by
  obtain ⟨s, ⟨hp, hs⟩, rfl⟩ := h
  refine ⟨fun x hx => hp.mem_iff.1 (uniq_mem hx), fun x hx => uniq_cover (hp.mem_iff.2 hx),
    uniq_sorted hs⟩

/-- If different types have different names: canonicalising loses and invents no type, and two lists
    give the same canonical list — hence the same `exec::function` type — exactly when they contain the
    same types, in any order and with any repetitions. -/
theorem C71_order_irrelevant_partial
    (hn : ∀ x ∈ l ++ l', ∀ y ∈ l ++ l', name x = name y → x = y)
    (h : IsCanonical name l c) (h' : IsCanonical name l' c') :
    (∀ x, x ∈ c ↔ x ∈ l) ∧ (c = c' ↔ ∀ x, x ∈ l ↔ x ∈ l') := by
  have key : ∀ {l c}, IsCanonical name l c →
      (∀ x ∈ l, ∀ y ∈ l, name x = name y → x = y) → ∀ x, x ∈ c ↔ x ∈ l := by
    intro l c h hn x
    obtain ⟨h1, h2, _⟩ := C71_contents h
    refine ⟨h1 x, fun hx => ?_⟩
    obtain ⟨y, hy, he⟩ := h2 x hx
    rwa [hn y (h1 y hy) x hx he] at hy
  have k1 := key h (fun x hx y hy => hn x (by simp [hx]) y (by simp [hy]))
  have k2 := key h' (fun x hx y hy => hn x (by simp [hx]) y (by simp [hy]))
  refine ⟨k1, ?_, ?_⟩
  · rintro rfl x
    rw [← k1 x, k2 x]
  · intro he
    apply ext_sorted (C71_contents h).2.2 (C71_contents h').2.2
    intro x
    rw [k1 x, k2 x, he x]

/-- Different types with the same printed name: canonicalising drops one of them. -/
theorem C71_lossy {x y : T} (hne : x ≠ y) (hn : name x = name y) (h : IsCanonical name l c) :
    ¬ (x ∈ c ∧ y ∈ c) := by
  rintro ⟨hx, hy⟩
  have hp := (C71_contents h).2.2
  have : ∀ {c : List T}, c.Pairwise (fun a b => name a < name b) → x ∈ c → y ∈ c → False := by
    intro c
    induction c with
    | nil => simp
    | cons z c ih =>
      intro hp hx hy
      rw [List.pairwise_cons] at hp
      rcases List.mem_cons.1 hx with h1 | h1 <;> rcases List.mem_cons.1 hy with h2 | h2
      · exact hne (h1.trans h2.symm)
      · subst h1; exact absurd hn (ne_of_lt (hp.1 y h2))
      · subst h2; exact absurd hn.symm (ne_of_lt (hp.1 x h1))
      · exact ih hp.2 h1 h2
  exact this hp hx hy

/-- The full property is false: two lists of the same types, in different order, whose canonical lists
    differ, because two different types print alike. (The printed names of types may coincide, e.g. of
    local types and lambdas.) -/
theorem C71_violation : ∃ (name : Bool → Nat) (l l' c c' : List Bool),
    (∀ x, x ∈ l ↔ x ∈ l') ∧ IsCanonical name l c ∧ IsCanonical name l' c' ∧ c ≠ c' ∧
    (∃ x ∈ l, x ∉ c) := by
  refine ⟨fun _ => 0, [true, false], [false, true], [true], [false], by simp,
    ⟨[true, false], ⟨.refl _, by simp⟩, rfl⟩, ⟨[false, true], ⟨.refl _, by simp⟩, rfl⟩, by simp,
    ⟨false, by simp, by simp⟩⟩

/-- A canonical list always exists (the sort terminates with one). -/
theorem C71_exists (name : T → K) (l : List T) : ∃ c, IsCanonical name l c := by
  refine ⟨_, l.mergeSort (fun a b => decide (name a ≤ name b)), ⟨List.mergeSort_perm _ _, ?_⟩, rfl⟩
  have := List.pairwise_mergeSort (le := fun a b : T => decide (name a ≤ name b))
    (by intro a b c h1 h2; simp only [decide_eq_true_eq] at *; exact le_trans h1 h2)
    (by intro a b; simp only [Bool.or_eq_true, decide_eq_true_eq]; exact le_total _ _) l
  simpa using this

/-! ## Concrete case: names are the types themselves. -/
example : IsCanonical (id : Nat → Nat) [3, 1, 3, 2] [1, 2, 3] :=
  ⟨[1, 2, 3, 3], ⟨by decide, by simp⟩, rfl⟩
example : IsCanonical (id : Nat → Nat) [2, 3, 2, 1, 1] [1, 2, 3] :=
  ⟨[1, 1, 2, 2, 3], ⟨by decide, by simp⟩, rfl⟩

end Verif.Canon
