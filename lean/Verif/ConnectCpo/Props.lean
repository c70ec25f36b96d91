import Verif.ConnectCpo.Model
/-!
# C112: what a user of `connect` relies on

The specification is the documentation's list (`__connect.hpp:264-274`): the ways are tried in the order of `documented`.
-/
namespace Verif.ConnectCpo

/-- The order of the documentation. -/
def documented : List Way := [.staticMember, .member, .coAwait, .tagInvoke]

/-- The way that is to be used: the first in the documentation that the sender offers. -/
def Wanted (p : Pair) : Option Way := documented.find? p.offers

/-- What a call may throw: nothing that is declared `noexcept` throws. -/
def Honest (p : Pair) (nt tt ct : Bool) : Prop :=
  (nt = true → tt = false) ∧ (∀ w, Wanted p = some w → p.nothrow w = true → ct = false)

/-- The answers of a sender, one by one. -/
def answers (a b c d : Bool) : Way → Bool
  | .staticMember => a | .member => b | .coAwait => c | .tagInvoke => d

/-- A pair by its four answers. -/
theorem pair_cases (p : Pair) : ∃ a b c d, p.offers = answers a b c d :=
  ⟨p.offers .staticMember, p.offers .member, p.offers .coAwait, p.offers .tagInvoke, by funext w; cases w <;> rfl⟩

/-- What is to be shown of a choice. -/
def right (o : Way → Bool) (nt : Bool) : Choice → Bool
  | .ambiguous => false
  | .primary   => decide (documented.find? o = none)
  | .one s     => decide (documented.find? o = some s.way) && s.nothrowTransform == nt && (!s.exact || nt) &&
      (!nt || s.exact || decide (s.way = .coAwait)) && (!s.exact || decide (s.way ≠ .coAwait))

theorem choose_right : ∀ a b c d nt : Bool,
    right (answers a b c d) nt (choose ⟨answers a b c d, fun _ => false, fun _ => 0⟩ nt) = true := by
  decide

theorem choose_right' (p : Pair) (nt : Bool) : right p.offers nt (choose p nt) = true := by
  obtain ⟨o, n, r⟩ := p
  obtain ⟨a, b, c, d, h⟩ := pair_cases ⟨o, n, r⟩
  simp only at h
  subst h
  exact choose_right a b c d nt

theorem connectable_iff (p : Pair) : connectable p = false ↔ Wanted p = none := by
  obtain ⟨o, n, r⟩ := p
  obtain ⟨a, b, c, d, h⟩ := pair_cases ⟨o, n, r⟩
  simp only at h
  subst h
  cases a <;> cases b <;> cases c <;> cases d <;> simp [connectable, Wanted, documented, answers]

/-- **C112.** The compiler's choice is never ambiguous, and it is the specialization for the first way in the documentation that the sender
    offers; the primary template is chosen only for what cannot be connected. -/
theorem C112_choice (p : Pair) (nt : Bool) :
    choose p nt ≠ .ambiguous ∧ (choose p nt = .primary ↔ connectable p = false) ∧
    ∀ s, choose p nt = .one s → Wanted p = some s.way ∧ s.nothrowTransform = nt := by
  have h := choose_right' p nt
  rw [connectable_iff, Wanted]
  cases hc : choose p nt with
  | ambiguous => rw [hc] at h; cases h
  | primary =>
    rw [hc] at h
    refine ⟨by simp, ⟨fun _ => by simpa [right] using h, fun _ => rfl⟩, by simp⟩
  | one s =>
    rw [hc] at h
    simp only [right, Bool.and_eq_true, decide_eq_true_eq, beq_iff_eq] at h
    refine ⟨by simp, ⟨by simp, fun hn => ?_⟩, fun t ht => ?_⟩
    · rw [hn] at h; cases h.1.1.1.1
    · cases ht; exact ⟨h.1.1.1.1, h.1.1.1.2⟩

/-- **C112.** What `connect` does is what is documented: the sender is transformed once, first, and connected once, in the first way it
    offers. -/
theorem C112_documented_order (p : Pair) (h : connectable p = true) (ct : Bool) :
    ∃ w, Wanted p = some w ∧ (call p false ct).1 = [.transform, .connect w] := by
  obtain ⟨o, n, r⟩ := p
  obtain ⟨a, b, c, d, h'⟩ := pair_cases ⟨o, n, r⟩
  simp only at h'
  subst h'
  revert h
  cases a <;> cases b <;> cases c <;> cases d <;> simp [connectable, Wanted, documented, call, dispatch, answers]

/-- **C112.** The type declared is the type returned. -/
theorem C112_return_type (p : Pair) (nt : Bool) (h : connectable p = true) :
    (declared p nt).map Prod.fst = (call p false false).2 := by
  obtain ⟨h1, h2, h3⟩ := C112_choice p nt
  cases hc : choose p nt with
  | ambiguous => exact absurd hc h1
  | primary => rw [h2.mp hc] at h; cases h
  | one s =>
    obtain ⟨hw, -⟩ := h3 s hc
    obtain ⟨w, hw', hd⟩ := C112_documented_order p h false
    rw [hw] at hw'
    simp [call] at hd
    cases hw'
    simp [declared, hc, call, hd]

/-- **C112.** The exception specification is sound: if `connect` is declared `noexcept`, neither the transformation nor the connecting throws. -/
theorem C112_noexcept_sound (p : Pair) (nt tt ct : Bool) (t : Nat) (hh : Honest p nt tt ct) (hd : declared p nt = some (t, true)) :
    (call p tt ct).2 = some t := by
  obtain ⟨h1, h2, h3⟩ := C112_choice p nt
  have hconn : connectable p = true := by
    cases hc : connectable p with
    | true => rfl
    | false => rw [declared, h2.mpr hc] at hd; cases hd
  have hr := C112_return_type p nt hconn
  rw [hd] at hr
  cases hc : choose p nt with
  | ambiguous => exact absurd hc h1
  | primary => rw [declared, hc] at hd; cases hd
  | one s =>
    obtain ⟨hw, hnt⟩ := h3 s hc
    rw [declared, hc] at hd
    simp only [Option.some.injEq, Prod.mk.injEq, Bool.and_eq_true] at hd
    have hct : ct = false := hh.2 _ hw hd.2.2
    have hx := choose_right' p nt
    rw [hc] at hx
    simp only [right, Bool.and_eq_true, Bool.or_eq_true, Bool.not_eq_true'] at hx
    have hnt' : nt = true := by
      rcases hx.1.1.2 with h | h
      · rw [hd.2.1] at h; cases h
      · exact h
    have htt : tt = false := hh.1 hnt'
    subst hct htt
    simpa using hr.symm

/-- **C112.** And it is no weaker than it need be: `connect` is declared `noexcept` if the transformation is and the way used is, unless the
    sender is connected as an awaitable, which allocates a coroutine. -/
theorem C112_noexcept_complete (p : Pair) (w : Way) (hw : Wanted p = some w) (hn : p.nothrow w = true) (hc : w ≠ .coAwait) :
    (declared p true).map Prod.snd = some true := by
  obtain ⟨h1, h2, h3⟩ := C112_choice p true
  have hx := choose_right' p true
  cases hcs : choose p true with
  | ambiguous => exact absurd hcs h1
  | primary => rw [connectable_iff, hw] at h2; cases h2.mp hcs
  | one s =>
    obtain ⟨hs, -⟩ := h3 s hcs
    rw [hw] at hs
    rw [hcs] at hx
    have hs' : s.way = w := by simpa using hs.symm
    simp only [right, Bool.and_eq_true, Bool.or_eq_true, Bool.not_eq_true', decide_eq_true_eq] at hx
    have he : s.exact = true := by
      rcases hx.1.2 with (h | h) | h
      · cases h
      · exact h
      · exact absurd (hs'.symm.trans h) hc
    simp [declared, hcs, he, hs', hn]

/-- **C112.** A sender that is connected as an awaitable is never declared `noexcept`, for the frame of the coroutine has to be allocated. -/
theorem C112_awaitable_may_throw (p : Pair) (nt : Bool) (hw : Wanted p = some .coAwait) :
    (declared p nt).map Prod.snd = some false := by
  obtain ⟨h1, h2, h3⟩ := C112_choice p nt
  have hx := choose_right' p nt
  cases hcs : choose p nt with
  | ambiguous => exact absurd hcs h1
  | primary => rw [connectable_iff, hw] at h2; cases h2.mp hcs
  | one s =>
    obtain ⟨hs, -⟩ := h3 s hcs
    rw [hw] at hs
    rw [hcs] at hx
    have hs' : s.way = .coAwait := by simpa using hs.symm
    simp [right, hs'] at hx
    simp [declared, hcs, hs', hx]

/-- **C112.** A transformation that throws leaves nothing connected. -/
theorem C112_transform_throws (p : Pair) (ct : Bool) : call p true ct = ([.transform], none) := rfl

/-! ### Concrete cases -/

example : Wanted ⟨fun w => w == .coAwait, fun _ => true, fun _ => 0⟩ = some .coAwait := rfl

/-- A sender with a member function `connect` that is `noexcept`, and which can be awaited as well. -/
def both : Pair := ⟨fun w => w == .member || w == .coAwait, fun w => w == .member, fun w => if w = .member then 7 else 8⟩

example : connectable both = true := rfl
example : Wanted both = some .member := rfl
example : declared both true = some (7, true) := by decide
example : declared both false = some (7, false) := by decide
example : Honest both true false false := by refine ⟨fun _ => rfl, fun _ _ _ => rfl⟩
example : call both false false = ([.transform, .connect .member], some 7) := rfl

end Verif.ConnectCpo
