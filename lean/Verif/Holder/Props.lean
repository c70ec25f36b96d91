import Verif.Holder.Model
/-!
# What a user of `__optional` and of `__static_vector` relies on

The specification of `__optional`: it is an `Option` (`specStep`), every object born in it dies in it exactly once, before the
next is born (`Paired`), and nothing undefined happens. The specification of `__static_vector`: it is a list of at most `N`
elements.
-/
namespace Verif.Holder
variable {α : Type}

/-! ## Specification -/

/-- A sequence of complete lifetimes, none overlapping another: each object born is the next to die. -/
inductive Paired : List (Ev α) → Prop
  | nil : Paired []
  | more (v : α) {l : List (Ev α)} : Paired l → Paired (l ++ [.born v, .died v])

/-- What an `Option` would hold after a call, while its owner lives. -/
def specStep (s : Option α) : Op α → Option α
  | .emplace (.yields v) => some v
  | .emplace .throws     => none
  | .emplace (.yieldsAndKillsOwner _) => none
  | .reset               => none

/-- The call destroys the owner. -/
def kills : Op α → Bool
  | .emplace (.yieldsAndKillsOwner _) => true
  | _ => false

/-- What an `Option` would hold after the calls up to and including the one that destroys the owner, and whether the owner lives. -/
def specRun : Option α → List (Op α) → Option α × Bool
  | s, []        => (s, true)
  | s, op :: ops => if kills op then (none, false) else specRun (specStep s op) ops

/-! ## Invariant -/

/-- The `__optional` lives and holds what `s` holds. -/
def Good (o : Opt α) (s : Option α) : Prop :=
  o.alive = true ∧ o.bad = false ∧ o.stored = s ∧ o.flag = s.isSome ∧
  ∃ l, Paired l ∧ o.log = l ++ (match s with | some v => [.born v] | none => [])

/-- The `__optional` is gone and left nothing behind. -/
def Gone (o : Opt α) : Prop := o.alive = false ∧ o.bad = false ∧ o.stored = none ∧ Paired o.log

theorem good_mk0 : Good (Opt.mk0 : Opt α) none :=
  ⟨rfl, rfl, rfl, rfl, [], .nil, rfl⟩

theorem reset_good {o : Opt α} {s} (h : Good o s) : Good (reset o) none := by
  obtain ⟨st, fl, al, bd, lg⟩ := o
  obtain ⟨h1, h2, h3, h4, l, hl, h5⟩ := h
  simp only at h1 h2 h3 h4 h5
  subst h1 h2 h3 h4
  cases st with
  | none => exact ⟨rfl, rfl, rfl, rfl, l, hl, by simpa [reset, touch] using h5⟩
  | some v =>
    refine ⟨rfl, rfl, rfl, rfl, l ++ [.born v, .died v], .more v hl, ?_⟩
    simp [reset, touch, setFlag, destroyValue, h5]

theorem dtor_good {o : Opt α} {s} (h : Good o s) : Gone (dtor o) := by
  obtain ⟨st, fl, al, bd, lg⟩ := o
  obtain ⟨h1, h2, h3, h4, l, hl, h5⟩ := h
  simp only at h1 h2 h3 h4 h5
  subst h1 h2 h3 h4
  cases st with
  | none => simp at h5; subst h5; exact ⟨rfl, rfl, rfl, hl⟩
  | some v =>
    refine ⟨rfl, rfl, rfl, ?_⟩
    have : (dtor (⟨some v, true, true, false, lg⟩ : Opt α)).log = l ++ [.born v, .died v] := by
      simp [dtor, touch, destroyValue, h5]
    simpa [this] using Paired.more v hl

theorem construct_good {o : Opt α} (v : α) (h : Good o none) : Good (construct v (setFlag true o)) (some v) := by
  obtain ⟨st, fl, al, bd, lg⟩ := o
  obtain ⟨h1, h2, h3, h4, l, hl, h5⟩ := h
  simp only at h1 h2 h3 h4 h5
  subst h1 h2 h3 h4
  exact ⟨rfl, rfl, rfl, rfl, l, hl, by simp at h5; simp [construct, touch, setFlag, h5]⟩

theorem flags_good {o : Opt α} (h : Good o none) : Good (setFlag false (setFlag true o)) none := by
  obtain ⟨st, fl, al, bd, lg⟩ := o
  obtain ⟨h1, h2, h3, h4, l, hl, h5⟩ := h
  simp only at h1 h2 h3 h4 h5
  subst h1 h2 h3 h4
  exact ⟨rfl, rfl, rfl, rfl, l, hl, by simpa [touch, setFlag] using h5⟩

theorem step_good {o : Opt α} {s} (op : Op α) (h : Good o s) :
    if kills op then Gone (step o op) else Good (step o op) (specStep s op) := by
  have hr := reset_good h
  rcases op with ⟨v | _ | v⟩ | _
  · exact construct_good v hr
  · exact flags_good hr
  · exact dtor_good (construct_good v hr)
  · exact hr

theorem runOps_gone {o : Opt α} (ops : List (Op α)) (h : Gone o) : runOps o ops = o := by
  cases ops with
  | nil => rfl
  | cons op ops => simp [runOps, h.1]

theorem runOps_good {o : Opt α} {s} (ops : List (Op α)) (h : Good o s) :
    if (specRun s ops).2 then Good (runOps o ops) (specRun s ops).1 else Gone (runOps o ops) := by
  induction ops generalizing o s with
  | nil => simpa [specRun, runOps] using h
  | cons op ops ih =>
    have hs := step_good op h
    cases hk : kills op with
    | true =>
      rw [hk] at hs
      have hs' : Gone (step o op) := by simpa using hs
      have hrun : runOps o (op :: ops) = step o op := by
        simp only [runOps, h.1, if_true]; exact runOps_gone ops hs'
      simpa [specRun, hk, hrun] using hs'
    | false =>
      rw [hk] at hs
      have hs' : Good (step o op) (specStep s op) := by simpa using hs
      simpa [specRun, hk, runOps, h.1] using ih hs'

/-! ## C106: theorems -/

/-- **C106.** Whatever calls are made of an `__optional`, in any number and order, with constructors that succeed, that throw, and
    one that destroys the owner from inside: nothing undefined is done (no object is destroyed that is not alive, none is
    constructed over a living one, and `emplace` touches no member of an `__optional` that is gone), when it has gone out of
    scope nothing is left alive in it, and every object born in it died in it, exactly once and before the next was born. -/
theorem C106_lifetimes (ops : List (Op α)) :
    let o := leave (runOps Opt.mk0 ops)
    o.bad = false ∧ o.stored = none ∧ o.alive = false ∧ Paired o.log := by
  have h := runOps_good ops (good_mk0 (α := α))
  cases hl : (specRun (none : Option α) ops).2 with
  | true =>
    rw [hl] at h
    have h' : Good (runOps (Opt.mk0 : Opt α) ops) (specRun none ops).1 := by simpa using h
    have hd := dtor_good h'
    have hlv : leave (runOps (Opt.mk0 : Opt α) ops) = dtor (runOps Opt.mk0 ops) := by simp [leave, h'.1]
    simp only [hlv]
    exact ⟨hd.2.1, hd.2.2.1, hd.1, hd.2.2.2⟩
  | false =>
    rw [hl] at h
    have h' : Gone (runOps (Opt.mk0 : Opt α) ops) := by simpa using h
    have hlv : leave (runOps (Opt.mk0 : Opt α) ops) = runOps Opt.mk0 ops := by simp [leave, h'.1]
    simp only [hlv]
    exact ⟨h'.2.1, h'.2.2.1, h'.1, h'.2.2.2⟩

/-- **C106.** After any calls that leave the owner alive, the `__optional` is the `Option` of the specification: `has_value()` says
    whether there is a value and `value()` gives it, or throws when there is none. -/
theorem C106_contents (ops : List (Op α)) (halive : (specRun none ops).2 = true) :
    let o := runOps (Opt.mk0 : Opt α) ops
    hasValue o = (specRun none ops).1.isSome ∧
    value o = (match (specRun none ops).1 with | some v => .ok (some v) | none => .error ()) := by
  have h := runOps_good ops (good_mk0 (α := α))
  rw [halive] at h
  have h' : Good (runOps (Opt.mk0 : Opt α) ops) (specRun none ops).1 := by simpa using h
  obtain ⟨_, _, h3, h4, _⟩ := h'
  refine ⟨h4, ?_⟩
  simp only [value, h4, h3]
  cases (specRun (none : Option α) ops).1 <;> rfl

/-- **C106.** `emplace` throws exactly when the constructor does, and then the `__optional` is empty, whatever it held before: the old
    value is gone. -/
theorem C106_throwing_emplace (ops : List (Op α)) (c : Ctor α) (halive : (specRun none ops).2 = true) :
    let r := emplace c (runOps (Opt.mk0 : Opt α) ops)
    (r.2 = true ↔ c = .throws) ∧ (r.2 = true → hasValue r.1 = false ∧ r.1.stored = none ∧ r.1.bad = false) := by
  have h := runOps_good ops (good_mk0 (α := α))
  rw [halive] at h
  have h' : Good (runOps (Opt.mk0 : Opt α) ops) (specRun none ops).1 := by simpa using h
  have hf := flags_good (reset_good h')
  cases c with
  | yields v => simp [emplace]
  | yieldsAndKillsOwner v => simp [emplace]
  | throws => exact ⟨by simp [emplace], fun _ => ⟨hf.2.2.2.1, hf.2.2.1, hf.2.1⟩⟩

/-- **C106.** What the guard in `emplace` is for: when the constructor destroys the owner, the object just constructed dies with it,
    once, and nothing is done to the `__optional` afterwards. -/
theorem C106_owner_destroyed_inside (ops : List (Op α)) (v : α) (halive : (specRun none ops).2 = true) :
    let before := runOps (Opt.mk0 : Opt α) ops
    let o := (emplace (.yieldsAndKillsOwner v) before).1
    o.alive = false ∧ o.bad = false ∧ o.stored = none ∧
    o.log = (reset before).log ++ [.born v, .died v] := by
  have h := runOps_good ops (good_mk0 (α := α))
  rw [halive] at h
  have h' : Good (runOps (Opt.mk0 : Opt α) ops) (specRun none ops).1 := by simpa using h
  have hr := reset_good h'
  have hg := dtor_good (construct_good v hr)
  refine ⟨hg.1, hg.2.1, hg.2.2.1, ?_⟩
  have h1 := hr.1
  simp [emplace, dtor, construct, setFlag, touch, destroyValue, h1]

/-- **C106.** `__optional<void>` holds a value after `emplace`, with any arguments, and none after `reset`, whatever went before. -/
theorem C106_void (o : OptVoid) : o.emplace.flag = true ∧ o.reset.flag = false := ⟨rfl, rfl⟩

/-- **C106, the code's behaviour.** An object whose destructor calls `reset()` on the `__optional` that holds it, at any depth, is destroyed
    again: the flag is lowered only after the destructor has returned. -/
theorem C106_reentrant_reset_destroys_twice (n : Nat) (o : Opt α) (v : α) (h : Good o (some v)) :
    (resetReentered (n + 1) o).bad = true := by
  have mono : ∀ (m : Nat) (p : Opt α), p.bad = true → p.alive = true → (resetReentered m p).bad = true ∧
      (resetReentered m p).alive = true := by
    intro m
    induction m with
    | zero =>
      intro p hp ha
      obtain ⟨st, fl, al, bd, lg⟩ := p
      simp only at hp ha
      subst hp ha
      cases st <;> cases fl <;> exact ⟨rfl, rfl⟩
    | succ m ih =>
      intro p hp ha
      obtain ⟨st, fl, al, bd, lg⟩ := p
      simp only at hp ha
      subst hp ha
      cases fl with
      | false => exact ⟨rfl, rfl⟩
      | true =>
        have := ih (destroyValue ⟨st, true, true, true, lg⟩) (by cases st <;> rfl) (by cases st <;> rfl)
        simp [resetReentered, touch, setFlag, this]
  obtain ⟨st, fl, al, bd, lg⟩ := o
  obtain ⟨h1, h2, h3, h4, -⟩ := h
  simp only at h1 h2 h3 h4
  subst h1 h2 h3 h4
  have key : ∀ (m : Nat) (p : Opt α), p.stored = none → p.flag = true → p.alive = true →
      (resetReentered m p).bad = true ∧ (resetReentered m p).alive = true := by
    intro m p hs hf ha
    obtain ⟨st, fl, al, bd, lg⟩ := p
    simp only at hs hf ha
    subst hs hf ha
    cases m with
    | zero => exact ⟨rfl, rfl⟩
    | succ m =>
      have := mono m (destroyValue ⟨none, true, true, bd, lg⟩) rfl rfl
      simp [resetReentered, touch, setFlag, this]
  have := key n (destroyValue ⟨some v, true, true, false, lg⟩) rfl rfl rfl
  simp [resetReentered, touch, setFlag, this]

/-! ### Concrete cases -/

/-- The hypotheses of the theorems on a living owner are met by a program that emplaces, replaces, fails and resets. -/
example : (specRun (none : Option Nat) [.emplace (.yields 1), .emplace (.yields 2), .emplace .throws, .emplace (.yields 3)]) =
    (some 3, true) := rfl

example : (leave (runOps (Opt.mk0 : Opt Nat) [.emplace (.yields 1), .emplace (.yields 2), .emplace .throws,
      .emplace (.yieldsAndKillsOwner 3)])).log =
    [.born 1, .died 1, .born 2, .died 2, .born 3, .died 3] := rfl

example : Good (emplace (.yields 7) (Opt.mk0 : Opt Nat)).1 (some 7) := step_good (.emplace (.yields 7)) good_mk0

/-! ## C107: `__static_vector` -/

/-- A vector whose visible elements are exactly `l`, each of them a value that has not been moved from. -/
def Holds (s : SVec α) (cap : Nat) (l : List α) : Prop :=
  s.data.length = cap ∧ s.size = l.length ∧ s.size ≤ cap ∧ s.elems = l.map some

theorem length_writeAt (d : List (Option α)) (k : Nat) (xs : List (Option α)) : (writeAt d k xs).length = d.length := by
  induction xs generalizing d k with
  | nil => rfl
  | cons x xs ih => simp [writeAt, ih]

theorem getElem?_writeAt (d : List (Option α)) (k : Nat) (xs : List (Option α)) (h : k + xs.length ≤ d.length) (m : Nat) :
    (writeAt d k xs)[m]? = if k ≤ m ∧ m < k + xs.length then xs[m - k]? else d[m]? := by
  induction xs generalizing d k with
  | nil => simp [writeAt]; omega
  | cons x xs ih =>
    simp only [List.length_cons] at h
    rw [writeAt, ih _ _ (by simp; omega)]
    by_cases h1 : m = k
    · subst h1
      have h1 : m < d.length := by omega
      have h2 : ¬ (m + 1 ≤ m ∧ m < m + 1 + xs.length) := by omega
      have h3 : m ≤ m ∧ m < m + (x :: xs).length := by simp only [List.length_cons]; omega
      rw [if_neg h2, if_pos h3, List.getElem?_set, if_pos rfl, if_pos h1, Nat.sub_self]
      rfl
    · by_cases h2 : k + 1 ≤ m ∧ m < k + 1 + xs.length
      · have e : m - k = (m - (k + 1)) + 1 := by omega
        have h3 : k ≤ m ∧ m < k + (x :: xs).length := by simp only [List.length_cons]; omega
        rw [if_pos h2, if_pos h3, e, List.getElem?_cons_succ]
      · have h3 : ¬ (k ≤ m ∧ m < k + (x :: xs).length) := by simp only [List.length_cons]; omega
        rw [if_neg h2, if_neg h3, List.getElem?_set, if_neg (by omega)]

theorem length_moveDown (n src dst : Nat) (d : List (Option α)) : (moveDown n src dst d).length = d.length := by
  induction n generalizing src dst d with
  | zero => rfl
  | succ n ih => simp [moveDown, ih]

theorem getElem?_moveDown (n src dst : Nat) (d : List (Option α)) (hlt : dst < src) (hb : src + n ≤ d.length) (m : Nat)
    (hm : m < dst + n) :
    (moveDown n src dst d)[m]? = if dst ≤ m then d[m - dst + src]? else d[m]? := by
  induction n generalizing src dst d with
  | zero =>
    have : ¬ dst ≤ m := by omega
    simp [moveDown, this]
  | succ n ih =>
    rw [moveDown]
    by_cases hmd : m = dst
    · subst hmd
      by_cases h0 : m < m + 1 + n
      · rw [ih _ _ _ (by omega) (by simp; omega) h0]
        have h1 : m < d.length := by omega
        have h2 : src < d.length := by omega
        have h3 : src ≠ m := by omega
        have h4 : ¬ (m + 1 ≤ m) := by omega
        simp [h4, List.getElem?_set, h1, h3, List.getElem?_eq_getElem h2]
      · omega
    · rw [ih _ _ _ (by omega) (by simp; omega) (by omega)]
      by_cases h1 : dst + 1 ≤ m
      · have e : m - (dst + 1) + (src + 1) = m - dst + src := by omega
        rw [if_pos h1, if_pos (by omega), e, List.getElem?_set, if_neg (by omega), List.getElem?_set, if_neg (by omega)]
      · rw [if_neg h1, if_neg (by omega), List.getElem?_set, if_neg (by omega), List.getElem?_set, if_neg (by omega)]

theorem holds_getElem? {s : SVec α} {cap} {l : List α} (h : Holds s cap l) (m : Nat) (hm : m < l.length) :
    s.data[m]? = some (some l[m]) := by
  have := congrArg (fun x => x[m]?) h.2.2.2
  have h2 := h.2.1
  simp only [SVec.elems, List.getElem?_take, List.getElem?_map] at this
  rw [if_pos (by omega)] at this
  simpa [hm] using this

theorem holds_of {s : SVec α} {cap} {l : List α} (h1 : s.data.length = cap) (h2 : s.size = l.length) (h3 : s.size ≤ cap)
    (h4 : ∀ m, (hm : m < l.length) → s.data[m]? = some (some l[m])) : Holds s cap l := by
  refine ⟨h1, h2, h3, ?_⟩
  apply List.ext_getElem?
  intro m
  simp only [SVec.elems, List.getElem?_take, List.getElem?_map]
  by_cases hm : m < l.length
  · rw [if_pos (by omega), h4 m hm]; simp [hm]
  · rw [if_neg (by omega), List.getElem?_eq_none (by omega)]; rfl

/-- **C107.** A `__static_vector` made from a list holds its first `N` elements, in order: the rest are dropped without a word. -/
theorem C107_from_list (cap : Nat) (init : List α) : Holds (SVec.ofList cap init) cap (init.take cap) := by
  have hl : (init.take (min init.length cap)).length = min init.length cap := by simp
  have e : init.take (min init.length cap) = init.take cap := by
    rw [List.take_eq_take_iff]; omega
  refine holds_of (by simp [SVec.ofList, length_writeAt]) (by simp [SVec.ofList]; omega) (by simp [SVec.ofList]; omega) ?_
  intro m hm
  simp only [List.length_take] at hm
  simp only [SVec.ofList]
  rw [getElem?_writeAt _ _ _ (by simp; omega) m, if_pos (by simp; omega), e]
  simp [List.getElem?_take]
  omega

/-- **C107, part**: what is missing is the position `erase` returns (`C107_erase_returns_end`). `erase(first, last)` removes exactly the elements from `first` to `last`, keeps the others in order, leaves no
    moved-from element among those that remain, and touches nothing outside the array. -/
theorem C107_erase_partial (cap : Nat) (s : SVec α) (l : List α) (h : Holds s cap l) (first last : Nat)
    (h1 : first ≤ last) (h2 : last ≤ s.size) :
    Holds (s.erase first last).1 cap (l.take first ++ l.drop last) := by
  have hsz := h.2.1
  have hcap := h.2.2.1
  have hlen := h.1
  by_cases he : first = last
  · subst he
    simpa [SVec.erase] using h
  · have hne : first ≠ last := he
    refine holds_of ?_ ?_ ?_ ?_
    · simp [SVec.erase, hne, SVec.resize, length_moveDown, hlen]
    · simp [SVec.erase, hne, SVec.resize]; omega
    · simp [SVec.erase, hne, SVec.resize]; omega
    · intro m hm
      simp only [List.length_append, List.length_take, List.length_drop] at hm
      have hd : (s.erase first last).1.data = moveDown (s.size - last) last first s.data := by
        simp [SVec.erase, hne, SVec.resize]
      rw [hd, getElem?_moveDown _ _ _ _ (by omega) (by omega) m (by omega)]
      by_cases hmf : first ≤ m
      · rw [if_pos hmf, holds_getElem? h _ (by omega)]
        rw [List.getElem_append_right (by simp; omega)]
        simp only [List.getElem_drop, List.length_take]
        congr 2
        congr 1
        omega
      · rw [if_neg hmf, holds_getElem? h _ (by omega)]
        rw [List.getElem_append_left (by simp; omega)]
        simp

/-- **C107.** `operator+` is concatenation, into an array with room for both; so too when one side has capacity zero. -/
theorem C107_append (ca cb : Nat) (a b : SVec α) (la lb : List α) (ha : Holds a ca la) (hb : Holds b cb lb) :
    Holds (a.append b) (ca + cb) (la ++ lb) := by
  have a1 := ha.1; have a2 := ha.2.1; have a3 := ha.2.2.1
  have b1 := hb.1; have b2 := hb.2.1; have b3 := hb.2.2.1
  by_cases hza : a.data.length = 0
  · have : la = [] := List.length_eq_zero_iff.mp (by omega)
    have hc : ca = 0 := by omega
    subst this hc
    simpa [SVec.append, hza] using hb
  · by_cases hzb : b.data.length = 0
    · have : lb = [] := List.length_eq_zero_iff.mp (by omega)
      have hc : cb = 0 := by omega
      subst this hc
      simpa [SVec.append, hza, hzb] using ha
    · have happ : a.append b = { data := writeAt (writeAt (List.replicate (a.data.length + b.data.length) none) 0 a.elems) a.size b.elems, size := a.size + b.size } := by
        simp [SVec.append, hza, hzb, SVec.resize]
      have hea : a.elems.length = la.length := by rw [ha.2.2.2]; simp
      have heb : b.elems.length = lb.length := by rw [hb.2.2.2]; simp
      refine holds_of ?_ ?_ ?_ ?_
      · rw [happ]; simp [length_writeAt, a1, b1]
      · rw [happ]; simp [a2, b2]
      · rw [happ]; simp; omega
      · intro m hm
        simp only [List.length_append] at hm
        have hd : (a.append b).data =
            writeAt (writeAt (List.replicate (a.data.length + b.data.length) none) 0 a.elems) a.size b.elems := by
          simp [SVec.append, hza, hzb, SVec.resize]
        rw [hd, getElem?_writeAt _ _ _ (by rw [length_writeAt]; simp; omega) m]
        by_cases hmb : a.size ≤ m
        · rw [if_pos ⟨hmb, by omega⟩, hb.2.2.2, List.getElem_append_right (by omega)]
          have hlt : m - a.size < lb.length := by omega
          simp [hlt, a2]
        · rw [if_neg (by omega), getElem?_writeAt _ _ _ (by simp; omega) m, if_pos ⟨by omega, by omega⟩, ha.2.2.2,
            List.getElem_append_left (by omega)]
          simp

/-- **C107, the code's behaviour.** `erase` returns `end()`, where every standard container returns the position of the element after the
    last one removed: the two differ whenever an element follows those removed. -/
theorem C107_erase_returns_end (cap : Nat) (s : SVec α) (l : List α) (h : Holds s cap l) (first last : Nat)
    (h1 : first ≤ last) (h2 : last ≤ s.size) :
    (s.erase first last).2 = (l.take first ++ l.drop last).length ∧
    ((s.erase first last).2 = first ↔ last = s.size) := by
  have hsz := h.2.1
  have e : (s.erase first last).2 = s.size - (last - first) := by
    by_cases he : first = last
    · subst he; simp [SVec.erase]
    · simp [SVec.erase, he, SVec.resize]
  refine ⟨?_, ?_⟩
  · rw [e]; simp; omega
  · rw [e]; omega

/-! ### Concrete cases -/

example : (SVec.ofList 5 [1, 2, 3, 4]).erase 1 3 = ({ data := [some 1, some 4, some 3, none, none], size := 2 }, 2) := rfl

example : Holds (SVec.ofList 3 [1, 2, 3, 4]) 3 [1, 2, 3] := C107_from_list 3 [1, 2, 3, 4]

example : ((SVec.ofList 2 [1]).append (SVec.ofList 3 [2, 3])).elems = [some 1, some 2, some 3] := rfl

end Verif.Holder
