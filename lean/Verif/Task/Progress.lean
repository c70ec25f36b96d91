import Verif.Task.Shape
import Verif.Run
import Verif.Count
/-!
Termination of the coroutines between two decisions of the environment.  A running coroutine is abstracted
to the body that runs and the stack of continuations of the awaiting coroutines.
-/
namespace Verif.Task
set_option maxHeartbeats 4000000

abbrev AS := Body × List (Out → Body) × Nat

/-- `ALt x y`: `x` comes after `y`. -/
inductive ALt : AS → AS → Prop
  | call {c b k ks p p'} : ALt (b, k :: ks, p') (.call c b k, ks, p)
  | pop {b k ks p p' o} : ALt (k o, ks, p') (b, k :: ks, p)
  | fail {b k ks p p' o} : ALt (.fin o, ks, p') (b, k :: ks, p)
  | phase {b ks p p'} : p' < p → ALt (b, ks, p') (b, ks, p)
  | fin {b ks p p' o} : p' < p → ALt (.fin o, ks, p') (b, ks, p)

/-- What can come after popping the stack is accessible. -/
def PopOk : List (Out → Body) → Prop
  | [] => True
  | k :: ks => (∀ o p, Acc ALt (k o, ks, p)) ∧ ∀ o p, Acc ALt (.fin o, ks, p)

theorem acc_phase {b : Body} {ks : List (Out → Body)} (hp : PopOk ks)
    (hc : ∀ c b' k p, b = .call c b' k → Acc ALt (b', k :: ks, p))
    (hf : ∀ o p, Acc ALt (.fin o, ks, p)) : ∀ p, Acc ALt (b, ks, p) := by
  intro p
  induction p using Nat.strongRecOn with
  | ind p ih =>
    constructor
    intro y hy
    generalize hx : (b, ks, p) = x at hy
    cases hy with
    | call => cases hx; exact hc _ _ _ _ rfl
    | pop => cases hx; exact hp.1 _ _
    | fail => cases hx; exact hp.2 _ _
    | phase h => cases hx; exact ih _ h
    | fin h => cases hx; exact hf _ _

theorem acc_fin {ks : List (Out → Body)} (hp : PopOk ks) : ∀ p o, Acc ALt (.fin o, ks, p) := by
  intro p
  induction p using Nat.strongRecOn with
  | ind p ih =>
    intro o
    constructor
    intro y hy
    generalize hx : ((Body.fin o, ks, p) : AS) = x at hy
    cases hy with
    | call => cases hx
    | pop => cases hx; exact hp.1 _ _
    | fail => cases hx; exact hp.2 _ _
    | phase h => cases hx; exact ih _ h _
    | fin h => cases hx; exact ih _ h _

theorem acc_body : ∀ (b : Body) {ks : List (Out → Body)}, PopOk ks → ∀ p, Acc ALt (b, ks, p)
  | .fin o, _, hp, p => acc_fin hp p o
  | .aw a k, _, hp, p => acc_phase hp (fun _ _ _ _ h => by cases h) (fun o p => acc_fin hp p o) p
  | .call c b k, _, hp, p =>
    acc_phase hp (fun _ _ _ p h => by
      cases h
      exact acc_body b (ks := k :: _) ⟨fun o p => acc_body (k o) hp p, fun o p => acc_fin hp p o⟩ p)
      (fun o p => acc_fin hp p o) p

theorem popOk : ∀ ks, PopOk ks
  | [] => trivial
  | k :: ks => ⟨fun o p => acc_body (k o) (popOk ks) p, fun o p => acc_fin (popOk ks) p o⟩

theorem alt_wf : WellFounded ALt := ⟨fun ⟨b, ks, p⟩ => acc_body b (popOk ks) p⟩

/-! ## The chain of a state -/

def Lk (fr : Nat → Fr) : List Nat → Prop
  | [] => True
  | i :: t => (fr i).parent = t.head? ∧ Lk fr t

theorem Lk_congr {fr fr' : Nat → Fr} : ∀ {l : List Nat}, (∀ j ∈ l, (fr' j).parent = (fr j).parent) →
    Lk fr l → Lk fr' l
  | [], _, _ => trivial
  | i :: t, h, hl => ⟨(h i (by simp)).trans hl.1, Lk_congr (fun j hj => h j (by simp [hj])) hl.2⟩

structure LI (s : St) (l : List Nat) : Prop where
  hd : l.head? = top s.ctl
  lk : Lk s.fr l
  srt : l.Pairwise (fun a b => b < a)
  lt : ∀ i ∈ l, i < s.n

def ks (fr : Nat → Fr) (t : List Nat) : List (Out → Body) := t.map fun p => (fr p).k

theorem ks_congr {fr fr' : Nat → Fr} {t : List Nat} (h : ∀ j ∈ t, (fr' j).k = (fr j).k) : ks fr' t = ks fr t :=
  List.map_congr_left h

def al (s : St) (l : List Nat) : AS :=
  match s.ctl with
  | .start i => ((s.fr i).body, ks s.fr l.tail, 6)
  | .run i => ((s.fr i).body, ks s.fr l.tail, 5)
  | .done _ => (.fin .stopped, ks s.fr l.tail, 4)
  | .cancel _ => (.fin .stopped, ks s.fr l.tail, 3)
  | .cancel2 _ => (.fin .stopped, ks s.fr l.tail, 2)
  | .resume _ => (.fin .stopped, ks s.fr l.tail, 2)
  | .sus _ _ => (.fin .stopped, ks s.fr l.tail, 1)
  | .fin _ => (.fin .stopped, ks s.fr l.tail, 0)

/-- The work left to the stopping thread. -/
def work (s : St) : Nat :=
  2 * (s.n - cnt (fun i => (s.fr i).req) s.n) + match s.stop with
    | .act stk => stk.length + 1
    | _ => 0

/-- Frames keep their continuations. -/
def SameK (s s' : St) : Prop := ∀ j, (s'.fr j).k = (s.fr j).k

theorem samek_destroy (s : St) (i : Nat) : SameK s (destroy s i) := by
  unfold destroy
  split
  · intro j; simp only [upd]; split
    · rename_i he; subst he; rfl
    · split
      · rename_i he; subst he; rfl
      · rfl
  · intro j; simp only [upd]; split
    · rename_i he; subst he; rfl
    · rfl

theorem samek_drop (s : St) (i : Nat) : SameK s (drop s i) := fun j =>
  (samek_destroy (setFr s i { s.fr i with owns := false }) i j).trans (by
    simp only [setFr, upd]; split
    · rename_i he; subst he; rfl
    · rfl)

theorem samek_cont (s : St) (i : Nat) (o : Out) : SameK s (continueParent s i o) := by
  unfold continueParent
  split
  · intro j; simp only [upd]; split
    · rename_i he; subst he; rfl
    · split
      · rename_i he; subst he; rfl
      · rfl
  · intro j; simp only [upd]; split
    · rename_i he; subst he; rfl
    · rfl

theorem samek_set (s : St) (i : Nat) (f : Fr) (hf : f.k = (s.fr i).k) (j : Nat) :
    (upd s.fr i f j).k = (s.fr j).k := by
  simp only [upd]; split
  · rename_i he; subst he; exact hf
  · rfl

theorem LI.cons {s : St} {l : List Nat} (h : LI s l) {i : Nat} (ht : top s.ctl = some i) : ∃ t, l = i :: t := by
  have := h.hd
  rw [ht] at this
  cases l with
  | nil => simp at this
  | cons a t => simp at this; exact ⟨t, by rw [this]⟩

/-- The chain stays. -/
theorem LI.keep {s s' : St} {l : List Nat} (h : LI s l) (hs : Same s s') (ht : top s'.ctl = top s.ctl) : LI s' l :=
  ⟨h.hd.trans ht.symm, Lk_congr (fun j _ => (hs.2 j).2) h.lk, h.srt, fun i hi => by rw [hs.1]; exact h.lt i hi⟩

/-- The top is gone. -/
theorem LI.drop {s s' : St} {i : Nat} {t : List Nat} (h : LI s (i :: t)) (hs : Same s s')
    (ht : top s'.ctl = (s.fr i).parent) : LI s' t :=
  ⟨by rw [ht, h.lk.1], Lk_congr (fun j _ => (hs.2 j).2) h.lk.2, (List.pairwise_cons.1 h.srt).2,
    fun j hj => by rw [hs.1]; exact h.lt j (by simp [hj])⟩

/-- Completing the top of the chain. -/
theorem cont_al {s s0 : St} {i : Nat} {t : List Nat} {o : Out} (h : LI s (i :: t)) (hd : Same s s0) (hk : SameK s s0)
    {b : Body} {p : Nat} (hp : 0 < p) {s' : St} (hfr : s'.fr = (continueParent s0 i o).fr)
    (hctl : s'.ctl = (continueParent s0 i o).ctl) (hn : s'.n = (continueParent s0 i o).n) :
    LI s' t ∧ ALt (al s' t) (b, ks s.fr t, p) := by
  have hs : Same s s' := by
    have := Same.trans hd (same_cont s0 i o)
    exact ⟨hn.trans this.1, fun j => by rw [hfr]; exact this.2 j⟩
  have hkk : SameK s s' := fun j => by
    rw [hfr]; exact (samek_cont s0 i o j).trans (hk j)
  have hpar : (s0.fr i).parent = t.head? := by rw [(hd.2 i).2]; exact h.lk.1
  have htop : top s'.ctl = (s.fr i).parent := by
    rw [hctl, h.lk.1, ← hpar]
    unfold continueParent
    cases hx : (s0.fr i).parent <;> rfl
  refine ⟨h.drop hs htop, ?_⟩
  cases t with
  | nil =>
    have hc : s'.ctl = .fin o := by
      rw [hctl]; unfold continueParent; rw [hpar]; rfl
    simp only [al, hc]
    exact .fin hp
  | cons q t =>
    have hc : s'.ctl = .run q := by
      rw [hctl]; unfold continueParent; rw [hpar]; rfl
    have hb : (s'.fr q).body = (s.fr q).k o := by
      rw [hfr]; unfold continueParent; rw [hpar]; simp [upd, hk q]
    have hk1 : ks s'.fr t = ks s.fr t := ks_congr fun j _ => hkk j
    have ha : al s' (q :: t) = ((s.fr q).k o, ks s.fr t, 5) := by
      simp only [al, hc, hb, List.tail_cons, hk1]
    rw [ha]
    exact ALt.pop (k := (s.fr q).k)

/-- What the coroutines and the stopping thread do by themselves. -/
def internal : Act → Bool
  | .exec => true
  | .regThrows _ => true
  | .enter _ => true
  | .ret => true
  | _ => false

theorem al_keep {s s' : St} {l : List Nat} (hk : ∀ j, (s'.fr j).k = (s.fr j).k)
    (hb : ∀ j, (s'.fr j).body = (s.fr j).body) (hc : s'.ctl = s.ctl) : al s' l = al s l := by
  have h1 : ks s'.fr l.tail = ks s.fr l.tail := ks_congr fun j _ => hk j
  unfold al; rw [hc, h1]
  cases s.ctl <;> simp [hb]

theorem down {s s' : St} {l : List Nat} {a : Act} (h : LI s l) (ha : internal a = true)
    (hs : step s a = some s') :
    ∃ l', LI s' l' ∧ (ALt (al s' l') (al s l) ∨ (al s' l' = al s l ∧ work s' < work s)) := by
  cases a with
  | exec =>
    simp only [step] at hs
    split at hs
    · rename_i i hc; cases hs
      obtain ⟨t, rfl⟩ := h.cons (i := i) (by rw [hc]; rfl)
      refine ⟨i :: t, ?_, .inl ?_⟩
      · refine h.keep ?_ ?_
        · unfold register; split
          · exact same_set i _ rfl rfl rfl rfl
          · exact Same.rfl _
        · rw [hc]; unfold register; split <;> rfl
      · have h1 : (register s i).ctl = .run i := by unfold register; split <;> rfl
        have h2 : ∀ j, ((register s i).fr j).k = (s.fr j).k := by
          intro j; unfold register; split
          · exact samek_set s i _ (by rfl) j
          · rfl
        have h3 : ((register s i).fr i).body = (s.fr i).body := by
          unfold register; split
          · simp [setFr, upd]
          · rfl
        have h4 : ks (register s i).fr t = ks s.fr t := ks_congr fun j _ => h2 j
        simp only [al, h1, hc, h3, List.tail_cons, h4]
        exact .phase (by omega)
    · rename_i i hc; cases hs
      obtain ⟨t, rfl⟩ := h.cons (i := i) (by rw [hc]; rfl)
      have hnm := not_mem_tail h.srt
      unfold runBody; split
      · rename_i v hb
        refine ⟨i :: t, h.keep (same_set i _ rfl rfl rfl rfl) (by rw [hc]; rfl), .inl ?_⟩
        have h4 : ks (upd s.fr i { s.fr i with result := some v }) t = ks s.fr t :=
          ks_congr fun j _ => samek_set s i _ (by rfl) j
        simp only [al, hc, List.tail_cons, setFr, h4]
        exact .fin (by omega)
      · rename_i v hb
        refine ⟨i :: t, h.keep (same_set i _ rfl rfl rfl rfl) (by rw [hc]; rfl), .inl ?_⟩
        have h4 : ks (upd s.fr i { s.fr i with errors := some v }) t = ks s.fr t :=
          ks_congr fun j _ => samek_set s i _ (by rfl) j
        simp only [al, hc, List.tail_cons, setFr, h4]
        exact .fin (by omega)
      · refine ⟨i :: t, h.keep (same_set i _ rfl rfl rfl rfl) (by rw [hc]; rfl), .inl ?_⟩
        have h4 : ks (upd s.fr i { s.fr i with stopped := true }) t = ks s.fr t :=
          ks_congr fun j _ => samek_set s i _ (by rfl) j
        simp only [al, hc, List.tail_cons, setFr, h4]
        exact .fin (by omega)
      · rename_i aff k hb
        refine ⟨i :: t, h.keep (same_set i _ rfl rfl rfl rfl) (by rw [hc]; rfl), .inl ?_⟩
        have h4 : ks (upd s.fr i { s.fr i with k := k }) t = ks s.fr t :=
          ks_congr fun j hj => by
            have : j ≠ i := fun he => hnm (he ▸ hj)
            simp [upd, this]
        simp only [al, hc, List.tail_cons, setFr, h4]
        exact .fin (by omega)
      · rename_i c b k hb
        have hin := h.lt i (by simp)
        refine ⟨s.n :: i :: t, ?_, .inl ?_⟩
        · have hf : ∀ j ∈ i :: t, j ≠ s.n := fun j hj => by have := h.lt j hj; omega
          refine ⟨rfl, ⟨?_, ?_⟩, ?_, ?_⟩
          · simp [newTask, upd, fr0]
          · refine Lk_congr (fr := s.fr) ?_ h.lk
            intro j hj
            have := hf j hj
            simp only [newTask, upd, this, if_false]
            split
            · rename_i he; subst he; rfl
            · rfl
          · exact List.pairwise_cons.2 ⟨fun j hj => h.lt j hj, h.srt⟩
          · intro j hj
            simp only [newTask]
            rcases List.mem_cons.1 hj with hj | hj
            · omega
            · have := h.lt j hj; omega
        · have h5 : ks (newTask s i c b k).fr (i :: t) = k :: ks s.fr t := by
            have h4 : ks (newTask s i c b k).fr t = ks s.fr t := by
              refine ks_congr fun j hj => ?_
              have h1 : j ≠ i := fun he => hnm (he ▸ hj)
              have h2 : j ≠ s.n := by have := h.lt j (by simp [hj]); omega
              simp [newTask, upd, h1, h2]
            have h6 : ((newTask s i c b k).fr i).k = k := by
              have h2 : i ≠ s.n := by omega
              simp [newTask, upd, h2]
            simp only [ks, List.map_cons] at h4 ⊢
            rw [h4, h6]
          have h7 : ((newTask s i c b k).fr s.n).body = b := by simp [newTask, upd, fr0]
          have h8 : al { newTask s i c b k with bad := s.bad || !(s.fr i).alive } (s.n :: i :: t) =
              (b, k :: ks s.fr t, 6) := by
            show (((newTask s i c b k).fr s.n).body, ks (newTask s i c b k).fr (i :: t), 6) = _
            rw [h5, h7]
          rw [h8]
          simp only [al, hc, hb, List.tail_cons]
          exact .call
    · rename_i i hc
      obtain ⟨t, rfl⟩ := h.cons (i := i) (by rw [hc]; rfl)
      split at hs
      · cases hs
        refine ⟨i :: t, h.keep (Same.rfl _) (by rw [hc]; rfl), .inl ?_⟩
        simp only [al, hc, List.tail_cons]
        exact .phase (by omega)
      · split at hs
        · cases hs
        · cases hs
          refine ⟨i :: t, h.keep (same_set i _ rfl rfl rfl rfl) (by rw [hc]; rfl), .inl ?_⟩
          have h4 : ks (upd s.fr i { s.fr i with cb := false }) t = ks s.fr t :=
            ks_congr fun j _ => samek_set s i _ (by rfl) j
          simp only [al, hc, List.tail_cons, reset, setFr, h4]
          exact .phase (by omega)
    · rename_i i hc
      obtain ⟨t, rfl⟩ := h.cons (i := i) (by rw [hc]; rfl)
      split at hs
      · cases hs
      · cases hs
        refine ⟨i :: t, h.keep (same_set i _ rfl rfl rfl rfl) (by rw [hc]; rfl), .inl ?_⟩
        have h4 : ks (upd s.fr i { s.fr i with cb := false }) t = ks s.fr t :=
          ks_congr fun j _ => samek_set s i _ (by rfl) j
        simp only [al, hc, List.tail_cons, reset, setFr, h4]
        exact .phase (by omega)
    · rename_i i hc; cases hs
      obtain ⟨t, rfl⟩ := h.cons (i := i) (by rw [hc]; rfl)
      have hal : al s (i :: t) = (.fin .stopped, ks s.fr t, 2) := by simp [al, hc]
      rw [hal]
      unfold canceled; split
      · rename_i p hp
        have hs : Same s { destroy (setFr s i { s.fr i with owns := false }) i with ctl := .cancel p } := same_drop s i
        refine ⟨t, h.drop hs (by rw [hp]; rfl), .inl ?_⟩
        have hh := h.lk.1
        rw [hp] at hh
        cases t with
        | nil => simp at hh
        | cons q t =>
          have h4 : ks (destroy (setFr s i { s.fr i with owns := false }) i).fr t = ks s.fr t :=
            ks_congr fun j _ => samek_drop s i j
          simp only [al, List.tail_cons, h4]
          exact ALt.fail (k := (s.fr q).k)
      · obtain ⟨h1, h2⟩ := cont_al (o := .stopped) (b := .fin .stopped) (p := 2) h (same_drop s i) (samek_drop s i)
          (by omega) (s' := continueParent (drop s i) i .stopped) rfl rfl rfl
        exact ⟨t, h1, .inl h2⟩
    · rename_i i hc; cases hs
      obtain ⟨t, rfl⟩ := h.cons (i := i) (by rw [hc]; rfl)
      have hal : al s (i :: t) = (.fin .stopped, ks s.fr t, 2) := by simp [al, hc]
      rw [hal]
      unfold awaitResume; split
      · rename_i e _
        obtain ⟨h1, h2⟩ := cont_al (o := .error e) (b := .fin .stopped) (p := 2) h (same_drop s i) (samek_drop s i)
          (by omega) (s' := continueParent (drop s i) i (.error e)) rfl rfl rfl
        exact ⟨t, h1, .inl h2⟩
      · obtain ⟨h1, h2⟩ := cont_al (o := .value ((s.fr i).result.getD 0)) (b := .fin .stopped) (p := 2) h
          (same_drop s i) (samek_drop s i) (by omega)
          (s' := continueParent (drop s i) i (.value ((s.fr i).result.getD 0))) rfl rfl rfl
        exact ⟨t, h1, .inl h2⟩
    · cases hs
  | regThrows e =>
    simp only [step] at hs
    split at hs
    case h_2 => cases hs
    rename_i i hc
    split at hs
    case isFalse => cases hs
    obtain ⟨t, rfl⟩ := h.cons (i := i) (by rw [hc]; rfl)
    have hal : al s (i :: t) = ((s.fr i).body, ks s.fr t, 6) := by simp [al, hc]
    rw [hal]
    cases hs
    obtain ⟨h1, h2⟩ := cont_al (o := .error e) (b := (s.fr i).body) (p := 6) h (same_drop s i) (samek_drop s i)
      (by omega) (s' := { continueParent (destroy (setFr s i { s.fr i with owns := false }) i) i (.error e) with
                 log := s.log ++ [.reg (some e)] }) rfl rfl rfl
    exact ⟨t, h1, .inl h2⟩
  | leaf o x ins => cases ha
  | stop => cases ha
  | enter i =>
    simp only [step] at hs
    split at hs
    case h_2 => cases hs
    rename_i stk hst
    split at hs
    case isFalse => cases hs
    rename_i hg
    cases hs
    refine ⟨l, h.keep (same_set i _ rfl rfl rfl rfl) rfl, .inr ⟨?_, ?_⟩⟩
    · refine al_keep (samek_set s i _ (by rfl)) ?_ rfl
      intro j; simp only [setFr, upd]; split
      · rename_i he; subst he; rfl
      · rfl
    · have hc := cnt_flip (p := fun j => (s.fr j).req)
        (q := fun j => (upd s.fr i { s.fr i with req := true } j).req) hg.2.1 hg.2.2.2.1 (by simp [upd])
        (by intro j hj; simp [upd, hj])
      have hle := cnt_le (fun j => (upd s.fr i { s.fr i with req := true } j).req) s.n
      have hw : work s = 2 * (s.n - cnt (fun j => (s.fr j).req) s.n) + (stk.length + 1) := by simp only [work, hst]
      show 2 * (s.n - cnt (fun j => (upd s.fr i { s.fr i with req := true } j).req) s.n) + ((i :: stk).length + 1) <
        work s
      rw [hc] at hle ⊢
      rw [hw, List.length_cons]
      omega
  | ret =>
    simp only [step] at hs
    split at hs
    case h_2 => cases hs
    rename_i stk hst
    split at hs
    case isFalse => cases hs
    cases hs
    refine ⟨l, h.keep (Same.rfl _) rfl, .inr ⟨al_keep (fun _ => rfl) (fun _ => rfl) rfl, ?_⟩⟩
    cases stk <;> simp [work, hst, pop]

theorem li_init (c : Cfg) (b : Body) (x : Nat) (ins : Bool) : LI (init c b x ins) [0] :=
  ⟨rfl, ⟨by simp [init, upd, fr0], trivial⟩, by simp, by simp [init]⟩

theorem li_step {s s' : St} {l : List Nat} {a : Act} (h : LI s l) (hs : step s a = some s') : ∃ l', LI s' l' := by
  by_cases ha : internal a = true
  · obtain ⟨l', h1, _⟩ := down h ha hs
    exact ⟨l', h1⟩
  · cases a with
    | exec => exact absurd rfl ha
    | regThrows e => exact absurd rfl ha
    | enter i => exact absurd rfl ha
    | ret => exact absurd rfl ha
    | stop =>
      simp only [step] at hs
      split at hs
      case isFalse => cases hs
      cases hs; exact ⟨l, h.keep (Same.rfl _) rfl⟩
    | leaf o x ins =>
      simp only [step] at hs
      split at hs
      case h_2 => cases hs
      rename_i i aff hc
      split at hs
      case isFalse => cases hs
      cases hs
      refine ⟨l, h.keep (same_set i { s.fr i with body := (s.fr i).k o } rfl rfl rfl rfl) ?_⟩
      rw [hc]
      show top (if o = .stopped then Ctl.cancel i else .run i) = some i
      split <;> rfl

theorem li_reach {c : Cfg} {b : Body} {x : Nat} {ins : Bool} {s : St} (h : Reach (init c b x ins) step s) :
    ∃ l, LI s l :=
  Reach.inv (fun s => ∃ l, LI s l) ⟨_, li_init c b x ins⟩ (fun _ _ _ ⟨_, h⟩ hs => li_step h hs) s h

/-- `s'` comes after `s` without the environment doing anything. -/
def Int (s' s : St) : Prop := ∃ a, internal a = true ∧ step s a = some s'

theorem acc_int : ∀ (x : AS × Nat), ∀ s l, LI s l → (al s l, work s) = x → Acc Int s := by
  intro x
  induction x using (Prod.lex ⟨ALt, alt_wf⟩ ⟨Nat.lt, Nat.lt_wfRel.wf⟩).wf.induction with
  | _ x ih =>
    rintro s l h rfl
    constructor
    rintro s' ⟨a, ha, hs⟩
    obtain ⟨l', h', hd⟩ := down h ha hs
    refine ih (al s' l', work s') ?_ s' l' h' rfl
    rcases hd with hd | ⟨h1, h2⟩
    · exact Prod.Lex.left _ _ hd
    · rw [h1]; exact Prod.Lex.right _ h2

/-- Is the operation waiting for an awaited sender, or completed? -/
def quiet : Ctl → Bool
  | .sus _ _ => true
  | .fin _ => true
  | _ => false

theorem quiet_cont (s : St) (i : Nat) (o : Out) (h : quiet (continueParent s i o).ctl = true) :
    (continueParent s i o).same = false := by
  unfold continueParent at h ⊢
  split at h <;> simp_all [quiet]

theorem quiet_step {s s' : St} {a : Act} (h : quiet s.ctl = true → s.same = false) (hs : step s a = some s') :
    quiet s'.ctl = true → s'.same = false := by
  cases a <;> simp only [step] at hs
  case exec =>
    split at hs
    · cases hs; unfold register; split <;> simp [quiet]
    · cases hs; unfold runBody; split <;> simp [quiet, newTask]
    · split at hs
      · cases hs; simp [quiet]
      · split at hs
        · cases hs
        · cases hs; simp [quiet]
    · split at hs
      · cases hs
      · cases hs; simp [quiet]
    · cases hs; unfold canceled; split
      · simp [quiet]
      · exact quiet_cont _ _ _
    · cases hs; unfold awaitResume; split <;> exact quiet_cont _ _ _
    · cases hs
  case regThrows e =>
    split at hs
    case h_2 => cases hs
    split at hs
    case isFalse => cases hs
    cases hs
    exact quiet_cont _ _ _
  case leaf o x ins =>
    split at hs
    case h_2 => cases hs
    split at hs
    case isFalse => cases hs
    cases hs
    intro hq
    rename_i i _ _ _
    have hq' : quiet (if o = .stopped then Ctl.cancel i else .run i) = true := hq
    split at hq' <;> simp [quiet] at hq'
  case stop =>
    split at hs
    case isFalse => cases hs
    cases hs; exact h
  case enter i =>
    split at hs
    case h_2 => cases hs
    split at hs
    case isFalse => cases hs
    cases hs; exact h
  case ret =>
    split at hs
    case h_2 => cases hs
    split at hs
    case isFalse => cases hs
    cases hs; exact h

theorem stopper_step {s : St} (h : s.same = false) {stk : List Nat} (hst : s.stop = .act stk) :
    ∃ s', Int s' s := by
  by_cases hx : ∃ i, i < s.n ∧ (s.fr i).cb = true ∧ (s.fr i).req = false ∧ (s.fr i).reg = stk.head?
  · obtain ⟨i, h1, h2, h3, h4⟩ := hx
    have hx : (step s (.enter i)).isSome = true := by
      simp only [step, hst]
      rw [if_pos ⟨h, h1, h2, h3, h4⟩]
      rfl
    obtain ⟨s', hs'⟩ := Option.isSome_iff_exists.1 hx
    exact ⟨s', .enter i, rfl, hs'⟩
  · have hx : (step s .ret).isSome = true := by
      simp only [step, hst]
      rw [if_pos ⟨h, fun i hi hc => hx ⟨i, hi, hc⟩⟩]
      rfl
    obtain ⟨s', hs'⟩ := Option.isSome_iff_exists.1 hx
    exact ⟨s', .ret, rfl, hs'⟩

theorem blocked_act {s : St} {i : Nat} (h : blocked s i = true) : s.same = false ∧ ∃ stk, s.stop = .act stk := by
  simp only [blocked, Bool.and_eq_true, Bool.not_eq_true'] at h
  refine ⟨h.2, ?_⟩
  have := h.1.2
  unfold executing at this
  split at this
  · rename_i stk hs; exact ⟨stk, hs⟩
  · cases this

end Verif.Task
