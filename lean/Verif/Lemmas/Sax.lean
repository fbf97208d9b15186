import Verif.Model.Sax
import Verif.Spec.Sax
set_option autoImplicit false
set_option linter.unusedSimpArgs false
set_option linter.unusedVariables false
namespace Verif.Sax
open Verif.Spec

theorem str_trans {a b c : Str} (h1 : a < b) (h2 : b < c) : a < c := List.lt_trans h1 h2
theorem str_irrefl (a : Str) : ¬ a < a := List.lt_irrefl a

/-- A context in key order. -/
def Sorted (c : Context) : Prop := c.Pairwise (fun a b => ¬ b.1 < a.1)

theorem mmInsert_mem (k v : Str) (c : Context) (e : Str × Str) :
    e ∈ mmInsert k v c ↔ e = (k, v) ∨ e ∈ c := by
  induction c with
  | nil => simp [mmInsert]
  | cons x m ih =>
    unfold mmInsert
    split
    · simp
    · simp only [List.mem_cons, ih]
      constructor
      · rintro (h | h | h) <;> simp [h]
      · rintro (h | h | h) <;> simp [h]

theorem mmInsert_sorted (k v : Str) (c : Context) (h : Sorted c) : Sorted (mmInsert k v c) := by
  unfold Sorted at *
  induction c with
  | nil => simp [mmInsert]
  | cons x m ih =>
    rw [List.pairwise_cons] at h
    unfold mmInsert
    split
    · rename_i hk
      refine List.Pairwise.cons ?_ (List.Pairwise.cons h.1 h.2)
      intro e he
      cases List.mem_cons.mp he with
      | inl e1 => rw [e1]; intro h'; exact str_irrefl _ (str_trans hk h')
      | inr e1 => intro h'; exact h.1 e e1 (str_trans h' hk)
    · rename_i hk
      refine List.Pairwise.cons ?_ (ih h.2)
      intro e he
      rcases (mmInsert_mem k v m e).mp he with rfl | he
      · exact hk
      · exact h.1 e he

theorem mmFind_insert (k v p : Str) (c : Context) (h : Sorted c) :
    mmFind p (mmInsert k v c) = if p = k ∧ mmFind p c = none then some v else mmFind p c := by
  unfold Sorted at h
  induction c with
  | nil => simp [mmInsert, mmFind, eq_comm]
  | cons x m ih =>
    rw [List.pairwise_cons] at h
    unfold mmInsert
    split
    · rename_i hk
      by_cases hp : p = k
      · subst hp
        have hx : x.1 ≠ p := by intro e; rw [e] at hk; exact str_irrefl _ hk
        have hm : mmFind p m = none := by
          have : ∀ e ∈ m, e.1 ≠ p := by
            intro e he e1
            exact h.1 e he (e1 ▸ hk)
          clear ih h
          induction m with
          | nil => rfl
          | cons y m ih =>
            rw [mmFind, if_neg (this y (by simp)), ih (fun e he => this e (by simp [he]))]
        simp [mmFind, hx, hm]
      · simp [mmFind, Ne.symm hp, hp]
    · rename_i hk
      by_cases hx : x.1 = p
      · simp [mmFind, hx]
      · simp only [mmFind, if_neg hx]
        exact ih h.2

theorem mmFind_some_mem (p u : Str) (c : Context) (h : mmFind p c = some u) : (p, u) ∈ c := by
  induction c with
  | nil => simp [mmFind] at h
  | cons x m ih =>
    unfold mmFind at h
    split at h
    · rename_i hx; simp at h; subst hx h; simp
    · simp [ih h]

theorem mmFind_none (p : Str) (c : Context) : mmFind p c = none ↔ ∀ u, (p, u) ∉ c := by
  constructor
  · intro h u hm
    induction c with
    | nil => simp at hm
    | cons x m ih =>
      unfold mmFind at h
      split at h
      · simp at h
      · rename_i hx
        cases List.mem_cons.mp hm with
        | inl e => rw [← e] at hx; exact hx rfl
        | inr e => exact ih h e
  · intro h
    cases hf : mmFind p c with
    | none => rfl
    | some u => exact absurd (mmFind_some_mem p u c hf) (h u)

/-- A state and the scopes it stands for. -/
def Rep : NsState → Sax.Scopes → Prop
  | [], [] => True
  | c :: s, f :: t => Sorted c ∧ (∀ p, mmFind p c = f p) ∧ Rep s t
  | _, _ => False

theorem rep_lookup (p : Str) : ∀ (s : NsState) (t : Sax.Scopes), Rep s t → nsFind p s = Sax.lookup p t
  | [], [], _ => rfl
  | c :: s, f :: t, h => by
    obtain ⟨_, h2, h3⟩ := h
    have ih := rep_lookup p s t h3
    unfold nsFind Sax.lookup
    rw [h2 p, ih]
    cases f p <;> rfl
  | [], _ :: _, h => h.elim
  | _ :: _, [], h => h.elim

theorem rep_init : Rep nsInit Sax.initial := by
  refine ⟨mmInsert_sorted _ _ _ List.Pairwise.nil, ?_, trivial⟩
  intro p
  show (if xmlPrefix = p then some xmlUri else none) = (if p = "xml".toList then some xmlUri else none)
  by_cases h : p = xmlPrefix
  · subst h; rfl
  · rw [if_neg (Ne.symm h)]
    exact (if_neg (show ¬ p = "xml".toList from h)).symm

theorem rep_declare (p u : Str) : ∀ (s : NsState) (t : Sax.Scopes) (c : Context), Rep (c :: s) t →
    Rep (mmInsert p u c :: s) (Sax.declareOnce p u t)
  | s, [], c, h => h.elim
  | s, f :: t, c, h => by
    obtain ⟨h1, h2, h3⟩ := h
    refine ⟨mmInsert_sorted p u c h1, ?_, h3⟩
    intro q
    rw [mmFind_insert p u q c h1, h2 q]

/-! ## attributes -/

theorem attModify_eq (f : Attr → Attr) (i : Nat) (l : List Attr) :
    attModify f i l = l.modify i f := by
  induction l generalizing i with
  | nil => cases i <;> simp [attModify]
  | cons a l ih =>
    cases i with
    | zero => simp [attModify]
    | succ i => simp [attModify, ih]

theorem attErase_eq (i : Nat) (l : List Attr) : attErase i l = l.eraseIdx i := by
  induction l generalizing i with
  | nil => cases i <;> simp [attErase]
  | cons a l ih =>
    cases i with
    | zero => simp [attErase]
    | succ i => simp [attErase, ih]

/-! ## bases -/

/-- The stack of `XMLBaseSupport` and the bases of the open elements. -/
inductive BRel : List (Int × Str) → Int → List Str → Prop
  | doc (loc : Str) : BRel [(-1, loc)] 0 [loc]
  | inherit (bs : List (Int × Str)) (d : Int) (b : Str) (st : List Str) :
      BRel bs d (b :: st) → BRel bs (d + 1) (b :: b :: st)
  | own (bs : List (Int × Str)) (d : Int) (b b' : Str) (st : List Str) :
      BRel bs d (b :: st) → BRel ((d + 1, b') :: bs) (d + 1) (b' :: b :: st)

theorem brel_head {bs : List (Int × Str)} {d : Int} {st : List Str} (h : BRel bs d st) :
    ∃ e bs' b st', bs = e :: bs' ∧ st = b :: st' ∧ e.2 = b ∧ e.1 ≤ d ∧ 0 ≤ d := by
  induction h with
  | doc loc => exact ⟨_, _, _, _, rfl, rfl, rfl, (by decide : (-1 : Int) ≤ 0), by decide⟩
  | inherit bs d b st _ ih =>
    obtain ⟨e, bs', b1, st', h1, h2, h3, h4, h5⟩ := ih
    cases h2
    exact ⟨e, bs', b, _, h1, rfl, h3, by omega, by omega⟩
  | own bs d b b' st _ ih =>
    obtain ⟨e, bs', b1, st', h1, h2, h3, h4, h5⟩ := ih
    exact ⟨_, _, _, _, rfl, rfl, rfl, Int.le_refl _, by omega⟩

def resolveOpt (b xb : Str) : Option Str :=
  match absolutise b xb with
  | .ok r => some r
  | _ => none

def evOf : Option Str → BaseEv
  | some xb => .start xb
  | none => .stop

theorem brel_run : ∀ (evs : List (Option Str)) (s : BaseState) (st st' : List Str),
    BRel s.bases s.depth st → Sax.baseStack resolveOpt evs st = some st' →
    ∃ s', baseRun (evs.map evOf) s = .ok s' ∧ BRel s'.bases s'.depth st'
  | [], s, st, st', h, he => by
    simp [Sax.baseStack] at he; subst he; exact ⟨s, rfl, h⟩
  | some xb :: t, s, [], st', h, he => by simp [Sax.baseStack] at he
  | none :: t, s, [], st', h, he => by simp [Sax.baseStack] at he
  | none :: t, s, [_], st', h, he => by simp [Sax.baseStack] at he
  | some xb :: t, s, b :: st, st', h, he => by
    rw [Sax.baseStack] at he
    have hcur : currentBase s = b := by
      obtain ⟨e, bs', b1, st1, h1, h2, h3, _⟩ := brel_head h
      cases h2
      unfold currentBase; rw [h1]; exact h3
    simp only [List.map_cons, evOf, baseRun, baseStart]
    by_cases hx : xb = []
    · rw [if_pos hx] at he
      rw [if_pos hx]
      exact brel_run t ⟨s.bases, s.depth + 1⟩ _ _ (.inherit _ _ _ _ h) he
    · rw [if_neg hx] at he
      rw [if_neg hx, hcur]
      unfold resolveOpt at he
      cases ha : absolutise b xb with
      | ok r =>
        rw [ha] at he
        exact brel_run t ⟨(s.depth + 1, r) :: s.bases, s.depth + 1⟩ _ _ (.own _ _ _ _ _ h) he
      | throws => rw [ha] at he; simp at he
      | ub => rw [ha] at he; simp at he
      | diverges => rw [ha] at he; simp at he
  | none :: t, s, b' :: b :: st, st', h, he => by
    rw [Sax.baseStack] at he
    simp only [List.map_cons, evOf, baseRun]
    refine brel_run t (baseEnd s) (b :: st) st' ?_ he
    obtain ⟨bases, depth⟩ := s
    simp only at h
    cases h with
    | inherit _ d _ _ h =>
      obtain ⟨e, bs', b1, st1, h1, h2, h3, h4, h5⟩ := brel_head h
      subst h1
      have : ¬ e.1 = d + 1 := by omega
      simp only [baseEnd, currentDepth, this, if_false]
      rw [show d + 1 - 1 = d by omega]; exact h
    | own bs d _ _ _ h =>
      simp only [baseEnd, currentDepth, if_true, List.drop_succ_cons, List.drop_zero]
      rw [show d + 1 - 1 = d by omega]; exact h

end Verif.Sax
