import Verif.Spec.XPathAxes
set_option autoImplicit false
set_option linter.unusedSimpArgs false
set_option linter.unusedVariables false
namespace Verif.XTree
open Verif.Spec.XPathAxes

theorem stepLt_irrefl (x : Step) : ¬ StepLt x x := by cases x <;> simp [StepLt]

theorem stepLt_trans {x y z : Step} (h1 : StepLt x y) (h2 : StepLt y z) : StepLt x z := by
  cases x <;> cases y <;> cases z <;> simp [StepLt] at * <;> omega

theorem stepLt_tri (x y : Step) : StepLt x y ∨ x = y ∨ StepLt y x := by
  cases x <;> cases y <;> simp [StepLt] <;> omega

theorem pathLt_irrefl (a : List Step) : ¬ PathLt a a := by
  induction a with
  | nil => simp [PathLt]
  | cons x a ih => simp [PathLt, stepLt_irrefl, ih]

theorem pathLt_trans {a b c : List Step} (h1 : PathLt a b) (h2 : PathLt b c) : PathLt a c := by
  induction a generalizing b c with
  | nil =>
    cases b with
    | nil => exact absurd rfl h1
    | cons y b =>
      cases c with
      | nil => exact h2.elim
      | cons z c => simp [PathLt]
  | cons x a ih =>
    cases b with
    | nil => exact h1.elim
    | cons y b =>
      cases c with
      | nil => exact h2.elim
      | cons z c =>
        simp only [PathLt] at *
        rcases h1 with h1 | ⟨rfl, h1⟩
        · rcases h2 with h2 | ⟨rfl, h2⟩
          · exact .inl (stepLt_trans h1 h2)
          · exact .inl h1
        · rcases h2 with h2 | ⟨rfl, h2⟩
          · exact .inl h2
          · exact .inr ⟨rfl, ih h1 h2⟩

theorem pathLt_tri (a b : List Step) : PathLt a b ∨ a = b ∨ PathLt b a := by
  induction a generalizing b with
  | nil => cases b <;> simp [PathLt]
  | cons x a ih =>
    cases b with
    | nil => simp [PathLt]
    | cons y b =>
      simp only [PathLt]
      rcases stepLt_tri x y with h | rfl | h
      · exact .inl (.inl h)
      · rcases ih b with h | rfl | h
        · exact .inl (.inr ⟨rfl, h⟩)
        · exact .inr (.inl rfl)
        · exact .inr (.inr (.inr ⟨rfl, h⟩))
      · exact .inr (.inr (.inl h))

theorem before_irrefl (a : Ref) : ¬ Before a a := pathLt_irrefl _
theorem before_trans {a b c : Ref} (h1 : Before a b) (h2 : Before b c) : Before a c := pathLt_trans h1 h2
theorem before_tri (a b : Ref) : Before a b ∨ a = b ∨ Before b a := by
  rcases pathLt_tri a.reverse b.reverse with h | h | h
  · exact .inl h
  · exact .inr (.inl (List.reverse_inj.1 h))
  · exact .inr (.inr h)
theorem before_asymm {a b : Ref} (h1 : Before a b) (h2 : Before b a) : False :=
  before_irrefl _ (before_trans h1 h2)

/-- `a` and `b` part at some node, and `a` goes to the earlier side. -/
def Div (a b : Ref) : Prop := ∃ c x y sx sy, a = sx ++ x :: c ∧ b = sy ++ y :: c ∧ StepLt x y

theorem pathLt_iff (p q : List Step) :
    PathLt p q ↔ (∃ s, s ≠ [] ∧ q = p ++ s) ∨
      ∃ c x y sx sy, p = c ++ x :: sx ∧ q = c ++ y :: sy ∧ StepLt x y := by
  induction p generalizing q with
  | nil =>
    constructor
    · intro h; exact .inl ⟨q, h, rfl⟩
    · rintro (⟨s, hs, rfl⟩ | ⟨c, x, y, sx, sy, h, _⟩)
      · simpa [PathLt] using hs
      · simp at h
  | cons a p ih =>
    cases q with
    | nil =>
      constructor
      · intro h; exact h.elim
      · rintro (⟨s, hs, h⟩ | ⟨c, x, y, sx, sy, _, h, _⟩) <;> simp at h
    | cons b q =>
      simp only [PathLt]
      constructor
      · rintro (h | ⟨rfl, h⟩)
        · exact .inr ⟨[], a, b, p, q, rfl, rfl, h⟩
        · rcases (ih q).1 h with ⟨s, hs, rfl⟩ | ⟨c, x, y, sx, sy, rfl, rfl, h'⟩
          · exact .inl ⟨s, hs, rfl⟩
          · exact .inr ⟨a :: c, x, y, sx, sy, rfl, rfl, h'⟩
      · rintro (⟨s, hs, h⟩ | ⟨c, x, y, sx, sy, h1, h2, h⟩)
        · simp at h
          exact .inr ⟨h.1.symm, (ih q).2 (.inl ⟨s, hs, h.2⟩)⟩
        · cases c with
          | nil =>
            simp at h1 h2
            exact .inl (by rw [h1.1, h2.1]; exact h)
          | cons d c =>
            simp at h1 h2
            exact .inr ⟨by rw [h1.1, h2.1], (ih q).2 (.inr ⟨c, x, y, sx, sy, h1.2, h2.2, h⟩)⟩

theorem before_iff (a b : Ref) : Before a b ↔ Ancestor a b ∨ Div a b := by
  rw [Before, pathLt_iff]
  constructor
  · rintro (⟨s, hs, h⟩ | ⟨c, x, y, sx, sy, h1, h2, h⟩)
    · left
      refine ⟨s.reverse, by simpa using hs, ?_⟩
      have := congrArg List.reverse h
      simpa using this
    · right
      refine ⟨c.reverse, x, y, sx.reverse, sy.reverse, ?_, ?_, h⟩
      · have := congrArg List.reverse h1
        simpa using this
      · have := congrArg List.reverse h2
        simpa using this
  · rintro (⟨s, hs, rfl⟩ | ⟨c, x, y, sx, sy, rfl, rfl, h⟩)
    · left
      exact ⟨s.reverse, by simpa using hs, by simp⟩
    · right
      exact ⟨c.reverse, x, y, sx.reverse, sy.reverse, by simp, by simp, h⟩

theorem before_of_anc {a b : Ref} (h : Ancestor a b) : Before a b := (before_iff a b).2 (.inl h)
theorem before_of_div {a b : Ref} (h : Div a b) : Before a b := (before_iff a b).2 (.inr h)

theorem anc_cons (x : Step) (a : Ref) : Ancestor a (x :: a) := ⟨[x], by simp, rfl⟩
theorem anc_append {s : Ref} (h : s ≠ []) (a : Ref) : Ancestor a (s ++ a) := ⟨s, h, rfl⟩

theorem anc_trans {a b c : Ref} (h1 : Ancestor a b) (h2 : Ancestor b c) : Ancestor a c := by
  obtain ⟨s, hs, rfl⟩ := h1
  obtain ⟨s', hs', rfl⟩ := h2
  exact ⟨s' ++ s, by simp [hs], by simp⟩

theorem anc_irrefl (a : Ref) : ¬ Ancestor a a := by
  rintro ⟨s, hs, h⟩
  have := congrArg List.length h
  simp at this
  exact hs this

theorem not_anc_nil {a : Ref} : ¬ Ancestor a [] := by
  rintro ⟨s, hs, h⟩
  simp at h
  exact hs h.1

theorem anc_cons_iff {a b : Ref} {x : Step} : Ancestor a (x :: b) ↔ a = b ∨ Ancestor a b := by
  constructor
  · rintro ⟨s, hs, h⟩
    cases s with
    | nil => exact absurd rfl hs
    | cons y s =>
      simp at h
      cases s with
      | nil => left; simpa using h.2.symm
      | cons z s => right; exact ⟨z :: s, by simp, h.2⟩
  · rintro (rfl | h)
    · exact anc_cons x a
    · exact anc_trans h (anc_cons x b)

theorem div_iff_of_not_anc {a b : Ref} (h : ¬ Ancestor a b) : Before a b ↔ Div a b := by
  rw [before_iff]
  exact ⟨fun h' => h'.resolve_left h, .inr⟩

theorem not_div_of_anc {a b : Ref} (h : Ancestor a b) : ¬ Div a b := by
  rintro ⟨c, x, y, sx, sy, rfl, h2, hxy⟩
  obtain ⟨s, hs, h⟩ := h
  rw [h2] at h
  have h' : sy ++ [y] = s ++ sx ++ [x] := by
    have : (sy ++ [y]) ++ c = (s ++ sx ++ [x]) ++ c := by simpa using h
    exact List.append_cancel_right this
  have := List.append_inj_right' h' rfl
  simp at this
  rw [this] at hxy
  exact stepLt_irrefl _ hxy

theorem not_div_of_anc' {a b : Ref} (h : Ancestor b a) : ¬ Div a b := by
  intro hd
  exact before_asymm (before_of_anc h) (before_of_div hd)

theorem not_anc_of_div {a b : Ref} (h : Div a b) : ¬ Ancestor a b := fun h' => not_div_of_anc h' h

theorem div_append {a b : Ref} (s s' : Ref) (h : Div a b) : Div (s ++ a) (s' ++ b) := by
  obtain ⟨c, x, y, sx, sy, rfl, rfl, h⟩ := h
  exact ⟨c, x, y, s ++ sx, s' ++ sy, by simp, by simp, h⟩

theorem div_anc {a b c : Ref} (h : Div a b) (h' : Ancestor b c) : Div a c := by
  obtain ⟨s, _, rfl⟩ := h'
  exact div_append [] s h

theorem anc_div {a b c : Ref} (h : Div a b) (h' : Ancestor a c) : Div c b := by
  obtain ⟨s, _, rfl⟩ := h'
  exact div_append s [] h

theorem div_siblings {x y : Step} {up : Ref} (s s' : Ref) (h : StepLt x y) : Div (s ++ x :: up) (s' ++ y :: up) :=
  ⟨up, x, y, s, s', rfl, rfl, h⟩

theorem div_cons_left {x : Step} {up b : Ref} :
    Div (x :: up) b ↔ (∃ s y, b = s ++ y :: up ∧ StepLt x y) ∨ Div up b := by
  constructor
  · rintro ⟨c, x', y, sx, sy, h, rfl, hxy⟩
    cases sx with
    | nil =>
      simp at h
      obtain ⟨rfl, rfl⟩ := h
      exact .inl ⟨sy, y, rfl, hxy⟩
    | cons z sx =>
      simp at h
      exact .inr ⟨c, x', y, sx, sy, h.2, rfl, hxy⟩
  · rintro (⟨s, y, rfl, h⟩ | ⟨c, x', y, sx, sy, rfl, rfl, h⟩)
    · exact ⟨up, x, y, [], s, rfl, rfl, h⟩
    · exact ⟨c, x', y, x :: sx, sy, rfl, rfl, h⟩

theorem div_cons_right {y : Step} {up a : Ref} :
    Div a (y :: up) ↔ (∃ s x, a = s ++ x :: up ∧ StepLt x y) ∨ Div a up := by
  constructor
  · rintro ⟨c, x, y', sx, sy, rfl, h, hxy⟩
    cases sy with
    | nil =>
      simp at h
      obtain ⟨rfl, rfl⟩ := h
      exact .inl ⟨sx, x, rfl, hxy⟩
    | cons z sy =>
      simp at h
      exact .inr ⟨c, x, y', sx, sy, rfl, h.2, hxy⟩
  · rintro (⟨s, x, rfl, h⟩ | ⟨c, x', y', sx, sy, rfl, rfl, h⟩)
    · exact ⟨up, x, y, s, [], rfl, rfl, h⟩
    · exact ⟨c, x', y', sx, y :: sy, rfl, rfl, h⟩

theorem not_div_nil_left {b : Ref} : ¬ Div [] b := by
  rintro ⟨c, x, y, sx, sy, h, _⟩
  simp at h

theorem not_div_nil_right {a : Ref} : ¬ Div a [] := by
  rintro ⟨c, x, y, sx, sy, _, h, _⟩
  simp at h

/-- Exactly one of five. -/
theorem cases5 (a b : Ref) : a = b ∨ Ancestor a b ∨ Ancestor b a ∨ Div a b ∨ Div b a := by
  rcases before_tri a b with h | h | h
  · rcases (before_iff _ _).1 h with h | h
    · exact .inr (.inl h)
    · exact .inr (.inr (.inr (.inl h)))
  · exact .inl h
  · rcases (before_iff _ _).1 h with h | h
    · exact .inr (.inr (.inl h))
    · exact .inr (.inr (.inr (.inr h)))

/-! ## Enumerating a set by least elements -/

/-- `res` is the least element of `S`, or `S` is empty. -/
def Least (lt : Ref → Ref → Prop) (S : Ref → Prop) : Option Ref → Prop
  | none => ∀ y, ¬ S y
  | some x => S x ∧ ∀ y, S y → y = x ∨ lt x y

theorem Least.congr {lt : Ref → Ref → Prop} {S S' : Ref → Prop} {o : Option Ref} (h : Least lt S o)
    (hs : ∀ y, S y ↔ S' y) : Least lt S' o := by
  cases o with
  | none => exact fun y hy => h y ((hs y).2 hy)
  | some x => exact ⟨(hs x).1 h.1, fun y hy => h.2 y ((hs y).2 hy)⟩

theorem drain_done (t : Tree) (ctx : Ref) (axis : Axis) (lt : Ref → Ref → Prop)
    (irr : ∀ a, ¬ lt a a) (tr : ∀ a b c, lt a b → lt b c → lt a c)
    (S : Ref → Prop) (all : List Ref) (hall : ∀ y, S y → y ∈ all)
    (Inv : Walker → Prop)
    (step : ∀ w r, Inv w → w.cur = some r → S r →
      ∃ w', advance t ctx w r axis = .done w' ∧ Inv w' ∧ Least lt (fun y => S y ∧ lt r y) w'.cur) :
    ∀ (m : Nat) (w : Walker) (T : Ref → Prop), Inv w → (∀ y, T y → S y) → Least lt T w.cur →
      (∀ x, w.cur = some x → ∀ y, S y → lt x y → T y) →
      (∀ L : List Ref, L.Nodup → (∀ y ∈ L, T y) → L.length ≤ m) →
      ∃ fuel l, drain t ctx axis fuel w = .done l ∧ (∀ y, y ∈ l ↔ T y) ∧ l.Pairwise lt := by
  intro m
  induction m with
  | zero =>
    intro w T hinv hTS hl hup hm
    cases hc : w.cur with
    | none =>
      rw [hc] at hl
      refine ⟨1, [], ?_, ?_, List.Pairwise.nil⟩
      · simp [drain, hc]
      · intro y; simp; exact hl y
    | some r =>
      rw [hc] at hl
      have := hm [r] (by simp) (by intro y hy; simp at hy; subst hy; exact hl.1)
      simp at this
  | succ m ih =>
    intro w T hinv hTS hl hup hm
    cases hc : w.cur with
    | none =>
      rw [hc] at hl
      refine ⟨1, [], ?_, ?_, List.Pairwise.nil⟩
      · simp [drain, hc]
      · intro y; simp; exact hl y
    | some r =>
      rw [hc] at hl
      obtain ⟨w', hadv, hinv', hl'⟩ := step w r hinv hc (hTS r hl.1)
      obtain ⟨fuel, l, hd, hmem, hp⟩ := ih w' (fun y => S y ∧ lt r y) hinv' (fun y h => h.1) hl'
        (by
          intro x hx y hy hxy
          rw [hx] at hl'
          exact ⟨hy, tr _ _ _ hl'.1.2 hxy⟩)
        (by
          intro L hL hLS
          have := hm (r :: L) (List.nodup_cons.2 ⟨fun hr => irr r (hLS r hr).2, hL⟩) (by
            intro y hy
            rcases List.mem_cons.1 hy with rfl | hy
            · exact hl.1
            · exact hup r hc y (hLS y hy).1 (hLS y hy).2)
          simp at this; exact this)
      refine ⟨fuel + 1, r :: l, ?_, ?_, ?_⟩
      · simp [drain, hc, hadv, hd, Outcome.cons]
      · intro y
        simp only [List.mem_cons, hmem]
        constructor
        · rintro (rfl | h)
          · exact hl.1
          · exact hup r hc y h.1 h.2
        · intro h
          rcases hl.2 y h with rfl | h'
          · exact .inl rfl
          · exact .inr ⟨hTS y h, h'⟩
      · exact List.pairwise_cons.2 ⟨fun y hy => ((hmem y).1 hy).2, hp⟩

theorem length_le_of_nodup_subset {L all : List Ref} (h : L.Nodup) (hs : ∀ y ∈ L, y ∈ all) :
    L.length ≤ all.length := by
  induction L generalizing all with
  | nil => simp
  | cons a L ih =>
    have ha : a ∈ all := hs a (by simp)
    have hn := List.nodup_cons.1 h
    have := ih (all := all.erase a) hn.2 (by
      intro y hy
      have : y ≠ a := fun e => hn.1 (e ▸ hy)
      exact (List.mem_erase_of_ne this).2 (hs y (by simp [hy])))
    rw [List.length_erase_of_mem ha] at this
    have h0 : 0 < all.length := List.length_pos_of_mem ha
    simp; omega

theorem enumerate_done (t : Tree) (ctx : Ref) (axis : Axis) (lt : Ref → Ref → Prop)
    (irr : ∀ a, ¬ lt a a) (tr : ∀ a b c, lt a b → lt b c → lt a c)
    (S : Ref → Prop) (all : List Ref) (hall : ∀ y, S y → y ∈ all)
    (Inv : Walker → Prop) (w : Walker) (hw : create t ctx axis = .done w) (hinv : Inv w)
    (hl : Least lt S w.cur)
    (step : ∀ w r, Inv w → w.cur = some r → S r →
      ∃ w', advance t ctx w r axis = .done w' ∧ Inv w' ∧ Least lt (fun y => S y ∧ lt r y) w'.cur) :
    ∃ fuel l, enumerate t ctx axis fuel = .done l ∧ (∀ y, y ∈ l ↔ S y) ∧ l.Pairwise lt := by
  obtain ⟨fuel, l, hd, h⟩ := drain_done t ctx axis lt irr tr S all hall Inv step all.length w S hinv
    (fun _ h => h) hl (fun _ _ y hy _ => hy)
    (fun L hL hS => length_le_of_nodup_subset hL fun y hy => hall y (hS y hy))
  exact ⟨fuel, l, by rw [enumerate, hw]; exact hd, h⟩

end Verif.XTree
