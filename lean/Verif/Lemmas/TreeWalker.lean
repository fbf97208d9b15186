import Verif.Spec.TreeWalker
import Verif.Lemmas.XStringValue
set_option autoImplicit false
set_option linter.unusedSimpArgs false
set_option linter.unusedVariables false
namespace Verif.Walker
open Verif.XTree Verif.Spec.XPathAxes Verif.Spec.TreeWalker

theorem acceptNode_eq (t : Tree) (w : WalkState) (r : Ref) : acceptNode t w r = verdict t w r := by
  rw [acceptNode, verdict]
  cases kindOf t r with
  | none => rfl
  | some k =>
    have h : (1 <<< (nodeType k - 1)) = showBit k := by cases k <;> rfl
    simp only [h]
    by_cases e : w.whatToShow &&& showBit k = 0
    · simp [e]; cases w.filter <;> rfl
    · simp [e]; cases w.filter <;> rfl

mutual
theorem tree_ind {P : Tree → Prop} (h : ∀ n : Tree, (∀ c ∈ n.kids, P c) → P n) : ∀ n : Tree, P n
  | .node d a kids => h _ (trees_ind h kids)
theorem trees_ind {P : Tree → Prop} (h : ∀ n : Tree, (∀ c ∈ n.kids, P c) → P n) : ∀ l : List Tree, ∀ c ∈ l, P c
  | [], _, hc => absurd hc (by simp)
  | c :: cs, x, hx => by
    rcases List.mem_cons.1 hx with e | e
    · rw [e]; exact tree_ind h c
    · exact trees_ind h cs x e
end

/-- A function with a bound on the recursion has a value. -/
def Evals {α : Type} (f : Nat → Outcome α) (x : α) : Prop := ∃ k, ∀ j, k ≤ j → f j = .done x

theorem Evals.succ {α : Type} {f : Nat → Outcome α} {x : α} (h : Evals (fun j => f (j + 1)) x) : Evals f x := by
  obtain ⟨k, hk⟩ := h
  refine ⟨k + 1, fun j hj => ?_⟩
  obtain ⟨j, rfl⟩ : ∃ i, j = i + 1 := ⟨j - 1, by omega⟩
  exact hk j (by omega)

theorem Evals.const {α : Type} (x : α) : Evals (fun _ => .done x) x := ⟨0, fun _ _ => rfl⟩

theorem Evals.congr {α : Type} {f g : Nat → Outcome α} {x : α} (h : Evals f x) (e : ∀ j, f j = .done x → g j = .done x) :
    Evals g x := by
  obtain ⟨k, hk⟩ := h
  exact ⟨k, fun j hj => e j (hk j hj)⟩

/-! ## The view as lists -/

section
variable (v : Ref → Verdict) (b : Ref → Bool)

mutual
/-- The children of a node in the view. -/
def tops (r : Ref) : Tree → List Ref
  | .node _ _ kids => if b r then [] else topsL r 0 kids
def topsL (r : Ref) : Nat → List Tree → List Ref
  | _, [] => []
  | i, c :: cs =>
    (match v (.child i :: r) with
      | .accept => [.child i :: r]
      | .skip => tops (.child i :: r) c
      | .reject => []) ++ topsL r (i + 1) cs
end

mutual
/-- The nodes below a node in the view. -/
def vis (r : Ref) : Tree → List Ref
  | .node _ _ kids => if b r then [] else visL r 0 kids
def visL (r : Ref) : Nat → List Tree → List Ref
  | _, [] => []
  | i, c :: cs =>
    (match v (.child i :: r) with
      | .accept => (.child i :: r) :: vis (.child i :: r) c
      | .skip => vis (.child i :: r) c
      | .reject => []) ++ visL r (i + 1) cs
end

/-- A node itself, as far as it is in the view. -/
def topsN (r : Ref) (n : Tree) : List Ref :=
  match v r with
  | .accept => [r]
  | .skip => tops v b r n
  | .reject => []

def visN (r : Ref) (n : Tree) : List Ref :=
  match v r with
  | .accept => r :: vis v b r n
  | .skip => vis v b r n
  | .reject => []

theorem tops_eq (r : Ref) (n : Tree) : tops v b r n = if b r then [] else topsL v b r 0 n.kids := by
  cases n; rw [tops]; rfl

theorem vis_eq (r : Ref) (n : Tree) : vis v b r n = if b r then [] else visL v b r 0 n.kids := by
  cases n; rw [vis]; rfl

theorem topsL_cons (r : Ref) (i : Nat) (c : Tree) (cs : List Tree) :
    topsL v b r i (c :: cs) = topsN v b (.child i :: r) c ++ topsL v b r (i + 1) cs := by rw [topsL]; rfl

theorem visL_cons (r : Ref) (i : Nat) (c : Tree) (cs : List Tree) :
    visL v b r i (c :: cs) = visN v b (.child i :: r) c ++ visL v b r (i + 1) cs := by rw [visL]; rfl

theorem topsL_append (r : Ref) (l l' : List Tree) (i : Nat) :
    topsL v b r i (l ++ l') = topsL v b r i l ++ topsL v b r (i + l.length) l' := by
  induction l generalizing i with
  | nil => simp [topsL]
  | cons c l ih =>
    rw [List.cons_append, topsL_cons, topsL_cons, ih, List.append_assoc, List.length_cons,
      show i + 1 + l.length = i + (l.length + 1) by omega]

theorem visL_append (r : Ref) (l l' : List Tree) (i : Nat) :
    visL v b r i (l ++ l') = visL v b r i l ++ visL v b r (i + l.length) l' := by
  induction l generalizing i with
  | nil => simp [visL]
  | cons c l ih =>
    rw [List.cons_append, visL_cons, visL_cons, ih, List.append_assoc, List.length_cons,
      show i + 1 + l.length = i + (l.length + 1) by omega]

theorem head_vis : ∀ (n : Tree) (r : Ref), (tops v b r n).head? = (vis v b r n).head? := by
  refine tree_ind (P := fun n => ∀ r, (tops v b r n).head? = (vis v b r n).head?) ?_
  intro n ih r
  rw [tops_eq, vis_eq]
  by_cases hb : b r = true
  · rw [if_pos hb, if_pos hb]
  · rw [if_neg hb, if_neg hb]
    have : ∀ (cs : List Tree) (i : Nat), (∀ c ∈ cs, c ∈ n.kids) → (topsL v b r i cs).head? = (visL v b r i cs).head? := by
      intro cs
      induction cs with
      | nil => intro i _; rfl
      | cons c cs ih' =>
        intro i hcs
        rw [topsL_cons, visL_cons, List.head?_append, List.head?_append, ih' (i + 1) fun c hc => hcs c (by simp [hc])]
        congr 1
        rw [topsN, visN]
        cases v (.child i :: r) with
        | accept => rfl
        | skip => exact ih c (hcs c (by simp)) _
        | reject => rfl
    exact this n.kids 0 fun _ h => h

theorem head_visL (r : Ref) (i : Nat) (cs : List Tree) : (topsL v b r i cs).head? = (visL v b r i cs).head? := by
  induction cs generalizing i with
  | nil => rfl
  | cons c cs ih =>
    rw [topsL_cons, visL_cons, List.head?_append, List.head?_append, ih]
    congr 1
    rw [topsN, visN]
    cases v (.child i :: r) with
    | accept => rfl
    | skip => exact head_vis v b c _
    | reject => rfl

end

/-! ## The functions -/

/-- The view does not go into the node. -/
def blocked (t : Tree) (w : WalkState) (r : Ref) : Bool := !w.expand && decide (kindOf t r = some .entityRef)

theorem blocked_iff {t : Tree} {w : WalkState} {r : Ref} :
    blocked t w r = true ↔ (w.expand = false ∧ kindOf t r = some .entityRef) := by
  simp [blocked]

section
variable {t : Tree} {w : WalkState}

/-- What is found when leaving a node upwards. -/
def Climb (f : Nat → Ref → Outcome (Option Ref)) (t : Tree) (w : WalkState) (r : Ref) (x : Option Ref) : Prop :=
  (r = w.root ∧ x = none) ∨ (r ≠ w.root ∧ acceptNode t w r = .skip ∧ Evals (fun j => f j r) x) ∨
    (r ≠ w.root ∧ acceptNode t w r ≠ .skip ∧ x = none)

theorem child_ne_root {s : Ref} {i : Nat} {r : Ref} (h : r = s ++ w.root) : Step.child i :: r ≠ w.root := by
  intro e
  have := congrArg List.length e
  rw [h] at this
  simp at this
  omega

theorem kidsOf_eq {r : Ref} {n : Tree} (h : sub t r = some n) : kidsOf t r = n.kids := by rw [kidsOf, h]

theorem nextSibling_some {r : Ref} {n c : Tree} {l cs : List Tree} (h : sub t r = some n) {c0 : Tree}
    (hk : n.kids = l ++ c0 :: c :: cs) : nextSibling t (.child l.length :: r) = some (.child (l.length + 1) :: r) := by
  rw [nextSibling, kidsOf_eq h, hk, if_pos (by simp)]

theorem nextSibling_none {r : Ref} {n : Tree} {l : List Tree} (h : sub t r = some n) {c0 : Tree}
    (hk : n.kids = l ++ [c0]) : nextSibling t (.child l.length :: r) = none := by
  rw [nextSibling, kidsOf_eq h, hk, if_neg (by simp)]

theorem sub_kid {r : Ref} {n c : Tree} {l cs : List Tree} (h : sub t r = some n) (hk : n.kids = l ++ c :: cs) :
    sub t (.child l.length :: r) = some c := by
  rw [sub, h]
  simp [Tree.step, hk]

/-- `getFirstChildImpl` finds the first child in the view, or leaves the node. -/
def FirstOk (t : Tree) (w : WalkState) (n : Tree) : Prop :=
  ∀ r s, r = s ++ w.root → sub t r = some n → ∀ x, Climb (getNextSiblingImpl t w) t w r x →
    (n.kids ≠ [] ∨ r = w.root ∨ acceptNode t w r ≠ .skip) →
    Evals (fun j => getFirstChildImpl t w j r) ((tops (acceptNode t w) (blocked t w) r n).head?.or x)

/-- `getNextSiblingImpl` finds the next child in the view, or leaves the parent. -/
theorem nextSibling_ok (hE : EntitiesShown t w) {n : Tree} (ih : ∀ c ∈ n.kids, FirstOk t w c) {r s : Ref} (hr : r = s ++ w.root)
    (hn : sub t r = some n) {x : Option Ref} (hx : Climb (getNextSiblingImpl t w) t w r x) :
    ∀ (cs l : List Tree) (c0 : Tree), n.kids = l ++ c0 :: cs →
      Evals (fun j => getNextSiblingImpl t w j (.child l.length :: r))
        ((topsL (acceptNode t w) (blocked t w) r (l.length + 1) cs).head?.or x) := by
  intro cs
  induction cs with
  | nil =>
    intro l c0 hk
    have h1 := nextSibling_none hn hk
    refine Evals.succ ?_
    simp only [getNextSiblingImpl, if_neg (child_ne_root hr), h1, parentNode]
    rw [show (topsL (acceptNode t w) (blocked t w) r (l.length + 1) []).head?.or x = x from rfl]
    rcases hx with ⟨h, rfl⟩ | ⟨h, h', he⟩ | ⟨h, h', rfl⟩
    · simp only [if_pos h]; exact .const none
    · simp only [if_neg h, if_pos h']; exact he
    · simp only [if_neg h, if_neg h']; exact .const none
  | cons c cs ihl =>
    intro l c0 hk
    have hk' : n.kids = (l ++ [c0]) ++ c :: cs := by rw [hk]; simp
    have h1 := nextSibling_some hn hk
    have hsub : sub t (.child (l.length + 1) :: r) = some c := by
      have := sub_kid hn hk'
      simpa using this
    have hrest := ihl (l ++ [c0]) c hk'
    rw [List.length_append, List.length_cons, List.length_nil, Nat.zero_add] at hrest
    refine Evals.succ ?_
    simp only [getNextSiblingImpl, if_neg (child_ne_root hr), h1]
    rw [topsL_cons, topsN]
    have hne : Step.child (l.length + 1) :: r ≠ w.root := child_ne_root hr
    cases hv : acceptNode t w (.child (l.length + 1) :: r) with
    | accept => exact .const _
    | reject => exact hrest
    | skip =>
      simp only
      have hb : blocked t w (.child (l.length + 1) :: r) = false := by
        cases hbl : blocked t w (.child (l.length + 1) :: r) with
        | false => rfl
        | true =>
          obtain ⟨h2, h3⟩ := blocked_iff.1 hbl
          rcases hE with h | h
          · rw [h] at h2; cases h2
          · exact absurd (by rw [← acceptNode_eq]; exact hv) (h _ h3)
      by_cases hck : c.kids = []
      · have hf : ∀ j, getFirstChildImpl t w (j + 1) (.child (l.length + 1) :: r) = .done none := by
          intro j
          rw [getFirstChildImpl, if_neg (fun h => by rw [blocked_iff.2 h] at hb; cases hb)]
          simp only [firstChild, kidsOf_eq hsub, hck]
        have hh : hasChildNodes t (.child (l.length + 1) :: r) = false := by simp [hasChildNodes, kidsOf_eq hsub, hck]
        have ht : tops (acceptNode t w) (blocked t w) (.child (l.length + 1) :: r) c = [] := by
          rw [tops_eq, hck]; simp [topsL]
        rw [ht, List.nil_append]
        refine Evals.succ ?_
        simp only [hf, hh]
        obtain ⟨k, hk⟩ := hrest
        exact ⟨k, fun j hj => hk (j + 1) (by omega)⟩
      · have hc := ih c (by rw [hk]; simp) (.child (l.length + 1) :: r) (.child (l.length + 1) :: s) (by rw [hr]; rfl) hsub _
          (.inr (.inl ⟨hne, hv, hrest⟩)) (.inl hck)
        have hh : hasChildNodes t (.child (l.length + 1) :: r) = true := by
          simp [hasChildNodes, kidsOf_eq hsub, hck]
        rw [List.head?_append, Option.or_assoc]
        refine hc.congr fun j hj => ?_
        rw [hj]
        simp only [hh]
        cases ((tops (acceptNode t w) (blocked t w) (.child (l.length + 1) :: r) c).head?.or
          ((topsL (acceptNode t w) (blocked t w) r (l.length + 1 + 1) cs).head?.or x)) <;> rfl

theorem firstChild_ok (hE : EntitiesShown t w) : ∀ n : Tree, FirstOk t w n := by
  refine tree_ind ?_
  intro n ih r s hr hn x hx hcond
  by_cases hb : blocked t w r = true
  · have hx' : x = none := by
      rcases hx with ⟨_, h⟩ | ⟨_, h', _⟩ | ⟨_, _, h⟩
      · exact h
      · obtain ⟨h2, h3⟩ := blocked_iff.1 hb
        rcases hE with h | h
        · rw [h] at h2; cases h2
        · exact absurd (by rw [← acceptNode_eq]; exact h') (h _ h3)
      · exact h
    subst hx'
    rw [tops_eq, if_pos hb]
    refine Evals.succ ?_
    simp only [getFirstChildImpl, if_pos (blocked_iff.1 hb)]
    exact .const none
  · rw [tops_eq, if_neg hb]
    refine Evals.succ ?_
    simp only [getFirstChildImpl, if_neg (fun h => hb (blocked_iff.2 h)), firstChild, kidsOf_eq hn]
    cases hk : n.kids with
    | nil =>
      simp only
      have hx' : x = none := by
        rcases hx with ⟨_, h⟩ | ⟨h1, h2, _⟩ | ⟨_, _, h⟩
        · exact h
        · rcases hcond with h | h | h
          · exact absurd hk h
          · exact absurd h h1
          · exact absurd h2 h
        · exact h
      subst hx'
      exact .const none
    | cons c cs =>
      simp only
      have hsub : sub t (.child 0 :: r) = some c := sub_kid (l := []) hn hk
      have hrest := nextSibling_ok hE ih hr hn hx cs [] c hk
      simp only [List.length_nil, Nat.zero_add] at hrest
      rw [topsL_cons, topsN, Nat.zero_add]
      have hne : Step.child 0 :: r ≠ w.root := child_ne_root hr
      cases hv : acceptNode t w (.child 0 :: r) with
      | accept => exact .const _
      | reject => exact hrest
      | skip =>
        simp only
        by_cases hck : c.kids = []
        · have hh : hasChildNodes t (.child 0 :: r) = false := by simp [hasChildNodes, kidsOf_eq hsub, hck]
          have ht : tops (acceptNode t w) (blocked t w) (.child 0 :: r) c = [] := by
            rw [tops_eq, hck]; simp [topsL]
          rw [ht, List.nil_append]
          simp only [hh]
          exact hrest
        · have hc := ih c (by rw [hk]; simp) (.child 0 :: r) (.child 0 :: s) (by rw [hr]; rfl) hsub _
            (.inr (.inl ⟨hne, hv, hrest⟩)) (.inl hck)
          have hh : hasChildNodes t (.child 0 :: r) = true := by
            simp [hasChildNodes, kidsOf_eq hsub, hck]
          rw [List.head?_append, Option.or_assoc]
          simp only [hh]
          exact hc

end
end Verif.Walker
