import Verif.Spec.XPathPath
import Verif.Lemmas.XTreeAxes
set_option autoImplicit false
set_option linter.unusedSimpArgs false
set_option linter.unusedVariables false
namespace Verif.XTree
open Verif.Spec.XPathAxes Verif.Spec.XPathPath

theorem sub_app (t : Tree) (s r : Ref) : sub t (s ++ r) = (sub t r).bind fun n => sub n s := by
  induction s with
  | nil => cases h : sub t r <;> simp [sub, h]
  | cons x s ih =>
    rw [List.cons_append, sub, ih]
    cases h : sub t r with
    | none => simp
    | some n => simp only [Option.bind_some]; rfl

theorem sub_app_some {t n : Tree} {r : Ref} (h : sub t r = some n) (s : Ref) : sub t (s ++ r) = sub n s := by
  rw [sub_app, h]; rfl

theorem sub_last {t : Tree} {s : Ref} {i : Nat} : sub t (s ++ [.child i]) = (t.kids[i]?).bind fun n => sub n s := by
  rw [sub_app]; rfl

mutual
/-- The nodes below a node, by children, in document order. -/
def pre : Tree → List Ref
  | .node _ _ kids => preL 0 kids
def preL : Nat → List Tree → List Ref
  | _, [] => []
  | i, c :: cs => [.child i] :: ((pre c).map fun s => s ++ [Step.child i]) ++ preL (i + 1) cs
end

theorem pre_eq (n : Tree) : pre n = preL 0 n.kids := by cases n; rw [pre]; rfl

theorem mem_preL {i : Nat} {cs : List Tree} {s : Ref} :
    s ∈ preL i cs ↔ ∃ (j : Nat) (c : Tree) (s' : Ref), cs[j]? = some c ∧ s = s' ++ [.child (i + j)] ∧ (s' = [] ∨ s' ∈ pre c) := by
  induction cs generalizing i with
  | nil => simp [preL]
  | cons c cs ih =>
    rw [preL, List.mem_append, ih, List.mem_cons, List.mem_map]
    constructor
    · rintro ((rfl | ⟨s', h, rfl⟩) | ⟨j, c', s', h1, h2, h3⟩)
      · exact ⟨0, c, [], rfl, by simp, .inl rfl⟩
      · exact ⟨0, c, s', rfl, by simp, .inr h⟩
      · exact ⟨j + 1, c', s', h1, by rw [h2]; congr 3; omega, h3⟩
    · rintro ⟨j, c', s', h1, h2, h3⟩
      cases j with
      | zero =>
        simp at h1
        subst h1
        rcases h3 with rfl | h3
        · exact .inl (.inl (by simpa using h2))
        · exact .inl (.inr ⟨s', h3, by simpa using h2.symm⟩)
      | succ j => exact .inr ⟨j, c', s', h1, by rw [h2]; congr 3; omega, h3⟩

theorem mem_pre {s : Ref} : ∀ {n : Tree}, s ∈ pre n ↔ s ≠ [] ∧ AllChild s ∧ (sub n s).isSome := by
  have : ∀ (k : Nat) (s : Ref), s.length = k → ∀ n : Tree, (s ∈ pre n ↔ s ≠ [] ∧ AllChild s ∧ (sub n s).isSome) := by
    intro k
    induction k with
    | zero =>
      intro s hs n
      have := List.length_eq_zero_iff.1 hs
      subst this
      rw [pre_eq, mem_preL]
      simp
    | succ k ih =>
      intro s hs n
      have hne : s ≠ [] := by rintro rfl; simp at hs
      rw [pre_eq, mem_preL]
      obtain ⟨s', x, rfl⟩ : ∃ s' x, s = s' ++ [x] := ⟨s.dropLast, s.getLast hne, (List.dropLast_concat_getLast hne).symm⟩
      simp at hs
      constructor
      · rintro ⟨j, c, s'', h1, h2, h3⟩
        simp at h2
        obtain ⟨rfl, rfl⟩ := h2
        refine ⟨hne, ?_, ?_⟩
        · refine allChild_append.2 ⟨?_, by simp [AllChild]⟩
          rcases h3 with rfl | h3
          · exact allChild_nil
          · exact ((ih s' hs c).1 h3).2.1
        · rw [sub_last, h1]
          rcases h3 with rfl | h3
          · rfl
          · exact ((ih s' hs c).1 h3).2.2
      · rintro ⟨_, h2, h3⟩
        obtain ⟨h4, h5⟩ := allChild_append.1 h2
        obtain ⟨i, rfl⟩ := h5 x (by simp)
        rw [sub_last] at h3
        cases hc : n.kids[i]? with
        | none => rw [hc] at h3; simp at h3
        | some c =>
          rw [hc] at h3
          refine ⟨i, c, s', hc, by simp, ?_⟩
          by_cases e : s' = []
          · exact .inl e
          · exact .inr ((ih s' hs c).2 ⟨e, h4, h3⟩)
  intro n
  exact this s.length s rfl n

theorem before_last {s s' : Ref} {x : Step} : Before (s ++ [x]) (s' ++ [x]) ↔ Before s s' := by
  simp [Before, PathLt, stepLt_irrefl]

mutual
theorem pre_sorted : ∀ n : Tree, (pre n).Pairwise Before
  | .node _ _ kids => by rw [pre]; exact preL_sorted kids 0
theorem preL_sorted : ∀ (cs : List Tree) (i : Nat), (preL i cs).Pairwise Before
  | [], _ => by rw [preL]; exact List.Pairwise.nil
  | c :: cs, i => by
    rw [preL]
    have h1 := pre_sorted c
    have h2 := preL_sorted cs (i + 1)
    refine List.pairwise_append.2 ⟨List.pairwise_cons.2 ⟨?_, ?_⟩, h2, ?_⟩
    · intro s hs
      obtain ⟨s', h, rfl⟩ := List.mem_map.1 hs
      exact before_of_anc (anc_append (mem_pre.1 h).1 _)
    · exact List.pairwise_map.2 (h1.imp fun h => before_last.2 h)
    · intro a ha b hb
      obtain ⟨j, c', s', h3, rfl, _⟩ := mem_preL.1 hb
      obtain ⟨s'', rfl⟩ : ∃ s'', a = s'' ++ [Step.child i] := by
        rcases List.mem_cons.1 ha with rfl | ha
        · exact ⟨[], rfl⟩
        · obtain ⟨s', h, rfl⟩ := List.mem_map.1 ha
          exact ⟨s', rfl⟩
      exact before_of_div (div_siblings (up := []) s'' s' (by simp only [StepLt]; omega))
end

/-- Two sorted lists with the same members are the same. -/
theorem sorted_unique {α : Type} {lt : α → α → Prop} (irr : ∀ a, ¬ lt a a) (asy : ∀ a b, lt a b → lt b a → False) {l l' : List α}
    (h : l.Pairwise lt) (h' : l'.Pairwise lt) (hm : ∀ x, x ∈ l ↔ x ∈ l') : l = l' := by
  induction l generalizing l' with
  | nil =>
    cases l' with
    | nil => rfl
    | cons a l' => exact absurd ((hm a).2 (by simp)) (by simp)
  | cons a l ih =>
    cases l' with
    | nil => exact absurd ((hm a).1 (by simp)) (by simp)
    | cons b l' =>
      have h1 := List.pairwise_cons.1 h
      have h2 := List.pairwise_cons.1 h'
      have hab : a = b := by
        rcases List.mem_cons.1 ((hm a).1 (by simp)) with e | e
        · exact e
        · rcases List.mem_cons.1 ((hm b).2 (by simp)) with e' | e'
          · exact e'.symm
          · exact (asy _ _ (h2.1 a e) (h1.1 b e')).elim
      subst hab
      congr 1
      refine ih h1.2 h2.2 fun x => ?_
      constructor
      · intro hx
        rcases List.mem_cons.1 ((hm x).1 (by simp [hx])) with e | e
        · subst e; exact absurd (h1.1 x hx) (irr x)
        · exact e
      · intro hx
        rcases List.mem_cons.1 ((hm x).2 (by simp [hx])) with e | e
        · subst e; exact absurd (h2.1 x hx) (irr x)
        · exact e

/-- A further piece of text. -/
def isCont (n : Tree) : Ref → Bool
  | .child (j + 1) :: up => isTextAt n (.child (j + 1) :: up) && isTextAt n (.child j :: up)
  | _ => false

theorem isCont_iff {n : Tree} {s : Ref} : isCont n s = true ↔ Cont n s := by
  match s with
  | [] => simp [isCont, Cont]
  | .attr _ :: _ => simp [isCont, Cont]
  | .child 0 :: _ => simp [isCont, Cont]
  | .child (j + 1) :: up => simp [isCont, Cont, isTextAt_iff]

/-- What a node adds to the text. -/
def contrib (n : Tree) (s : Ref) : Str := if isTextAt n s = true ∧ isCont n s = false then textValue n s else []

theorem isTextAt_last {n : Tree} {s : Ref} {i : Nat} {c : Tree} (hc : n.kids[i]? = some c) :
    isTextAt n (s ++ [.child i]) = isTextAt c s := by
  rw [isTextAt, sub_last, hc]; rfl

theorem kidsOf_last {n : Tree} {s : Ref} {i : Nat} {c : Tree} (hc : n.kids[i]? = some c) :
    kidsOf n (s ++ [.child i]) = kidsOf c s := by
  rw [kidsOf, sub_last, hc]; rfl

theorem contrib_last {n : Tree} {s : Ref} {i : Nat} {c : Tree} (hc : n.kids[i]? = some c) (hs : s ≠ []) :
    contrib n (s ++ [.child i]) = contrib c s := by
  have h1 : isCont n (s ++ [.child i]) = isCont c s := by
    match s, hs with
    | .attr _ :: _, _ => rfl
    | .child 0 :: _, _ => rfl
    | .child (j + 1) :: up, _ =>
      simp only [List.cons_append, isCont]
      rw [← List.cons_append, ← List.cons_append, isTextAt_last hc, isTextAt_last hc]
  have h2 : textValue n (s ++ [.child i]) = textValue c s := by
    match s, hs with
    | .attr a :: up, _ =>
      simp only [List.cons_append, textValue]
      rw [← List.cons_append, sub_last, hc]; rfl
    | .child j :: up, _ =>
      simp only [List.cons_append, textValue, kidsOf_last hc]
  rw [contrib, contrib, isTextAt_last hc, h1, h2]

/-- Text has no children. -/
def Leaves (n : Tree) : Prop := ∀ r m, sub n r = some m → m.isText = true → m.kids = []

theorem leaves_kid {n c : Tree} {i : Nat} (h : Leaves n) (hc : n.kids[i]? = some c) : Leaves c := by
  intro r m hm
  exact h (r ++ [.child i]) m (by rw [sub_last, hc]; exact hm)

theorem textRun_cons (c : Tree) (cs : List Tree) : textRun (c :: cs) = c.data.value ++ leadingText cs := by
  induction cs generalizing c with
  | nil => simp [textRun, leadingText]
  | cons d ds ih =>
    rw [textRun]
    by_cases h : d.isText = true
    · rw [if_pos h, ih, leadingText, if_pos ((isText_iff d).1 h)]
    · rw [if_neg h, leadingText, if_neg (fun h' => h ((isText_iff d).2 h')), List.append_nil]

theorem textIn_text {c : Tree} (h : c.isText = true) : textIn c = c.data.value := by
  obtain ⟨d, a, k⟩ := c
  rw [textIn]; exact if_pos ((isText_iff _).1 h)

theorem textIn_other {c : Tree} (h : c.isText ≠ true) : textIn c = textInAll c.kids := by
  obtain ⟨d, a, k⟩ := c
  rw [textIn]; exact if_neg (fun h' => h ((isText_iff (.node d a k)).2 h'))

theorem leading_rest (cs : List Tree) : leadingText cs ++ textInAll (cs.dropWhile Tree.isText) = textInAll cs := by
  induction cs with
  | nil => simp [leadingText, textInAll]
  | cons c cs ih =>
    rw [leadingText, textInAll]
    by_cases h : c.isText = true
    · rw [if_pos ((isText_iff c).1 h), List.dropWhile_cons_of_pos h, textIn_text h, List.append_assoc, ih]
    · rw [if_neg (fun h' => h ((isText_iff c).2 h')), List.dropWhile_cons_of_neg h, textInAll]; rfl

/-- Whether the last of some nodes is text. -/
def endsInText (l : List Tree) : Bool :=
  match l.getLast? with
  | some c => c.isText
  | none => false

theorem isTextAt_kid {n : Tree} {i : Nat} {c : Tree} (h : n.kids[i]? = some c) : isTextAt n [.child i] = c.isText := by
  have := isTextAt_last (s := []) h
  simpa [isTextAt, sub] using this

theorem contrib_kid {n : Tree} {l0 cs : List Tree} {c : Tree} (h : n.kids = l0 ++ c :: cs) :
    contrib n [.child l0.length] =
      if c.isText = true ∧ endsInText l0 = false then c.data.value ++ leadingText cs else [] := by
  have hc : n.kids[l0.length]? = some c := by rw [h]; simp
  have h1 : textValue n [.child l0.length] = c.data.value ++ leadingText cs := by
    rw [textValue, ← textRun_cons]
    congr 1
    rw [show kidsOf n [] = n.kids from rfl, h]
    simp
  have h2 : c.isText = true → isCont n [.child l0.length] = endsInText l0 := by
    intro ht
    rcases List.eq_nil_or_concat l0 with rfl | ⟨l1, d, rfl⟩
    · rfl
    · have hd : n.kids[l1.length]? = some d := by rw [h]; simp
      simp only [List.concat_eq_append, List.length_append, List.length_cons, List.length_nil, Nat.zero_add] at hc ⊢
      rw [isCont, isTextAt_kid hc, isTextAt_kid hd, ht]
      simp [endsInText]
  rw [contrib, isTextAt_kid hc, h1]
  by_cases ht : c.isText = true
  · rw [h2 ht]
  · simp [ht]

theorem endsInText_concat (l0 : List Tree) (c : Tree) : endsInText (l0 ++ [c]) = c.isText := by
  simp [endsInText]

mutual
theorem contrib_pre : ∀ n : Tree, Leaves n → (pre n).flatMap (contrib n) = textInAll n.kids
  | .node d a kids, hl => by
    rw [pre]
    have := contrib_preL kids (.node d a kids) [] hl rfl
    simpa [endsInText, Tree.kids] using this
theorem contrib_preL : ∀ (cs : List Tree) (n : Tree) (l0 : List Tree), Leaves n → n.kids = l0 ++ cs →
    (preL l0.length cs).flatMap (contrib n) = textInAll (if endsInText l0 then cs.dropWhile Tree.isText else cs)
  | [], _, l0, _, _ => by rw [preL]; split <;> rfl
  | c :: cs, n, l0, hl, h => by
    have hc : n.kids[l0.length]? = some c := by rw [h]; simp
    have ih := contrib_preL cs n (l0 ++ [c]) hl (by rw [h]; simp)
    rw [endsInText_concat] at ih
    simp only [List.length_append, List.length_cons, List.length_nil, Nat.zero_add] at ih
    have ihc := contrib_pre c (leaves_kid hl hc)
    have hmap : ((pre c).map fun s => s ++ [Step.child l0.length]).flatMap (contrib n) = (pre c).flatMap (contrib c) := by
      rw [List.flatMap_map]
      have : ∀ l : List Ref, (∀ s ∈ l, s ∈ pre c) →
          l.flatMap (fun s => contrib n (s ++ [Step.child l0.length])) = l.flatMap (contrib c) := by
        intro l hl'
        induction l with
        | nil => rfl
        | cons s l ih' =>
          rw [List.flatMap_cons, List.flatMap_cons, contrib_last hc (mem_pre.1 (hl' s (by simp))).1,
            ih' fun s hs => hl' s (by simp [hs])]
      exact this _ fun _ h => h
    rw [preL, List.flatMap_append, List.flatMap_cons, hmap, ihc, ih, contrib_kid h]
    by_cases ht : c.isText = true
    · have hk : c.kids = [] := hl [.child l0.length] c (by simpa [sub, Tree.step] using hc) ht
      rw [hk, if_pos ht]
      by_cases he : endsInText l0 = true
      · rw [if_neg (by simp [he]), if_pos he, List.dropWhile_cons_of_pos ht]
        simp [textInAll]
      · rw [if_pos ⟨ht, by simpa using he⟩, if_neg he, show textInAll (c :: cs) = textIn c ++ textInAll cs from rfl, textIn_text ht]
        simp only [show textInAll [] = [] from rfl, List.append_nil, List.append_assoc, leading_rest]
    · rw [if_neg (by simp [ht]), if_neg ht, List.nil_append]
      have : (if endsInText l0 = true then (c :: cs).dropWhile Tree.isText else c :: cs) = c :: cs := by
        split
        · exact List.dropWhile_cons_of_neg ht
        · rfl
      rw [this, textInAll, textIn_other ht]
end

theorem leaves_of_dom {t : Tree} (hd : DomTree t) {r : Ref} {n : Tree} (h : sub t r = some n) : Leaves n := by
  intro s m hm ht
  refine hd.leaves (s ++ r) m (by rw [sub_app_some h]; exact hm) ?_
  exact (isText_iff m).1 ht

theorem cont_app {t n : Tree} {r s : Ref} (h : sub t r = some n) (hs : s ≠ []) : Cont t (s ++ r) ↔ Cont n s := by
  match s, hs with
  | .attr _ :: _, _ => simp [Cont]
  | .child 0 :: _, _ => simp [Cont]
  | .child (j + 1) :: up, _ =>
    simp only [List.cons_append, Cont, TextAt]
    rw [← List.cons_append, ← List.cons_append, sub_app_some h, sub_app_some h]

theorem textValue_app {t n : Tree} {r s : Ref} (h : sub t r = some n) (hs : s ≠ []) :
    textValue t (s ++ r) = textValue n s := by
  match s, hs with
  | .attr a :: up, _ =>
    simp only [List.cons_append, textValue]
    rw [← List.cons_append, sub_app_some h]
  | .child j :: up, _ =>
    simp only [List.cons_append, textValue]
    congr 2
    simp only [kidsOf, sub_app_some h]

/-- The list of the descendant axis. -/
theorem descendants_eq {t : Tree} (hd : DomTree t) {r : Ref} {n : Tree} (hr : CNode t r) (h : sub t r = some n)
    {l : List Ref} (hm : ∀ y, y ∈ l ↔ CNode t y ∧ Ancestor r y) (hp : l.Pairwise Before) :
    l = ((pre n).filter fun s => !(isCont n s)).map fun s => s ++ r := by
  refine sorted_unique before_irrefl (fun _ _ => before_asymm) hp ?_ ?_
  · refine List.pairwise_map.2 (List.Pairwise.imp_of_mem ?_ ((pre_sorted n).sublist List.filter_sublist))
    intro a b ha hb hab
    rcases (before_iff _ _).1 hab with ⟨s, hs, rfl⟩ | hab
    · exact before_of_anc ⟨s, hs, by simp⟩
    · obtain ⟨c, x, y, sx, sy, rfl, rfl, h⟩ := hab
      exact before_of_div ⟨c ++ r, x, y, sx, sy, by simp, by simp, h⟩
  · intro y
    rw [hm, List.mem_map]
    constructor
    · rintro ⟨⟨h1, h2, h3⟩, s, hs, rfl⟩
      refine ⟨s, List.mem_filter.2 ⟨mem_pre.2 ⟨hs, (allChild_append.1 h1).1, by rw [sub_app_some h] at h2; exact h2⟩, ?_⟩, rfl⟩
      rw [cont_app h hs, ← isCont_iff] at h3
      simpa using h3
    · rintro ⟨s, hs, rfl⟩
      obtain ⟨h1, h2⟩ := List.mem_filter.1 hs
      obtain ⟨h3, h4, h5⟩ := mem_pre.1 h1
      refine ⟨⟨allChild_append.2 ⟨h4, hr.1⟩, by rw [sub_app_some h]; exact h5, ?_⟩, s, h3, rfl⟩
      rw [cont_app h h3, ← isCont_iff]
      simpa using h2

theorem filter_flatMap {α : Type} (p q : α → Bool) (f : α → Str) (l : List α) :
    ((l.filter q).filter p).flatMap f = l.flatMap fun x => if p x = true ∧ q x = true then f x else [] := by
  induction l with
  | nil => rfl
  | cons a l ih =>
    rw [List.flatMap_cons, ← ih]
    cases hp : p a <;> cases hq : q a <;> simp [List.filter_cons, hp, hq]

theorem value_eq {t : Tree} (hd : DomTree t) {r : Ref} {n : Tree} (hr : CNode t r) (h : sub t r = some n)
    {l : List Ref} (hm : ∀ y, y ∈ l ↔ CNode t y ∧ Ancestor r y) (hp : l.Pairwise Before) :
    (l.filter (isTextAt t)).flatMap (textValue t) = textInAll n.kids := by
  rw [descendants_eq hd hr h hm hp, ← contrib_pre n (leaves_of_dom hd h)]
  rw [List.filter_map, List.flatMap_map, filter_flatMap]
  have : ∀ l : List Ref, (∀ s ∈ l, s ∈ pre n) →
      (l.flatMap fun x => if (isTextAt t ∘ fun s => s ++ r) x = true ∧ (!(isCont n x)) = true then textValue t (x ++ r) else []) =
        l.flatMap (contrib n) := by
    intro l hl
    induction l with
    | nil => rfl
    | cons s l ih =>
      rw [List.flatMap_cons, List.flatMap_cons, ih fun s hs => hl s (by simp [hs])]
      congr 1
      have hs := (mem_pre.1 (hl s (by simp))).1
      rw [textValue_app h hs, contrib]
      have ht : isTextAt t (s ++ r) = isTextAt n s := by rw [isTextAt, isTextAt, sub_app_some h]
      simp only [Function.comp, ht, Bool.not_eq_true', Bool.not_eq_eq_eq_not, Bool.not_true]
  exact this _ fun _ h => h

theorem stringValue_inner {t : Tree} (hd : DomTree t) {r : Ref} {n : Tree} (hr : AllChild r) (h : sub t r = some n)
    (hk : n.kind = .document ∨ n.kind = .fragment ∨ n.kind = .element) :
    ∃ fuel, ∀ f, fuel ≤ f → nodeStringValue t r f = .done (some (textInAll n.kids)) := by
  have hc : CNode t r := by
    refine ⟨hr, by simp [h], not_cont_of_not_text ?_⟩
    rintro ⟨m, hm, hk'⟩
    rw [h] at hm; cases hm
    rcases hk with e | e | e <;> rcases hk' with e' | e' <;> rw [e] at e' <;> cases e'
  obtain ⟨fuel, l, he, hm, hp⟩ := axis_descendant hd hc
  refine ⟨fuel, fun f hf => ?_⟩
  have hv := value_eq hd hc h hm hp
  have := enumerate_mono he hf
  rw [nodeStringValue]
  have hkind : kindOf t r = some n.kind := by rw [kindOf, h]
  rcases hk with e | e | e <;> rw [hkind, e] <;> simp only [this, hv]

theorem stringValue_text {t : Tree} {i : Nat} {up : Ref} {n : Tree} (h : sub t (.child i :: up) = some n)
    (hk : n.kind = .text ∨ n.kind = .cdata) (f : Nat) :
    nodeStringValue t (.child i :: up) f = .done (some (leadingText ((kidsOf t up).drop i))) := by
  have hkind : kindOf t (.child i :: up) = some n.kind := by rw [kindOf, h]
  have hv : textValue t (.child i :: up) = leadingText ((kidsOf t up).drop i) := by
    rw [sub_child] at h
    obtain ⟨hi, hn⟩ := List.getElem?_eq_some_iff.1 h
    rw [textValue, List.drop_eq_getElem_cons hi, textRun_cons, leadingText, hn, if_pos hk]
  rw [nodeStringValue, hkind]
  rcases hk with e | e <;> rw [e] <;> simp only [hv]

theorem stringValue_value {t : Tree} {r : Ref} {n : Tree} (h : sub t r = some n)
    (hk : n.kind = .attribute ∨ n.kind = .pi ∨ n.kind = .comment) (f : Nat) :
    nodeStringValue t r f = .done (some n.data.value) := by
  have hkind : kindOf t r = some n.kind := by rw [kindOf, h]
  rw [nodeStringValue, hkind]
  rcases hk with e | e | e <;> rw [e] <;> simp only [h]

end Verif.XTree
