import Verif.Lemmas.XPathMatchPath
import Verif.Lemmas.XPathMatchStep
set_option autoImplicit false
set_option linter.unusedSimpArgs false
set_option linter.unusedVariables false
namespace Verif.XPathMatch
open Verif.XPathParse Verif.Spec.XPathMatch

variable {ns : Str → Option Str} {fnNum : Str → Str → Bool}

/-! ## trees of steps -/

def patId (i : Id) : Prop := (testId i = true ∧ i ≠ .node) ∨ i = .nodeMatchPattern

/-- The tree of a test of a pattern. -/
structure PatTest (ns : Str → Option Str) (s : PatStep) (t : Tree) : Prop where
  id : patId t.id
  test : ∀ rest, (t.id = .processingInstruction → NoLit rest) →
    getTest ns s.attr (t :: rest) = .ok (some (patTest ns s), rest)

def axisTrees : PatAxis → List Tree
  | .none => []
  | .atSign => [.node .abbreviatedAxisSpecifier "@".toList []]
  | .child => [.node .child "child".toList []]
  | .attribute => [.node .attribute "attribute".toList []]

/-- A step before it is rewritten. -/
def rawStep (ns : Str → Option Str) (s : PatStep) (xs : List Expr) (axis : Verif.XTree.Axis) : MStep :=
  ⟨axis, nodeTestOf (patTest ns s), xs.map .expr⟩

theorem patId_ne {i : Id} (h : patId i) : i ≠ .stepPattern ∧ i ≠ .relativePathPattern ∧ i ≠ .child ∧ i ≠ .slash ∧
    i ≠ .slashSlash ∧ i ≠ .abbreviatedAxisSpecifier ∧ i ≠ .attribute ∧ i ≠ .s ∧ i ≠ .pattern ∧ i ≠ .literal ∧
    i ≠ .predicate := by
  rcases h with ⟨h, _⟩ | rfl
  · refine ⟨?_, ?_, ?_, ?_, ?_, ?_, ?_, ?_, ?_, ?_, ?_⟩ <;> rintro rfl <;> cases h
  · simp

theorem preds_axis {ps : List Tree} {xs : List Expr} (h : Preds ns ps xs) : getPatternAxis ps = some .self := by
  induction h with
  | nil => rfl
  | cons l t rb us ts x xs ht hr h ih =>
    rw [getPatternAxis, if_pos (by rfl)]
    exact ih

theorem loop_test {s : PatStep} {T : Tree} (hT : PatTest ns s T) {ps : List Tree} {xs : List Expr}
    (hp : Preds ns ps xs) {n : Nat} (hn : sizes ps ≤ n)
    {R : Option Verif.XTree.Axis → List Tree → List MStep → Res (List MStep)} {o : Option Verif.XTree.Axis} {k : Nat}
    {rest : List Tree} {acc : List MStep} {ax : Verif.XTree.Axis} (hr : Clean rest)
    (hx : (o <|> getPatternAxis (ps ++ rest)) = some ax) :
    stepsLoop ns (cC ns n) R o (k + 1) s.attr (T :: (ps ++ rest)) acc =
      stepsLoop ns (cC ns n) R o k s.attr rest ([rawStep ns s xs ax, kindStep s] ++ acc) := by
  obtain ⟨h1, h2, h3, h4, h5, h6, h7, _⟩ := patId_ne hT.id
  have hl : NoLit (ps ++ rest) := by
    have := preds_noLit hp
    cases ps with
    | nil => exact hr.noLit
    | cons a b => intro t us e; cases e; exact this _ _ rfl
  rw [stepsLoop, if_neg h1, if_neg h2, if_neg (by simp [h3, h4, h5]), if_neg (by simp [h6, h7]), createStepAt,
    hT.test _ (fun _ => hl), hx]
  simp only [bind, Except.bind]
  rw [predicates_preds hp hn hr]
  rfl

theorem loop_kids {s : PatStep} {T : Tree} (hT : PatTest ns s T) {ps : List Tree} {xs : List Expr}
    (hp : Preds ns ps xs) {n : Nat} (hn : sizes ps ≤ n) {o : Option Verif.XTree.Axis} {d : Nat}
    {acc : List MStep} {ax : Verif.XTree.Axis} (hx : (o <|> some .self) = some ax) :
    stepsFrom ns (cC ns n) (d + 1) o (axisTrees s.axis ++ T :: ps) acc =
      .ok ([rawStep ns s xs ax, kindStep s] ++ acc) := by
  obtain ⟨h1, h2, h3, h4, h5, h6, h7, _⟩ := patId_ne hT.id
  have main : ∀ k, ps.length ≤ k → stepsLoop ns (cC ns n) (stepsFrom ns (cC ns n) d) o (k + 1) s.attr (T :: ps) acc =
      .ok ([rawStep ns s xs ax, kindStep s] ++ acc) := by
    intro k _
    have := loop_test hT hp hn (R := stepsFrom ns (cC ns n) d) (o := o) (k := k) (acc := acc) (ax := ax) clean_nil
      (by rw [List.append_nil, preds_axis hp]; exact hx)
    rw [List.append_nil] at this
    rw [this]
    cases k <;> rfl
  rw [stepsFrom]
  cases ha : s.axis with
  | none =>
    have hat : s.attr = false := by rw [PatStep.attr, ha]
    rw [axisTrees, List.nil_append, startOf, if_neg h4, if_neg h5]
    rw [hat] at main
    exact main _ (Nat.le_refl _)
  | atSign =>
    have hat : s.attr = true := by rw [PatStep.attr, ha]
    rw [hat] at main
    exact main _ (Nat.le_refl _)
  | child =>
    have hat : s.attr = false := by rw [PatStep.attr, ha]
    rw [hat] at main
    exact main _ (Nat.le_refl _)
  | «attribute» =>
    have hat : s.attr = true := by rw [PatStep.attr, ha]
    rw [hat] at main
    exact main _ (Nat.le_refl _)

/-- The tree of a step. -/
inductive StepPat (ns : Str → Option Str) (s : PatStep) (xs : List Expr) : Tree → Prop where
  | bare (t : Tree) (ha : s.axis = .none) (hp : s.preds = .nil) (hx : xs = []) (ht : PatTest ns s t) : StepPat ns s xs t
  | full (T : Tree) (ps : List Tree) (hne : axisTrees s.axis ++ ps ≠ []) (hT : PatTest ns s T) (hp : Preds ns ps xs) :
      StepPat ns s xs (.node .stepPattern [] (axisTrees s.axis ++ T :: ps))

theorem StepPat.id {s : PatStep} {xs : List Expr} {t : Tree} (h : StepPat ns s xs t) :
    t.id ≠ .slash ∧ t.id ≠ .slashSlash ∧ t.id ≠ .s ∧ t.id ≠ .pattern ∧ t.id ≠ .relativePathPattern := by
  cases h with
  | bare _ ha hp hx ht => have := patId_ne ht.id; simp [this]
  | full T ps hne hT hp => simp [Tree.id]

theorem stepPat_loop {s : PatStep} {xs : List Expr} {t : Tree} (h : StepPat ns s xs t) {n : Nat} (hn : t.size ≤ n)
    {d k : Nat} {rest : List Tree} {acc : List MStep} {ax : Verif.XTree.Axis} (hr : Clean rest)
    (hx : getPatternAxis rest = some ax) :
    stepsLoop ns (cC ns n) (stepsFrom ns (cC ns n) (d + 1)) none (k + 1) false (t :: rest) acc =
      stepsLoop ns (cC ns n) (stepsFrom ns (cC ns n) (d + 1)) none k false rest
        ([rawStep ns s xs ax, kindStep s] ++ acc) := by
  cases h with
  | bare _ ha hp hxs ht =>
    have hat : s.attr = false := by rw [PatStep.attr, ha]
    subst hxs
    have := loop_test ht .nil (n := n) (by simp [sizes]) (R := stepsFrom ns (cC ns n) (d + 1)) (o := none) (k := k)
      (acc := acc) hr hx
    rw [hat] at this
    exact this
  | full T ps hne hT hp =>
    have hz : sizes ps ≤ n := by
      rw [size_node, sizes_append] at hn
      simp only [sizes] at hn
      omega
    rw [stepsLoop, if_pos (by rfl), hx]
    simp only [Tree.kids]
    rw [loop_kids hT hp hz (ax := ax) rfl]
    rfl

theorem rewrite_raw (s : PatStep) (xs : List Expr) (ax : Verif.XTree.Axis) :
    rewriteSteps fnNum [rawStep ns s xs ax, kindStep s] = [codeStep ns fnNum s xs ax, kindStep s] := rfl

theorem rewriteSteps_append (a b : List MStep) :
    rewriteSteps fnNum (a ++ b) = rewriteSteps fnNum a ++ rewriteSteps fnNum b := List.map_append

/-! ## trees of paths -/

inductive RelPat (ns : Str → Option Str) : PatRel → List Tree → List MStep → Prop where
  | one (s : PatStep) (t : Tree) (xs : List Expr) (hx : flats xs = flats (meanings ns s.preds))
      (h : StepPat ns s xs t) : RelPat ns (.one s) [t] [rawStep ns s xs .self, kindStep s]
  | cons (s : PatStep) (deep : Bool) (r : PatRel) (t : Tree) (xs : List Expr) (ts : List Tree) (l : List MStep)
      (hx : flats xs = flats (meanings ns s.preds)) (h : StepPat ns s xs t) (hr : RelPat ns r ts l) :
      RelPat ns (.cons s deep r) (t :: sepTree deep :: ts)
        (l ++ [rawStep ns s xs (if deep then .ancestorOrSelf else .parent), kindStep s])

theorem relPat_code {r : PatRel} {ts : List Tree} {l : List MStep} (h : RelPat ns r ts l) :
    CodeRel ns fnNum r (rewriteSteps fnNum l) := by
  induction h with
  | one s t xs hx h => exact .one s _ ⟨xs, hx, rewrite_raw s xs _⟩
  | cons s deep r t xs ts l hx h hr ih =>
    rw [rewriteSteps_append]
    exact .cons s deep r _ _ ih ⟨xs, hx, rewrite_raw s xs _⟩

theorem sep_axis (deep : Bool) (ts : List Tree) :
    getPatternAxis (sepTree deep :: ts) = some (if deep then .ancestorOrSelf else .parent) := by
  cases deep <;> rfl

theorem relPat_loop {r : PatRel} {ts : List Tree} {l : List MStep} (h : RelPat ns r ts l) {n : Nat}
    (hn : sizes ts ≤ n) {d k : Nat} (hk : ts.length ≤ k) {acc : List MStep} :
    stepsLoop ns (cC ns n) (stepsFrom ns (cC ns n) (d + 1)) none k false ts acc = .ok (l ++ acc) := by
  induction h generalizing k acc with
  | one s t xs hx h =>
    obtain ⟨k, rfl⟩ : ∃ j, k = j + 1 := ⟨k - 1, by simp at hk; omega⟩
    rw [stepPat_loop h (by simpa [sizes] using hn) clean_nil rfl]
    cases k <;> rfl
  | cons s deep r t xs ts l hx h hr ih =>
    simp only [sizes] at hn
    obtain ⟨k, rfl⟩ : ∃ j, k = j + 2 := ⟨k - 2, by simp at hk; omega⟩
    have h1 := sepTree_clean deep ts
    rw [stepPat_loop h (by omega) h1 (sep_axis deep ts)]
    have h2 : (sepTree deep).id ≠ .stepPattern ∧ (sepTree deep).id ≠ .relativePathPattern ∧
        ((sepTree deep).id = .slash ∨ (sepTree deep).id = .slashSlash) := by cases deep <;> simp [sepTree, deepTree,
          slashTree, Tree.id]
    rw [stepsLoop, if_neg h2.1, if_neg h2.2.1, if_pos (by rcases h2.2.2 with e | e <;> simp [e]), ih (by omega) (by
      simp at hk; omega), List.append_assoc]

theorem relPat_head {r : PatRel} {ts : List Tree} {l : List MStep} (h : RelPat ns r ts l) :
    ∃ s xs t us, ts = t :: us ∧ StepPat ns s xs t ∧ s = r.first := by
  cases h with
  | one s t xs hx h => exact ⟨_, _, _, _, rfl, h, rfl⟩
  | cons s deep r t xs ts l hx h hr => exact ⟨_, _, _, _, rfl, h, rfl⟩

theorem startOf_head {t : Tree} {ts : List Tree} {acc : List MStep} (h1 : t.id ≠ .slash) (h2 : t.id ≠ .slashSlash) :
    startOf (t :: ts) acc = (t :: ts, acc) := by
  rw [startOf, if_neg h1, if_neg h2]

/-- The tree of a relative path. -/
inductive RelTr (ns : Str → Option Str) (r : PatRel) : Tree → Prop where
  | one (s : PatStep) (t : Tree) (xs : List Expr) (hx : flats xs = flats (meanings ns s.preds)) (h : StepPat ns s xs t)
      (hr : r = .one s) : RelTr ns r t
  | many (ts : List Tree) (l : List MStep) (h : RelPat ns r ts l) (hl : 3 ≤ (ts.filter fun k => k.id ≠ .s).length) :
      RelTr ns r (.node .relativePathPattern [] ts)

theorem relTr_id {r : PatRel} {t : Tree} (h : RelTr ns r t) :
    t.id ≠ .slash ∧ t.id ≠ .slashSlash ∧ t.id ≠ .s ∧ t.id ≠ .pattern := by
  cases h with
  | one s _ xs hx h hr => exact ⟨h.id.1, h.id.2.1, h.id.2.2.1, h.id.2.2.2.1⟩
  | many ts l h hl => simp [Tree.id]

/-- The steps of a path that comes after a slash. -/
theorem relTr_steps {r : PatRel} {t : Tree} (h : RelTr ns r t) {n : Nat} (hn : t.size ≤ n) (acc : List MStep) :
    ∃ l, CodeRel ns fnNum r (rewriteSteps fnNum l) ∧ stepsFrom ns (cC ns n) 3 none [t] acc = .ok (l ++ acc) := by
  have hid := relTr_id h
  cases h with
  | one s _ xs hx h hr =>
    subst hr
    have hp := RelPat.one s t xs hx h
    refine ⟨_, relPat_code hp, ?_⟩
    rw [stepsFrom, startOf_head hid.1 hid.2.1]
    exact relPat_loop hp (by simpa [sizes] using hn) (Nat.le_refl _)
  | many ts l h hl =>
    refine ⟨l, relPat_code h, ?_⟩
    have hz : sizes ts ≤ n := by rw [size_node] at hn; omega
    obtain ⟨s, xs, t, us, rfl, hs, _⟩ := relPat_head h
    rw [stepsFrom, startOf_head (by simp [Tree.id]) (by simp [Tree.id])]
    simp only [List.length_cons, List.length_nil, Nat.zero_add]
    rw [stepsLoop, if_neg (by simp [Tree.id]), if_pos (by rfl)]
    simp only [Tree.kids]
    rw [stepsFrom, startOf_head hs.id.1 hs.id.2.1]
    simp only
    rw [relPat_loop h hz (Nat.le_refl _)]
    rfl

/-! ## alternatives -/

structure AltTr (ns : Str → Option Str) (a : Alternative) (t : Tree) : Prop where
  compile : ∀ n, t.size ≤ n → ∀ fnNum rest, Clean rest → ∃ l, CodeAlt ns fnNum a l ∧
    compileAlternative ns fnNum (cC ns n) (t :: rest) = .ok ⟨l, defaultPriority 8 (t :: rest)⟩
  notPattern : t.id ≠ .pattern

theorem altTr_root : AltTr ns .root slashTree where
  compile n hn fnNum rest hr := ⟨_, rfl, rfl⟩
  notPattern := by simp [slashTree, Tree.id]

theorem compile_bare {t : Tree} (h : patId t.id) {C : List Tree → Res Expr} {rest : List Tree} {x : Test}
    (hx : getTest ns false (t :: rest) = .ok (some x, rest)) :
    compileAlternative ns fnNum C (t :: rest) = .ok ⟨[⟨.self, .notAttribute, []⟩, ⟨.self, nodeTestOf x, []⟩],
      defaultPriority 8 (t :: rest)⟩ := by
  have key : ∀ i, patId i → i = .nameTest ∨ i = .qName ∨ i = .ncName ∨ i = .nodeMatchPattern ∨ i = .anyName ∨ i = .text ∨
      i = .comment ∨ i = .processingInstruction ∨ i = .nodeTest := by
    rintro i (⟨h, h'⟩ | rfl)
    · revert h h'; cases i <;> simp [testId]
    · simp
  rw [compileAlternative]
  rcases key _ h with e | e | e | e | e | e | e | e | e <;> simp only [e] <;> rw [hx] <;> rfl

theorem altTr_rel {r : PatRel} {t : Tree} (h : RelTr ns r t) : AltTr ns (.rel r) t where
  notPattern := (relTr_id h).2.2.2
  compile n hn fnNum rest hr := by
    cases h with
    | one s _ xs hx h hr' =>
      subst hr'
      cases h with
      | bare _ ha hp hxs ht =>
        have hat : s.attr = false := by rw [PatStep.attr, ha]
        have hg := ht.test rest (fun _ => hr.noLit)
        rw [hat] at hg
        refine ⟨_, .inr ⟨s, rfl, hp, ?_⟩, compile_bare ht.id hg⟩
        rw [kindStep, kindTest, hat]
        rfl
      | full T ps hne hT hp =>
        have hz : sizes ps ≤ n := by
          rw [size_node, sizes_append] at hn
          simp only [sizes] at hn
          omega
        refine ⟨_, .inl (.one s _ ⟨xs, hx, rewrite_raw s xs .self⟩), ?_⟩
        have h0 : startOf (axisTrees s.axis ++ T :: ps) [] = (axisTrees s.axis ++ T :: ps, []) := by
          cases ha : s.axis with
          | none => exact startOf_head (patId_ne hT.id).2.2.2.1 (patId_ne hT.id).2.2.2.2.1
          | _ => rfl
        have h1 : patternList ns (cC ns n) (axisTrees s.axis ++ T :: ps) = .ok [rawStep ns s xs .self, kindStep s] := by
          rw [patternList, h0]
          exact loop_kids hT hp hz (d := 2) rfl
        rw [compileAlternative]
        simp only [Tree.id, Tree.kids]
        rw [h1]
        rfl
    | many ts l h hl =>
      have hz : sizes ts ≤ n := by rw [size_node] at hn; omega
      refine ⟨_, .inl (relPat_code h), ?_⟩
      obtain ⟨s, xs, t, us, rfl, hs, _⟩ := relPat_head h
      have h1 : patternList ns (cC ns n) (t :: us) = .ok l := by
        rw [patternList, startOf_head hs.id.1 hs.id.2.1]
        simp only
        rw [stepsFrom, startOf_head hs.id.1 hs.id.2.1]
        simp only
        rw [relPat_loop h hz (Nat.le_refl _), List.append_nil]
      rw [compileAlternative]
      simp only [Tree.id, Tree.kids]
      rw [h1]
      rfl

theorem altTr_abs {r : PatRel} {t : Tree} (deep : Bool) (h : RelTr ns r t) :
    AltTr ns (.abs deep r) (.node .locationPathPattern [] [sepTree deep, t]) where
  notPattern := by simp [Tree.id]
  compile n hn fnNum rest hr := by
    have hz : t.size ≤ n := by
      rw [size_node] at hn
      simp only [sizes] at hn
      omega
    obtain ⟨l, h1, h2⟩ := relTr_steps h hz (fnNum := fnNum) (if deep then [] else [⟨.parent, .root, []⟩])
    refine ⟨_, ⟨_, h1, rfl⟩, ?_⟩
    have h3 : patternList ns (cC ns n) [sepTree deep, t] = .ok (l ++ if deep then [] else [⟨.parent, .root, []⟩]) := by
      rw [← h2, patternList]
      cases deep <;> rfl
    rw [compileAlternative]
    simp only [Tree.id, Tree.kids]
    rw [h3]
    simp only [bind, Except.bind, rewriteSteps_append]
    cases deep <;> rfl

/-! ## priorities -/

/-- The tree of a test without white space. -/
def Shape (t : NodeTest) (T : Tree) : Prop :=
  match t with
  | .any => T.id = .anyName
  | .anyIn p => T.id = .nameTest ∧ T.kids = [ncTree p, .node .anyName ['*'] []]
  | .name q => T.id = .qName ∨ T.id = .ncName
  | .type ty => T.id = (match ty with | .comment => Id.comment | .text => .text | .pi => .processingInstruction | .node => .nodeMatchPattern)
  | .target _ _ => T.id = .nodeTest ∧ nextId T.kids = some .processingInstruction

def testPriority : NodeTest → Rat
  | .name _ | .target .. => 0
  | .anyIn _ => -1 / 4
  | .any | .type _ => -1 / 2

theorem shape_priority {t : NodeTest} {T : Tree} (h : Shape t T) {rest : List Tree} (h1 : nextId rest ≠ some .predicate)
    (h2 : nextId rest ≠ some .anyName) (d : Nat) : defaultPriority (d + 2) (T :: rest) = testPriority t := by
  have hs : ∀ i, T.id = i → i ≠ .s → skipS (T :: rest) = T :: rest := by
    intro i e hi; exact skipS_cons (by rw [e]; exact hi)
  cases t with
  | any =>
    rw [defaultPriority, hs _ h (by simp)]
    simp only [show T.id = .anyName from h, if_neg h1]
    rfl
  | anyIn p =>
    rw [defaultPriority, hs _ h.1 (by simp)]
    simp only [h.1, h.2]
    rfl
  | name q =>
    rcases h with h | h
    · rw [defaultPriority, hs _ h (by simp)]
      simp only [h]
      rfl
    · rw [defaultPriority, hs _ h (by simp)]
      simp only [h, if_neg h1, if_neg h2]
      rfl
  | type ty =>
    cases ty
    · have h : T.id = .comment := h
      rw [defaultPriority, hs _ h (by simp)]
      simp only [h, if_neg h1]
      rfl
    · have h : T.id = .text := h
      rw [defaultPriority, hs _ h (by simp)]
      simp only [h, if_neg h1]
      rfl
    · have h : T.id = .processingInstruction := h
      rw [defaultPriority, hs _ h (by simp)]
      simp only [h, if_neg h1]
      rfl
    · have h : T.id = .nodeMatchPattern := h
      rw [defaultPriority, hs _ h (by simp)]
      simp only [h, if_neg h1]
      rfl
  | target q x =>
    rw [defaultPriority, hs _ h.1 (by simp)]
    simp only [h.1, h.2]
    rfl

/-- A test with a predicate after it. -/
theorem loose_priority {s : PatStep} {T : Tree} (hT : PatTest ns s T) (hat : s.attr = false)
    (hs : match s.test with
      | .any | .name ⟨none, _⟩ | .type .comment | .type .text | .type .node => True
      | _ => False) {p : Tree} (hp : p.id = .predicate) (d : Nat) : defaultPriority (d + 1) [T, p] = 1 / 2 := by
  have hx : patTest ns s = .node ∨ patTest ns s = .star false ∨ patTest ns s = .comment ∨ patTest ns s = .text ∨
      ∃ n, patTest ns s = .name false n := by
    rw [patTest]
    by_cases hn : s.isNode = true
    · rw [if_pos hn]; exact .inl rfl
    · rw [if_neg hn, hat]
      revert hs
      rcases ht : s.test with _ | p | ⟨_ | p, n⟩ | t | _
      · intro _; exact .inr (.inl rfl)
      · intro h; exact h.elim
      · intro _; exact .inr (.inr (.inr (.inr ⟨n, by simp [testMeaning]⟩)))
      · intro h; exact h.elim
      · cases t
        · intro _; exact .inr (.inr (.inl rfl))
        · intro _; exact .inr (.inr (.inr (.inl rfl)))
        · intro h; exact h.elim
        · intro _; exact absurd (isNode_iff.2 ht) hn
      · intro h; exact h.elim
  have hne := patId_ne hT.id
  have hg := hT.test [p] (fun _ => noLit_cons (by rw [hp]; simp))
  rw [hat, getTest, skipS_cons hne.2.2.2.2.2.2.2.1] at hg
  have hnx : nextId [p] = some .predicate := by
    rw [nextId, skipS_cons (by rw [hp]; simp)]
    simp [hp]
  rw [defaultPriority, skipS_cons hne.2.2.2.2.2.2.2.1]
  simp only [hnx, if_true]
  have hid := hT.id
  revert hg
  obtain ⟨i, tx, ks⟩ := T
  simp only [Tree.id] at hid ⊢
  have key : ∀ i, patId i → i = .nameTest ∨ i = .qName ∨ i = .ncName ∨ i = .nodeMatchPattern ∨ i = .anyName ∨ i = .text ∨
      i = .comment ∨ i = .processingInstruction ∨ i = .nodeTest := by
    rintro i (⟨h, h'⟩ | rfl)
    · revert h h'; cases i <;> simp [testId]
    · simp
  rcases key _ hid with e | e | e | e | e | e | e | e | e
  · subst e
    intro hg
    exfalso
    simp only [testOf, Tree.id, Tree.kids, if_false, reduceCtorEq] at hg
    split at hg
    · rename_i a b
      cases hb : resolve ns a.chars with
      | error e => rw [hb] at hg; cases hg
      | ok u =>
        rw [hb] at hg
        simp only [bind, Except.bind, Bool.false_eq_true, if_false, Except.ok.injEq, Prod.mk.injEq,
          Option.some.injEq] at hg
        rw [← hg.1] at hx
        simp at hx
    · cases hg
  · subst e
    intro hg
    exfalso
    simp only [testOf, Tree.id, Tree.kids, if_false, reduceCtorEq] at hg
    split at hg
    · rename_i a b c
      cases hb : resolve ns a.chars with
      | error e => rw [hb] at hg; cases hg
      | ok u =>
        rw [hb] at hg
        simp only [bind, Except.bind, Bool.false_eq_true, if_false, Except.ok.injEq, Prod.mk.injEq,
          Option.some.injEq] at hg
        rw [← hg.1] at hx
        simp at hx
    · cases hg
  · subst e; intro _; rfl
  · subst e; intro _; rfl
  · subst e; intro _; rfl
  · subst e; intro _; rfl
  · subst e; intro _; rfl
  · subst e; intro _; rfl
  · subst e
    intro hg
    simp only [Tree.kids]
    suffices hk : nextId ks ≠ some .processingInstruction by simp [hk]
    intro hk
    simp only [Tree.id, Tree.kids, if_true] at hg
    rw [nextId] at hk
    cases hsk : skipS ks with
    | nil => rw [hsk] at hk; cases hk
    | cons a as =>
      rw [hsk] at hk hg
      simp only [Option.some.injEq] at hk
      simp only [testOf, hk] at hg
      cases as with
      | nil =>
        simp only [bind, Except.bind, Except.ok.injEq, Prod.mk.injEq, Option.some.injEq] at hg
        rw [← hg.1] at hx
        simp at hx
      | cons b bs =>
        simp only [bind, Except.bind] at hg
        by_cases hb : b.id = .literal
        · rw [if_pos hb] at hg
          simp only [Except.ok.injEq, Prod.mk.injEq, Option.some.injEq] at hg
          rw [← hg.1] at hx
          simp at hx
        · rw [if_neg hb] at hg
          simp only [Except.ok.injEq, Prod.mk.injEq, Option.some.injEq] at hg
          rw [← hg.1] at hx
          simp at hx

end Verif.XPathMatch
