import Verif.Lemmas.XPathMatchLocal
set_option autoImplicit false
set_option linter.unusedSimpArgs false
set_option linter.unusedVariables false
namespace Verif.XPathMatch
open Verif.XPathParse (Expr Str Exs flat flats meaning meanings testMeaning Op Test)
open Verif.XTree (World XN Pred PathStep Ref Holds sub Data at_iff axes xnode_anc xnode_some xnode_of_cnode)
open Verif.Spec.XPathAxes Verif.Spec.XPathPath Verif.Spec.XPathMatch

variable {ns : Str → Option Str} {w : World} {ev : Expr → Pred} {fnNum : Str → Str → Bool}

/-! ## tests -/

/-- The test a step of a pattern is compiled to. -/
def patTest (ns : Str → Option Str) (s : PatStep) : Test := if s.isNode then .node else testMeaning ns s.attr s.test

def kindTest (attr : Bool) : Verif.XTree.NodeTest := if attr then .attributeNode else .notAttribute

theorem nodeTestOf_eq {x : Test} (h1 : x ≠ .node) (h2 : x ≠ .pi (some [])) : nodeTestOf x = treeTest x := by
  cases x with
  | node => exact absurd rfl h1
  | pi t =>
    cases t with
    | none => rfl
    | some t =>
      have : t ≠ [] := fun e => h2 (by rw [e])
      simp [nodeTestOf, treeTest, this]
  | _ => rfl

theorem testMeaning_node (attr : Bool) (t : Verif.XPathParse.NodeTest) : testMeaning ns attr t ≠ .node := by
  rcases t with _ | p | ⟨_ | p, n⟩ | t | _
  · simp [testMeaning]
  · rw [testMeaning]; split <;> simp
  · rw [testMeaning]; split <;> simp
  · rw [testMeaning]; split <;> simp
  · cases t <;> simp [testMeaning]
  · simp [testMeaning]

theorem testMeaning_pi {attr : Bool} {t : Verif.XPathParse.NodeTest} (h : ∀ q, t ≠ .target q []) :
    testMeaning ns attr t ≠ .pi (some []) := by
  rcases t with _ | p | ⟨_ | p, n⟩ | t | ⟨q, t⟩
  · simp [testMeaning]
  · rw [testMeaning]; split <;> simp
  · rw [testMeaning]; split <;> simp
  · rw [testMeaning]; split <;> simp
  · cases t <;> simp [testMeaning]
  · intro e
    rw [testMeaning] at e
    injection e with e
    injection e with e
    exact h q (by rw [e])

theorem isNode_iff {s : PatStep} : s.isNode = true ↔ s.test = .type .node := by
  rw [PatStep.isNode]
  rcases h : s.test with _ | p | q | t | _
  · simp
  · simp
  · simp
  · cases t <;> simp
  · simp

theorem test_agree {s : PatStep} (hT : ∀ q, s.test ≠ .target q []) {d : Data}
    (hk : d.kind ≠ .document ∧ d.kind ≠ .fragment) :
    Passes d (treeTest (testMeaning ns s.attr s.test)) ↔ Passes d (nodeTestOf (patTest ns s)) := by
  rw [patTest]
  by_cases hn : s.isNode = true
  · rw [if_pos hn, isNode_iff.1 hn]
    simp [testMeaning, treeTest, nodeTestOf, Passes, hk]
  · rw [if_neg hn, nodeTestOf_eq (testMeaning_node _ _) (testMeaning_pi hT)]

theorem test_notRoot {s : PatStep} {d : Data} (h : Passes d (nodeTestOf (patTest ns s))) :
    d.kind ≠ .document ∧ d.kind ≠ .fragment := by
  rw [patTest] at h
  by_cases hn : s.isNode = true
  · rw [if_pos hn] at h
    exact h
  · rw [if_neg hn] at h
    have hn2 : s.test ≠ .type .node := fun e => hn (isNode_iff.2 e)
    rcases ht : s.test with _ | p | ⟨_ | p, n⟩ | t | ⟨q, t⟩
    all_goals rw [ht] at h hn2
    · cases ha : s.attr <;> simp [ha, testMeaning, nodeTestOf, Passes] at h <;> simp [h]
    · rw [testMeaning] at h
      split at h
      · exact absurd h (by simp [nodeTestOf, Passes])
      · cases ha : s.attr <;> simp [ha, nodeTestOf, Passes] at h <;> simp [h]
    · rw [testMeaning] at h
      split at h
      · exact absurd h (by simp [nodeTestOf, Passes])
      · cases ha : s.attr <;> simp [ha, nodeTestOf, Passes] at h <;> simp [h]
    · rw [testMeaning] at h
      split at h
      · exact absurd h (by simp [nodeTestOf, Passes])
      · cases ha : s.attr <;> simp [ha, nodeTestOf, Passes] at h <;> simp [h]
    · cases t with
      | node => exact absurd rfl hn2
      | comment => simp [testMeaning, nodeTestOf, Passes] at h; simp [h]
      | text =>
        simp [testMeaning, nodeTestOf, Passes] at h
        rcases h with h | h <;> simp [h]
      | pi => simp [testMeaning, nodeTestOf, Passes] at h; simp [h]
    · simp [testMeaning, nodeTestOf, Passes] at h
      simp [h.1]

/-! ## a step by itself -/

/-- What the compiled step asks of a node. -/
def CodeLocal (ns : Str → Option Str) (w : World) (ev : Expr → Pred) (fnNum : Str → Str → Bool) (s : PatStep)
    (xs : List Expr) (y : XN) : Prop :=
  (nodeTestOf (patTest ns s)).at (w.tree y.1) y.2 = true ∧ (kindTest s.attr).at (w.tree y.1) y.2 = true ∧
    ∀ p ∈ values w ev (rewriteLoop fnNum (nodeTestOf (patTest ns s)) (xs.map MPred.expr).length (xs.map .expr)), Holds p y

/-- The step gives it for the node above it. -/
def Local (ns : Str → Option Str) (w : World) (ev : Expr → Pred) (s : PatStep) (y : XN) : Prop :=
  ∃ st up, y.2 = st :: up ∧ StepSelects w (s.step ns ev) (y.1, up) y

theorem filter_agree {s : PatStep} (hT : ∀ q, s.test ≠ .target q []) {t : Verif.XTree.Tree} {l : List Ref}
    (hk : ∀ r ∈ l, ∀ n, sub t r = some n → n.data.kind ≠ .document ∧ n.data.kind ≠ .fragment) :
    l.filter ((treeTest (testMeaning ns s.attr s.test)).at t) = l.filter ((nodeTestOf (patTest ns s)).at t) := by
  apply List.filter_congr
  intro r hr
  rw [Bool.eq_iff_iff, at_iff, at_iff]
  constructor
  · rintro ⟨n, hn, h⟩; exact ⟨n, hn, (test_agree hT (hk r hr n hn)).1 h⟩
  · rintro ⟨n, hn, h⟩; exact ⟨n, hn, (test_agree hT (hk r hr n hn)).2 h⟩

theorem code_steady {s : PatStep} {xs : List Expr} {test : Verif.XTree.NodeTest}
    (hxs : ∀ e ∈ xs, Steady (ev e) ∨ Counted fnNum e) :
    ∀ p ∈ values w ev (rewriteLoop fnNum test (xs.map MPred.expr).length (xs.map .expr)), Steady p := by
  intro p hp
  rw [values_eq] at hp
  obtain ⟨q, hq, rfl⟩ := List.mem_map.1 hp
  have h1 := rewrite_done (fnNum := fnNum) (test := test) _ _ (List.countP_le_length (p := shouldRewrite fnNum)) q hq
  rcases rewrite_mem _ _ q hq with h2 | ⟨t, qs, rfl⟩
  · obtain ⟨e, he, rfl⟩ := List.mem_map.1 h2
    rw [MPred.value]
    rcases hxs e he with h3 | h3
    · exact h3
    · rw [← shouldRewrite_iff, h1] at h3
      cases h3
  · exact among_steady qs

section
variable {s : PatStep} {xs : List Expr} (hflat : flats xs = flats (meanings ns s.preds))
  (hev : ∀ e e', flat e = flat e' → ev e = ev e') (hs : s.Plain ns ev fnNum)

include hflat hev hs

theorem plain_child (ha : s.attr = false) : ∀ e ∈ xs, Steady (ev e) ∨ Counted fnNum e := by
  refine flats_all hflat ?_ fun e he => (hs.1 e he).2 ha
  intro e e' h
  rw [hev _ _ h, counted_flat h]
  exact id

theorem plain_attr (ha : s.attr = true) : ∀ e ∈ xs, Steady (ev e) ∧ ¬ Counted fnNum e := by
  refine flats_all hflat ?_ fun e he => (hs.1 e he).1 ha
  intro e e' h
  rw [hev _ _ h, counted_flat h]
  exact id

theorem plain_any : ∀ e ∈ xs, Steady (ev e) ∨ Counted fnNum e := by
  cases ha : s.attr with
  | false => exact plain_child hflat hev hs ha
  | true => exact fun e he => .inl (plain_attr hflat hev hs ha e he).1

theorem local_iff {y : XN} (hd : DomTree (w.tree y.1)) (he : Expanded (w.tree y.1))
    (hr : (w.tree y.1).kind = .document ∨ (w.tree y.1).kind = .fragment) (hy : XNode (w.tree y.1) y.2) :
    CodeLocal ns w ev fnNum s xs y ↔ Local ns w ev s y := by
  obtain ⟨k, r⟩ := y
  simp only at hd he hy hr
  have hsteady := code_steady (w := w) (test := nodeTestOf (patTest ns s)) (s := s) (plain_any hflat hev hs)
  cases r with
  | nil =>
    constructor
    · rintro ⟨h1, h2, _⟩
      exfalso
      obtain ⟨n, hn, hp⟩ := at_iff.1 h1
      simp only [sub] at hn
      cases hn
      have := test_notRoot hp
      rcases hr with hr | hr
      · exact this.1 hr
      · exact this.2 hr
    · rintro ⟨st, up, e, _⟩
      cases e
  | cons st up =>
    have hup : XNode (w.tree k) up := xnode_of_cnode he (xnode_anc hd he hy ⟨[st], by simp, rfl⟩)
    have hsome := xnode_some hy
    cases st with
    | child i =>
      obtain ⟨f, l, hf, hl⟩ := axes hd he hup .child (fun _ => by
        intro ha
        cases up with
        | nil => exact ha
        | cons st up =>
          cases st with
          | child j => exact ha
          | attr j =>
            obtain ⟨m, hm⟩ := hy.1 (.attr j) (List.mem_cons_self ..)
            cases hm) (by intro h; cases h) (by intro h; cases h)
      obtain ⟨n, hn⟩ := Option.isSome_iff_exists.1 hsome
      have hkind := hd.kids up i n hn
      have hlk : ∀ r ∈ l, ∀ n, sub (w.tree k) r = some n → n.data.kind ≠ .document ∧ n.data.kind ≠ .fragment := by
        intro r hr n hn
        obtain ⟨j, rfl⟩ := ((hl.1 r).1 hr).2
        exact (hd.kids up j n hn).2
      cases ha : s.attr with
      | true =>
        constructor
        · rintro ⟨_, h2, _⟩
          obtain ⟨m, hm, hp⟩ := at_iff.1 h2
          rw [ha, hn] at *
          cases hm
          exact absurd hp hkind.1
        · rintro ⟨st', up', e, h⟩
          cases e
          obtain ⟨axisNodes, pass, kept, h1, h2, _, h3, h4⟩ := h
          rw [PatStep.step, ha] at h1
          have h5 := Verif.XTree.filteredBy_mem h3 h4
          obtain ⟨r, h6, h7⟩ := List.mem_map.1 h5
          cases h7
          obtain ⟨j, hj⟩ := ((h1.1 _).1 (h2.subset h6)).2
          cases hj
      | false =>
        obtain ⟨m, hm⟩ := Verif.XTree.filteredBy_exists (xs.map ev) (passing w k l (nodeTestOf (patTest ns s)))
        have hm2 : FilteredBy (s.step ns ev).preds ((l.filter ((s.step ns ev).test.at (w.tree (k, up).1))).map
            fun r => ((k, up).1, r)) m := by
          have e1 : (s.step ns ev).preds = xs.map ev := (flats_map hflat hev).symm
          rw [e1]
          have e2 := filter_agree (ns := ns) hs.2 hlk
          show FilteredBy (xs.map ev) ((l.filter ((treeTest (testMeaning ns s.attr s.test)).at (w.tree k))).map _) m
          rw [e2]
          exact hm
        have hsel : StepSelects w (s.step ns ev) (k, up) (k, .child i :: up) ↔ (k, .child i :: up) ∈ m := by
          refine Verif.XTree.stepSelects_iff (l := l) ?_ hm2
          show IsAxis (w.tree k) up (if s.attr then .attribute else .child) l
          rw [ha]
          exact hl
        have hloc : Local ns w ev s (k, .child i :: up) ↔ (k, .child i :: up) ∈ m := by
          rw [← hsel]
          constructor
          · rintro ⟨st', up', e, h⟩
            cases e
            exact h
          · exact fun h => ⟨_, _, rfl, h⟩
        rw [hloc]
        have hre := rewrite_filtered (fnNum := fnNum) hl ⟨f, hf⟩ (xs.map MPred.expr).length (ps := xs.map .expr)
          (ev := ev) (by rw [values_expr]; exact hm)
        rw [Verif.XTree.filteredBy_steady hsteady hre, mem_passing, CodeLocal]
        have hk2 : (kindTest s.attr).at (w.tree k) (.child i :: up) = true := by
          rw [ha, at_iff]
          exact ⟨n, hn, hkind.1⟩
        constructor
        · rintro ⟨h1, _, h3⟩
          exact ⟨⟨rfl, (hl.1 _).2 ⟨hy, i, rfl⟩, h1⟩, h3⟩
        · rintro ⟨⟨_, _, h1⟩, h3⟩
          exact ⟨h1, hk2, h3⟩
    | attr i =>
      obtain ⟨f, l, hf, hl⟩ := axes hd he hup .attribute (by intro h; cases h) (by intro h; cases h)
        (by intro h; cases h)
      obtain ⟨n, hn⟩ := Option.isSome_iff_exists.1 hsome
      have hkind := hd.attrs up i n hn
      have hlk : ∀ r ∈ l, ∀ n, sub (w.tree k) r = some n → n.data.kind ≠ .document ∧ n.data.kind ≠ .fragment := by
        intro r hr n hn
        obtain ⟨j, rfl⟩ := ((hl.1 r).1 hr).2
        have : n.data.kind = .attribute := hd.attrs up j n hn
        rw [this]
        simp
      cases ha : s.attr with
      | false =>
        constructor
        · rintro ⟨_, h2, _⟩
          obtain ⟨m, hm, hp⟩ := at_iff.1 h2
          rw [ha, hn] at *
          cases hm
          exact absurd hkind hp
        · rintro ⟨st', up', e, h⟩
          cases e
          obtain ⟨axisNodes, pass, kept, h1, h2, _, h3, h4⟩ := h
          rw [PatStep.step, ha] at h1
          have h5 := Verif.XTree.filteredBy_mem h3 h4
          obtain ⟨r, h6, h7⟩ := List.mem_map.1 h5
          cases h7
          obtain ⟨j, hj⟩ := ((h1.1 _).1 (h2.subset h6)).2
          cases hj
      | true =>
        obtain ⟨m, hm⟩ := Verif.XTree.filteredBy_exists (xs.map ev) (passing w k l (nodeTestOf (patTest ns s)))
        have hm2 : FilteredBy (s.step ns ev).preds ((l.filter ((s.step ns ev).test.at (w.tree (k, up).1))).map
            fun r => ((k, up).1, r)) m := by
          have e1 : (s.step ns ev).preds = xs.map ev := (flats_map hflat hev).symm
          rw [e1]
          have e2 := filter_agree (ns := ns) hs.2 hlk
          show FilteredBy (xs.map ev) ((l.filter ((treeTest (testMeaning ns s.attr s.test)).at (w.tree k))).map _) m
          rw [e2]
          exact hm
        have hsel : StepSelects w (s.step ns ev) (k, up) (k, .attr i :: up) ↔ (k, .attr i :: up) ∈ m := by
          refine Verif.XTree.stepSelects_iff (l := l) ?_ hm2
          show IsAxis (w.tree k) up (if s.attr then .attribute else .child) l
          rw [ha]
          exact hl
        have hloc : Local ns w ev s (k, .attr i :: up) ↔ (k, .attr i :: up) ∈ m := by
          rw [← hsel]
          constructor
          · rintro ⟨st', up', e, h⟩
            cases e
            exact h
          · exact fun h => ⟨_, _, rfl, h⟩
        rw [hloc]
        have hpl := plain_attr hflat hev hs ha
        have hnone : rewriteLoop fnNum (nodeTestOf (patTest ns s)) (xs.map MPred.expr).length (xs.map .expr) =
            xs.map .expr := by
          apply rewrite_none
          intro p hp
          obtain ⟨e, he, rfl⟩ := List.mem_map.1 hp
          rw [Bool.eq_false_iff]
          intro h
          exact (hpl e he).2 ((shouldRewrite_iff e).1 h)
        have hst : ∀ p ∈ xs.map ev, Steady p := by
          intro p hp
          obtain ⟨e, he, rfl⟩ := List.mem_map.1 hp
          exact (hpl e he).1
        rw [CodeLocal, hnone, values_expr, Verif.XTree.filteredBy_steady hst hm, mem_passing]
        have hk2 : (kindTest s.attr).at (w.tree k) (.attr i :: up) = true := by
          rw [ha, at_iff]
          exact ⟨n, hn, hkind⟩
        constructor
        · rintro ⟨h1, _, h3⟩
          exact ⟨⟨rfl, (hl.1 _).2 ⟨hy, i, rfl⟩, h1⟩, h3⟩
        · rintro ⟨⟨_, _, h1⟩, h3⟩
          exact ⟨h1, hk2, h3⟩

end

/-! ## paths backwards -/

/-- A step selects only from the node above. -/
theorem step_above {s : PatStep} {c y : XN} (h : StepSelects w (s.step ns ev) c y) :
    y.1 = c.1 ∧ (∃ st, y.2 = st :: c.2) ∧ XNode (w.tree c.1) y.2 := by
  obtain ⟨axisNodes, pass, kept, h1, h2, _, h3, h4⟩ := h
  have h5 := Verif.XTree.filteredBy_mem h3 h4
  obtain ⟨r, h6, h7⟩ := List.mem_map.1 h5
  obtain ⟨h8, h9⟩ := (h1.1 r).1 (h2.subset h6)
  rw [← h7]
  refine ⟨rfl, ?_, h8⟩
  rw [PatStep.step] at h9
  cases ha : s.attr with
  | true =>
    rw [ha] at h9
    obtain ⟨i, e⟩ := h9
    exact ⟨_, e⟩
  | false =>
    rw [ha] at h9
    obtain ⟨i, e⟩ := h9
    exact ⟨_, e⟩

theorem local_above {s : PatStep} {c y : XN} (h : StepSelects w (s.step ns ev) c y) : Local ns w ev s y := by
  obtain ⟨h1, ⟨st, h2⟩, _⟩ := step_above h
  refine ⟨st, c.2, h2, ?_⟩
  rw [h1]
  exact h

/-- A step of the compiled pattern. -/
def codeStep (ns : Str → Option Str) (fnNum : Str → Str → Bool) (s : PatStep) (xs : List Expr)
    (axis : Verif.XTree.Axis) : MStep :=
  ⟨axis, nodeTestOf (patTest ns s),
    rewriteLoop fnNum (nodeTestOf (patTest ns s)) (xs.map MPred.expr).length (xs.map .expr)⟩

def kindStep (s : PatStep) : MStep := ⟨.self, kindTest s.attr, []⟩

theorem self_axis {t : Verif.XTree.Tree} {r : Ref} (h : XNode t r) : IsAxis t r .self [r] := by
  refine ⟨?_, by simp, by simp⟩
  intro r'
  simp only [List.mem_singleton, OnAxis]
  constructor
  · rintro rfl; exact ⟨h, rfl⟩
  · exact fun h => h.2

theorem kind_iff {s : PatStep} {x y : XN} (hx : XNode (w.tree x.1) x.2) :
    StepSelects w ((kindStep s).step w ev) x y ↔ y = x ∧ (kindTest s.attr).at (w.tree x.1) x.2 = true := by
  rw [Verif.XTree.stepSelects_steady (s := (kindStep s).step w ev) (l := [x.2])
    (by intro p hp; simp [kindStep, MStep.step, values] at hp) (self_axis hx)]
  obtain ⟨k, r⟩ := y
  obtain ⟨k', r'⟩ := x
  simp only [kindStep, MStep.step, OnAxis, values, List.not_mem_nil, false_imp_iff, implies_true, and_true,
    Prod.mk.injEq]
  constructor
  · rintro ⟨rfl, _, rfl, h⟩; exact ⟨⟨rfl, rfl⟩, h⟩
  · rintro ⟨⟨rfl, rfl⟩, h⟩; exact ⟨rfl, hx, rfl, h⟩

/-- Compiled steps for a step, the one before it in the path being on an axis. -/
def CodeOf (ns : Str → Option Str) (fnNum : Str → Str → Bool) (s : PatStep) (axis : Verif.XTree.Axis)
    (l : List MStep) : Prop :=
  ∃ xs, flats xs = flats (meanings ns s.preds) ∧ l = [codeStep ns fnNum s xs axis, kindStep s]

inductive CodeRel (ns : Str → Option Str) (fnNum : Str → Str → Bool) : PatRel → List MStep → Prop where
  | one (s : PatStep) (l : List MStep) (h : CodeOf ns fnNum s .self l) : CodeRel ns fnNum (.one s) l
  | cons (s : PatStep) (deep : Bool) (r : PatRel) (l l' : List MStep) (hr : CodeRel ns fnNum r l')
      (h : CodeOf ns fnNum s (if deep then .ancestorOrSelf else .parent) l) :
      CodeRel ns fnNum (.cons s deep r) (l' ++ l)

theorem pathSelects_append {a b : List PathStep} {x y : XN} :
    PathSelects w (a ++ b) x y ↔ ∃ m, PathSelects w a x m ∧ PathSelects w b m y := by
  induction a generalizing x with
  | nil => simp [PathSelects]
  | cons s a ih =>
    simp only [List.cons_append, PathSelects, ih]
    constructor
    · rintro ⟨m, h1, m', h2, h3⟩; exact ⟨m', ⟨m, h1, h2⟩, h3⟩
    · rintro ⟨m', ⟨m, h1, h2⟩, h3⟩; exact ⟨m, h1, m', h2, h3⟩

/-- What the theorems need of a tree. -/
structure Whole (t : Verif.XTree.Tree) : Prop where
  dom : DomTree t
  expanded : Expanded t
  root : t.kind = .document ∨ t.kind = .fragment

theorem code_iff {s : PatStep} {axis : Verif.XTree.Axis} {l : List MStep} (hc : CodeOf ns fnNum s axis l)
    (hev : ∀ e e', flat e = flat e' → ev e = ev e') (hs : s.Plain ns ev fnNum)
    (hax : axis = .self ∨ axis = .parent ∨ axis = .ancestorOrSelf) {x y : XN} (ht : Whole (w.tree x.1))
    (hx : XNode (w.tree x.1) x.2) :
    PathSelects w (l.map (MStep.step w ev)) x y ↔
      y.1 = x.1 ∧ XNode (w.tree x.1) y.2 ∧ OnAxis x.2 y.2 axis ∧ Local ns w ev s y := by
  obtain ⟨xs, hflat, rfl⟩ := hc
  have hsteady := code_steady (w := w) (test := nodeTestOf (patTest ns s)) (s := s) (plain_any hflat hev hs)
  obtain ⟨f, la, _, hla⟩ := axes ht.dom ht.expanded hx axis (by rcases hax with h | h | h <;> rw [h] <;> simp)
    (by rcases hax with h | h | h <;> rw [h] <;> simp) (by rcases hax with h | h | h <;> rw [h] <;> simp)
  simp only [List.map_cons, List.map_nil, PathSelects]
  have key : ∀ m, StepSelects w ((codeStep ns fnNum s xs axis).step w ev) x m ↔ m.1 = x.1 ∧
      XNode (w.tree x.1) m.2 ∧ OnAxis x.2 m.2 axis ∧ (nodeTestOf (patTest ns s)).at (w.tree x.1) m.2 = true ∧
      ∀ p ∈ values w ev (rewriteLoop fnNum (nodeTestOf (patTest ns s)) (xs.map MPred.expr).length (xs.map .expr)),
        Holds p m := by
    intro m
    exact Verif.XTree.stepSelects_steady (s := (codeStep ns fnNum s xs axis).step w ev) hsteady hla
  constructor
  · rintro ⟨m, h1, m', h2, rfl⟩
    obtain ⟨e, h3, h4, h5, h6⟩ := (key m).1 h1
    rw [← e] at h3 h5 ht
    obtain ⟨rfl, h7⟩ := (kind_iff h3).1 h2
    rw [← e]
    exact ⟨e ▸ rfl, h3, h4, (local_iff hflat hev hs ht.dom ht.expanded ht.root h3).1 ⟨h5, h7, h6⟩⟩
  · rintro ⟨e, h3, h4, h5⟩
    rw [← e] at h3 ht
    obtain ⟨h6, h7, h8⟩ := (local_iff hflat hev hs ht.dom ht.expanded ht.root h3).2 h5
    refine ⟨y, (key y).2 ⟨e, ?_, h4, ?_, h8⟩, y, (kind_iff h3).2 ⟨rfl, h7⟩, rfl⟩
    · rw [← e]; exact h3
    · rw [← e]; exact h6

end Verif.XPathMatch
