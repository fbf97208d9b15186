import Verif.Lemmas.XsltRun5
import Verif.Lemmas.XPathEvalMono
import Verif.Props.XPathEval
import Verif.Props.XsltOutput
set_option autoImplicit false
set_option linter.unusedSimpArgs false
/-!
# C78: running a stylesheet
-/
namespace Verif.Props.XsltRun
open Verif.XTree Verif.XPath Verif.XPathEval Verif.XsltRun
open Verif.Spec.XPathAxes Verif.Spec.XPathNodeSet Verif.Spec.XPathEval Verif.Spec.XsltRun
open Verif.XPathParse (Expr)
open Verif.Xslt (Instr Instrs transform)
open Verif.Props.XPathAxes (el tx at' doc)

/-- C78: what a stylesheet writes for a node is what XSLT says it gives: with the instructions, template rules, named
templates, parameters, variables and built-in rules all together, however deep templates call each other. `out` is the
only sequence of output instructions XSLT gives, and they are run on a fresh output. With `xsl:sort`, nodes are processed
in the order of their keys, those with the same keys in document order (`SortedBy`). Global variables are evaluated for
the node, in whatever order they are declared, and global parameters have the values the caller has set (`GlobalsAre`).

Partial: for documents and stylesheets of the modelled kind whose expressions are as C75 needs them (`careful`). After an
instruction that processes other nodes nothing depends on `position()` or `current()` (`Tidy`; `C78_violated_position`,
`C78_violated_current`); what `xsl:copy-of` copies comes from forward paths (`C78_violated_copy_of`), and so do nodes that
are sorted (`C78_violated_sort_ties`); sort keys do not depend on the position (`C78_violated_sort_position`; `C78_fixed`
says how that can be seen); attributes are not
asked for their children (`C78_violated_children`); global variables do not depend on the position
(`C78_violated_global_position`); elements have a local name (`Named`; `C78_violated_local_name`);
variables are not directly in `xsl:copy`, `xsl:comment` or `xsl:processing-instruction` (C47). A stylesheet that is in
error, or that does not end, gives nothing to compare with. -/
theorem C78_partial (E : Env) (K : Nat → Prop) (P : Stylesheet) (free : VName → Prop) (hw : Forest E.w)
    (hK : Documents E.w K) (hN : Named E.w K) (hsrt : StdSort (nodesLessThan E.w) E.srt)
    (hP : Tidy (careful E.w E.cv) free P) (given : List (VName × Argument)) (x : XN) (hx : NodeIn E.w K x) (out : List Instr)
    (h : Transforms E.w E.cv (careful E.w E.cv) P given x out) :
    Transforms E.w E.cv (byXPath E.w E.cv) P given x out ∧
    (∀ out', Transforms E.w E.cv (byXPath E.w E.cv) P given x out' → out' = out) ∧
    ∃ F, ∀ f, F ≤ f → ∃ o, transformDocument E P f given x = .val o ∧ o.out = transform P.cdata (seq out) := by
  obtain ⟨G, hG, h⟩ := h
  have hG1 := globals_less careful_less hG
  have h1 := gives_less careful_less h
  refine ⟨⟨G, hG1, h1⟩, fun out' ⟨G', hG', h'⟩ => ?_, ?_⟩
  · cases globals_unique hw hG1 hG'
    refine (gives_single ⟨?_, ?_⟩ h1 out' h').symm
    · exact fun vars e x i k v v' a b => means_unique hw e a b
    · rintro x l l' ⟨rs, a1, rfl⟩ ⟨rs', b1, rfl⟩
      rw [axisList_unique a1 b1]
  · obtain ⟨F, hF⟩ := transform_ends (S := ⟨E, K, P, G, free, hw, hK, hsrt, hN, hP, fun _ => P, alike_refl _ _ _⟩) hx hG h
    exact ⟨F, fun f hf => ⟨_, hF f hf, rfl⟩⟩

/-- C78: reading the events gives the elements, text, comments and processing instructions of the result, if no attribute
is copied. -/
theorem C78_nodes_partial (E : Env) (K : Nat → Prop) (P : Stylesheet) (free : VName → Prop)
    (hw : Forest E.w) (hK : Documents E.w K) (hN : Named E.w K) (hsrt : StdSort (nodesLessThan E.w) E.srt)
    (hP : Tidy (careful E.w E.cv) free P) (given : List (VName × Argument)) (x : XN) (hx : NodeIn E.w K x) (out : List Instr)
    (h : Transforms E.w E.cv (careful E.w E.cv) P given x out) (hc : Verif.Spec.XsltOutput.Plains (seq out)) :
    ∃ F, ∀ f, F ≤ f → ∃ o, transformDocument E P f given x = .val o ∧
      Verif.Spec.XsltOutput.readTags [] o.out =
        some ((Verif.Spec.XsltOutput.results (seq out)).map Verif.Spec.XsltOutput.bare, []) := by
  obtain ⟨_, _, F, hF⟩ := C78_partial E K P free hw hK hN hsrt hP given x hx out h
  refine ⟨F, fun f hf => ?_⟩
  obtain ⟨o, h1, h2⟩ := hF f hf
  exact ⟨o, h1, by rw [h2]; exact Verif.Props.XsltOutput.C55_nodes _ _ hc⟩

/-- C78: with names resolved by the declarations in the output, reading the events gives the result, if a prefix always
means the same. -/
theorem C78_names_partial (E : Env) (K : Nat → Prop) (P : Stylesheet) (free : VName → Prop)
    (hw : Forest E.w) (hK : Documents E.w K) (hN : Named E.w K) (hsrt : StdSort (nodesLessThan E.w) E.srt)
    (hP : Tidy (careful E.w E.cv) free P) (given : List (VName × Argument)) (x : XN) (hx : NodeIn E.w K x) (out : List Instr)
    (h : Transforms E.w E.cv (careful E.w E.cv) P given x out) (ns : List Char → List Char)
    (hc : Verif.Spec.XsltOutput.Consistents ns (seq out)) :
    ∃ F, ∀ f, F ≤ f → ∃ o, transformDocument E P f given x = .val o ∧
      Verif.Spec.XsltOutput.readEvents [] o.out = some (Verif.Spec.XsltOutput.results (seq out), []) := by
  obtain ⟨_, _, F, hF⟩ := C78_partial E K P free hw hK hN hsrt hP given x hx out h
  refine ⟨F, fun f hf => ?_⟩
  obtain ⟨o, h1, h2⟩ := hF f hf
  exact ⟨o, h1, by rw [h2]; exact Verif.Props.XsltOutput.C48_partial ns _ hc P.cdata⟩

/-- C78: what does not ask for `position()` or `last()`, but in predicates, does not depend on the position or the size.
So sort keys and instructions after others that process nodes are as C78 needs them if they do not ask. -/
theorem C78_fixed (w : World) (cv : Conv) (e : Expr) (h : Unplaced e) :
    Constant (careful w cv) e ∧ ∀ moved, Still (careful w cv) moved e :=
  ⟨constant_of h, fun _ _ => fixed_of h⟩

/-! ## An example -/

/-- `<a x="1"><b>s</b><c/><d/></a>` -/
def exTree : Tree := doc [el ['a'] [at' ['x'] ['1']] [el ['b'] [] [tx ['s']], el ['c'] [] [], el ['d'] [] []]]

def exWorld : World where
  tree _ := exTree
  home k := k

theorem exWorld_forest : Forest exWorld := ⟨fun _ _ => rfl, fun _ h => absurd rfl h⟩

def K : Nat → Prop := (· = 4)

theorem exDocuments : Documents exWorld K where
  document _ _ := rfl
  dom k h := by cases h; exact domTree_of_check (by decide +kernel)
  expanded k h := by cases h; exact expanded_of_check (by decide +kernel)
  small k h := by cases h; exact small_of_check (by decide +kernel)
  normalized k h := by cases h; exact normalized_of_check (by decide +kernel)

/-- Enough for small numbers. -/
def conv : Conv where
  number _ := .nan
  string q := if q = -1 then ['-', '1'] else if q = 1 then ['1'] else if q = 2 then ['2'] else ['3']

/-- No global variables. -/
def noG : VName → Option Val := fun _ => none

def v : VName := ([], ['v'])
def p : VName := ([], ['p'])
def t : VName := ([], ['t'])

/-- With the variable `v`, the number 1. -/
def exEnv : Env where
  w := exWorld
  srt := sortLt (nodesLessThan exWorld)
  cv := conv
  vars u n := if (u, n) = v then some (.num (.fin 1)) else none

def L1 : Bindings := [(v, .num (.fin 1))]

theorem exVariables : SameVariables exWorld K exEnv.vars (variables noG L1) := by
  intro u n q h
  simp only [variables, L1, List.lookup] at h
  by_cases hv : (u, n) = v
  · simp only [hv, beq_self_eq_true] at h
    cases h
    exact ⟨.num (.fin 1), by simp only [exEnv]; rw [if_pos hv], rfl, fun l h => by cases h⟩
  · have : ((u, n) == v) = false := by simpa using hv
    simp only [this, List.lookup] at h
    cases h

/-- `position()` -/
def pos : Expr := .call [] "position".toList []
/-- `child::*` -/
def kids : Expr := .path false [.test .child (.star false) []]

theorem position_value (w : World) (cv : Conv) (G : VName → Option Val) (L : Bindings) (φ : Focus) :
    HasValue (careful w cv) G φ L pos (.num (.fin φ.position)) := by
  refine ⟨?_, ?_⟩
  · rw [pos, Means]
    exact ⟨rfl, .position, [], rfl, by rw [ArgsMean], rfl, rfl⟩
  · rw [pos, Sound]
    exact ⟨rfl, .position, rfl, trivial, fun vs h => h⟩

theorem variable_value (w : World) (cv : Conv) (G : VName → Option Val) (L : Bindings) (φ : Focus) (n : VName) (q : Val)
    (h : L.lookup n = some q) : HasValue (careful w cv) G φ L (.var n.1 n.2) q := by
  have : variables G L n.1 n.2 = some q := by simp only [variables, h]
  refine ⟨?_, ?_⟩
  · rw [Means]; exact this
  · rw [Sound]; exact ⟨q, this⟩

/-- One step without predicates. -/
theorem step_sound (w : World) (cv : Conv) (vars : List Char → List Char → Option Val) (a : Verif.XPathParse.Axis)
    (tst : Verif.XPathParse.Test) (x : XN) (i k : Int) (h1 : a ≠ .namespace) (h2 : a = .child → ¬ IsAttr x.2)
    (h3 : tst ≠ .pi (some [])) (h4 : tst ≠ .node) : Sound w cv vars (.path false [.test a tst []]) x i k := by
  rw [Sound]
  refine ⟨fun s hs => (by cases hs), ?_⟩
  rw [SoundSteps, SoundStep]
  exact ⟨⟨h1, h2, h3, h4, fun l _ => trivial⟩, fun m _ => trivial⟩

theorem nodes_value (φ : Focus) (a : Verif.XPathParse.Axis) (tst : Verif.XPathParse.Test) (l : List XN) (ns : NodeSet)
    (hx : NodeIn exWorld K φ.node) (h1 : a ≠ .namespace) (h2 : a = .child → ¬ IsAttr φ.node.2)
    (h3 : tst ≠ .pi (some [])) (h4 : tst ≠ .node)
    {vars : List Char → List Char → Option XVal} {L : Bindings} (hv : SameVariables exWorld K vars (variables noG L))
    (he : eval { exEnv with vars := vars } 30 (.path false [.test a tst []]) φ.node φ.position φ.size = .val (.nodes ns))
    (hl : l = if ns.forward then ns.nodes else ns.nodes.reverse) :
    HasValue (careful exWorld conv) noG φ L (.path false [.test a tst []]) (.nodes l) := by
  have hs := step_sound exWorld conv (variables noG L) a tst φ.node φ.position φ.size h1 h2 h3 h4
  obtain ⟨q, g1, g2⟩ := means_of_eval (E := { exEnv with vars := vars }) (K := K) exWorld_forest exDocuments (sortLt_spec _) hv hx hs he
  refine ⟨?_, hs⟩
  have : q = .nodes l := by
    cases q with
    | nodes l' =>
      obtain ⟨_, g2⟩ := g2
      rw [hl, g2]
      cases ns.forward <;> simp
    | bool _ => exact g2.elim
    | num _ => exact g2.elim
    | str _ => exact g2.elim
  rw [← this]
  exact g1

/-- `<xsl:variable name="v" select="position()"/><r y="{$v}"><xsl:for-each select="child::*"><xsl:value-of
select="position()"/></xsl:for-each><xsl:apply-templates/></r>` -/
def rootTemplate : Template where
  params := []
  body := .cons (.variable v pos) (.cons (.element [] ['r'] [] [⟨[], ['y'], [], .var v.1 v.2⟩]
    (.cons (.forEach kids [] (.cons (.valueOf pos) .nil)) (.cons (.applyTemplates none [] [] []) .nil))) .nil)

/-- `<xsl:call-template name="t"><xsl:with-param name="p" select="position()"/></xsl:call-template>` -/
def cTemplate : Template where
  params := []
  body := .cons (.callTemplate t [(p, pos)]) .nil

/-- `<xsl:param name="p" select="'x'"/><xsl:value-of select="$p"/>` -/
def namedTemplate : Template where
  params := [(p, .string ['x'])]
  body := .cons (.valueOf (.var p.1 p.2)) .nil

/-- For the root and the element `c` there are rules. -/
def exSheet : Stylesheet where
  rule mode x :=
    if mode = [] then
      if x = (4, []) then some rootTemplate else if x = (4, [.child 1, .child 0]) then some cTemplate else none
    else none
  named n := if n = t then some namedTemplate else none
  globals := []
  cdata := []

/-- `<r y="1">1s2</r>`: the position of `a`, the text of `b`, the position of `c`. -/
def exOut : List Instr :=
  [.element [] ['r'] [] (seq [.attr [] ['y'] [] (seq [.text ['1']]), .text ['1'], .text ['s'], .text ['2']])]

theorem exTidy : Tidy (careful exWorld conv) (fun _ => False) exSheet where
  rules mode x tm h := by
    simp only [exSheet] at h
    split at h
    · split at h
      · cases h
        simp [TidyTemplate, rootTemplate, TidyItems, TidyItem, TidySorts, Still, moves, movesIn]
      · split at h
        · cases h
          simp [TidyTemplate, cTemplate, TidyItems, TidyItem, TidySorts, Still, moves, movesIn]
        · cases h
    · cases h
  named n tm h := by
    simp only [exSheet] at h
    split at h
    · cases h
      simp [TidyTemplate, namedTemplate, TidyItems, TidyItem, TidySorts, Still, moves, movesIn]
    · cases h
  free _ _ _ h := h.elim
  globals g h := by cases h

theorem exNamed : Named exWorld K := by
  intro k hk r n h
  cases hk
  have hc : ((refs [] exTree).all fun r => decide (∀ m ∈ (sub exTree r), m.data.loc = m.data.name)) = true := by
    decide +kernel
  have := List.all_eq_true.1 hc r (mem_all (by rw [show sub exTree r = some n from h]; rfl))
  have h' := of_decide_eq_true this n h
  exact ⟨fun _ => h', fun _ => h'⟩

/-- With no global variables there is nothing to evaluate. -/
theorem noGlobals (R : Reading) (x : XN) : GlobalsAre R x [] [] noG where
  distinct := .nil
  only n q h := by cases h
  supplied g h := by cases h
  evaluated g h := by cases h
  wellFounded := ⟨fun _ => 0, fun g h => by cases h⟩

theorem children_of {w : World} (hK : Documents w K) {x : XN} {l : List Ref} (hx : NodeIn w K x) (hna : ¬ IsAttr x.2)
    (h : enumerate (w.tree 4) x.2 .child 30 = .done l) :
    (careful w conv).children x (l.map fun r => (x.1, r)) ∧ ∀ r ∈ l, NodeIn w K (x.1, r) := by
  obtain ⟨k, r⟩ := x
  obtain ⟨rfl, hx⟩ := hx
  obtain ⟨l', F, h1, h2⟩ := Verif.Props.XPathAxes.C35_partial (w.tree 4) (hK.dom 4 rfl) (hK.expanded 4 rfl)
    r hx .child (fun _ => hna) (fun h => by cases h) (fun h => by cases h)
  have e1 := h1 (max F 30) (Nat.le_max_left ..)
  have e2 := enumerate_mono h (Nat.le_max_right F 30)
  rw [e1] at e2
  cases e2
  exact ⟨⟨⟨l, h2, rfl⟩, hna⟩, fun r hr => ⟨rfl, ((h2.1 r).1 hr).1⟩⟩

def a : XN := (4, [.child 0])
def b : XN := (4, [.child 0, .child 0])
def c : XN := (4, [.child 1, .child 0])
def d : XN := (4, [.child 2, .child 0])
def s : XN := (4, [.child 0, .child 0, .child 0])

theorem exRoot : NodeIn exWorld K (4, []) := ⟨rfl, trivial⟩
theorem exKids : (careful exWorld conv).children (4, []) [a] ∧ NodeIn exWorld K a := by
  have := children_of exDocuments (l := [a.2]) exRoot (by simp [IsAttr]) (by decide +kernel)
  exact ⟨this.1, this.2 a.2 (by simp)⟩
theorem exKidsA : (careful exWorld conv).children a [b, c, d] ∧ NodeIn exWorld K b ∧ NodeIn exWorld K d := by
  have := children_of exDocuments (l := [b.2, c.2, d.2]) exKids.2 (by simp [IsAttr, a]) (by decide +kernel)
  exact ⟨this.1, this.2 b.2 (by simp), this.2 d.2 (by simp)⟩
theorem exKidsB : (careful exWorld conv).children b [s] := by
  exact (children_of exDocuments (l := [s.2]) exKidsA.2.1 (by simp [IsAttr, b]) (by decide +kernel)).1
theorem exKidsD : (careful exWorld conv).children d [] := by
  exact (children_of exDocuments (l := []) exKidsA.2.2 (by simp [IsAttr, d]) (by decide +kernel)).1

theorem exGives : Transforms exWorld conv (careful exWorld conv) exSheet [] (4, []) exOut := by
  have hk : HasValue (careful exWorld conv) noG ⟨(4, []), 1, 1⟩ L1 kids (.nodes [a]) :=
    nodes_value ⟨(4, []), 1, 1⟩ .child (.star false) [a] { nodes := [a], sorted := true } exRoot (by decide)
      (fun _ h => by simp [IsAttr] at h) (by decide) (by decide) exVariables (by decide +kernel) (by decide +kernel)
  -- the text in `b`
  have h1 : Gives exWorld conv (careful exWorld conv) exSheet noG (.rule [] [] ⟨b, 1, 3⟩) [.text ['s']] :=
    .builtInParent [] [] ⟨b, 1, 3⟩ [s] _ (by decide) ⟨_, rfl, by decide⟩ exKidsB
      (.rulesCons [] [] s [] 1 1 [.text ['s']] [] (.builtInText [] [] ⟨s, 1, 1⟩ (by decide) ⟨_, rfl, by decide⟩)
        (.rulesNil _ _ _ _))
  -- the position of `c`
  have h2 : Gives exWorld conv (careful exWorld conv) exSheet noG (.rule [] [] ⟨c, 2, 3⟩) [.text ['2']] :=
    .rule [] [] ⟨c, 2, 3⟩ cTemplate _ (by rfl) (.template cTemplate [] ⟨c, 2, 3⟩ [] _ rfl
      (.cons _ _ _ _ [.text ['2']] [] (fun h => h) (.call _ _ t [(p, pos)] [(p, .num (.fin 2))] namedTemplate _
        ⟨_, _, rfl, position_value _ _ _ _ ⟨c, 2, 3⟩, rfl, rfl⟩ (by rfl)
        (.template namedTemplate [(p, .num (.fin 2))] ⟨c, 2, 3⟩ [(p, .num (.fin 2))] _ ⟨rfl, _, .inl rfl, rfl⟩
          (.cons _ _ _ _ [.text ['2']] [] (fun h => h) (.valueOf _ _ _ (.num (.fin 2)) (variable_value _ _ _ _ _ p _ rfl))
            (.nil _ _)))) (.nil _ _)))
  have h3 : Gives exWorld conv (careful exWorld conv) exSheet noG (.rule [] [] ⟨d, 3, 3⟩) [] :=
    .builtInParent [] [] ⟨d, 3, 3⟩ [] _ (by decide) ⟨_, rfl, by decide⟩ exKidsD (.rulesNil _ _ _ _)
  have h4 : Gives exWorld conv (careful exWorld conv) exSheet noG (.rules [] [] [a] 1 1) [.text ['s'], .text ['2']] :=
    .rulesCons [] [] a [] 1 1 [.text ['s'], .text ['2']] []
      (.builtInParent [] [] ⟨a, 1, 1⟩ [b, c, d] _ (by decide) ⟨_, rfl, by decide⟩ exKidsA.1
        (.rulesCons [] [] b [c, d] 1 3 _ [.text ['2']] h1 (.rulesCons [] [] c [d] 2 3 _ [] h2
          (.rulesCons [] [] d [] 3 3 [] [] h3 (.rulesNil _ _ _ _)))))
      (.rulesNil _ _ _ _)
  have h5 : Gives exWorld conv (careful exWorld conv) exSheet noG
      (.item ⟨(4, []), 1, 1⟩ L1 (.forEach kids [] (.cons (.valueOf pos) .nil))) [.text ['1']] :=
    .forEach _ _ _ [] _ [a] [a] _ hk (sortedBy_none _) (.eachCons _ _ a [] 1 1 [.text ['1']] []
      (.cons _ _ _ _ [.text ['1']] [] (fun h => h) (.valueOf _ _ _ (.num (.fin 1)) (position_value _ _ _ _ ⟨a, 1, 1⟩))
        (.nil _ _)) (.eachNil _ _ _ _))
  refine ⟨noG, noGlobals _ _, ?_⟩
  exact .rulesCons [] [] (4, []) [] 1 1 exOut [] (.rule [] [] ⟨(4, []), 1, 1⟩ rootTemplate _ (by rfl)
    (.template rootTemplate [] _ [] _ rfl (.variable _ _ v pos _ (.num (.fin 1)) _
      (position_value _ _ _ _ ⟨(4, []), 1, 1⟩) rfl (.cons _ L1 _ _ exOut [] (fun h => h)
        (.element _ L1 [] ['r'] [] _ _ [.attr [] ['y'] [] (seq [.text ['1']])] [.text ['1'], .text ['s'], .text ['2']]
          ⟨.num (.fin 1), [], variable_value _ _ _ _ _ v _ rfl, rfl, rfl⟩
          (.cons _ _ _ _ [.text ['1']] [.text ['s'], .text ['2']] (fun h => h) h5
            (.cons _ _ _ _ [.text ['s'], .text ['2']] [] (fun h => h)
              (.applyChildren _ _ [] [] [] [] [a] [a] _ rfl exKids.1 (sortedBy_none _) h4) (.nil _ _))))
        (.nil _ _))))) (.rulesNil _ _ _ _)

/-- All hypotheses of C78 for the example, and what it says. -/
example : ∃ F, ∀ f, F ≤ f → ∃ o, transformDocument exEnv exSheet f [] (4, []) = .val o ∧
    o.out = transform [] (seq exOut) :=
  (C78_partial exEnv K exSheet (fun _ => False) exWorld_forest exDocuments exNamed (sortLt_spec _) exTidy []
    (4, []) exRoot exOut exGives).2.2

example : transform [] (seq exOut) = [.startElement ([], ['r']) [] [⟨[], ['y'], ([], ['y']), ['1']⟩], .characters ['1'], .characters ['s'],
    .characters ['2'],
    .endElement ([], ['r']) []] := by decide +kernel

theorem exPlain : Verif.Spec.XsltOutput.Plains (seq exOut) := by
  simp [exOut, seq, Verif.Spec.XsltOutput.Plains, Verif.Spec.XsltOutput.Plain]

theorem exConsistent : Verif.Spec.XsltOutput.Consistents (fun _ => []) (seq exOut) := by
  simp [exOut, seq, Verif.Spec.XsltOutput.Consistents, Verif.Spec.XsltOutput.Consistent, Verif.Spec.XsltOutput.xmlns]

/-- So are those of the other two. -/
example : ∃ F, ∀ f, F ≤ f → ∃ o, transformDocument exEnv exSheet f [] (4, []) = .val o ∧
    Verif.Spec.XsltOutput.readTags [] o.out = some ((Verif.Spec.XsltOutput.results (seq exOut)).map Verif.Spec.XsltOutput.bare, []) :=
  C78_nodes_partial exEnv K exSheet (fun _ => False) exWorld_forest exDocuments exNamed (sortLt_spec _) exTidy []
    (4, []) exRoot exOut exGives exPlain

example : ∃ F, ∀ f, F ≤ f → ∃ o, transformDocument exEnv exSheet f [] (4, []) = .val o ∧
    Verif.Spec.XsltOutput.readEvents [] o.out = some (Verif.Spec.XsltOutput.results (seq exOut), []) :=
  C78_names_partial exEnv K exSheet (fun _ => False) exWorld_forest exDocuments exNamed (sortLt_spec _) exTidy []
    (4, []) exRoot exOut exGives _ exConsistent

/-! ## Global variables -/

/-- `<xsl:variable name="v" select="$p"/><xsl:param name="p" select="'x'"/>`, and for the root
`<xsl:value-of select="$v"/>` -/
def globalSheet : Stylesheet where
  rule mode x := if mode = [] ∧ x = (4, []) then some ⟨[], .cons (.valueOf (.var v.1 v.2)) .nil⟩ else none
  named _ := none
  globals := [⟨false, v, .var p.1 p.2⟩, ⟨true, p, .string ['x']⟩]
  cdata := []

/-- Both have this value. -/
def both (q : Val) : VName → Option Val := fun n => if n = v ∨ n = p then some q else none

theorem globalTidy : Tidy (careful exWorld conv) (fun _ => False) globalSheet where
  rules mode x tm h := by
    simp only [globalSheet] at h
    split at h
    · cases h
      simp [TidyTemplate, TidyItems, TidyItem, Still, moves]
    · cases h
  named n tm h := by cases h
  free _ _ _ h := h.elim
  globals g h := by
    refine (C78_fixed _ _ _ ?_).1
    simp only [globalSheet, List.mem_cons, List.not_mem_nil, or_false] at h
    rcases h with rfl | rfl <;> simp [Unplaced]

theorem global_gives (q : Val) (out : List Char) (hq : out = Verif.Spec.XPathEval.toString exWorld conv q) :
    Gives exWorld conv (careful exWorld conv) globalSheet (both q) (.rules [] [] [(4, [])] 1 1) [.text out] := by
  have hv : HasValue (careful exWorld conv) (both q) ⟨(4, []), 1, 1⟩ [] (.var v.1 v.2) q := by
    have : variables (both q) [] v.1 v.2 = some q := rfl
    exact ⟨by rw [Means]; exact this, by rw [Sound]; exact ⟨q, this⟩⟩
  subst hq
  exact .rulesCons [] [] (4, []) [] 1 1 [.text _] [] (.rule [] [] ⟨(4, []), 1, 1⟩ _ _ rfl (.template _ [] _ [] _ rfl
    (.cons _ _ _ _ [.text _] [] (fun h => h) (.valueOf _ _ _ q hv) (.nil _ _)))) (.rulesNil _ _ _ _)

theorem both_var (q : Val) (x : XN) : (careful exWorld conv).value (fun u n => both q (u, n)) (.var p.1 p.2) x 1 1 q := by
  have : both q (p.1, p.2) = some q := rfl
  exact ⟨by rw [Means]; exact this, by rw [Sound]; exact ⟨q, this⟩⟩

theorem both_only (q : Val) (n : VName) (q' : Val) (h : both q n = some q') : ∃ g ∈ globalSheet.globals, g.name = n := by
  simp only [both] at h
  split at h
  · rename_i hn
    rcases hn with rfl | rfl
    · exact ⟨_, List.mem_cons_self .., rfl⟩
    · exact ⟨_, List.mem_cons_of_mem _ (List.mem_cons_self ..), rfl⟩
  · cases h

/-- `v` comes after `p`. -/
theorem both_rank : ∃ rank : VName → Nat, ∀ g ∈ globalSheet.globals, ∀ n ∈ mentions g.value,
    (∃ h ∈ globalSheet.globals, h.name = n) ∧ rank n < rank g.name := by
  refine ⟨fun n => if n = v then 1 else 0, fun g hg n hn => ?_⟩
  simp only [globalSheet, List.mem_cons, List.not_mem_nil, or_false] at hg
  rcases hg with rfl | rfl
  · rw [mentions] at hn
    cases List.mem_singleton.1 hn
    exact ⟨⟨_, List.mem_cons_of_mem _ (List.mem_cons_self ..), rfl⟩, by decide⟩
  · rw [mentions] at hn
    cases hn

/-- The values when the caller has set nothing: the one of `p` is its default. -/
theorem globalsDefault : GlobalsAre (careful exWorld conv) (4, []) [] globalSheet.globals (both (.str ['x'])) where
  distinct := by decide
  only := both_only _
  supplied g _ a h := by
    obtain ⟨_, before, after, h, _⟩ := h
    cases before <;> cases h
  evaluated g hg _ := by
    simp only [globalSheet, List.mem_cons, List.not_mem_nil, or_false] at hg
    rcases hg with rfl | rfl
    · exact ⟨_, rfl, both_var _ _⟩
    · exact ⟨_, rfl, by rw [Means], by rw [Sound]; trivial⟩
  wellFounded := by
    obtain ⟨rank, h⟩ := both_rank
    exact ⟨rank, fun g hg _ => h g hg⟩

/-- The values when the caller has set `p` to 2. -/
theorem globalsGiven :
    GlobalsAre (careful exWorld conv) (4, []) [(p, .num (.fin 2))] globalSheet.globals (both (.num (.fin 2))) where
  distinct := by decide
  only := both_only _
  supplied g hg a h := by
    obtain ⟨h1, before, after, h, _⟩ := h
    cases before with
    | nil =>
      simp only [List.nil_append, List.cons.injEq, Prod.mk.injEq] at h
      rw [← h.1.1, ← h.1.2]
      rfl
    | cons c cs => cases cs <;> cases h
  evaluated g hg hn := by
    simp only [globalSheet, List.mem_cons, List.not_mem_nil, or_false] at hg
    rcases hg with rfl | rfl
    · exact ⟨_, rfl, both_var _ _⟩
    · exact absurd ⟨_, rfl, [], [], rfl, fun _ h => (by cases h)⟩ hn
  wellFounded := by
    obtain ⟨rank, h⟩ := both_rank
    exact ⟨rank, fun g hg _ => h g hg⟩

/-- All hypotheses of C78 for a stylesheet with a variable that is declared before the parameter it refers to. -/
example : ∃ F, ∀ f, F ≤ f → ∃ o, transformDocument exEnv globalSheet f [] (4, []) = .val o ∧
    o.out = [.characters ['x']] :=
  (C78_partial exEnv K globalSheet (fun _ => False) exWorld_forest exDocuments exNamed (sortLt_spec _) globalTidy []
    (4, []) exRoot [.text ['x']] ⟨_, globalsDefault, global_gives _ _ rfl⟩).2.2

/-- And when the caller sets the parameter. -/
example : ∃ F, ∀ f, F ≤ f → ∃ o, transformDocument exEnv globalSheet f [(p, .num (.fin 2))] (4, []) = .val o ∧
    o.out = [.characters ['2']] :=
  (C78_partial exEnv K globalSheet (fun _ => False) exWorld_forest exDocuments exNamed (sortLt_spec _) globalTidy
    [(p, .num (.fin 2))] (4, []) exRoot [.text ['2']] ⟨_, globalsGiven, global_gives _ _ rfl⟩).2.2

/-! ## What goes wrong -/

/-- What has been written, if the run has ended. -/
def outOf : Ev Verif.Xslt.Out → Option (List Verif.Xslt.Event)
  | .val o => some o.out
  | _ => none

theorem outOf_some {r : Ev Verif.Xslt.Out} {l : List Verif.Xslt.Event} (h : outOf r = some l) : ∃ o, r = .val o ∧ o.out = l := by
  cases r <;> simp_all [outOf]

/-- No variables. -/
def bareEnv : Env := { exEnv with vars := fun _ _ => none }

theorem noVariables : SameVariables exWorld K bareEnv.vars (variables noG []) := fun _ _ _ h => by cases h

/-- A rule for `a` only. -/
def forA (body : Items) : Stylesheet where
  rule _ x := if x = (4, [.child 0]) then some ⟨[], body⟩ else none
  named _ := none
  globals := []
  cdata := []

/-- What it writes is what the rule for `a` writes. -/
theorem forA_gives {body : Items} {out : List Instr}
    (h : Gives exWorld conv (byXPath exWorld conv) (forA body) noG (.items ⟨a, 1, 1⟩ [] body) out) :
    Transforms exWorld conv (byXPath exWorld conv) (forA body) [] (4, []) out := by
  have h2 := Gives.rulesCons (w := exWorld) (cv := conv) (R := byXPath exWorld conv) (P := forA body) (G := noG)
    [] [] a [] 1 1 _ [] (.rule [] [] ⟨a, 1, 1⟩ ⟨[], body⟩ _ rfl (.template _ [] _ [] _ rfl h)) (.rulesNil _ _ _ _)
  have h3 := Gives.rulesCons (w := exWorld) (cv := conv) (R := byXPath exWorld conv) (P := forA body) (G := noG)
    [] [] (4, []) [] 1 1 _ [] (.builtInParent [] [] ⟨(4, []), 1, 1⟩ [a] _ rfl ⟨_, rfl, by decide⟩ exKids.1.1 h2)
    (.rulesNil _ _ _ _)
  simp only [List.append_nil] at h3
  exact ⟨noG, noGlobals _ _, h3⟩

theorem kids_value : HasValue (byXPath exWorld conv) noG ⟨a, 1, 1⟩ [] kids (.nodes [b, c, d]) :=
  (nodes_value ⟨a, 1, 1⟩ .child (.star false) [b, c, d] { nodes := [b, c, d], sorted := true } exKids.2 (by decide)
      (fun _ h => by simp [IsAttr, a] at h) (by decide) (by decide) noVariables (by decide +kernel) (by decide +kernel)).1

/-- `<xsl:for-each select="child::*"/>` writes nothing. -/
theorem kids_nothing (P : Stylesheet) : Gives exWorld conv (byXPath exWorld conv) P noG
    (.item ⟨a, 1, 1⟩ [] (.forEach kids [] .nil)) [] :=
  .forEach _ _ _ [] _ [b, c, d] [b, c, d] _ kids_value (sortedBy_none _) (.eachCons _ _ b [c, d] 1 3 [] [] (.nil _ _)
    (.eachCons _ _ c [d] 2 3 [] [] (.nil _ _) (.eachCons _ _ d [] 3 3 [] [] (.nil _ _) (.eachNil _ _ _ _))))

/-- `<xsl:variable name="v" select="position()"/>` for the whole stylesheet, and for the root `<xsl:value-of
select="$v"/>` -/
def positionSheet : Stylesheet := { globalSheet with globals := [⟨false, v, pos⟩] }

/-- Global variables are evaluated with no position: `<xsl:variable name="v" select="position()"/>` outside templates is -1,
not 1, the position of the node the stylesheet is run for. -/
theorem C78_violated_global_position :
    Transforms exWorld conv (byXPath exWorld conv) positionSheet [] (4, []) [.text ['1']] ∧
    ∃ o, transformDocument bareEnv positionSheet 20 [] (4, []) = .val o ∧ o.out = [.characters ['-', '1']] := by
  refine ⟨⟨fun n => if n = v then some (.num (.fin 1)) else none, ⟨by decide, ?_, ?_, ?_, ?_⟩, ?_⟩, outOf_some (by decide +kernel)⟩
  · intro n q h
    split at h
    · rename_i hn
      exact ⟨_, List.mem_cons_self .., hn.symm⟩
    · cases h
  · rintro g hg a ⟨_, before, after, h, _⟩
    cases before <;> cases h
  · intro g hg _
    cases List.mem_singleton.1 hg
    exact ⟨_, rfl, (position_value exWorld conv (fun n => if n = v then some (.num (.fin 1)) else none) [] ⟨(4, []), 1, 1⟩).1⟩
  · refine ⟨fun _ => 0, fun g hg _ n hn => ?_⟩
    cases List.mem_singleton.1 hg
    rw [pos, mentions, mentionsAll] at hn
    cases hn
  · refine .rulesCons [] [] (4, []) [] 1 1 [.text ['1']] [] (.rule [] [] ⟨(4, []), 1, 1⟩ _ _ rfl (.template _ [] _ [] _ rfl
      (.cons _ _ _ _ [.text ['1']] [] (fun h => h) (.valueOf _ _ _ (.num (.fin 1)) ?_) (.nil _ _)))) (.rulesNil _ _ _ _)
    show Means _ _ _ _ _ _ _ _
    rw [Means]
    rfl

/-- After an `xsl:for-each` the position is still the one of its last node: in the rule for `a`, the only element in the
root, `<xsl:for-each select="child::*"/><xsl:value-of select="position()"/>` writes 3, not 1. -/
theorem C78_violated_position :
    Transforms exWorld conv (byXPath exWorld conv) (forA (.cons (.forEach kids [] .nil) (.cons (.valueOf pos) .nil))) [] (4, [])
      [.text ['1']] ∧
    ∃ o, transformDocument bareEnv (forA (.cons (.forEach kids [] .nil) (.cons (.valueOf pos) .nil))) 20 [] (4, []) = .val o ∧
      o.out = [.characters ['3']] :=
  ⟨forA_gives (.cons _ _ _ _ [] [.text ['1']] (fun h => h) (kids_nothing _) (.cons _ _ _ _ [.text ['1']] [] (fun h => h)
    (.valueOf _ _ _ (.num (.fin 1)) (position_value _ _ _ _ ⟨a, 1, 1⟩).1) (.nil _ _))), outOf_some (by decide +kernel)⟩

/-- After an `xsl:for-each`, `current()` is still its last node: in the rule for `a`,
`<xsl:for-each select="child::*"/><xsl:value-of select="current()"/>` does not write the `s` of `a`, but the empty text of
`d`. -/
theorem C78_violated_current :
    Transforms exWorld conv (byXPath exWorld conv) (forA (.cons (.forEach kids [] .nil) (.cons .valueOfCurrent .nil))) [] (4, [])
      [.text ['s']] ∧
    ∃ o, transformDocument bareEnv (forA (.cons (.forEach kids [] .nil) (.cons .valueOfCurrent .nil))) 20 [] (4, []) = .val o ∧
      o.out = [.characters []] :=
  ⟨forA_gives (.cons _ _ _ _ [] [.text ['s']] (fun h => h) (kids_nothing _) (.cons _ _ _ _ [.text ['s']] [] (fun h => h)
    (.current _ _) (.nil _ _))), outOf_some (by decide +kernel)⟩

/-- `preceding-sibling::*` -/
def before : Expr := .path false [.test .precedingSibling (.star false) []]
/-- `attribute::*` -/
def attributes : Expr := .path false [.test .attribute (.star true) []]

/-- `xsl:copy-of` copies nodes of a reverse axis backwards: for `d`, `<xsl:copy-of select="preceding-sibling::*"/>` copies
`c` before `b`. -/
theorem C78_violated_copy_of :
    Gives exWorld conv (byXPath exWorld conv) (forA .nil) noG (.item ⟨d, 3, 3⟩ [] (.copyOf before))
      [.element [] ['b'] [] (seq [.text ['s']]), .element [] ['c'] [] (seq [])] ∧
    ∃ st, runItem bareEnv 20 (invoke bareEnv (forA .nil) 20 20) (.copyOf before) d (initial (forA .nil) [] [] d) = .val st ∧
      st.out.out = transform [] (seq [.element [] ['c'] [] (seq []), .element [] ['b'] [] (seq [.text ['s']])]) := by
  refine ⟨.copyNodes _ _ _ [b, c] (nodes_value ⟨d, 3, 3⟩ .precedingSibling (.star false) [b, c]
    { nodes := [c, b], sorted := true, forward := false } exKidsA.2.2 (by decide)
      (fun h => by cases h) (by decide) (by decide) noVariables (by decide +kernel) (by decide +kernel)).1, ?_⟩
  obtain ⟨o, h1, h2⟩ := outOf_some (r := (runItem bareEnv 20 (invoke bareEnv (forA .nil) 20 20) (.copyOf before) d
    (initial (forA .nil) [] [] d)).bind fun st => .val st.out) (l := transform [] (seq [.element [] ['c'] [] (seq []),
      .element [] ['b'] [] (seq [.text ['s']])])) (by decide +kernel)
  cases h : runItem bareEnv 20 (invoke bareEnv (forA .nil) 20 20) (.copyOf before) d (initial (forA .nil) [] [] d) with
  | val st => rw [h] at h1; cases h1; exact ⟨st, rfl, h2⟩
  | _ => rw [h] at h1; cases h1

/-- The attribute `x` of `a`. -/
def xAttr : XN := (4, [.attr 0, .child 0])

/-- Attributes have no children in XPath, but `xsl:apply-templates` finds their text: in the rule for `a`,
`<xsl:for-each select="attribute::*"><xsl:apply-templates/></xsl:for-each>` writes the `1` of `x`, not nothing. -/
theorem C78_violated_children :
    Transforms exWorld conv (byXPath exWorld conv)
      (forA (.cons (.forEach attributes [] (.cons (.applyTemplates none [] [] []) .nil)) .nil)) [] (4, []) [] ∧
    ∃ o, transformDocument bareEnv (forA (.cons (.forEach attributes [] (.cons (.applyTemplates none [] [] []) .nil)) .nil)) 20
      [] (4, []) = .val o ∧ o.out = [.characters ['1']] := by
  refine ⟨forA_gives (.cons _ _ _ _ [] [] (fun h => h) (.forEach _ _ _ [] _ [xAttr] [xAttr] _ ?_ (sortedBy_none _) (.eachCons _ _ xAttr [] 1 1 [] []
    (.cons _ _ _ _ [] [] (fun h => h) (.applyChildren _ _ [] [] [] [] [] [] _ rfl ?_ (sortedBy_none _) (.rulesNil _ _ _ _)) (.nil _ _))
    (.eachNil _ _ _ _))) (.nil _ _)), outOf_some (by decide +kernel)⟩
  · exact (nodes_value ⟨a, 1, 1⟩ .attribute (.star true) [xAttr] { nodes := [xAttr], sorted := true } exKids.2 (by decide)
      (fun h => by cases h) (by decide) (by decide) noVariables (by decide +kernel) (by decide +kernel)).1
  · refine ⟨[], ⟨fun r => ⟨fun h => (by cases h), fun h => ?_⟩, fun _ => .nil, fun _ => .nil⟩, rfl⟩
    obtain ⟨h1, i, rfl⟩ := h
    exact absurd h1.1 (by simp [AllChild, xAttr])

/-! ## Sorting -/

/-- `self::*` -/
def self' : Expr := .path false [.test .self (.star false) []]

/-- `<xsl:sort select="self::*"/>` with the defaults of the other attributes -/
def byText : SortKey := ⟨self', .string "text".toList, .string "ascending".toList, .string "upper-first".toList⟩

/-- `<xsl:for-each select="child::*"><xsl:sort select="self::*"/><xsl:copy/></xsl:for-each>` -/
def sortBody : Items := .cons (.forEach kids [byText] (.cons (.copy .nil) .nil)) .nil

theorem string_value (w : World) (cv : Conv) (G : VName → Option Val) (L : Bindings) (φ : Focus) (t : List Char) :
    HasValue (careful w cv) G φ L (.string t) (.str t) := by
  refine ⟨?_, ?_⟩
  · rw [Means]
  · rw [Sound]; trivial

theorem string_means (L : Bindings) (φ : Focus) (t : List Char) :
    HasValue (byXPath exWorld conv) noG φ L (.string t) (.str t) := (string_value exWorld conv noG L φ t).1

theorem sortTidy : Tidy (careful exWorld conv) (fun _ => False) (forA sortBody) where
  rules mode x tm h := by
    simp only [forA] at h
    split at h
    · cases h
      refine ⟨fun p hp => (by cases hp), ?_⟩
      have hs : TidySorts (careful exWorld conv) false [byText] := by
        intro s hs
        rw [List.mem_singleton.1 hs]
        exact ⟨(C78_fixed _ _ _ (by simp [byText, self', Unplaced, UnplacedSteps, UnplacedStep])).1, fun h => (by cases h),
          fun h => (by cases h), fun h => (by cases h)⟩
      have ho : Ordered (careful exWorld conv) kids := .inl ⟨[], .child, .star false, [], rfl, fun axis h => by
        cases h
        simp [Reverse]⟩
      simp [sortBody, TidyItems, TidyItem, Still, moves, movesIn, hs, ho, Undeclaring]
    · cases h
  named n tm h := by cases h
  free _ _ _ h := h.elim
  globals g h := by cases h

/-- The strings of `b`, `c` and `d`. -/
def textKey : Verif.Xslt.Key XN where
  number := false
  ascending := true
  num := fun _ => .nan
  str := stringValue exWorld

theorem self_value (y : XN) (i k : Int) (h : y ∈ [b, c, d]) :
    HasValue (careful exWorld conv) noG ⟨y, i, k⟩ [] self' (.nodes [y]) := by
  have hd : ∀ y ∈ [b, c, d], NodeIn exWorld K y ∧ eval bareEnv 30 self' y 1 1 = .val (.nodes { nodes := [y], sorted := true }) := by
    have hc := (children_of exDocuments (l := [b.2, c.2, d.2]) exKids.2 (by simp [IsAttr, a]) (by decide +kernel)).2
    intro y hy
    simp only [List.mem_cons, List.not_mem_nil, or_false] at hy
    rcases hy with rfl | rfl | rfl
    · exact ⟨hc b.2 (by simp), by decide +kernel⟩
    · exact ⟨hc c.2 (by simp), by decide +kernel⟩
    · exact ⟨hc d.2 (by simp), by decide +kernel⟩
  have := nodes_value ⟨y, 1, 1⟩ .self (.star false) [y] { nodes := [y], sorted := true } (hd y h).1 (by decide)
    (fun h => by cases h) (by decide) (by decide) noVariables (hd y h).2 rfl
  exact (C78_fixed _ _ self' (by simp [self', Unplaced, UnplacedSteps, UnplacedStep])).1 _ _ _ _ _ _ _ this

theorem exSorted : SortedBy exWorld conv (careful exWorld conv) noG ⟨a, 1, 1⟩ [] [byText] [b, c, d] [c, d, b] := by
  refine ⟨[textKey], ⟨textKey, [], rfl, ⟨⟨_, string_value _ _ _ _ _ _, rfl⟩, ⟨_, string_value _ _ _ _ _ _, rfl⟩,
    ⟨_, string_value _ _ _ _ _ _, .inl rfl⟩, fun i y hy => ⟨_, self_value y _ _ (List.mem_of_getElem? hy), rfl⟩⟩, rfl⟩, ?_⟩
  have h := Verif.Xslt.arranged_sort [textKey] [b, c, d]
  rw [show Verif.Xslt.stableSort [textKey] [b, c, d] = [c, d, b] by decide +kernel] at h
  exact h

theorem copies (R : Reading) (y : XN) (n : Tree) (i k : Int) (P : Stylesheet) (h : sub (exWorld.tree y.1) y.2 = some n)
    (hk : n.kind = .element) : Gives exWorld conv R P noG (.items ⟨y, i, k⟩ [] (.cons (.copy .nil) .nil))
      ([.element n.data.pfx (localName n.data) n.data.uri (seq [])] ++ []) :=
  .cons _ _ _ _ _ [] (fun h => h) (.copyElement _ _ _ n _ h hk (.nil _ _)) (.nil _ _)

/-- The texts of `c` and `d` are empty, the one of `b` is not: `c`, `d`, `b`. -/
def sortOut : List Instr := [.element [] ['c'] [] (seq []), .element [] ['d'] [] (seq []), .element [] ['b'] [] (seq [])]

theorem sortGives : Transforms exWorld conv (careful exWorld conv) (forA sortBody) [] (4, []) sortOut := by
  have h1 : Gives exWorld conv (careful exWorld conv) (forA sortBody) noG (.items ⟨a, 1, 1⟩ [] sortBody) sortOut := by
    refine .cons _ _ _ _ sortOut [] (fun h => h) (.forEach _ _ _ _ _ [b, c, d] [c, d, b] _ ?_ exSorted ?_) (.nil _ _)
    · exact nodes_value ⟨a, 1, 1⟩ .child (.star false) [b, c, d] { nodes := [b, c, d], sorted := true } exKids.2 (by decide)
        (fun _ h => by simp [IsAttr, a] at h) (by decide) (by decide) noVariables (by decide +kernel) (by decide +kernel)
    · exact .eachCons _ _ c [d, b] 1 3 _ [.element [] ['d'] [] (seq []), .element [] ['b'] [] (seq [])]
        (copies _ c _ _ _ _ rfl rfl) (.eachCons _ _ d [b] 2 3 _ [.element [] ['b'] [] (seq [])] (copies _ d _ _ _ _ rfl rfl)
          (.eachCons _ _ b [] 3 3 _ [] (copies _ b _ _ _ _ rfl rfl) (.eachNil _ _ _ _)))
  have h2 := Gives.rulesCons (w := exWorld) (cv := conv) (R := careful exWorld conv) (P := forA sortBody) (G := noG)
    [] [] a [] 1 1 _ [] (.rule [] [] ⟨a, 1, 1⟩ ⟨[], sortBody⟩ _ rfl (.template _ [] _ [] _ rfl h1)) (.rulesNil _ _ _ _)
  have h3 := Gives.rulesCons (w := exWorld) (cv := conv) (R := careful exWorld conv) (P := forA sortBody) (G := noG)
    [] [] (4, []) [] 1 1 _ [] (.builtInParent [] [] ⟨(4, []), 1, 1⟩ [a] _ rfl ⟨_, rfl, by decide⟩ exKids.1 h2)
    (.rulesNil _ _ _ _)
  simp only [List.append_nil] at h3
  exact ⟨noG, noGlobals _ _, h3⟩

/-- All hypotheses of C78 for a stylesheet that sorts, and what it says. -/
example : ∃ F, ∀ f, F ≤ f → ∃ o, transformDocument bareEnv (forA sortBody) f [] (4, []) = .val o ∧
    o.out = transform [] (seq sortOut) :=
  (C78_partial bareEnv K (forA sortBody) (fun _ => False) exWorld_forest exDocuments exNamed (sortLt_spec _) sortTidy
    [] (4, []) exRoot sortOut sortGives).2.2

/-- `<xsl:sort select="position()" data-type="number" order="descending"/>` -/
def backwards : SortKey :=
  ⟨pos, .string "number".toList, .string "descending".toList, .string "upper-first".toList⟩

/-- `<xsl:for-each select="child::*"><xsl:sort select="position()" data-type="number" order="descending"/><xsl:copy/>
</xsl:for-each>` -/
def backwardsBody : Items := .cons (.forEach kids [backwards] (.cons (.copy .nil) .nil)) .nil

/-- The positions of `b`, `c` and `d`. -/
def positionKey : Verif.Xslt.Key XN where
  number := true
  ascending := false
  num := fun y => if y = b then .fin 1 else if y = c then .fin 2 else .fin 3
  str := fun _ => []

/-- In a sort key every node has the position 1: sorted by `position()`, descending, the elements in `a` stay as they are,
`b`, `c`, `d`, and are not turned round. -/
theorem C78_violated_sort_position :
    Transforms exWorld conv (byXPath exWorld conv) (forA backwardsBody) [] (4, [])
      [.element [] ['d'] [] (seq []), .element [] ['c'] [] (seq []), .element [] ['b'] [] (seq [])] ∧
    ∃ o, transformDocument bareEnv (forA backwardsBody) 20 [] (4, []) = .val o ∧
      o.out = transform [] (seq [.element [] ['b'] [] (seq []), .element [] ['c'] [] (seq []),
        .element [] ['d'] [] (seq [])]) := by
  refine ⟨forA_gives ?_, outOf_some (by decide +kernel)⟩
  refine .cons _ _ _ _ [.element [] ['d'] [] (seq []), .element [] ['c'] [] (seq []), .element [] ['b'] [] (seq [])] []
    (fun h => h) (.forEach _ _ _ _ _ [b, c, d] [d, c, b] _ kids_value ?_ ?_) (.nil _ _)
  · refine ⟨[positionKey], ⟨positionKey, [], rfl, ⟨⟨_, string_means _ _ _, rfl⟩,
      ⟨_, string_means _ _ _, rfl⟩, ⟨_, string_means _ _ _, .inl rfl⟩, fun i y hy =>
        ⟨_, (position_value _ _ _ _ ⟨y, i + 1, 3⟩).1, ?_⟩⟩, rfl⟩, ?_⟩
    · match i, hy with
      | 0, hy => cases hy; rfl
      | 1, hy => cases hy; rfl
      | 2, hy => cases hy; rfl
    · have h := Verif.Xslt.arranged_sort [positionKey] [b, c, d]
      rw [show Verif.Xslt.stableSort [positionKey] [b, c, d] = [d, c, b] by decide +kernel] at h
      exact h
  · exact .eachCons _ _ d [c, b] 1 3 _ [.element [] ['c'] [] (seq []), .element [] ['b'] [] (seq [])]
      (copies _ d _ _ _ _ rfl rfl) (.eachCons _ _ c [b] 2 3 _ [.element [] ['b'] [] (seq [])] (copies _ c _ _ _ _ rfl rfl)
        (.eachCons _ _ b [] 3 3 _ [] (copies _ b _ _ _ _ rfl rfl) (.eachNil _ _ _ _)))

/-- `<xsl:sort select="'x'"/>` -/
def allSame : SortKey :=
  ⟨.string ['x'], .string "text".toList, .string "ascending".toList, .string "upper-first".toList⟩

def sameKey : Verif.Xslt.Key XN where
  number := false
  ascending := true
  num := fun _ => .nan
  str := fun _ => ['x']

/-- Nodes of a reverse axis that have the same key are not put in document order: for `d`,
`<xsl:for-each select="preceding-sibling::*"><xsl:sort select="'x'"/><xsl:copy/></xsl:for-each>` copies `c` before `b`. -/
theorem C78_violated_sort_ties :
    Gives exWorld conv (byXPath exWorld conv) (forA .nil) noG
      (.item ⟨d, 3, 3⟩ [] (.forEach before [allSame] (.cons (.copy .nil) .nil)))
      [.element [] ['b'] [] (seq []), .element [] ['c'] [] (seq [])] ∧
    ∃ st, runItem bareEnv 20 (invoke bareEnv (forA .nil) 20 20) (.forEach before [allSame] (.cons (.copy .nil) .nil)) d
        (initial (forA .nil) [] [] d) = .val st ∧
      st.out.out = transform [] (seq [.element [] ['c'] [] (seq []), .element [] ['b'] [] (seq [])]) := by
  refine ⟨.forEach _ _ _ _ _ [b, c] [b, c] _ (nodes_value ⟨d, 3, 3⟩ .precedingSibling (.star false) [b, c]
    { nodes := [c, b], sorted := true, forward := false } exKidsA.2.2 (by decide)
      (fun h => by cases h) (by decide) (by decide) noVariables (by decide +kernel) (by decide +kernel)).1 ?_ ?_, ?_⟩
  · refine ⟨[sameKey], ⟨sameKey, [], rfl, ⟨⟨_, string_means _ _ _, rfl⟩,
      ⟨_, string_means _ _ _, rfl⟩, ⟨_, string_means _ _ _, .inl rfl⟩, fun i y hy =>
        ⟨_, string_means _ _ _, rfl⟩⟩, rfl⟩, ?_⟩
    have h := Verif.Xslt.arranged_sort [sameKey] [b, c]
    rw [show Verif.Xslt.stableSort [sameKey] [b, c] = [b, c] by decide +kernel] at h
    exact h
  · exact .eachCons _ _ b [c] 1 2 _ [.element [] ['c'] [] (seq [])] (copies _ b _ _ _ _ rfl rfl)
      (.eachCons _ _ c [] 2 2 _ [] (copies _ c _ _ _ _ rfl rfl) (.eachNil _ _ _ _))
  · obtain ⟨o, h1, h2⟩ := outOf_some (r := (runItem bareEnv 20 (invoke bareEnv (forA .nil) 20 20)
      (.forEach before [allSame] (.cons (.copy .nil) .nil)) d (initial (forA .nil) [] [] d)).bind fun st => .val st.out)
      (l := transform [] (seq [.element [] ['c'] [] (seq []), .element [] ['b'] [] (seq [])])) (by decide +kernel)
    cases h : runItem bareEnv 20 (invoke bareEnv (forA .nil) 20 20) (.forEach before [allSame] (.cons (.copy .nil) .nil)) d
      (initial (forA .nil) [] [] d) with
    | val st => rw [h] at h1; cases h1; exact ⟨st, rfl, h2⟩
    | _ => rw [h] at h1; cases h1

/-- A document with one element `a`, made with `createElement`. -/
def bareTree : Tree := doc [.node { kind := .element, name := ['a'] } [] []]

def bareWorld : World where
  tree _ := bareTree
  home k := k

theorem bareDocuments : Documents bareWorld K where
  document _ _ := rfl
  dom k h := by cases h; exact domTree_of_check (by decide +kernel)
  expanded k h := by cases h; exact expanded_of_check (by decide +kernel)
  small k h := by cases h; exact small_of_check (by decide +kernel)
  normalized k h := by cases h; exact normalized_of_check (by decide +kernel)

/-- An element made with `createElement` has no local name, and `xsl:copy` writes an element without a name. -/
theorem C78_violated_local_name :
    Transforms bareWorld conv (byXPath bareWorld conv) (forA (.cons (.copy .nil) .nil)) [] (4, [])
      [.element [] ['a'] [] (seq [])] ∧
    ∃ o, transformDocument { bareEnv with w := bareWorld } (forA (.cons (.copy .nil) .nil)) 20 [] (4, []) = .val o ∧
      o.out = [.startElement ([], []) [] [], .endElement ([], []) []] := by
  have hk := (children_of bareDocuments (x := (4, [])) (l := [a.2]) ⟨rfl, trivial⟩ (by simp [IsAttr]) (by decide +kernel)).1.1
  exact ⟨⟨noG, noGlobals _ _, .rulesCons [] [] (4, []) [] 1 1 [.element [] ['a'] [] (seq [])] [] (.builtInParent [] [] ⟨(4, []), 1, 1⟩ [a] _ rfl
    ⟨_, rfl, by decide⟩ hk (.rulesCons [] [] a [] 1 1 [.element [] ['a'] [] (seq [])] []
      (.rule [] [] ⟨a, 1, 1⟩ ⟨[], _⟩ _ rfl (.template _ [] _ [] _ rfl (.cons _ _ _ _ [.element [] ['a'] [] (seq [])] []
        (fun h => h) (.copyElement _ _ _ (.node { kind := .element, name := ['a'] } [] []) [] rfl rfl (.nil _ _))
        (.nil _ _)))) (.rulesNil _ _ _ _))) (.rulesNil _ _ _ _)⟩, outOf_some (by decide +kernel)⟩

end Verif.Props.XsltRun
