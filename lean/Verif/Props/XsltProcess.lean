import Verif.Lemmas.XsltProcess4
import Verif.Props.XsltRun
import Verif.Props.XsltCompile
set_option autoImplicit false
set_option linter.unusedSimpArgs false
/-!
# C80: a stylesheet document, compiled and run
-/
namespace Verif.Props.XsltProcess
open Verif.XTree Verif.XPath Verif.XPathEval Verif.XsltRun Verif.XsltProcess
open Verif.Spec.XPathAxes Verif.Spec.XPathNodeSet Verif.Spec.XPathEval Verif.Spec.XsltRun Verif.Spec.XsltProcess
open Verif.XPathParse (Expr flat)
open Verif.Xslt (Instr Instrs transform)
open Verif.Spec.XsltCompile (Src events PlainDocument)
open Verif.Spec.XPathMatch (Matches Alternative patternTokens closeTokens)

/-- C80: a stylesheet document, as the parser reports it, is compiled, and run for a node of a document it writes what
XSLT says the stylesheet gives for it. What XSLT says goes from the text of the document to the output: the expressions,
patterns, templates and names in the attributes (`DocumentIs`), the template rule with the highest priority that comes last
(`Chosen`), the variables and parameters outside templates (`GlobalsStand`), with the values the caller has set, and the
instructions (`Transforms`, as in C78).

Partial: for stylesheets without keys, without content in variables and parameters, and without the parts that are not
modelled; names in `xsl:element`, `xsl:attribute` and
`xsl:processing-instruction` are constant (`Stands`). The document is as C79 needs it (`PlainDocument`, `PatternEarly`), the
patterns as C71 and C72 need them, and the stylesheet and the documents as C78 needs them. The values of the predicates of
patterns are given (`ev`), as in C71, and so are the numbers that priorities are (`num`). -/
theorem C80_partial (E : Env) (K : Nat → Prop) (P : Stylesheet) (free : VName → Prop) (ev : Expr → Pred)
    (fnNum : List Char → List Char → Bool) (num : List Char → Option Rat) (doc : Src) (hev : ∀ e e', flat e = flat e' → ev e = ev e')
    (hdoc : PlainDocument doc) (hearly : PatternEarly doc) (hw : Forest E.w) (hK : Documents E.w K) (hN : Named E.w K)
    (hsrt : StdSort (nodesLessThan E.w) E.srt) (his : DocumentIs ev fnNum num E.w K doc P)
    (hP : Tidy (careful E.w E.cv) free P) (given : List (VName × Argument)) (x : XN) (hx : NodeIn E.w K x) (out : List Instr)
    (h : Transforms E.w E.cv (careful E.w E.cv) P given x out) :
    ∃ F, ∀ f, F ≤ f → ∃ o, process E ev f fnNum num (events doc) given x = some (.val o) ∧
      o.out = transform [] (seq out) := by
  obtain ⟨sh, names, rs, h1, h3, h2, h4, h5⟩ := his
  obtain ⟨G, hG, h⟩ := h
  obtain ⟨cs', gs', e1, e2, e3⟩ := globals_load (fnNum := fnNum) (num := num) h2
  obtain ⟨ts', ls, g1, g2, g3, g4⟩ := templates_load (E := E) (K := K) (num := num) hev hw hK hsrt h4
  have hs := stylesheet_same (plain_fallback hdoc) h1 e1 h3 g1
  have hc := Verif.Props.XsltCompile.C79_accepted_partial (library fnNum num) doc _ hdoc (by
    cases doc with
    | text _ => trivial
    | elem el kids => exact fun hu => .inr (hearly hu)) hs
  have hd : (names.filterMap (·.1)).Nodup := by rw [names_of h4]; exact stylesheet_distinct h1
  obtain ⟨F, hF⟩ := transform_ends (S := ⟨E, K, P, G, free, hw, hK, hsrt, hN, hP, _, sheet_alike e3 g3 g4 hd h5⟩) hx hG h
  refine ⟨F, fun f hf => ⟨_, ?_, by rw [← h5.cdata]; rfl⟩⟩
  rw [process, hc]
  show (loadRules ts' >>= _) = _
  rw [g2]
  show (loadGlobals cs' >>= _) = _
  rw [e2]
  exact congrArg some (hF f hf)

/-! ## A document that C80 is about -/

open Verif.Props.XsltRun (exEnv exWorld exSheet exOut exTidy exNamed exDocuments exWorld_forest exRoot exGives exTree pos
  rootTemplate cTemplate namedTemplate exKids exKidsA)
open Verif.Props.XsltCompile (xsl lit txt)
open Verif.Props.XPathParse (readToks_reads nm nm_ok not_type)
open Verif.Props.XPathMatch (exEv exEv_flat numFn step)

/-- The stylesheet of the example of C78, as a document. -/
def exDoc : Src := Verif.Props.XsltCompile.sheetOf
  [txt "\n",
   xsl "template" [("match", "/")]
     [xsl "variable" [("name", "v"), ("select", "position()")] [],
      lit "r" [("y", "{$v}")]
        [xsl "for-each" [("select", " child::* ")] [xsl "value-of" [("select", "position( )")] []],
         xsl "apply-templates" [] []]],
   xsl "template" [("match", "c")]
     [xsl "call-template" [("name", "t")] [xsl "with-param" [("name", "p"), ("select", "position()")] []]],
   xsl "template" [("name", "t")]
     [xsl "param" [("name", "p"), ("select", "'x'")] [], xsl "value-of" [("select", "$p")] []]]

def exScope : Verif.XsltCompile.Scope := [("xsl".toList, Verif.Spec.XsltCompile.xsltNs)]
def says (s : String) : Text := ⟨exScope, s.toList⟩
def noNumbers (_ : List Char) : Option Rat := none

/-- Its templates, as they are written. -/
def exTemplates : List (Verif.XsltCompile.Template Text Text VName Rat) :=
  [⟨some (says "/"), none, none, none,
     [.variable Verif.Props.XsltRun.v (some (says "position()")) [],
      .literal ['r'] [] [(['y'], [], says "{$v}")]
        [.forEach (says " child::* ") [] [.valueOf (says "position( )") false], .applyTemplates none none [] []]]⟩,
   ⟨some (says "c"), none, none, none,
     [.callTemplate Verif.Props.XsltRun.t [(Verif.Props.XsltRun.p, some (says "position()"), [])]]⟩,
   ⟨none, some Verif.Props.XsltRun.t, none, none,
     [.param Verif.Props.XsltRun.p (some (says "'x'")) [], .valueOf (says "$p") false]⟩]

theorem exWritten : Verif.Spec.XsltCompile.stylesheet (written noNumbers) exDoc = some ⟨exTemplates, [], []⟩ := by
  rfl

theorem expr_is {t : Text} {e : Verif.XPathParse.Ex} {r : List Char} (hok : e.Ok (bound t.scope))
    (hr : Verif.Props.XPathParse.readToks (Verif.XPathParse.tokens false e) t.text = some r)
    (hw : r.all Verif.XPathParse.isWhite = true) (hk : Known (Verif.XPathParse.meaning (bound t.scope) e)) :
    ExprIs t (Verif.XPathParse.meaning (bound t.scope) e) :=
  ⟨⟨e, r, hok, readToks_reads _ _ _ hr, hw, rfl⟩, hk⟩

theorem position_ok : (Verif.XPathParse.Ex.call (nm "position") .nil).Ok (bound exScope) := by
  simp only [Verif.XPathParse.Ex.Ok, Verif.XPathParse.Exs.Ok, Verif.XPathParse.Exs.Apart, and_true]
  exact ⟨nm_ok (by decide), not_type (by intro t; cases t <;> decide)⟩

theorem position_known : Known pos := by
  rw [pos, Known]
  refine ⟨rfl, ⟨("position", 0, some 0), by simp [functions], rfl, Nat.le_refl _, ?_⟩, trivial⟩
  rintro m ⟨⟩
  exact Nat.le_refl _

theorem position_is : ExprIs (says "position()") pos :=
  expr_is (e := .call (nm "position") .nil) (r := []) position_ok (by decide +kernel) rfl position_known

theorem position_is' : ExprIs (says "position( )") pos :=
  expr_is (e := .call (nm "position") .nil) (r := []) position_ok (by decide +kernel) rfl position_known

theorem kids_is : ExprIs (says " child::* ") Verif.Props.XsltRun.kids :=
  expr_is (e := .rel (.one (.step (.named .child) .any .nil))) (r := [' '])
    (by simp [Verif.XPathParse.Ex.Ok, Verif.XPathParse.Rel.Ok, Verif.XPathParse.St.Ok, Verif.XPathParse.NodeTest.Ok,
      Verif.XPathParse.Exs.Ok]) (by decide +kernel) (by decide)
    (by
      show Known Verif.Props.XsltRun.kids
      simp [Verif.Props.XsltRun.kids, Known, KnownSteps, KnownStep, KnownAll])

theorem variable_is {s : String} (h : Verif.Props.XPathParse.nameB s.toList = true)
    (hr : Verif.Props.XPathParse.readToks (Verif.XPathParse.tokens false (.var (nm s))) ('$' :: s.toList) = some []) :
    ExprIs ⟨exScope, '$' :: s.toList⟩ (.var [] s.toList) :=
  expr_is (t := ⟨exScope, '$' :: s.toList⟩) (e := .var (nm s)) (r := [])
    (by rw [Verif.XPathParse.Ex.Ok]; exact nm_ok h) hr rfl trivial

theorem letter_is : ExprIs (says "'x'") (.string ['x']) :=
  expr_is (e := .lit '\'' ['x']) (r := []) (by rw [Verif.XPathParse.Ex.Ok]; exact ⟨.inr rfl, by decide⟩) (by decide +kernel) rfl
    trivial

theorem avt_is : TemplateIs (says "{$v}") (.var [] ['v']) := by
  refine ⟨[.var [] ['v']], ?_, by simp, rfl, ⟨trivial, trivial⟩⟩
  exact .embedded (.var (nm "v")) "$v}".toList [] [] [] (by rw [Verif.XPathParse.Ex.Ok]; exact nm_ok (by decide))
    (readToks_reads _ _ _ (by decide +kernel)) rfl .nil

theorem root_stands : StandsTemplate (exTemplates[0]).body rootTemplate :=
  .body _ _ (.cons _ _ _ _ (.variable _ _ _ _ (.select _ _ position_is)) (.cons _ _ _ _
    (.literal ['r'] [] [] ['r'] _ _ _ _ ⟨by simp, .inl ⟨rfl, by decide, rfl⟩⟩
      (.cons ['y'] [] ['y'] [] _ _ _ _ ⟨by simp, .inl ⟨rfl, by decide, rfl⟩⟩ avt_is .nil)
      (.cons _ _ _ _ (.forEach _ _ [] [] _ _ kids_is .nil (.cons _ _ _ _ (.valueOf _ _ position_is') .nil))
        (.cons _ _ _ _ (.applyChildren none [] [] _ _ .nil .nil) .nil))) .nil))

theorem c_stands : StandsTemplate (exTemplates[1]).body cTemplate :=
  .body _ _ (.cons _ _ _ _ (.call _ _ _ (.cons _ _ _ _ _ _ (.select _ _ position_is) .nil)) .nil)

theorem named_stands : StandsTemplate (exTemplates[2]).body namedTemplate :=
  .param _ _ _ _ _ _ _ (.select _ _ letter_is) (.body _ _ (.cons _ _ _ _
    (.valueOf _ _ (variable_is (s := "p") (by decide) (by decide +kernel))) .nil))

/-! A sort key, with the defaults of the other attributes. -/

theorem text_is {s : String} (h : s.toList ≠ []) (hb : ∀ c ∈ s.toList, c ≠ '{' ∧ c ≠ '}') :
    TemplateIs (says s) (.string s.toList) := by
  refine ⟨[.string s.toList], ?_, by simp, rfl, ⟨trivial, trivial⟩⟩
  have := Parts.text (ns := bound exScope) s.toList [] [] h hb (fun c cs h => by cases h) .nil
  rw [List.append_nil] at this
  exact this

theorem self_is : ExprIs (says "self::*") Verif.Props.XsltRun.self' :=
  expr_is (e := .rel (.one (.step (.named .self) .any .nil))) (r := [])
    (by simp [Verif.XPathParse.Ex.Ok, Verif.XPathParse.Rel.Ok, Verif.XPathParse.St.Ok, Verif.XPathParse.NodeTest.Ok,
      Verif.XPathParse.Exs.Ok]) (by decide +kernel) (by decide)
    (by
      show Known Verif.Props.XsltRun.self'
      simp [Verif.Props.XsltRun.self', Known, KnownSteps, KnownStep, KnownAll])

def sortedCode : Verif.XsltCompile.Code Text VName :=
  .forEach (says " child::* ") [⟨says "self::*", none, says "text", says "ascending", says "upper-first"⟩] [.copy []]

/-- What is written of the sorting example of C78. -/
example : Verif.Spec.XsltCompile.stylesheet (written noNumbers) (Verif.Props.XsltCompile.sheetOf
    [xsl "template" [("match", "c")] [xsl "for-each" [("select", " child::* ")]
      [xsl "sort" [("select", "self::*")] [], xsl "copy" [] []]]]) =
    some ⟨[⟨some (says "c"), none, none, none, [sortedCode]⟩], [], []⟩ := by rfl

example : StandsTemplate [sortedCode] ⟨[], Verif.Props.XsltRun.sortBody⟩ :=
  .body _ _ (.cons _ _ _ _ (.forEach _ _ _ _ _ _ kids_is (.cons _ _ _ _ rfl self_is (text_is (by decide) (by decide))
    (text_is (by decide) (by decide)) (text_is (by decide) (by decide)) .nil) (.cons _ _ _ _ (.copy _ _ .nil) .nil)) .nil)

def cAlternative : Alternative := .rel (.one (step (.name (nm "c"))))

theorem root_pattern : PatternIs exEv numFn (says "/") [.root] where
  some := by simp
  ok := by simp [Alternative.Ok]
  plain := by simp [Alternative.Plain]
  ranked := by simp [Alternative.Ranked]
  reads := ⟨[], readToks_reads _ _ _ (by decide +kernel), rfl⟩
  close := ⟨[], readToks_reads _ _ _ (by decide +kernel), rfl, fun _ => rfl⟩

theorem c_pattern : PatternIs exEv numFn (says "c") [cAlternative] where
  some := by simp
  ok a ha := by
    cases List.mem_singleton.mp ha
    exact ⟨nm_ok (by decide), by simp [step, Verif.XPathParse.Exs.Ok]⟩
  plain a ha := by
    cases List.mem_singleton.mp ha
    exact ⟨by intro e he; simp [step, Verif.XPathParse.meanings] at he, by simp [step]⟩
  ranked a ha := by
    cases List.mem_singleton.mp ha
    exact trivial
  reads := ⟨[], readToks_reads _ _ _ (by decide +kernel), rfl⟩
  close := ⟨[], readToks_reads _ _ _ (by decide +kernel), rfl, fun _ => rfl⟩

def rootRule : Verif.Spec.XsltProcess.Rule := ⟨[], exScope, .root, 1 / 2, rootTemplate⟩
def cRule : Verif.Spec.XsltProcess.Rule := ⟨[], exScope, cAlternative, 0, cTemplate⟩
def exNames : List (Option VName × Template) :=
  [(none, rootTemplate), (none, cTemplate), (some Verif.Props.XsltRun.t, namedTemplate)]

theorem exTemplatesAre : TemplatesAre exEv numFn exTemplates exNames [rootRule, cRule] :=
  .cons _ _ [rootRule] _ _ _ root_stands (.pattern _ _ rfl root_pattern)
    (.cons _ _ [cRule] _ _ _ c_stands (.pattern _ _ rfl c_pattern)
      (.cons _ _ [] _ _ _ named_stands (.none rfl) .nil))

/-- What the test of the pattern asks of the nodes of the tree. -/
theorem c_test (r : Ref) (hr : r ∈ refs [] exTree) : (∃ n, sub exTree r = some n ∧
    Verif.Spec.XPathPath.Passes n.data (.name ['c'])) ↔ r = [.child 1, .child 0] := by
  have hall : ((refs [] exTree).all fun r => decide ((match sub exTree r with
    | some n => decide (n.data.kind = .element ∧ n.data.name = ['c'] ∧ n.data.uri = [])
    | none => false) = decide (r = [.child 1, .child 0]))) = true := by decide +kernel
  have h := of_decide_eq_true (List.all_eq_true.1 hall r hr)
  cases hs : sub exTree r with
  | none =>
    rw [hs] at h
    refine ⟨fun ⟨n, hn, _⟩ => (by cases hn), fun e => ?_⟩
    rw [e] at h
    simp at h
  | some n =>
    rw [hs] at h
    simp only [decide_eq_decide] at h
    rw [← h]
    exact ⟨fun ⟨m, hm, hp⟩ => by cases hm; exact hp, fun hp => ⟨n, rfl, hp⟩⟩

theorem c_matches : Matches (bound exScope) exEv exWorld Verif.Props.XsltRun.c cAlternative := by
  obtain ⟨⟨⟨l, h1, h2⟩, _⟩, _⟩ := exKidsA
  have hl : l = [[.child 0, .child 0], [.child 1, .child 0], [.child 2, .child 0]] := by
    have := congrArg (List.map Prod.snd) h2
    rw [List.map_map] at this
    simpa [Function.comp_def, Verif.Props.XsltRun.b, Verif.Props.XsltRun.c, Verif.Props.XsltRun.d] using this.symm
  refine ⟨Verif.Props.XsltRun.a, exKids.2.2, Verif.Props.XsltRun.c,
    ⟨l, [[.child 1, .child 0]], [Verif.Props.XsltRun.c], h1, ?_, ?_, rfl, by simp⟩, rfl⟩
  · rw [hl]
    exact .cons _ (.cons₂ _ (List.nil_sublist _))
  · intro r hr
    have hm : r ∈ refs [] exTree := by
      have : ∀ r ∈ [[Step.child 0, .child 0], [.child 1, .child 0], [.child 2, .child 0]], r ∈ refs [] exTree := by
        decide +kernel
      exact this r (by rw [← hl]; exact hr)
    rw [List.mem_singleton]
    exact (c_test r hm).symm

theorem c_only {x : XN} (hx : NodeIn exWorld Verif.Props.XsltRun.K x)
    (h : Matches (bound exScope) exEv exWorld x cAlternative) : x = Verif.Props.XsltRun.c := by
  obtain ⟨d, hd, m, ⟨l, ps, kept, h1, h2, h3, h4, h5⟩, rfl⟩ := h
  obtain ⟨k, r⟩ := x
  cases hx.1
  cases h4
  obtain ⟨r', hr', e⟩ := List.mem_map.mp h5
  obtain ⟨e1, e2⟩ := Prod.mk.inj e
  subst e2
  obtain ⟨n, hn, hp⟩ := (h3 r' (h2.subset hr')).mp hr'
  have hn' : sub exTree r' = some n := hn
  have := (c_test r' (mem_all (by rw [hn']; rfl))).mp ⟨n, hn', hp⟩
  rw [this]
  rfl

theorem exIs : Is exEv exWorld Verif.Props.XsltRun.K exNames [rootRule, cRule] exSheet where
  rule mode x hx t h := by
    simp only [exSheet] at h
    split at h
    · rename_i hm
      split at h
      · rename_i he
        cases h
        refine ⟨rootRule, ⟨⟨hm.symm, by rw [he]; rfl⟩, [], [cRule], rfl, by simp, fun q hq _ => ?_⟩, rfl⟩
        cases List.mem_singleton.mp hq
        decide +kernel
      · split at h
        · rename_i he
          cases h
          refine ⟨cRule, ⟨⟨hm.symm, by rw [he]; exact c_matches⟩, [rootRule], [], rfl, fun q hq hf => ?_, by simp⟩, rfl⟩
          cases List.mem_singleton.mp hq
          have : x.2 = [] := hf.2
          rw [he] at this
          cases this
        · cases h
    · cases h
  builtIn mode x hx h r hr hf := by
    simp only [exSheet] at h
    rcases List.mem_cons.mp hr with rfl | hr
    · rw [if_pos (show mode = [] from hf.1.symm)] at h
      obtain ⟨k, rf⟩ := x
      cases hx.1
      cases (show rf = [] from hf.2)
      rw [if_pos rfl] at h
      cases h
    · cases List.mem_singleton.mp hr
      rw [if_pos (show mode = [] from hf.1.symm)] at h
      cases c_only hx hf.2
      revert h
      decide
  named n t h := by
    simp only [exSheet] at h
    split at h
    · rename_i hn
      cases h
      subst hn
      simp [exNames]
    · cases h
  cdata := rfl

/-- All hypotheses of C80 for this document, and what it says. -/
example : ∃ F, ∀ f, F ≤ f → ∃ o, process exEnv exEv f numFn noNumbers (events exDoc) [] (4, []) = some (.val o) ∧
    o.out = [.startElement ([], ['r']) [] [⟨[], ['y'], ([], ['y']), ['1']⟩], .characters ['1'], .characters ['s'],
      .characters ['2'], .endElement ([], ['r']) []] := by
  have := C80_partial exEnv Verif.Props.XsltRun.K exSheet (fun _ => False) exEv numFn noNumbers exDoc exEv_flat
    (Verif.Lemmas.XsltCompile.plainDocument_of (by decide +kernel))
    (fun _ => Verif.Lemmas.XsltCompile.patternFirst_of (by decide +kernel)) exWorld_forest exDocuments exNamed (sortLt_spec _)
    ⟨_, _, _, exWritten, rfl, .nil, exTemplatesAre, exIs⟩ exTidy [] (4, []) exRoot exOut exGives
  rw [show transform [] (seq exOut) = [.startElement ([], ['r']) [] [⟨[], ['y'], ([], ['y']), ['1']⟩], .characters ['1'],
    .characters ['s'], .characters ['2'], .endElement ([], ['r']) []] by decide +kernel] at this
  exact this

/-! A document with a variable and a parameter outside templates, those of the example of C78. -/

open Verif.Props.XsltRun (globalSheet globalTidy globalsDefault globalsGiven global_gives)

def globalDoc : Src := Verif.Props.XsltCompile.sheetOf
  [xsl "template" [("match", "/")] [xsl "value-of" [("select", "$v")] []],
   xsl "variable" [("name", "v"), ("select", "$p")] [],
   xsl "param" [("name", "p"), ("select", "'x'")] []]

theorem globalWritten : Verif.Spec.XsltCompile.stylesheet (written noNumbers) globalDoc =
    some ⟨[⟨some (says "/"), none, none, none, [.valueOf (says "$v") false]⟩],
      [.variable Verif.Props.XsltRun.v (some (says "$p")) [], .param Verif.Props.XsltRun.p (some (says "'x'")) []], []⟩ := by
  rfl

def globalRule : Verif.Spec.XsltProcess.Rule :=
  ⟨[], exScope, .root, 1 / 2, ⟨[], .cons (.valueOf (.var [] ['v'])) .nil⟩⟩

theorem globalDocument : DocumentIs exEv numFn noNumbers exWorld Verif.Props.XsltRun.K globalDoc globalSheet := by
  refine ⟨_, _, [globalRule], globalWritten, rfl, .variable _ _ _ _ _ _
    (.select _ _ (variable_is (s := "p") (by decide) (by decide +kernel))) (.param _ _ _ _ _ _ (.select _ _ letter_is) .nil),
    .cons _ _ [globalRule] _ _ _ (.body _ _ (.cons _ _ _ _
      (.valueOf _ _ (variable_is (s := "v") (by decide) (by decide +kernel))) .nil)) (.pattern _ _ rfl root_pattern) .nil, ?_⟩
  refine ⟨fun mode x hx t h => ?_, fun mode x hx h r hr hf => ?_, fun n t h => (by cases h), rfl⟩
  · simp only [globalSheet] at h
    split at h
    · rename_i he
      cases h
      exact ⟨globalRule, ⟨⟨he.1.symm, by rw [he.2]; rfl⟩, [], [], rfl, by simp, by simp⟩, rfl⟩
    · cases h
  · cases List.mem_singleton.mp hr
    obtain ⟨k, rf⟩ := x
    cases hx.1
    cases (show rf = [] from hf.2)
    simp only [globalSheet] at h
    rw [if_pos ⟨hf.1.symm, trivial⟩] at h
    cases h

/-- All hypotheses of C80 for this document: the caller has set nothing. -/
example : ∃ F, ∀ f, F ≤ f → ∃ o, process exEnv exEv f numFn noNumbers (events globalDoc) [] (4, []) = some (.val o) ∧
    o.out = [.characters ['x']] :=
  C80_partial exEnv Verif.Props.XsltRun.K globalSheet (fun _ => False) exEv numFn noNumbers globalDoc exEv_flat
    (Verif.Lemmas.XsltCompile.plainDocument_of (by decide +kernel))
    (fun _ => Verif.Lemmas.XsltCompile.patternFirst_of (by decide +kernel)) exWorld_forest exDocuments exNamed (sortLt_spec _)
    globalDocument globalTidy [] (4, []) exRoot [.text ['x']] ⟨_, globalsDefault, global_gives _ _ rfl⟩

/-- And when they have set the parameter to 2. -/
example : ∃ F, ∀ f, F ≤ f → ∃ o, process exEnv exEv f numFn noNumbers (events globalDoc)
    [(Verif.Props.XsltRun.p, .num (.fin 2))] (4, []) = some (.val o) ∧ o.out = [.characters ['2']] :=
  C80_partial exEnv Verif.Props.XsltRun.K globalSheet (fun _ => False) exEv numFn noNumbers globalDoc exEv_flat
    (Verif.Lemmas.XsltCompile.plainDocument_of (by decide +kernel))
    (fun _ => Verif.Lemmas.XsltCompile.patternFirst_of (by decide +kernel)) exWorld_forest exDocuments exNamed (sortLt_spec _)
    globalDocument globalTidy _ (4, []) exRoot [.text ['2']] ⟨_, globalsGiven, global_gives _ _ rfl⟩

end Verif.Props.XsltProcess
