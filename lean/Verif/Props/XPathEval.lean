import Verif.Lemmas.XPathEvalFlat
import Verif.Props.XPathParse
import Verif.Props.XPathPath
import Verif.Props.XPathValue
set_option autoImplicit false
/-!
# C75: what XPath expressions evaluate to
-/
namespace Verif.Props.XPathEval
open Verif.XTree Verif.XPath Verif.XPathEval
open Verif.Spec.XPathAxes Verif.Spec.XPathNodeSet Verif.Spec.XPathPath Verif.Spec.XPath Verif.Spec.XPathEval
open Verif.XPathParse (Expr Ex Exs St Rel Reads tokens isWhite compileExpr meaning flat)
open Verif.Props.XPathParse (readToks_reads noNs nm nm_ok nameB_ok not_type)
open Verif.Props.XPathNodeSet (exWorld exWorld_forest)
open Verif.Props.XPathValue (digits)

/-- C75: the text of an expression, with any white space between its tokens, compiles, and evaluating it gives what
the expression means by sections 2 to 4 of XPath 1.0: as a value, and converted to a boolean, a number, a string and a
node-set.

Partial: for `Sound` expressions, that is those XPath allows (`C75_violated_nodes`, `C75_violated_path`: others may give
a value instead of an error) without `id` and `lang` (`C75_violated_id`), without the namespace axis and away from what
C35, C39, C40 and C43 show to be wrong; in normalized documents, and not in fragments; without white space where C70
asks for none. -/
theorem C75_partial (ns : List Char → Option (List Char)) (e : Ex) (hok : e.Ok ns) (s r : List Char)
    (h : Reads (tokens false e) s r) (hr : r.all isWhite = true) :
    ∃ c, compileExpr ns s = .ok c ∧
      ∀ (E : Env) (K : Nat → Prop) (vars : List Char → List Char → Option Val),
        Forest E.w → Documents E.w K → StdSort (nodesLessThan E.w) E.srt → SameVariables E.w K E.vars vars →
        ∀ (x : XN) (i k : Int), NodeIn E.w K x → Sound E.w E.cv vars (meaning ns e) x i k →
          ∃ v, Means E.w E.cv vars (meaning ns e) x i k v ∧ ∃ fuel, ∀ f, fuel ≤ f →
            (∃ m, eval E f c x i k = .val m ∧ Shows m v) ∧
            (∃ b, evaluateAsBool E f c x i k = .val b ∧ (b = true ↔ toBoolean E.w v)) ∧
            evaluateAsNumber E f c x i k = .val (toNumber E.w E.cv v) ∧
            evaluateAsString E f c x i k = .val (toString E.w E.cv v) ∧
            ∀ l, v = .nodes l → ∃ m, evaluateAsNodeSet E f c x i k = .val m ∧ ShowsNodes m l := by
  obtain ⟨c, hc, hf⟩ := Verif.Props.XPathParse.C70_partial ns e hok s r h hr
  refine ⟨c, hc, fun E K vars h1 h2 h3 h4 x i k hx hs => ?_⟩
  obtain ⟨v, m, g1, g2, g3⟩ := good_flat ⟨h1, h2, h3, h4⟩ hf hx hs
  obtain ⟨F1, n1⟩ := g3
  obtain ⟨F2, n2⟩ := number_ends h2 g2
  obtain ⟨F3, n3⟩ := string_ends h2 g2
  refine ⟨v, g1, F1 + F2 + F3, fun f hle => ?_⟩
  have e1 : eval E f c x i k = .val m := n1 f (by omega)
  have e2 := n2 f (by omega)
  have e3 := n3 f (by omega)
  refine ⟨⟨m, e1, g2.1⟩, ⟨m.isTrue, by simp only [evaluateAsBool, e1, Ev.bind], isTrue_iff g2⟩, ?_, ?_, ?_⟩
  · simp only [evaluateAsNumber, argNumber, e1, Ev.bind]; exact e2
  · simp only [evaluateAsString, argString, e1, Ev.bind]; exact e3
  · rintro l rfl
    have := g2.1
    cases m with
    | nodes ns => exact ⟨ns, by simp only [evaluateAsNodeSet, argNodes, e1, Ev.bind, XVal.nodeSet], this⟩
    | bool b => exact this.elim
    | num b => exact this.elim
    | str b => exact this.elim

/-- C75: an expression means at most one value. -/
theorem C75_unique (w : World) (hw : Forest w) (cv : Conv) (vars : List Char → List Char → Option Val) (e : Expr)
    (x : XN) (i k : Int) (v v' : Val) (h : Means w cv vars e x i k v) (h' : Means w cv vars e x i k v') : v = v' :=
  means_unique hw e h h'

/-! ## An example -/

def K : Nat → Prop := (· = 4)

theorem exDocuments : Documents exWorld K where
  document k h := by cases h; rfl
  dom k h := by cases h; exact domTree_of_check (by decide +kernel)
  expanded k h := by cases h; exact expanded_of_check (by decide +kernel)
  small k h := by cases h; exact small_of_check (by decide +kernel)
  normalized k h := by cases h; exact normalized_of_check (by decide +kernel)

/-- `$v` is `true()`. -/
def exEnv : Env where
  w := exWorld
  srt := sortLt (nodesLessThan exWorld)
  cv := digits
  vars u n := if u = [] ∧ n = ['v'] then some (.bool true) else none

def exVars (u n : List Char) : Option Val := if u = [] ∧ n = ['v'] then some (.bool true) else none

theorem exVariables : SameVariables exWorld K exEnv.vars exVars := by
  intro u n v' h
  simp only [exVars] at h
  split at h
  · next h' =>
    cases h
    exact ⟨.bool true, by simp only [exEnv]; rw [if_pos h'], rfl, fun l h => by cases h⟩
  · cases h

/-- `count(//*[position() < last()]) + $v` -/
def exEx : Ex :=
  .bin .plus (.call (nm "count") (.cons (.abs true (.one (.step .child .any (.cons
    (.bin .lt (.call (nm "position") .nil) (.call (nm "last") .nil)) .nil)))) .nil)) (.var (nm "v"))

def exText : List Char := "count( //*[position() <last()] ) + $v ".toList

theorem exEx_reads : Reads (tokens false exEx) exText [' '] := readToks_reads _ _ _ (by decide +kernel)

theorem exEx_ok : exEx.Ok noNs := by
  have h1 : ¬ Verif.XPathParse.isType (nm "count") := not_type (by intro t; cases t <;> decide)
  have h2 : ¬ Verif.XPathParse.isType (nm "position") := not_type (by intro t; cases t <;> decide)
  have h3 : ¬ Verif.XPathParse.isType (nm "last") := not_type (by intro t; cases t <;> decide)
  simp only [exEx, Ex.Ok, Exs.Ok, Exs.Apart, St.Ok, Rel.Ok, Verif.XPathParse.NodeTest.Ok, Verif.XPathParse.level,
    Verif.XPathParse.opLevel, Verif.XPathParse.endsInSlash, Verif.XPathParse.Op.nameLike, Verif.XPathParse.bareRoot,
    Verif.XPathParse.barePi, Exs.startsWithLit, Verif.XPathParse.bareLit, and_true, true_and]
  refine ⟨⟨nm_ok (by decide), h1, ⟨⟨nm_ok (by decide), h2⟩, ⟨nm_ok (by decide), h3⟩, by decide⟩, by decide⟩,
    nm_ok (by decide), by decide⟩

/-- The predicate is sound everywhere. -/
theorem exPred_sound (w : World) (cv : Conv) (vars : List Char → List Char → Option Val) (x : XN) (i k : Int) :
    Sound w cv vars (.binary .lt (.call [] "position".toList []) (.call [] "last".toList [])) x i k := by
  have hp : Sound w cv vars (.call [] "position".toList []) x i k := by
    rw [Sound]
    exact ⟨rfl, .position, rfl, trivial, fun vs h => h⟩
  have hl : Sound w cv vars (.call [] "last".toList []) x i k := by
    rw [Sound]
    exact ⟨rfl, .last, rfl, trivial, fun vs h => h⟩
  rw [Sound]
  refine ⟨hp, hl, fun va vb h1 h2 => ?_⟩
  rw [Means] at h1 h2
  obtain ⟨_, fn1, vs1, e1, _, g1⟩ := h1
  obtain ⟨_, fn2, vs2, e2, _, g2⟩ := h2
  cases fnText_inj (a := .position) (b := fn1) e1
  cases fnText_inj (a := .last) (b := fn2) e2
  obtain ⟨_, rfl⟩ := g1
  obtain ⟨_, rfl⟩ := g2
  trivial

theorem exEx_sound (x : XN) (i k : Int) : Sound exWorld digits exVars (meaning noNs exEx) x i k := by
  have hpath : Sound exWorld digits exVars (.path true [.test .descendantOrSelf .any [], .test .child (.star false)
      [.binary .lt (.call [] "position".toList []) (.call [] "last".toList [])]]) x i k := by
    rw [Sound]
    refine ⟨?_, ?_⟩
    · intro s hs
      cases hs with
      | head => trivial
      | tail _ h => cases h
    · rw [SoundSteps]
      refine ⟨?_, fun m hm => ?_⟩
      · rw [SoundStep]
        exact ⟨by decide, by simp, by decide, by decide, fun l _ => trivial⟩
      · rw [StepMeans] at hm
        obtain ⟨l, kept, hc, hk, hm⟩ := hm
        rw [PredsMean] at hk
        subst hk
        obtain ⟨ax, n, p, h1, h2, h3, _, rfl⟩ := hc
        cases h1
        obtain ⟨r, hr, rfl⟩ := List.mem_map.1 hm
        have ho := ((h2.1 r).1 (h3.subset hr)).2
        have hna : ¬ IsAttr r := by
          rcases ho with rfl | ⟨_, h⟩
          · simp [IsAttr]
          · exact h
        rw [SoundSteps]
        refine ⟨?_, fun m hm => trivial⟩
        rw [SoundStep]
        refine ⟨by decide, fun _ => hna, by decide, by decide, fun l _ => ?_⟩
        rw [SoundPreds]
        exact ⟨fun j y _ => exPred_sound _ _ _ _ _ _, fun m _ => trivial⟩
  show Sound exWorld digits exVars (.binary .plus (.call [] "count".toList [.path true [.test .descendantOrSelf .any [],
    .test .child (.star false) [.binary .lt (.call [] "position".toList []) (.call [] "last".toList [])]]])
      (.var [] ['v'])) x i k
  rw [Sound]
  refine ⟨?_, ?_, fun _ _ _ _ => trivial⟩
  · rw [Sound]
    refine ⟨rfl, .count, rfl, ⟨hpath, trivial⟩, fun vs hvs => ?_⟩
    rw [ArgsMean] at hvs
    obtain ⟨v, rest, rfl, h1, h2⟩ := hvs
    rw [Means] at h1
    obtain ⟨l, rfl, _⟩ := h1
    rw [ArgsMean] at h2
    subst h2
    exact ⟨l, rfl⟩
  · rw [Sound]
    exact ⟨.bool true, rfl⟩

/-- `C75_partial` of the example: it has a meaning, and evaluation gives it. -/
example : ∃ c, compileExpr noNs exText = .ok c ∧ ∃ v, Means exWorld digits exVars (meaning noNs exEx) (4, []) 1 1 v ∧
    ∃ fuel m, eval exEnv fuel c (4, []) 1 1 = .val m ∧ Shows m v := by
  obtain ⟨c, h1, h2⟩ := C75_partial noNs exEx exEx_ok exText [' '] exEx_reads (by decide)
  obtain ⟨v, h3, F, h4⟩ := h2 exEnv K exVars exWorld_forest exDocuments (sortLt_spec _) exVariables (4, []) 1 1
    ⟨rfl, trivial⟩ (exEx_sound _ _ _)
  obtain ⟨m, h5, h6⟩ := (h4 F (Nat.le_refl F)).1
  exact ⟨c, h1, v, h3, F, m, h5, h6⟩

/-- The result for `<a><b><c/></b><d/></a>` and some other nodes: one of the elements is not the last one. -/
example : eval exEnv 40 (meaning noNs exEx) (4, []) 1 1 = .val (.num (.fin 2)) := by decide +kernel

/-! ## Where the code is wrong -/

/-- What is no node-set where one must be is an empty node-set instead of an error. -/
theorem C75_violated_nodes (E : Env) (f : Nat) (x : XN) (i k : Int) (vars : List Char → List Char → Option Val) :
    compileExpr noNs "count('a')".toList = .ok (.call [] "count".toList [.string "a".toList]) ∧
    (∀ v, ¬ Means E.w E.cv vars (.call [] "count".toList [.string "a".toList]) x i k v) ∧
    eval E f (.call [] "count".toList [.string "a".toList]) x i k = .val (.num (.fin 0)) := by
  refine ⟨Verif.Props.XPathParse.gives_eq (by decide +kernel), fun v h => ?_, ?_⟩
  · rw [Means] at h
    obtain ⟨_, fn, vs, e, h1, h2⟩ := h
    cases fnText_inj (a := .count) (b := fn) e
    obtain ⟨l, rfl, _⟩ := h2
    rw [ArgsMean] at h1
    obtain ⟨v, rest, e, h1, _⟩ := h1
    cases e
    rw [Means] at h1
    cases h1
  · rw [eval, callNamed, if_pos (by rfl)]
    have : standardFunction "count".toList = some .count := by decide +kernel
    rw [this]
    rfl

/-- What is no node-set but has predicates is an empty node-set instead of an error (section 3.3). -/
theorem C75_violated_path :
    compileExpr noNs "('a')[1]".toList = .ok (.path false [.expr (.string "a".toList) [.number "1".toList]]) ∧
    (∀ v, Means exWorld digits exVars (.string "a".toList) (4, []) 1 1 v → ¬ ∃ l, v = .nodes l) ∧
    eval exEnv 40 (.path false [.expr (.string "a".toList) [.number "1".toList]]) (4, []) 1 1 =
      .val (.nodes { nodes := [], sorted := true }) := by
  refine ⟨Verif.Props.XPathParse.gives_eq (by decide +kernel), fun v h => ?_, by decide +kernel⟩
  rw [Means] at h
  subst h
  rintro ⟨l, h⟩
  cases h

/-- `id` and `lang` are not there. -/
theorem C75_violated_id (E : Env) (f : Nat) (x : XN) (i k : Int) (args : List Expr) :
    eval E f (.call [] "id".toList args) x i k = .throws ∧ eval E f (.call [] "lang".toList args) x i k = .throws := by
  have h1 : standardFunction "id".toList = none := by decide +kernel
  have h2 : standardFunction "lang".toList = none := by decide +kernel
  constructor <;> rw [eval, callNamed, if_pos (by rfl)] <;> simp only [h1, h2]

/-- Without an execution context the position and the size, which are positive in XPath, are -1. -/
theorem C75_violated_alone (E : Env) (f : Nat) (x : XN) :
    evaluateAlone E f (.call [] "position".toList []) x = .val (.num (.fin (-1))) ∧
    evaluateAlone E f (.call [] "last".toList []) x = .val (.num (.fin (-1))) := by
  have h1 : standardFunction "position".toList = some .position := by decide +kernel
  have h2 : standardFunction "last".toList = some .last := by decide +kernel
  constructor <;> rw [evaluateAlone, eval, callNamed, if_pos (by rfl)] <;> simp only [h1, h2] <;> rfl

end Verif.Props.XPathEval
