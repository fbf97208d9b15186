import Verif.Lemmas.XPathTemplate
import Verif.Props.XPathEval
set_option autoImplicit false
/-!
# C76: attribute value templates
-/
namespace Verif.Props.XPathTemplate
open Verif.XTree Verif.XPath Verif.XPathEval
open Verif.Spec.XPathNodeSet Verif.Spec.XPath Verif.Spec.XPathEval Verif.Spec.XPathTemplate
open Verif.XPathParse (Expr Ex Reads tokens isWhite compileTemplate meaning)
open Verif.Props.XPathParse (readToks_reads noNs)
open Verif.Props.XPathNodeSet (exWorld exWorld_forest)
open Verif.Props.XPathValue (digits)
open Verif.Props.XPathEval (exEx exEx_ok exEx_sound exEnv exVars exVariables exDocuments K)

/-- C76: a template of characters, with braces doubled, and of expressions between braces compiles, and gives the
characters and the string values of the expressions, in order.

Partial: not for the empty template (`C76_violated_empty`), and for expressions as in C70 and C75. -/
theorem C76_partial (ns : List Char → Option (List Char)) (ps : List Piece) (hne : ps ≠ [])
    (hok : ∀ e, Piece.embedded e ∈ ps → e.Ok ns) (s : List Char) (h : Written ps s []) :
    ∃ c, compileTemplate ns s = .ok c ∧
      ∀ (E : Env) (K : Nat → Prop) (vars : List Char → List Char → Option Val),
        Forest E.w → Documents E.w K → StdSort (nodesLessThan E.w) E.srt → SameVariables E.w K E.vars vars →
        ∀ (x : XN) (i k : Int), NodeIn E.w K x →
          (∀ e, Piece.embedded e ∈ ps → Sound E.w E.cv vars (meaning ns e) x i k) →
          ∃ t, Gives E.w E.cv vars ns x i k ps t ∧ ∃ fuel, ∀ f, fuel ≤ f → evaluateAsString E f c x i k = .val t := by
  obtain ⟨c, h1, h2⟩ := Verif.XPathParse.template_compiles hne h hok
  refine ⟨c, h1, fun E K vars g1 g2 g3 g4 x i k hx hs => ?_⟩
  obtain ⟨t, ⟨F, hF⟩, h4⟩ := result_string ⟨g1, g2, g3, g4⟩ hx h2 hs
  exact ⟨t, h4, F, hF⟩

/-- C76: pieces give at most one string. -/
theorem C76_unique (w : World) (hw : Forest w) (cv : Conv) (vars : List Char → List Char → Option Val)
    (ns : List Char → Option (List Char)) (x : XN) (i k : Int) : ∀ (ps : List Piece) (t u : List Char),
    Gives w cv vars ns x i k ps t → Gives w cv vars ns x i k ps u → t = u
  | [], t, u, h, h' => by rw [Gives] at h h'; rw [h, h']
  | .char c :: ps, t, u, h, h' => by
    obtain ⟨t', rfl, h⟩ := h
    obtain ⟨u', rfl, h'⟩ := h'
    rw [C76_unique w hw cv vars ns x i k ps t' u' h h']
  | .embedded e :: ps, t, u, h, h' => by
    obtain ⟨v, t', hv, rfl, h⟩ := h
    obtain ⟨v', u', hv', rfl, h'⟩ := h'
    rw [C76_unique w hw cv vars ns x i k ps t' u' h h', means_unique hw _ hv hv']

/-- C76: a right brace that is not doubled is an error. -/
theorem C76_stray_partial (ns : List Char → Option (List Char)) (ps : List Piece)
    (hok : ∀ e, Piece.embedded e ∈ ps → e.Ok ns) (s u : List Char) (h : Written ps s ('}' :: u))
    (hu : ∀ v, u ≠ '}' :: v) : compileTemplate ns s = .error .syntax :=
  Verif.XPathParse.template_stray h hu hok

/-! ## An example -/

/-- `n{{{count( //*[position() <last()] ) + $v }}}` -/
def exPieces : List Piece := [.char 'n', .char '{', .embedded exEx, .char '}']

def exText : List Char := "n{{{count( //*[position() <last()] ) + $v }}}".toList

def exInner : List Char := "count( //*[position() <last()] ) + $v }}}".toList

theorem exInner_reads : Reads (tokens false exEx) exInner ([' '] ++ '}' :: ['}', '}']) :=
  readToks_reads _ _ _ (by decide +kernel)

theorem exWritten : Written exPieces exText [] := by
  have e : exText = 'n' :: '{' :: '{' :: '{' :: exInner := by decide +kernel
  rw [e]
  exact .char 'n' _ _ _ (by decide) (.left _ _ _ (.embedded exEx _ exInner [' '] ['}', '}'] [] exInner_reads (by decide)
    (.right _ _ _ (.nil _))))

theorem exOk : ∀ e, Piece.embedded e ∈ exPieces → e.Ok noNs := by
  intro e he
  simp only [exPieces, List.mem_cons, List.not_mem_nil, or_false, reduceCtorEq, false_or, Piece.embedded.injEq] at he
  exact he ▸ exEx_ok

theorem exSound (x : XN) (i k : Int) :
    ∀ e, Piece.embedded e ∈ exPieces → Sound exWorld digits exVars (meaning noNs e) x i k := by
  intro e he
  simp only [exPieces, List.mem_cons, List.not_mem_nil, or_false, reduceCtorEq, false_or, Piece.embedded.injEq] at he
  exact he ▸ exEx_sound x i k

/-- `C76_partial` of the example. -/
example : ∃ c, compileTemplate noNs exText = .ok c ∧ ∃ t, Gives exWorld digits exVars noNs (4, []) 1 1 exPieces t ∧
    ∃ fuel, evaluateAsString exEnv fuel c (4, []) 1 1 = .val t := by
  obtain ⟨c, h1, h2⟩ := C76_partial noNs exPieces (by simp [exPieces]) exOk exText exWritten
  obtain ⟨t, h3, F, h4⟩ := h2 exEnv K exVars exWorld_forest exDocuments (sortLt_spec _) exVariables (4, []) 1 1
    ⟨rfl, trivial⟩ (exSound _ _ _)
  exact ⟨c, h1, t, h3, F, h4 F (Nat.le_refl F)⟩

/-- The string: what the pieces stand for, put together. -/
example : evaluateAsString { exEnv with cv := { digits with string := fun n => if n = 2 then ['2'] else [] } } 60 (.call [] "concat".toList [.string ['n'], .string ['{'], meaning noNs exEx,
    .string ['}']]) (4, []) 1 1 = .val "n{2}".toList := by decide +kernel

/-- `C76_stray_partial` of `n{{}x`. -/
example : compileTemplate noNs ['n', '{', '{', '}', 'x'] = .error .syntax :=
  C76_stray_partial noNs [.char 'n', .char '{'] (by simp) _ ['x']
    (.char 'n' _ _ _ (by decide) (.left _ _ _ (.nil _))) (by intro v h; cases h)

/-! ## Where the code is wrong -/

/-- The empty template stands for the empty string, and is an error. -/
theorem C76_violated_empty (w : World) (cv : Conv) (vars : List Char → List Char → Option Val)
    (ns : List Char → Option (List Char)) (x : XN) (i k : Int) :
    Written [] [] [] ∧ Gives w cv vars ns x i k [] [] ∧ compileTemplate ns [] = .error .syntax :=
  ⟨.nil _, rfl, rfl⟩

end Verif.Props.XPathTemplate
