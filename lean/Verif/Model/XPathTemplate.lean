import Verif.Model.XPathParse
set_option autoImplicit false
/-!
# include/XPath/impl/xpath_grammar.hpp lines 393-430 and xpath_parser.hpp: attribute value templates

Templates are parsed by Boost Spirit as in `Verif.Model.XPathParse`, with the expressions between braces parsed by the
rules there.
-/
namespace Verif.XPathParse

/-- `chset<> brackets("{}")`, xpath_grammar.hpp line 410. -/
def isCurly (c : Char) : Bool := c == '{' || c == '}'

/-- `~brackets`, line 411. -/
def notCurly (c : Char) : Bool := !isCurly c

/-- `AttrLiteral`, line 411. -/
def attrLiteral : P := fun s =>
  match s.takeWhile notCurly with
  | [] => none
  | w => some ([.node .attrLiteral w []], s.dropWhile notCurly)

/-- Lines 405-408. -/
def doubleLeftCurly : P := lit .doubleLeftCurly "{{".toList
def doubleRightCurly : P := lit .doubleRightCurly "}}".toList
def leftCurly : P := lit .leftCurly "{".toList
def rightCurly : P := lit .rightCurly "}".toList

section
/- `E` is the rule `Expr`. -/
variable (E : P)

/-- `EmbeddedExpr`, line 409. -/
def embeddedExpr : P := rule .embeddedExpr (seq leftCurly (seq E rightCurly))

/-- The alternatives of lines 403 and 404. -/
def templatePart : P := alt doubleLeftCurly (alt doubleRightCurly (alt (embeddedExpr E) attrLiteral))

/-- `AttributeValueTemplate`, lines 403-404. -/
def attributeValueTemplate : P := rule .attributeValueTemplate (seq (templatePart E) (many (templatePart E)))

end

/-- `parse_xpath_attribute_value_template`, xpath_parser.hpp lines 189-193, and the test of `full`. -/
def parseTemplate (s : Str) : Option Tree :=
  match attributeValueTemplate (expr (s.length + 1)) s with
  | some ([t], []) => some t
  | _ => none

section
variable (ns : Str → Option Str)

/-- `compile_with_factory`, lines 228-249, with `attribute_value_factory`, lines 379-390, of a node inside of a
template: `createDoubleLeftCurly` and `createDoubleRightCurly`, lines 1029-1039, `createEmbeddedExpr`, lines 1023-1027,
and `createLiteral`, lines 682-687. -/
def compilePart (t : Tree) : Res Expr :=
  match t.id with
  | .doubleLeftCurly => .ok (.string "{".toList)
  | .doubleRightCurly => .ok (.string "}".toList)
  | .embeddedExpr => (compiler ns t.size).1 t.kids.tail
  | .attrLiteral => .ok (.string t.chars)
  | _ => .error .unsupported

/-- The loop of `createAttributeValue`, lines 1010-1014. -/
def compileParts : List Tree → Res (List Expr)
  | [] => .ok []
  | t :: ts => do
    let x ← compilePart ns t
    let xs ← compileParts ts
    .ok (x :: xs)

/-- The same of the root: `createAttributeValue`, lines 1006-1021, without the look up of the function. -/
def compileRoot (t : Tree) : Res Expr :=
  if t.id = .attributeValueTemplate then do
    let xs ← compileParts ns t.kids
    .ok (.call [] "concat".toList xs)
  else compilePart ns t

/-- `compile_attribute_value_template`, lines 89-92 and `do_compile`, lines 140-167. -/
def compileTemplate (s : Str) : Res Expr :=
  match parseTemplate s with
  | none => .error .syntax
  | some t => compileRoot ns t

end

end Verif.XPathParse
