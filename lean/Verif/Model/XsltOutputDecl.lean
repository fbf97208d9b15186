import Verif.Model.Text
import Verif.Model.XsltInclude
set_option autoImplicit false
/-!
# Declarations of the output: include/XSLT/impl/handler/xslt_output_handler.hpp, xslt_value_validation.hpp,
`output_settings` of xslt_compiled_stylesheet.hpp

`std::map` is a function, `std::set` a list.  The names of elements are resolved by any function (property C47 has
what it does), which refuses what is no qualified name.  An exception is `none`.  Not modelled: elements and text
within `xsl:output`, which are refused.
-/
namespace Verif.XsltOutputDecl

abbrev Str := List Char
/-- An expanded name: URI and local name. -/
abbrev EName := Str × Str

/-- An attribute, as SAX has it. -/
structure Attr where
  uri : Str
  name : Str
  value : Str
  deriving DecidableEq, Repr

/-- An `xsl:output`: the precedence of where it is, its attributes, and what the names of elements mean there. -/
structure Out where
  prec : List Int
  atts : List Attr
  names : Str → Option EName

abbrev Settings := Str → Option Str

def xmlUri : Str := "http://www.w3.org/XML/1998/namespace".toList

def cdataElements : Str := "cdata-section-elements".toList

/-- The rules of `startElement`, xslt_output_handler.hpp lines 28-37: name, default, and the values allowed, all if
there are none. -/
def rules : List (Str × Str × List Str) :=
  [("method".toList, "xml".toList, ["xml".toList, "html".toList, "text".toList]),
   ("version".toList, "1.0".toList, []),
   ("encoding".toList, "UTF-8".toList, []),
   ("omit-xml-declaration".toList, "no".toList, ["yes".toList, "no".toList]),
   ("standalone".toList, [], ["yes".toList, "no".toList]),
   ("doctype-public".toList, [], []),
   ("doctype-system".toList, [], []),
   (cdataElements, [], []),
   ("indent".toList, "no".toList, ["yes".toList, "no".toList]),
   ("media-type".toList, [], [])]

/-- `validateAttribute`, `validateXmlAttribute` and `validateValues`, xslt_value_validation.hpp lines 172-207, as
`gather` calls them, lines 162-165. -/
def validate (a : Attr) : Bool :=
  if a.uri = [] then
    match rules.find? (fun r => r.1 = a.name) with
    | none => false
    | some r => r.2.2.isEmpty || r.2.2.contains a.value
  else if a.uri = xmlUri && a.name = "space".toList then ["default".toList, "preserve".toList].contains a.value
  else true

/-- The second loop of `gather`, xslt_value_validation.hpp lines 151-166. -/
def gatherLoop : List Attr → Settings → Option Settings
  | [], s => some s
  | a :: as, s =>
    if a.name = [] then gatherLoop as s
    else
      let s' : Settings := fun n => if n = a.name then some a.value else s n
      if validate a then gatherLoop as s' else none

/-- `gather`, lines 133-169; none of the rules is mandatory, all have a default. -/
def gather (atts : List Attr) : Option Settings :=
  gatherLoop atts fun n => (rules.find? fun r => r.1 = n).map fun r => r.2.1

/-- `is >> e`: the word, and what is left; the stream is at its end if nothing is.  White space is that of XML; the
other characters that are white space to C++ are not allowed in XML 1.0. -/
def extract (s : Str) : Str × Str := Text.copyWord (Text.skipSpaces s)

/-- The loop of `extractCDATAElements`, xslt_output_handler.hpp lines 73-80: the words. -/
def readWords : Nat → Str → List Str
  | 0, _ => []
  | k + 1, s =>
    let (w, rest) := extract s
    if rest = [] then [w] else w :: readWords k rest

/-- `extractCDATAElements`, lines 62-83.  Each word takes one character at least but the last, so that this many turns
are enough. -/
def extractCDATAElements (names : Str → Option EName) (v : Str) : Option (List EName) :=
  if v = [] then some []
  else (readWords ((Text.normalizeWhitespace v).length + 1) (Text.normalizeWhitespace v)).mapM names

/-- What the stylesheet has: `output_settings_` and `output_cdata_elements_`, xslt_compiled_stylesheet.hpp
lines 365-366. -/
structure St where
  settings : Settings
  cdata : List EName

/-- `startElement` and `endElement`, xslt_output_handler.hpp lines 21-55, with `output_settings`,
xslt_compiled_stylesheet.hpp lines 164-169. -/
def declare (st : St) (o : Out) : Option St :=
  match gather o.atts with
  | none => none
  | some s =>
    match extractCDATAElements o.names ((s cdataElements).getD []) with
    | none => none
    | some c => some ⟨s, st.cdata ++ c⟩

/-- All `xsl:output`, in the order they are compiled. -/
def declareAll : St → List Out → Option St
  | st, [] => some st
  | st, o :: os =>
    match declare st o with
    | none => none
    | some st => declareAll st os

def compile (outs : List Out) : Option St := declareAll ⟨fun _ => none, []⟩ outs

/-- Those of a stylesheet of several files (Model/XsltInclude); declaration `n` is an `xsl:output` with these
attributes. -/
def compileFiles (R : Str → Str → Str) (files : Str → Option XsltInclude.File) (fuel : Nat) (system : Str)
    (f : XsltInclude.File) (decl : Nat → List Attr × (Str → Option EName)) : XsltInclude.Res (Option (List Out × St)) :=
  match XsltInclude.compile R files fuel system f with
  | .done out =>
    let outs := out.map fun d => ⟨d.2.1, (decl d.1).1, (decl d.1).2⟩
    .done ((compile outs).map fun st => (outs, st))
  | .error => .error
  | .undefined => .undefined
  | .more => .more

end Verif.XsltOutputDecl
