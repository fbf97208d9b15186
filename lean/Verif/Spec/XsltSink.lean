import Verif.Spec.XsltOutput
import Verif.Spec.XmlReader
import Verif.Spec.DomStream
set_option autoImplicit false
/-!
# The result of a transformation read back from text

XSLT 1.0, section 16: the text of the `xml` method is read by `readXml`, its tokens are taken as events and those read
for their namespaces by `readEvents`, as in C48. The text of the `text` method is the text of the result.
-/
namespace Verif.Spec.XsltSink
open Verif.Xslt (Str QN OAttr Event Instr Instrs)
open Verif.Spec.Xml (Tok nameChar isWhite cdataClose)
open Verif.Spec.XsltOutput (Res Open elementUri readEvent)
open Verif.Spec.DomStream (cutColon NCName OnceAtMost)

/-! ## tokens as events -/

/-- A name and its prefix. -/
def splitName (n : Str) : QN :=
  match cutColon n with
  | some q => q
  | none => ([], n)

/-- What a token says. The namespaces of names are not known yet. -/
def eventOf : Tok → Event
  | .char c => .characters [c]
  | .open' n as => .startElement (splitName n) [] (as.map fun a => ⟨[], (splitName a.1).2, splitName a.1, a.2⟩)
  | .close n => .endElement (splitName n) []
  | .pi t d => .pi t d
  | .comment s => .comment s
  | .entity n => .characters ('&' :: n ++ [';'])
  | .cdataStart => .startCDATA
  | .cdataEnd => .endCDATA

/-- Text one character at a time. -/
def single : Res → List Res
  | .text s => s.map fun c => .text [c]
  | r => [r]

def singles (rs : List Res) : List Res := rs.flatMap single

/-- The same with white space put in. -/
inductive Padded : List Res → List Res → Prop where
  | nil : Padded [] []
  | keep (r : Res) {l l' : List Res} (h : Padded l l') : Padded (r :: l) (r :: l')
  | space (c : Char) {l l' : List Res} (hc : isWhite c = true) (h : Padded l l') : Padded l (.text [c] :: l')

/-- The text of a result. -/
def textOf : List Res → Str
  | [] => []
  | .text s :: rs => s ++ textOf rs
  | _ :: rs => textOf rs

/-! ## what the theorems ask of a result -/

/-- Names without a colon, and processing instructions as they can be written. -/
def Written : Res → Prop
  | .start _ l as => NCName l ∧ ∀ a ∈ as, NCName a.2.1
  | .pi t d => NCName t ∧ ∀ c, d.head? = some c → isWhite c = false
  | _ => True

mutual
/-- The prefixes have no colon. -/
def Prefixed : Instr → Prop
  | .text _ => True
  | .element p _ _ b => (p = [] ∨ NCName p) ∧ PrefixedAll b
  | .attr p _ _ b => (p = [] ∨ NCName p) ∧ PrefixedAll b
  | .copyAttribute _ _ q _ => q.1 = [] ∨ NCName q.1
  | .comment b => PrefixedAll b
  | .pi _ b => PrefixedAll b
/-- The same for a sequence. -/
def PrefixedAll : Instrs → Prop
  | .nil => True
  | .cons i rest => Prefixed i ∧ PrefixedAll rest
end

/-- `]]>` begins in `a` and ends in `b`. -/
def Straddles (a b : Str) : Prop := ∃ x y, x ≠ [] ∧ y ≠ [] ∧ x ++ y = cdataClose ∧ x <:+ a ∧ y <+: b

/-- In the elements listed, each text has `]]>` once at most, and none begins in one text and ends in the next. `o` are
the open elements and `a` the text before. -/
def Sectioned (cdata : List (Str × Str)) : List (Str × Str) → Str → List Res → Prop
  | _, _, [] => True
  | o, a, .text s :: rs =>
    (Verif.Spec.XsltOutput.listed cdata o = true → OnceAtMost s ∧ ¬ Straddles a s) ∧ Sectioned cdata o (a ++ s) rs
  | o, _, .start u l _ :: rs => Sectioned cdata ((u, l) :: o) [] rs
  | o, _, .finish :: rs => Sectioned cdata o.tail [] rs
  | o, _, _ :: rs => Sectioned cdata o [] rs

/-- No element of the result is listed. -/
def Unlisted (cdata : List (Str × Str)) (rs : List Res) : Prop := ∀ u l as, Res.start u l as ∈ rs → (u, l) ∉ cdata

/-! ## CDATA sections -/

/-- Whether the innermost open element is listed. -/
def listedTop (cdata : List (Str × Str)) : Open → Bool
  | [] => false
  | e :: o => match elementUri (e :: o) e.1 with
    | some u => decide ((u, e.1.2) ∈ cdata)
    | none => false

/-- One token: the open elements and whether a section is open. Nothing if a section holds anything but text,
or if text is in a section though its element is not listed, or the other way round. -/
def section1 (cdata : List (Str × Str)) (x : Open × Bool) (t : Tok) : Option (Open × Bool) :=
  match t with
  | .cdataStart => if x.2 then none else some (x.1, true)
  | .cdataEnd => if x.2 then some (x.1, false) else none
  | .char _ => if x.2 = listedTop cdata x.1 then some x else none
  | t => if x.2 then none else (readEvent x.1 (eventOf t)).map fun r => (r.2, false)

/-- The same for a list of them. -/
def sectionsIn (cdata : List (Str × Str)) : Open × Bool → List Tok → Option (Open × Bool)
  | x, [] => some x
  | x, t :: ts => match section1 cdata x t with
    | none => none
    | some y => sectionsIn cdata y ts

/-- The XML declaration as a processing instruction and the line end after it. -/
def declaration (version standalone : Str) : List Res :=
  [.pi "xml".toList ("version=\"".toList ++ (if version = [] then "1.0".toList else version) ++ ['"'] ++
    (if standalone = [] then [] else " standalone=\"".toList ++ standalone ++ ['"'])), .text ['\n']]

/-- The document type declaration, with the name of the root element and the identifiers. -/
def doctype (name pub sys : Str) : Str :=
  "<!DOCTYPE ".toList ++ name ++ ['\n'] ++
    (if pub = [] then "  SYSTEM \"".toList ++ sys ++ "\">\n".toList
     else "  PUBLIC \"".toList ++ pub ++ "\" \"".toList ++ sys ++ "\">\n".toList)

end Verif.Spec.XsltSink
