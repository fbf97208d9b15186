import Verif.Spec.XmlReader
import Verif.Model.SaxFilter
set_option autoImplicit false
/-!
# SAX events and the document they stand for

Of the model only the type of events `Ev` is used.
-/
namespace Verif.Spec.Writer
open Verif.SaxFilter (Ev)
open Verif.Sax (Attr)
open Verif.Spec.Xml

/-- The name written in a tag: the qualified name if there is one. -/
def tagName (qName localName : Str) : Str := if qName = [] then localName else qName

/-- A namespace declaration as an attribute. -/
def declAttr (p u : Str) : Str × Str :=
  (if p = [] then ['x', 'm', 'l', 'n', 's'] else ['x', 'm', 'l', 'n', 's', ':'] ++ p, u)

/-- The attributes of an element. -/
def attrs (atts : List Attr) : List (Str × Str) := atts.map fun a => (tagName a.qName a.localName, a.value)

/-- The data of the XML declaration. -/
def declData (encoding : Str) : Str :=
  ['v', 'e', 'r', 's', 'i', 'o', 'n', '=', '"', '1', '.', '0', '"'] ++
  (if encoding = [] then [] else
    [' ', 'e', 'n', 'c', 'o', 'd', 'i', 'n', 'g', '=', '"'] ++ encoding ++ ['"'])

/-- What a reader should find: the events of the stream, the namespace mappings announced (`decls`) as
attributes of the next element, in front of its own. -/
def expected (encoding : Str) : List (Str × Str) → List Ev → List Tok
  | _, [] => []
  | decls, e :: es => match e with
    | .startDocument => .pi ['x', 'm', 'l'] (declData encoding) :: .char '\n' :: expected encoding decls es
    | .startPrefixMapping p u => expected encoding (decls ++ [declAttr p u]) es
    | .startElement _ l q atts => .open' (tagName q l) (decls ++ attrs atts) :: expected encoding [] es
    | .endElement _ l q => .close (tagName q l) :: expected encoding decls es
    | .characters s => s.map .char ++ expected encoding decls es
    | .ignorableWhitespace s => s.map .char ++ expected encoding decls es
    | .processingInstruction t d => .pi t d :: expected encoding decls es
    | .skippedEntity n =>
      if n = ['[', 'd', 't', 'd', ']'] then expected encoding decls es else .entity n :: expected encoding decls es
    | .startCDATA => .cdataStart :: expected encoding decls es
    | .endCDATA => .cdataEnd :: expected encoding decls es
    | .comment t => .comment t :: expected encoding decls es
    | _ => expected encoding decls es

/-- A well nested stream: elements end in the order opposite to that in which they start, CDATA sections
have only characters in them, and not `]]>`; there are no document type events.  `st` is the names of the
open elements, `cd` the text of the open CDATA section. -/
def WellNested : List Str → Option Str → List Ev → Prop
  | st, cd, [] => st = [] ∧ cd = none
  | st, cd, e :: es => match e, cd with
    | .startElement _ l q _, none => WellNested (tagName q l :: st) none es
    | .endElement _ l q, none => match st with
      | n :: st' => n = tagName q l ∧ WellNested st' none es
      | [] => False
    | .startCDATA, none => WellNested st (some []) es
    | .endCDATA, some _ => WellNested st none es
    | .characters s, some t => ¬ cdataClose <:+: t ++ s ∧ WellNested st (some (t ++ s)) es
    | .dtd .., _ => False
    | .endCDATA, none => False
    | _, none => WellNested st none es
    | _, some _ => False

/-- A name. -/
def Name (n : Str) : Prop := n ≠ [] ∧ ∀ c ∈ n, nameChar c = true

/-- An event with strings XML allows: names are names, ignorable white space is white space, comments
have no `--` and no `-` at their end, processing instructions no `?>`. -/
def Legal : Ev → Prop
  | .startPrefixMapping p _ => ∀ c ∈ p, nameChar c = true
  | .startElement _ l q atts => Name (tagName q l) ∧ ∀ a ∈ atts, Name (tagName a.qName a.localName)
  | .endElement _ l q => Name (tagName q l)
  | .ignorableWhitespace s => ∀ c ∈ s, isWhite c = true
  | .processingInstruction t d =>
    Name t ∧ ¬ piClose <:+: d ∧ ∀ c, d.head? = some c → isWhite c = false
  | .skippedEntity n => n = ['[', 'd', 't', 'd', ']'] ∨ (Name n ∧ predefined n = none)
  | .comment t => ¬ ['-', '-'] <:+: t ++ ['-']
  | _ => True

end Verif.Spec.Writer
