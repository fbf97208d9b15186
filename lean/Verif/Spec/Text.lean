set_option autoImplicit false
/-!
# Entity replacement and words
-/
namespace Verif.Spec.Text

/-- The references a reader has to know: the five predefined entities that occur and the three
character references. Longest names first; none is a prefix of another. -/
def refs : List (List Char × Char) :=
  [("&lt;".toList, '<'), ("&gt;".toList, '>'), ("&amp;".toList, '&'), ("&quot;".toList, '"'),
   ("&#x9;".toList, '\t'), ("&#xA;".toList, '\n'), ("&#xD;".toList, '\r')]

/-- The reference a string starts with, and what follows it. -/
def readRef (s : List Char) : Option (Char × List Char) :=
  refs.findSome? fun r => if r.1.isPrefixOf s then some (r.2, s.drop r.1.length) else none

/-- The text an XML reader sees in character content (section 2.4 of XML 1.0): `Reads s t` when
`s` is character data for the text `t`.  Literal `<` and `&` cannot occur in `s`. -/
inductive ReadsText : List Char → List Char → Prop
  | nil : ReadsText [] []
  | char (c : Char) (s t : List Char) : c ≠ '<' → c ≠ '&' → ReadsText s t → ReadsText (c :: s) (c :: t)
  | ref (c : Char) (s r t : List Char) : readRef s = some (c, r) → ReadsText r t → ReadsText s (c :: t)

/-- The value an XML reader gives an attribute written between double quotes (sections 2.3 and
3.3.3 of XML 1.0): a literal quote, `<` or `&` cannot occur, literal white space becomes a space,
references stand for their character. -/
inductive ReadsAttr : List Char → List Char → Prop
  | nil : ReadsAttr [] []
  | char (c : Char) (s t : List Char) : c ≠ '<' → c ≠ '&' → c ≠ '"' → c ≠ '\t' → c ≠ '\n' → c ≠ '\r' →
      ReadsAttr s t → ReadsAttr (c :: s) (c :: t)
  | space (c : Char) (s t : List Char) : (c = '\t' ∨ c = '\n' ∨ c = '\r') →
      ReadsAttr s t → ReadsAttr (c :: s) (' ' :: t)
  | ref (c : Char) (s r t : List Char) : readRef s = some (c, r) → ReadsAttr r t → ReadsAttr s (c :: t)

/-- XML end-of-line handling (section 2.11): CR LF and lone CR become LF before parsing. -/
def eol : List Char → List Char
  | [] => []
  | '\r' :: '\n' :: t => '\n' :: eol t
  | '\r' :: t => '\n' :: eol t
  | c :: t => c :: eol t

/-- XML white space. -/
def space (c : Char) : Bool := c = ' ' || c = '\t' || c = '\n' || c = '\r'

/-- Cut a string at every white space character (the pieces may be empty). -/
def pieces : List Char → List (List Char)
  | [] => [[]]
  | c :: cs =>
    if space c then [] :: pieces cs
    else match pieces cs with
      | [] => [[c]]
      | w :: ws => (c :: w) :: ws

/-- The maximal non-space words of a string. -/
def words (s : List Char) : List (List Char) := (pieces s).filter (fun w => !w.isEmpty)

/-- Join with single spaces. -/
def joinSpace : List (List Char) → List Char
  | [] => []
  | [w] => w
  | w :: ws => w ++ ' ' :: joinSpace ws

end Verif.Spec.Text
