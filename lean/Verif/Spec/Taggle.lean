import Verif.Model.Taggle
import Verif.Spec.XmlChars
set_option autoImplicit false
/-!
# What the events of a parsed HTML document must look like

Only the type of the events is taken from the model.
-/
namespace Verif.Taggle.Spec

/-- Events that are not about elements or namespace declarations: they can come anywhere inside an
element. -/
inductive Inside : Ev → Prop
  | characters (s : Str) : Inside (.characters s)
  | ignorable (s : Str) : Inside (.ignorable s)
  | pi (t d : Str) : Inside (.pi t d)
  | startDTD (n p s : Str) : Inside (.startDTD n p s)
  | endDTD : Inside .endDTD
  | comment (s : Str) : Inside (.comment s)

/-- The namespace declarations reported before an element. -/
def declared (ms : List (Str × Str)) : List Ev := ms.map fun m => .startPrefix m.1 m.2

/-- The ends of namespace declarations reported after an element. -/
def undeclared (ps : List Str) : List Ev := ps.map fun p => .endPrefix p

/-- What an element contains: other events and complete elements.  Each element is
`declarations, startElement, content, endElement, ends of the same declarations`. -/
inductive Content : List Ev → Prop
  | nil : Content []
  | other (e : Ev) (rest : List Ev) : Inside e → Content rest → Content (e :: rest)
  | element (ms : List (Str × Str)) (ps : List Str) (u l q : Str) (atts : List Att)
      (inner rest : List Ev) :
      ps.Perm (ms.map (·.1)) → Content inner → Content rest →
      Content (declared ms ++ .startElement u l q atts :: (inner ++
        .endElement u l q :: (undeclared ps ++ rest)))

/-- One complete element. -/
def Element (evs : List Ev) : Prop :=
  ∃ (ms : List (Str × Str)) (ps : List Str) (u l q : Str) (atts : List Att) (inner : List Ev),
    ps.Perm (ms.map (·.1)) ∧ Content inner ∧
    evs = declared ms ++ .startElement u l q atts :: (inner ++ .endElement u l q :: undeclared ps)

/-- The events of a whole document: `startDocument`, the declaration of the schema's namespace if it
has one, events that are not about elements, at most one element, the end of the declaration and
`endDocument`. -/
def Document (uri pre : Str) (evs : List Ev) : Prop :=
  ∃ before body : List Ev, (∀ e ∈ before, Inside e) ∧ (body = [] ∨ Element body) ∧
    evs = .startDocument :: ((if uri = [] then [] else [.startPrefix pre uri]) ++ before ++ body ++
      (if uri = [] then [] else [.endPrefix pre]) ++ [.endDocument])

/-- Not character data. -/
def NotText : Ev → Prop
  | .characters _ => False
  | _ => True

/-- As `Document`, with exactly one element and no character data outside it. -/
def WellFormed (uri pre : Str) (evs : List Ev) : Prop :=
  ∃ before body : List Ev, (∀ e ∈ before, Inside e ∧ NotText e) ∧ Element body ∧
    evs = .startDocument :: ((if uri = [] then [] else [.startPrefix pre uri]) ++ before ++ body ++
      (if uri = [] then [] else [.endPrefix pre]) ++ [.endDocument])

/-- The types found for `<root>` and `<pcdata>`, the second carrying that name. -/
structure Roots (S : Schema) (root pc : EType) : Prop where
  root : S.getType "<root>".toList = some root
  pcdata : S.getType "<pcdata>".toList = some pc
  name : pc.name = "<pcdata>".toList

/-- No text can stand outside the document element: the type `<root>` does not contain `<pcdata>`
and its content is not CDATA. -/
structure NoTextOutside (S : Schema) (root : EType) : Prop where
  pcdata : ∀ k t, (k, t) ∈ S.types → t.name = "<pcdata>".toList → root.model &&& t.memberOf = 0
  cdata : root.flags &&& 2 = 0

/-- An element of type `t` has a place: the root can contain it, or its type has a natural parent
which has a place, `n` steps up. -/
inductive Placeable (S : Schema) (root : EType) : Nat → EType → Prop
  | here (n : Nat) (t : EType) : root.model &&& t.memberOf ≠ 0 → Placeable S root n t
  | up (n p : Nat) (t : EType) (k : Str) (q : EType) : t.parent = some p →
      S.types[p]? = some (k, q) → Placeable S root n q → Placeable S root (n + 1) t

/-- A schema that gives every element a place. -/
structure Sound (S : Schema) (root : EType) : Prop where
  places : ∀ k t, (k, t) ∈ S.types → k ≠ "<root>".toList → ∃ n, Placeable S root n t
  bogons : root.model &&& 0xFFFFFFFF ≠ 0
  html : ∃ k t, S.types[S.root]? = some (k, t) ∧ k ≠ "<root>".toList

/-- A string of bytes or characters that is an XML qualified name. -/
def QName (s : Str) : Prop := Verif.Spec.Xml.QName (s.map Char.toNat)

/-- A string of bytes or characters that is an XML name without a colon. -/
def NCName (s : Str) : Prop := Verif.Spec.Xml.NCName (s.map Char.toNat)

/-- The attributes of an element: qualified names, no namespace declarations, no name twice. -/
structure GoodAtts (atts : List Att) : Prop where
  qname : ∀ a ∈ atts, QName a.qName
  xmlns : ∀ a ∈ atts, a.qName ≠ "xmlns".toList ∧ ∀ r, a.qName ≠ "xmlns:".toList ++ r
  distinct : (atts.map (·.qName)).Nodup

/-- What the text of an XML comment must keep to. -/
def CommentText (s : Str) : Prop :=
  (∀ p r, s ≠ p ++ '-' :: '-' :: r) ∧ ∀ p, s ≠ p ++ ['-']

/-- What the target and the data of an XML processing instruction must keep to. -/
def Instruction (t d : Str) : Prop :=
  NCName t ∧
  (∀ x m l, t = [x, m, l] →
    ¬ ((x = 'x' ∨ x = 'X') ∧ (m = 'm' ∨ m = 'M') ∧ (l = 'l' ∨ l = 'L'))) ∧
  ∀ p r, d ≠ p ++ '?' :: '>' :: r

/-- An event that could be written out again as XML, as far as names, comments and processing
instructions go. -/
def Writable : Ev → Prop
  | .startElement _ _ q atts => QName q ∧ GoodAtts atts
  | .comment s => CommentText s
  | .pi t d => Instruction t d
  | _ => True

/-- A schema whose element types have qualified names and such attributes, apart from `<root>`, which
has no place in any element and no parent, and `<pcdata>`. -/
def GoodNames (S : Schema) : Prop :=
  ∀ k t, (k, t) ∈ S.types →
    (QName t.name ∧ GoodAtts t.atts) ∨ t.name = "<pcdata>".toList ∨
    (t.memberOf = 0 ∧ t.parent = none)

end Verif.Taggle.Spec
