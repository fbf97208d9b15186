set_option autoImplicit false
/-!
# Reading an XML document

A reader for the part of XML 1.0 the serialisers write: tags, attributes between double quotes,
references, comments, processing instructions and CDATA sections.  It goes through the text one character
at a time.  A document type declaration is not read.
-/
namespace Verif.Spec.Xml

abbrev Str := List Char

/-- What is read. Character data is given character by character. -/
inductive Tok where
  | char (c : Char)
  | open' (name : Str) (atts : List (Str × Str))
  | close (name : Str)
  | pi (target data : Str)
  | comment (text : Str)
  | entity (name : Str)
  | cdataStart
  | cdataEnd
  deriving DecidableEq, Repr

/-- Where the reader is. -/
inductive Mode where
  /-- in character data -/
  | content
  /-- after `<` -/
  | lt
  /-- in the name of an end tag -/
  | close (name : Str)
  /-- in the name of a start tag -/
  | tag (name : Str)
  /-- after an attribute -/
  | atts (name : Str) (atts : List (Str × Str))
  /-- in the name of an attribute (or in front of it) -/
  | attName (name : Str) (atts : List (Str × Str)) (att : Str)
  /-- after the `=` of an attribute -/
  | attEq (name : Str) (atts : List (Str × Str)) (att : Str)
  /-- in the value of an attribute -/
  | attVal (name : Str) (atts : List (Str × Str)) (att value : Str)
  /-- after `&` in the value of an attribute -/
  | attRef (name : Str) (atts : List (Str × Str)) (att value ref : Str)
  /-- after the `/` of an empty element tag -/
  | slash (name : Str) (atts : List (Str × Str))
  /-- after `&` in character data -/
  | ref (ref : Str)
  /-- after `<!` -/
  | bang (s : Str)
  | comment (s : Str)
  | cdata (s : Str)
  | pi (s : Str)
  /-- this is not XML -/
  | err
  deriving DecidableEq, Repr

/-- White space. -/
def isWhite (c : Char) : Bool := c = ' ' || c = '\t' || c = '\n' || c = '\r'

/-- Characters that can occur in names: all but white space and those with a meaning in markup. -/
def nameChar (c : Char) : Bool :=
  !isWhite c && !(['/', '>', '<', '=', '"', '\'', '&', ';', '#', '!', '?'].contains c)

/-- The characters the predefined entities and the character references for white space stand for. -/
def predefined (r : Str) : Option Char :=
  if r = ['l', 't'] then some '<'
  else if r = ['g', 't'] then some '>'
  else if r = ['a', 'm', 'p'] then some '&'
  else if r = ['q', 'u', 'o', 't'] then some '"'
  else if r = ['a', 'p', 'o', 's'] then some '\''
  else if r = ['#', 'x', '9'] then some '\t'
  else if r = ['#', 'x', 'A'] then some '\n'
  else if r = ['#', 'x', 'D'] then some '\r'
  else none

/-- Target and data of a processing instruction: the white space between is not part of either. -/
def splitPi : Str → Str × Str
  | [] => ([], [])
  | c :: s => if isWhite c then ([], s.dropWhile isWhite) else let (t, d) := splitPi s; (c :: t, d)

def commentOpen : Str := ['-', '-']
def cdataOpen : Str := ['[', 'C', 'D', 'A', 'T', 'A', '[']
def cdataClose : Str := [']', ']', '>']
def piClose : Str := ['?', '>']

/-- One character. -/
def step : Mode → Char → Mode × List Tok
  | .content, c =>
    if c = '<' then (.lt, []) else if c = '&' then (.ref [], []) else (.content, [.char c])
  | .lt, c =>
    if c = '/' then (.close [], []) else if c = '!' then (.bang [], [])
    else if c = '?' then (.pi [], []) else if nameChar c then (.tag [c], []) else (.err, [])
  | .close n, c =>
    if c = '>' then if n = [] then (.err, []) else (.content, [.close n])
    else if nameChar c then (.close (n ++ [c]), []) else (.err, [])
  | .tag n, c =>
    if c = '>' then (.content, [.open' n []]) else if c = '/' then (.slash n [], [])
    else if isWhite c then (.attName n [] [], [])
    else if nameChar c then (.tag (n ++ [c]), []) else (.err, [])
  | .atts n as, c =>
    if c = '>' then (.content, [.open' n as]) else if c = '/' then (.slash n as, [])
    else if isWhite c then (.attName n as [], []) else (.err, [])
  | .attName n as a, c =>
    if a = [] then
      if c = '>' then (.content, [.open' n as]) else if c = '/' then (.slash n as, [])
      else if isWhite c then (.attName n as [], [])
      else if nameChar c then (.attName n as [c], []) else (.err, [])
    else if c = '=' then (.attEq n as a, [])
    else if nameChar c then (.attName n as (a ++ [c]), []) else (.err, [])
  | .attEq n as a, c => if c = '"' then (.attVal n as a [], []) else (.err, [])
  | .attVal n as a v, c =>
    if c = '"' then (.atts n (as ++ [(a, v)]), []) else if c = '<' then (.err, [])
    else if c = '&' then (.attRef n as a v [], [])
    else if isWhite c then (.attVal n as a (v ++ [' ']), []) else (.attVal n as a (v ++ [c]), [])
  | .attRef n as a v r, c =>
    if c = ';' then match predefined r with
      | some d => (.attVal n as a (v ++ [d]), [])
      | none => (.err, [])
    else if nameChar c || c = '#' then (.attRef n as a v (r ++ [c]), []) else (.err, [])
  | .slash n as, c => if c = '>' then (.content, [.open' n as, .close n]) else (.err, [])
  | .ref r, c =>
    if c = ';' then match predefined r with
      | some d => (.content, [.char d])
      | none => if r = [] ∨ '#' ∈ r then (.err, []) else (.content, [.entity r])
    else if nameChar c || c = '#' then (.ref (r ++ [c]), []) else (.err, [])
  | .bang s, c =>
    if s ++ [c] = commentOpen then (.comment [], [])
    else if s ++ [c] = cdataOpen then (.cdata [], [])
    else if (s ++ [c]).isPrefixOf commentOpen || (s ++ [c]).isPrefixOf cdataOpen then (.bang (s ++ [c]), [])
    else (.err, [])
  | .comment s, c =>
    if commentOpen.isSuffixOf s then
      if c = '>' then (.content, [.comment (s.dropLast.dropLast)]) else (.err, [])
    else (.comment (s ++ [c]), [])
  | .cdata s, c =>
    if cdataClose.isSuffixOf (s ++ [c]) then
      (.content, .cdataStart :: ((s.dropLast.dropLast).map .char) ++ [.cdataEnd])
    else (.cdata (s ++ [c]), [])
  | .pi s, c =>
    if piClose.isSuffixOf (s ++ [c]) then
      (.content, [.pi (splitPi s.dropLast).1 (splitPi s.dropLast).2])
    else (.pi (s ++ [c]), [])
  | .err, _ => (.err, [])

/-- A text, from any point. -/
def run : Mode → Str → Mode × List Tok
  | m, [] => (m, [])
  | m, c :: s =>
    let (m1, t1) := step m c
    let (m2, t2) := run m1 s
    (m2, t1 ++ t2)

/-- Reading a text: it has to end outside all markup. -/
def readXml (s : Str) : Option (List Tok) :=
  let (m, t) := run .content s
  if m = .content then some t else none

/-- The tags nest: every end tag has the name of the start tag that is open. -/
def nested : List Tok → List Str → Bool
  | [], st => st.isEmpty
  | .open' n _ :: ts, st => nested ts (n :: st)
  | .close n :: ts, m :: st => decide (n = m) && nested ts st
  | .close _ :: _, [] => false
  | _ :: ts, st => nested ts st

/-- White space in character data left out. -/
def unspaced (ts : List Tok) : List Tok := ts.filter fun t => match t with
  | .char c => !isWhite c
  | _ => true

end Verif.Spec.Xml
