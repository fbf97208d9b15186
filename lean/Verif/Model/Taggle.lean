import Verif.Model.Text
set_option autoImplicit false
/-!
# include/Taggle/impl/Parser.hpp: the tag-soup HTML parser as a consumer of scanner tokens

`Element`, `ElementType` and `SchemaImpl` are include/Taggle/impl/Element.hpp, ElementType.hpp and
SchemaImpl.hpp.  Strings are strings of bytes, a byte being a `Char` below 256.

An `Element` in the program is a shared record with a `next_` pointer; the stack and the list of
saved elements are chains of these.  Here they are lists, the head being the element the variable
points at.  Each element is in at most one chain as long as `pcdata_`, the one element used again
and again, is never pushed; that is so when the name of the type found for `<pcdata>` is `<pcdata>`,
which the theorems ask for.  `entityResolver_->resolveEntity`, whose result is thrown away (line
795), and the fields only used to call it are left out.
-/
namespace Verif.Taggle

abbrev Str := List Char

/-- `AttributesImpl::Attr`, include/SAX/helpers/AttributesImpl.hpp lines 49-83. -/
structure Att where
  uri : Str
  localName : Str
  qName : Str
  type : Str
  value : Str
deriving DecidableEq, Repr

/-- `ElementType`, include/Taggle/impl/ElementType.hpp lines 23-34.  The bit vectors are naturals;
`parent_` is an index into the types of the schema, `none` the null pointer. -/
structure EType where
  name : Str
  uri : Str
  localName : Str
  model : Nat
  memberOf : Nat
  flags : Nat
  atts : List Att
  parent : Option Nat
deriving DecidableEq, Repr

/-- `SchemaImpl`, include/Taggle/impl/SchemaImpl.hpp lines 22-30.  `types` holds `elementTypes_`
with its lower case keys, in the order of creation; `root` is the index of `*root_`; `entity` is
`getEntity`, lines 130-136. -/
structure Schema where
  uri : Str
  prefix' : Str
  types : List (Str × EType)
  root : Nat
  entity : Str → Int

/-- The feature flags, Parser.hpp lines 258-266. -/
structure Cfg where
  namespaces : Bool
  ignoreBogons : Bool
  bogonsEmpty : Bool
  rootBogons : Bool
  defaultAttributes : Bool
  translateColons : Bool
  restartElements : Bool
  ignorableWhitespace : Bool
  cdataElements : Bool
deriving DecidableEq, Repr

/-- The default values of the flags, Parser.hpp lines 1224-1241. -/
def defaults : Cfg :=
  ⟨true, false, false, true, true, false, true, false, true⟩

/-- `M_ANY`, `M_EMPTY`, `M_PCDATA`, `M_ROOT`, src/taggle/Schema.cpp lines 5-8, as 32 bit patterns. -/
def mAny : Nat := 0xFFFFFFFF
def mEmpty : Nat := 0
def mPcdata : Nat := 0x40000000
def mRoot : Nat := 0x80000000

/-- `F_RESTART`, `F_CDATA`, `F_NOFORCE`, src/taggle/Schema.cpp lines 10-12. -/
def fRestart : Nat := 1
def fCdata : Nat := 2
def fNoforce : Nat := 4

/-- `std::tolower` in the C locale. -/
def lower1 (c : Char) : Char :=
  if 65 ≤ c.toNat ∧ c.toNat ≤ 90 then Char.ofNat (c.toNat + 32) else c

/-- `lower_case`, SchemaImpl.hpp lines 171-176 and Parser.hpp lines 1192-1197. -/
def lower (s : Str) : Str := s.map lower1

/-- A `char` handed to a function of `wchar_t`: it is sign extended.  (There are no bytes above 255;
the last case only makes the function total.) -/
def schar (c : Char) : Int :=
  if c.toNat < 128 then (c.toNat : Int)
  else if c.toNat < 256 then (c.toNat : Int) - 256
  else (c.toNat : Int)

/-- `static_cast<char>(v)`. -/
def byte (v : Int) : Char := Char.ofNat (v % 256).toNat

/-- `find(':')`: the parts before and after the first colon. -/
def cutColon : Str → Option (Str × Str)
  | [] => none
  | c :: cs =>
    if c = ':' then some ([], cs)
    else match cutColon cs with
      | none => none
      | some (p, r) => some (c :: p, r)

/-- `ElementType::namespaceName(name, attribute)`, ElementType.hpp lines 104-115. -/
def namespaceOf (schemaUri : Str) (name : Str) (isAttribute : Bool) : Str :=
  match cutColon name with
  | none => if isAttribute then [] else schemaUri
  | some (p, _) =>
    if p = "xml".toList then "http://www.w3.org/XML/1998/namespace".toList
    else "urn:x-prefix:".toList ++ p

/-- `ElementType::localName(name)`, ElementType.hpp lines 122-129. -/
def localOf (name : Str) : Str :=
  match cutColon name with
  | none => name
  | some (_, r) => r

/-- The constructor of `ElementType`, ElementType.hpp lines 67-79. -/
def newType (schemaUri name : Str) (model memberOf flags : Nat) : EType :=
  { name := name, uri := namespaceOf schemaUri name false, localName := localOf name,
    model := model, memberOf := memberOf, flags := flags, atts := [], parent := none }

/-- `ElementType::Null`, ElementType.hpp lines 40-51. -/
def nullType : EType :=
  { name := "<null>".toList, uri := "<null>".toList, localName := "<null>".toList,
    model := 0, memberOf := 0, flags := 0, atts := [], parent := none }

/-- `getElementType`, SchemaImpl.hpp lines 117-123; `none` is `ElementType::Null`. -/
def Schema.getType (S : Schema) (name : Str) : Option EType :=
  (S.types.find? fun p => p.1 == lower name).map (·.2)

/-- `elementType`, SchemaImpl.hpp lines 46-53, for a name that has no type yet, followed by `parent`,
lines 87-100, if there is one. -/
def Schema.addType (S : Schema) (name : Str) (model memberOf flags : Nat) (parent : Option Nat) :
    Schema :=
  { S with types := S.types ++ [(lower name, { newType S.uri name model memberOf flags with
                                                parent := parent })] }

/-- `setAttribute`, ElementType.hpp lines 218-250. -/
def setAtt (atts : List Att) (name type value : Str) : List Att :=
  if name = "xmlns".toList ∨ "xmlns:".toList.isPrefixOf name then atts
  else
    match atts.findIdx? (fun a => a.qName == name) with
    | none =>
      let ty := if type = [] then "CDATA".toList else type
      let v := if ty ≠ "CDATA".toList then Text.normalizeWhitespace value else value
      atts ++ [⟨namespaceOf [] name true, localOf name, name, ty, v⟩]
    | some i =>
      let ty := if type = [] then ((atts[i]?.map (·.type)).getD []) else type
      let v := if ty ≠ "CDATA".toList then Text.normalizeWhitespace value else value
      atts.set i ⟨namespaceOf [] name true, localOf name, name, ty, v⟩

/-- `Element`, Element.hpp lines 166-174; `next_` is the place in a list. -/
structure Elem where
  ty : EType
  atts : List Att
  preclosed : Bool
deriving DecidableEq, Repr

/-- The constructor of `Element`, Element.hpp lines 181-190. -/
def newElem (cfg : Cfg) (t : EType) : Elem :=
  ⟨t, if cfg.defaultAttributes then t.atts else [], false⟩

/-- `canContain`, ElementType.hpp lines 204-207. -/
def canContain (a b : EType) : Bool := a.model &&& b.memberOf != 0

/-- `(flags() & f) != 0`. -/
def EType.has (t : EType) (f : Nat) : Bool := t.flags &&& f != 0

/-- `anonymize`, Element.hpp lines 217-224. -/
def anonymize (e : Elem) : Elem :=
  { e with atts := e.atts.filter fun a => !(a.type == "ID".toList || a.qName == "name".toList) }

/-- `clean`, Element.hpp lines 226-237. -/
def clean (e : Elem) : Elem :=
  { e with atts := e.atts.filter fun a => !(a.value == [] || a.localName == []) }

/-- What the application's handlers are told. -/
inductive Ev where
  | startDocument
  | endDocument
  | startPrefix (p uri : Str)
  | endPrefix (p : Str)
  | startElement (uri localName qName : Str) (atts : List Att)
  | endElement (uri localName qName : Str)
  | characters (s : Str)
  | ignorable (s : Str)
  | pi (target data : Str)
  | startDTD (name publicId systemId : Str)
  | endDTD
  | comment (s : Str)
deriving DecidableEq, Repr

/-- The parser's own state, Parser.hpp lines 238-256 and 267.  `cdata` says that
`scanner_->startCDATA()` has been called since the last token. -/
structure St where
  schema : Schema
  newElement : Option Elem
  attributeName : Str
  doctypeIsPresent : Bool
  piTarget : Str
  stack : List Elem
  saved : List Elem
  pcdata : Elem
  entity : Int
  virgin : Bool
  cdata : Bool
  out : List Ev

def St.emit (s : St) (e : Ev) : St := { s with out := s.out ++ [e] }
def St.emits (s : St) (es : List Ev) : St := { s with out := s.out ++ es }

/-- The type of `stack_`; that of an empty stack is `ElementType::Null`. -/
def St.top (s : St) : EType :=
  match s.stack with
  | [] => nullType
  | e :: _ => e.ty

/-- `prefixOf`, Parser.hpp lines 824-831. -/
def prefixOf (name : Str) : Str :=
  match cutColon name with
  | none => []
  | some (p, _) => p

/-- `foreign`, Parser.hpp lines 834-838. -/
def foreign (S : Schema) (p uri : Str) : Bool := !(p == [] || uri == [] || uri == S.uri)

/-- The namespace name and local name reported for an element, Parser.hpp lines 747-752 and 787-793. -/
def reported (cfg : Cfg) (t : EType) : Str × Str :=
  if cfg.namespaces then (t.uri, t.localName) else ([], [])

/-- The `startPrefixMapping` events of `push`, Parser.hpp lines 796-807. -/
def openMappings (cfg : Cfg) (S : Schema) (e : Elem) : List Ev :=
  (if foreign S (prefixOf e.ty.name) (reported cfg e.ty).1 then
    [Ev.startPrefix (prefixOf e.ty.name) (reported cfg e.ty).1] else []) ++
  (e.atts.filter fun a => foreign S (prefixOf a.qName) a.uri).map
    fun a => Ev.startPrefix (prefixOf a.qName) a.uri

/-- The `endPrefixMapping` events of `pop`, Parser.hpp lines 756-766. -/
def closeMappings (cfg : Cfg) (S : Schema) (e : Elem) : List Ev :=
  (if foreign S (prefixOf e.ty.name) (reported cfg e.ty).1 then
    [Ev.endPrefix (prefixOf e.ty.name)] else []) ++
  (e.atts.reverse.filter fun a => foreign S (prefixOf a.qName) a.uri).map
    fun a => Ev.endPrefix (prefixOf a.qName)

/-- `push`, Parser.hpp lines 784-821. -/
def push (cfg : Cfg) (s : St) (e : Elem) : St :=
  let e := clean e
  let s := s.emits (openMappings cfg s.schema e ++
    [.startElement (reported cfg e.ty).1 (reported cfg e.ty).2 e.ty.name e.atts])
  { s with stack := e :: s.stack, virgin := false,
           cdata := s.cdata || (cfg.cdataElements && e.ty.has fCdata) }

/-- `pop`, Parser.hpp lines 742-768. -/
def pop (cfg : Cfg) (s : St) : St :=
  match s.stack with
  | [] => s
  | e :: rest =>
    let s := s.emits (.endElement (reported cfg e.ty).1 (reported cfg e.ty).2 e.ty.name ::
      closeMappings cfg s.schema e)
    { s with stack := rest }

/-- `restartablyPop`, Parser.hpp lines 771-781. -/
def restartablyPop (cfg : Cfg) (s : St) : St :=
  match s.stack with
  | [] => s
  | e :: _ =>
    let s := pop cfg s
    if cfg.restartElements && e.ty.has fRestart then { s with saved := anonymize e :: s.saved }
    else s

/-- The loop of `restart`, Parser.hpp lines 730-739; the list is what `saved_` points at. -/
def restartLoop (cfg : Cfg) (e : Option Elem) : List Elem → St → St
  | [], s => { s with saved := [] }
  | x :: rest, s =>
    if canContain s.top x.ty && e.all (fun e => canContain x.ty e.ty) then
      restartLoop cfg e rest (push cfg s x)
    else { s with saved := x :: rest }

/-- `restart`, Parser.hpp lines 730-739. -/
def restart (cfg : Cfg) (e : Option Elem) (s : St) : St := restartLoop cfg e s.saved s

/-- `n` turns of `while (stack_ != sp) restartablyPop();`, Parser.hpp lines 718-719. -/
def popN (cfg : Cfg) : Nat → St → St
  | 0, s => s
  | n + 1, s => popN cfg n (restartablyPop cfg s)

/-- `while (stack_.isPreclosed()) pop();`, Parser.hpp lines 723-724; the list is the stack. -/
def popPreclosed (cfg : Cfg) : List Elem → St → St
  | [], s => s
  | e :: rest, s => if e.preclosed then popPreclosed cfg rest (pop cfg s) else s

/-- `etag_basic`, Parser.hpp lines 680-726.  `i` is how deep the element found lies in the stack. -/
def etagName (cfg : Cfg) (s : St) (name : Str) : St :=
  match s.stack.findIdx? (fun e => e.ty.name == name) with
  | none => s
  | some i =>
    if s.stack.length ≤ i + 2 then s
    else
      let s :=
        if (s.stack.take i).any (fun e => e.ty.has fNoforce) then
          { s with stack := s.stack.modify i fun e => { e with preclosed := true } }
        else pop cfg (popN cfg i s)
      restart cfg none (popPreclosed cfg s.stack s)

/-- The loop of `makeName`, Parser.hpp lines 1159-1185; `rest` of the input, `seenColon`, `start`. -/
def makeLoop (cfg : Cfg) : Str → Bool → Bool → Str
  | [], _, _ => []
  | c :: cs, seenColon, start =>
    if XmlChars.isLetter (schar c) || c == '_' then c :: makeLoop cfg cs seenColon false
    else if XmlChars.isDigit (schar c) || c == '-' || c == '.' then
      (if start then ['_'] else []) ++ c :: makeLoop cfg cs seenColon false
    else if c == ':' && !seenColon then
      (if start then ['_'] else []) ++
        (if cfg.translateColons then '_' else c) :: makeLoop cfg cs true true
    else makeLoop cfg cs seenColon start

/-- `makeName`, Parser.hpp lines 1157-1190. -/
def makeName (cfg : Cfg) (buff : Str) : Str :=
  let dst := makeLoop cfg buff false true
  if dst = [] ∨ dst.getLast? = some ':' then dst ++ ['_'] else dst

/-- `etag_basic` from its start, Parser.hpp lines 680-696. -/
def etagBasic (cfg : Cfg) (s : St) (buff : Str) : St :=
  let s := { s with newElement := none }
  if buff ≠ [] then
    match s.schema.getType (makeName cfg buff) with
    | none => s
    | some t => etagName cfg s t.name
  else etagName cfg s s.top.name

/-- `etag_cdata`, Parser.hpp lines 646-678: `none` if it returns false. -/
def etagCdata (cfg : Cfg) (s : St) (buff : Str) : Option St :=
  if cfg.cdataElements && s.top.has fCdata then
    if lower buff = lower s.top.name then none
    else some { s.emits [.characters "</".toList, .characters buff, .characters ">".toList] with
                cdata := true }
  else none

/-- `etag`, Parser.hpp lines 638-644. -/
def etag (cfg : Cfg) (s : St) (buff : Str) : St :=
  match etagCdata cfg s buff with
  | some s' => s'
  | none => etagBasic cfg s buff

/-- How a call ends: normally, with an exception, by following a null pointer, or not at all. -/
inductive Out (α : Type) where
  | ok (a : α)
  | throws
  | ub
  | diverges

/-- The first loop of `rectify`, Parser.hpp lines 1114-1129, for at most `fuel` rounds.  The list is
the chain of elements to be pushed, outermost first; the result has the place in the stack of the
element that can contain the outermost. -/
def climb (cfg : Cfg) (s : St) : Nat → Elem → List Elem → Out (Nat × List Elem)
  | 0, _, _ => .diverges
  | fuel + 1, e, chain =>
    match s.stack.findIdx? (fun x => canContain x.ty e.ty) with
    | some i => .ok (i, e :: chain)
    | none =>
      match e.ty.parent with
      | none => .ub
      | some p =>
        match s.schema.types[p]? with
        | none => .ub
        | some t => climb cfg s fuel (newElem cfg t.2) (e :: chain)

/-- The second loop, Parser.hpp lines 1132-1137. -/
def popUpto (cfg : Cfg) : Nat → St → St
  | 0, s => s
  | i + 1, s => if s.stack.length ≤ 2 then s else popUpto cfg i (restartablyPop cfg s)

/-- The third loop, Parser.hpp lines 1138-1145. -/
def pushChain (cfg : Cfg) : List Elem → St → St
  | [], s => s
  | e :: rest, s =>
    let s := if e.ty.name ≠ "<pcdata>".toList then push cfg s e else s
    pushChain cfg rest (restart cfg rest.head? s)

/-- `rectify`, Parser.hpp lines 1111-1147. -/
def rectify (cfg : Cfg) (fuel : Nat) (s : St) (e : Elem) : Out St :=
  match climb cfg s fuel e [] with
  | .throws => .throws
  | .ub => .ub
  | .diverges => .diverges
  | .ok (i, chain) => .ok { pushChain cfg chain (popUpto cfg i s) with newElement := none }

/-- The digits `strtol` reads in the given base, and its value: the largest `long` if it would be
larger. -/
def digitsVal (base : Nat) (digit : Char → Option Nat) : Nat → Str → Nat
  | v, [] => v
  | v, c :: cs =>
    match digit c with
    | none => v
    | some d => digitsVal base digit (v * base + d) cs

def decDigit (c : Char) : Option Nat :=
  if 48 ≤ c.toNat ∧ c.toNat ≤ 57 then some (c.toNat - 48) else none

def hexDigit (c : Char) : Option Nat :=
  if 48 ≤ c.toNat ∧ c.toNat ≤ 57 then some (c.toNat - 48)
  else if 97 ≤ c.toNat ∧ c.toNat ≤ 102 then some (c.toNat - 87)
  else if 65 ≤ c.toNat ∧ c.toNat ≤ 70 then some (c.toNat - 55)
  else none

/-- A `long` returned as an `int`: it is cut to 32 bits. -/
def toInt (v : Nat) : Int :=
  let w := min v 0x7FFFFFFFFFFFFFFF % 0x100000000
  if w < 0x80000000 then (w : Int) else (w : Int) - 0x100000000

/-- `strtol(s, &end, 10)`.  The callers only pass letters, digits and `#`, so there is no white
space and no sign to skip. -/
def strtol10 (s : Str) : Int := toInt (digitsVal 10 decDigit 0 s)

/-- `strtol(s, &end, 16)`, with its optional `0x`. -/
def strtol16 (s : Str) : Int :=
  match s with
  | '0' :: x :: d :: rest =>
    if (x = 'x' ∨ x = 'X') ∧ (hexDigit d).isSome then toInt (digitsVal 16 hexDigit 0 (d :: rest))
    else toInt (digitsVal 16 hexDigit 0 s)
  | s => toInt (digitsVal 16 hexDigit 0 s)

/-- `lookupEntity`, Parser.hpp lines 608-623. -/
def lookupEntity (S : Schema) (buff : Str) : Int :=
  match buff with
  | [] => 0
  | '#' :: x :: rest =>
    if x = 'x' ∨ x = 'X' then strtol16 rest else strtol10 (x :: rest)
  | '#' :: [] => strtol10 []
  | _ => S.entity buff

/-- The loop of `expandEntities`, Parser.hpp lines 553-599.  `dst` is what has been copied up to an
open reference, `ref` the characters of the open reference after its `&`. -/
def expandLoop (S : Schema) : Str → Str → Option Str → Str
  | [], dst, none => dst
  | [], dst, some r => dst ++ '&' :: r
  | c :: cs, dst, none =>
    if c = '&' then expandLoop S cs dst (some []) else expandLoop S cs (dst ++ [c]) none
  | c :: cs, dst, some r =>
    if XmlChars.isLetterOrDigit (schar c) || c == '#' then expandLoop S cs dst (some (r ++ [c]))
    else if c = ';' then
      let ent := lookupEntity S r
      if ent > 0xFFFF then
        expandLoop S cs (dst ++ [byte ((ent - 0x10000) / 1024 + 0xD800),
                                 byte ((ent - 0x10000) % 1024 + 0xDC00)]) none
      else if ent ≠ 0 then expandLoop S cs (dst ++ [byte ent]) none
      else expandLoop S cs (dst ++ '&' :: r ++ [';']) none
    else expandLoop S cs (dst ++ '&' :: r ++ [c]) none

/-- `expandEntities`, Parser.hpp lines 553-599. -/
def expandEntities (S : Schema) (src : Str) : Str := expandLoop S src [] none

/-- `adup`, Parser.hpp lines 521-528. -/
def adup (s : St) : St :=
  match s.newElement with
  | none => s
  | some e =>
    if s.attributeName = [] then s
    else { s with newElement := some { e with atts := setAtt e.atts s.attributeName [] s.attributeName },
                  attributeName := [] }

/-- `aname`, Parser.hpp lines 530-538. -/
def aname (cfg : Cfg) (s : St) (buff : Str) : St :=
  match s.newElement with
  | none => s
  | some _ => { s with attributeName := lower (makeName cfg buff) }

/-- `aval`, Parser.hpp lines 540-548. -/
def aval (s : St) (buff : Str) : St :=
  match s.newElement with
  | none => s
  | some e =>
    if s.attributeName = [] then s
    else { s with newElement := some { e with
                    atts := setAtt e.atts s.attributeName [] (expandEntities s.schema buff) },
                  attributeName := [] }

/-- `substr(s, n)` with `n` the number of characters. -/
def substr (v : Str) (s n : Nat) : Str := (v.drop s).take n

/-- The loop of `split`, Parser.hpp lines 927-962: the characters from position `e` on, `s` (`none`
is `npos`), `sq`, `dq`, `lastc`.  Taking `substr` at `npos` throws; the result is `none` then. -/
def splitLoop (v : Str) : Str → Nat → Option Nat → Bool → Bool → Option Char → Option (List Str)
  | [], e, s, _, _, _ =>
    match s with
    | none => none
    | some s => some [substr v s e]
  | c :: cs, e, s, sq, dq, lastc =>
    if !dq && c == '\'' && lastc != some '\\' then
      splitLoop v cs (e + 1) (some (s.getD e)) (!sq) dq (some c)
    else if !sq && c == '"' && lastc != some '\\' then
      splitLoop v cs (e + 1) (some (s.getD e)) sq (!dq) (some c)
    else if !sq && !dq then
      if XmlChars.isSpace (schar c) then
        match s with
        | none => none
        | some s0 =>
          match splitLoop v cs (e + 1) none sq dq (some c) with
          | none => none
          | some r => some (substr v s0 e :: r)
      else splitLoop v cs (e + 1) (some (s.getD e)) sq dq (some c)
    else splitLoop v cs (e + 1) s sq dq (some c)

/-- `split`, Parser.hpp lines 916-965. -/
def split (val : Str) : Option (List Str) :=
  let v := Text.normalizeWhitespace val
  if v = [] then some [v] else splitLoop v v 0 (some 0) false false none

/-- `trimquotes`, Parser.hpp lines 902-912. -/
def trimquotes (s : Str) : Str :=
  match s with
  | [] => s
  | c :: _ =>
    if s.getLast? = some c ∧ (c = '\'' ∨ c = '"') then substr s 1 (s.length - 1) else s

/-- `legal`, Parser.hpp lines 1311-1313. -/
def legal : Str :=
  "abcdefghijklmnopqrstuvwxyzABCDEFGHIJKLMNOPQRSTUVWXYZ0123456789-'()+,./:=?;!*#@$_%".toList

/-- The loop of `cleanPublicid`, Parser.hpp lines 972-989. -/
def cleanLoop : Str → Bool → Str
  | [], _ => []
  | c :: cs, suppress =>
    if legal.contains c then c :: cleanLoop cs false
    else if suppress then cleanLoop cs true
    else ' ' :: cleanLoop cs true

/-- `cleanPublicid`, Parser.hpp lines 968-991. -/
def cleanPublicid (s : Str) : Str := cleanLoop s true

/-- The words of a declaration turned into name, public and system identifier, Parser.hpp lines
858-883. -/
def declWords (v : List Str) : Str × Str × Str :=
  match v with
  | _ :: name :: rest =>
    match rest with
    | kind :: a :: more =>
      if kind = "SYSTEM".toList then (name, [], a)
      else if kind = "PUBLIC".toList then (name, a, more.head?.getD [])
      else (name, [], [])
    | _ => (name, [], [])
  | _ => ([], [], [])

/-- `decl`, Parser.hpp lines 851-899. -/
def decl (s : St) (buff : Str) : Out St :=
  match split buff with
  | none => .throws
  | some v =>
    if v.head? = some "DOCTYPE".toList then
      if s.doctypeIsPresent then .ok s
      else
        let s := { s with doctypeIsPresent := true }
        let w := declWords v
        if w.1 ≠ [] then
          .ok (s.emits [.startDTD w.1 (cleanPublicid (trimquotes w.2.1)) (trimquotes w.2.2), .endDTD])
        else .ok s
    else .ok s

/-- `gi`, Parser.hpp lines 993-1016. -/
def gi (cfg : Cfg) (s : St) (buff : Str) : St :=
  match s.newElement with
  | some _ => s
  | none =>
    let name := makeName cfg buff
    if name = [] then s
    else
      match s.schema.getType name with
      | some t => { s with newElement := some (newElem cfg t) }
      | none =>
        if cfg.ignoreBogons then s
        else
          let S := s.schema.addType name (if cfg.bogonsEmpty then mEmpty else mAny)
            (if cfg.rootBogons then mAny else mAny - mRoot) 0
            (if cfg.rootBogons then none else some s.schema.root)
          match S.getType name with
          | none => { s with schema := S, newElement := some (newElem cfg nullType) }
          | some t => { s with schema := S, newElement := some (newElem cfg t) }

/-- `pcdata`, Parser.hpp lines 1026-1047. -/
def pcdata (cfg : Cfg) (fuel : Nat) (s : St) (buff : Str) : Out St :=
  if buff = [] then .ok s
  else if buff.all (fun c => XmlChars.isSpace (schar c)) && !canContain s.top s.pcdata.ty then
    .ok (if cfg.ignorableWhitespace then s.emit (.ignorable buff) else s)
  else
    match rectify cfg fuel s s.pcdata with
    | .ok s => .ok (s.emit (.characters buff))
    | r => r

/-- `pitarget`, Parser.hpp lines 1049-1062. -/
def pitarget (cfg : Cfg) (s : St) (buff : Str) : St :=
  match s.newElement with
  | some _ => s
  | none => { s with piTarget := (makeName cfg buff).map fun c => if c = ':' then '_' else c }

/-- `pi`, Parser.hpp lines 1064-1077. -/
def procInst (s : St) (buff : Str) : St :=
  match s.newElement with
  | some _ => s
  | none =>
    if s.piTarget = [] ∨ lower s.piTarget = "xml".toList then s
    else
      let data := if buff.getLast? = some '?' then buff.dropLast else buff
      { s.emit (.pi s.piTarget data) with piTarget := [] }

/-- `stagc`, Parser.hpp lines 1079-1090. -/
def stagc (cfg : Cfg) (fuel : Nat) (s : St) (buff : Str) : Out St :=
  match s.newElement with
  | none => .ok s
  | some e =>
    match rectify cfg fuel s e with
    | .ok s => .ok (if s.top.model = mEmpty then etagBasic cfg s buff else s)
    | r => r

/-- `stage`, Parser.hpp lines 1092-1100. -/
def stage (cfg : Cfg) (fuel : Nat) (s : St) (buff : Str) : Out St :=
  match s.newElement with
  | none => .ok s
  | some e =>
    match rectify cfg fuel s e with
    | .ok s => .ok (etagBasic cfg s buff)
    | r => r

/-- `while (stack_.next() != Element::Null) pop();`, Parser.hpp lines 629-632; the list is the
stack. -/
def popAll (cfg : Cfg) : List Elem → St → St
  | [], s => s
  | [_], s => s
  | _ :: rest, s => popAll cfg rest (pop cfg s)

/-- `eof`, Parser.hpp lines 625-636. -/
def eof (cfg : Cfg) (fuel : Nat) (s : St) : Out St :=
  match (if s.virgin then rectify cfg fuel s s.pcdata else .ok s) with
  | .ok s =>
    let s := popAll cfg s.stack s
    .ok (s.emits ((if s.schema.uri ≠ [] then [.endPrefix s.schema.prefix'] else []) ++ [.endDocument]))
  | r => r

/-- The calls a scanner makes, include/Taggle/impl/ScanHandler.hpp.  `cdsect` is never called by
`HTMLScanner` and is left out. -/
inductive Tok where
  | adup (s : Str)
  | aname (s : Str)
  | aval (s : Str)
  | cmnt (s : Str)
  | decl (s : Str)
  | entity (s : Str)
  | etag (s : Str)
  | gi (s : Str)
  | pcdata (s : Str)
  | pi (s : Str)
  | pitarget (s : Str)
  | stagc (s : Str)
  | stage (s : Str)
deriving DecidableEq, Repr

/-- One call of the scan handler. -/
def handle (cfg : Cfg) (fuel : Nat) (s : St) : Tok → Out St
  | .adup _ => .ok (adup s)
  | .aname b => .ok (aname cfg s b)
  | .aval b => .ok (aval s b)
  /- `cmnt`, Parser.hpp lines 1103-1107 -/
  | .cmnt b => .ok (s.emit (.comment b))
  | .decl b => decl s b
  /- `entity`, Parser.hpp lines 601-604 -/
  | .entity b => .ok { s with entity := lookupEntity s.schema b }
  | .etag b => .ok (etag cfg s b)
  | .gi b => .ok (gi cfg s b)
  | .pcdata b => pcdata cfg fuel s b
  | .pi b => .ok (procInst s b)
  | .pitarget b => .ok (pitarget cfg s b)
  | .stagc b => stagc cfg fuel s b
  | .stage b => stage cfg fuel s b

/-- A run of such calls. -/
def handleAll (cfg : Cfg) (fuel : Nat) : St → List Tok → Out St
  | s, [] => .ok s
  | s, t :: ts =>
    match handle cfg fuel { s with cdata := false } t with
    | .ok s' => handleAll cfg fuel s' ts
    | r => r

/-- `setup`, Parser.hpp lines 483-517, and the start of `parse`, lines 456-477.  `seen` is
`doctypeIsPresent_`, which `setup` leaves as it was. -/
def start (cfg : Cfg) (S : Schema) (seen : Bool) : St :=
  { schema := S, newElement := none, attributeName := [], doctypeIsPresent := seen, piTarget := [],
    stack := [newElem cfg ((S.getType "<root>".toList).getD nullType)],
    saved := [], pcdata := newElem cfg ((S.getType "<pcdata>".toList).getD nullType),
    entity := 0, virgin := true, cdata := false,
    out := .startDocument :: (if S.uri ≠ [] then [.startPrefix S.prefix' S.uri] else []) }

/-- `parse` with a scanner that makes the given calls and then calls `eof`. -/
def parse (cfg : Cfg) (fuel : Nat) (S : Schema) (seen : Bool) (ts : List Tok) : Out St :=
  match handleAll cfg fuel (start cfg S seen) ts with
  | .ok s => eof cfg fuel s
  | r => r

end Verif.Taggle
