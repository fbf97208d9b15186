import Verif.Model.SaxFilter
import Verif.Model.Names
set_option autoImplicit false
/-!
# include/SAX/wrappers/saxexpat.hpp: from the callbacks of Expat to SAX events

Expat itself is not modelled: a document is the sequence of callbacks.  A content handler, a lexical handler and an
error handler are set, and none of them throws.  Strings are lists of characters, that is, wide strings.  Not
modelled: the callbacks about declarations in the document type, external entities, features, and the locator.
-/
namespace Verif.Expat
open Verif.Sax (Str NsState)
open Verif.SaxFilter (Ev)

/-- The callbacks, lines 573-579, 581-653, 678-702, 711-716, 952-978. -/
inductive Callback where
  | start (qName : Str) (atts : List (Str × Str))
  | stop (qName : Str)
  | characters (text : Str)
  | processingInstruction (target data : Str)
  | comment (text : Str)
  | startCdata
  | endCdata
  | skippedEntity (name : Str)
  deriving DecidableEq, Repr

/-- What the handlers see: an event, or a call of the error handler's `error` or `fatalError`. -/
inductive Call where
  | ev (e : Ev)
  | error
  | fatal
  deriving DecidableEq, Repr

/-- The members that matter here: `namespaces_` and `prefixes_`, lines 333-334, `nsSupport_`, line 325, and
`namespaceContextCreated_`, line 343, with its last element first. -/
structure Reader where
  namespaces : Bool
  prefixes : Bool
  ns : NsState
  created : List Bool
  deriving DecidableEq, Repr

/-- The constructor, lines 348-362. -/
def Reader.init : Reader := ⟨true, true, Sax.nsInit, []⟩

/-- The end of a callback: with calls of the handlers, with a SAXException after some, or undefined. -/
inductive Res where
  | ok (r : Reader) (out : List Call)
  | thrown (out : List Call)
  | ub
  deriving DecidableEq, Repr

/-- `find(':')` and the parts before and after it. -/
def cut : Str → Option (Str × Str)
  | [] => none
  | c :: s => if c = ':' then some ([], s) else (cut s).map fun p => (c :: p.1, p.2)

/-- `XML::QualifiedName` without its prefix. -/
structure QName where
  uri : Str
  localName : Str
  rawName : Str
  deriving DecidableEq, Repr

def isQName (s : Str) : Bool := Names.isQName (s.map fun c => (c.toNat : Int))

/-- `processName`, lines 536-543, with NamespaceSupport's (NamespaceSupport.hpp lines 213-223, XML/QName.hpp lines
64-86): `none` is the exception. -/
def processName (ns : NsState) (q : Str) (isAttribute : Bool) : Option (QName × List Call) :=
  if isQName q then
    match cut q with
    | none => some (⟨if isAttribute then [] else Sax.getURI [] ns, q, q⟩, [])
    | some (p, l) =>
      let u := Sax.getURI p ns
      some (⟨u, l, q⟩, if u.isEmpty && !p.isEmpty then [.error] else [])
  else none

/-- `find(attQName, "xmlns") == 0`. -/
def isDeclaration (q : Str) : Bool := Sax.xmlnsPrefix.isPrefixOf q

/-- The prefix a declaration is for, lines 615-618. -/
def declaredPrefix (q : Str) : Str :=
  match cut q with
  | none => []
  | some (_, l) => l

/-- `attributeTypeT::CDATA`. -/
def cdataType : Str := "CDATA".toList

/-- The first pass over the attributes, lines 598-629: the contexts, whether one was pushed, the attributes and the
calls so far; `none` is undefined. -/
def declarations (prefixes : Bool) : NsState → Bool → List (Str × Str) → Option (NsState × Bool × List Sax.Attr × List Call)
  | ns, pushed, [] => some (ns, pushed, [], [])
  | ns, pushed, (q, v) :: as =>
    if isDeclaration q then
      let ns := if pushed then ns else Sax.pushContext ns
      let p := declaredPrefix q
      match Sax.declarePrefix p v ns with
      | none => none
      | some (legal, ns) =>
        match declarations prefixes ns true as with
        | none => none
        | some (ns, pushed, atts, out) =>
          some (ns, pushed, (if prefixes then [⟨[], [], q, cdataType, v⟩] else []) ++ atts,
            (if legal then [] else [.error]) ++ .ev (.startPrefixMapping p v) :: out)
    else declarations prefixes ns pushed as

/-- The second pass, lines 631-646: the attributes and the calls, and whether it came to the end. -/
def attributes (ns : NsState) : List (Str × Str) → List Sax.Attr × List Call × Bool
  | [] => ([], [], true)
  | (q, v) :: as =>
    if isDeclaration q then attributes ns as
    else
      match processName ns q true with
      | none => ([], [], false)
      | some (n, out) =>
        let (atts, out', fine) := attributes ns as
        (⟨n.uri, n.localName, n.rawName, cdataType, v⟩ :: atts, out ++ out', fine)

/-- `startElement`, lines 581-653. -/
def startElement (r : Reader) (qName : Str) (atts : List (Str × Str)) : Res :=
  if !r.namespaces then
    -- `startElementNoNS`, lines 655-676
    .ok r [.ev (.startElement [] [] qName (atts.map fun a => ⟨[], [], a.1, cdataType, a.2⟩))]
  else
    match declarations r.prefixes r.ns false atts with
    | none => .ub
    | some (ns, pushed, atts1, out1) =>
      let (atts2, out2, fine) := attributes ns atts
      if fine then
        match processName ns qName false with
        | none => .thrown (out1 ++ out2)
        | some (n, out3) =>
          .ok { r with ns := ns, created := pushed :: r.created }
            (out1 ++ out2 ++ out3 ++ [.ev (.startElement n.uri n.localName n.rawName (atts1 ++ atts2))])
      else .thrown (out1 ++ out2)

/-- `endElement`, lines 678-702. -/
def endElement (r : Reader) (qName : Str) : Res :=
  if !r.namespaces then
    -- `endElementNoNS`, lines 704-709
    .ok r [.ev (.endElement [] [] qName)]
  else
    match processName r.ns qName false with
    | none => .thrown []
    | some (n, out) =>
      match Sax.getDeclaredPrefixes r.ns, r.created with
      | some ps, pushed :: created =>
        let out := out ++ .ev (.endElement n.uri n.localName n.rawName) :: ps.map fun p => .ev (.endPrefixMapping p)
        if pushed then
          match Sax.popContext r.ns with
          | none => .ub
          | some ns => .ok { r with ns := ns, created := created } out
        else .ok { r with created := created } out
      | _, _ => .ub

def callback (r : Reader) : Callback → Res
  | .start q as => startElement r q as
  | .stop q => endElement r q
  | .characters t => .ok r [.ev (.characters t)]
  | .processingInstruction t d => .ok r [.ev (.processingInstruction t d)]
  | .comment t => .ok r [.ev (.comment t)]
  | .startCdata => .ok r [.ev .startCDATA]
  | .endCdata => .ok r [.ev .endCDATA]
  | .skippedEntity n => .ok r [.ev (.skippedEntity n)]

/-- A sequence of callbacks. -/
def callbacks : Reader → List Callback → Res
  | r, [] => .ok r []
  | r, c :: cs =>
    match callback r c with
    | .ok r out =>
      match callbacks r cs with
      | .ok r out' => .ok r (out ++ out')
      | .thrown out' => .thrown (out ++ out')
      | .ub => .ub
    | x => x

/-- `parse`, lines 451-477, of a source for which Expat makes these callbacks. -/
def parse (r : Reader) (cs : List Callback) : Res :=
  match callbacks r cs with
  | .ok r out => .ok r (.ev .startDocument :: out ++ [.ev .endDocument])
  | .thrown out => .thrown (.ev .startDocument :: out)
  | .ub => .ub

/-- `parse` of a source for which Expat makes these callbacks and then finds an error, lines 497-502; the error handler
does not throw. -/
def parseBroken (r : Reader) (cs : List Callback) : Res :=
  match callbacks r cs with
  | .ok r out => .ok r (.ev .startDocument :: out ++ [.fatal, .ev .endDocument])
  | .thrown out => .thrown (.ev .startDocument :: out)
  | .ub => .ub

end Verif.Expat
