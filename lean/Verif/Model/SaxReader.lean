import Verif.Model.Sax
set_option autoImplicit false
/-!
# include/SAX/XMLReader.hpp, SAX/helpers/XMLFilterImpl.hpp, SAX/wrappers/saxexpat.hpp: readers and filters

Readers are numbered: those that parse (`expat_wrapper`) and those that are filters (`XMLFilterImpl` and the classes
derived from it).  Handlers are the program's own, a filter's `defaultHandler_`, or filters.  A program is what each
of its handlers does when called: it may set handlers of readers, and throw.  Expat is not modelled: what a reader
reports for the content of a source is any list of calls, and whether the calls are made does not depend on what
handlers do.  A class derived from `XMLFilterImpl` is a function from the calls it has had and the next call to those it makes of the
methods it overrides; it does not override `resolveEntity` (no filter in include/SAX/filter does).  What an input
source has besides its two identifiers is not modelled, nor the locator, whose calls go to the reader.
-/
namespace Verif.SaxReader
open Verif.Sax (Str Attr)

/-- The six interfaces, XMLReader.hpp lines 182-281. -/
inductive Channel where
  | entity | dtd | content | error | decl | lexical
  deriving DecidableEq, Repr

/-- The calls of the handlers, XMLFilterImpl.hpp lines 230-536. -/
inductive Call where
  | resolveEntity (publicId systemId : Str)
  | notationDecl (name publicId systemId : Str)
  | unparsedEntityDecl (name publicId systemId notationName : Str)
  | setDocumentLocator
  | startDocument
  | endDocument
  | startPrefixMapping (prefix' uri : Str)
  | endPrefixMapping (prefix' : Str)
  | startElement (uri localName qName : Str) (atts : List Attr)
  | endElement (uri localName qName : Str)
  | characters (ch : Str)
  | ignorableWhitespace (ch : Str)
  | processingInstruction (target data : Str)
  | skippedEntity (name : Str)
  | warning (message : Str)
  | error (message : Str)
  | fatalError (message : Str)
  | elementDecl (name model : Str)
  | attributeDecl (elementName attributeName type valueDefault value : Str)
  | internalEntityDecl (name value : Str)
  | externalEntityDecl (name publicId systemId : Str)
  | startDTD (name publicId systemId : Str)
  | endDTD
  | startEntity (name : Str)
  | endEntity (name : Str)
  | startCDATA
  | endCDATA
  | comment (text : Str)
  deriving DecidableEq, Repr

/-- The interface a call belongs to, and so the handler XMLFilterImpl.hpp lines 230-536 hands it on to. -/
def Call.channel : Call → Channel
  | .resolveEntity .. => .entity
  | .notationDecl .. => .dtd
  | .unparsedEntityDecl .. => .dtd
  | .setDocumentLocator => .content
  | .startDocument => .content
  | .endDocument => .content
  | .startPrefixMapping .. => .content
  | .endPrefixMapping .. => .content
  | .startElement .. => .content
  | .endElement .. => .content
  | .characters .. => .content
  | .ignorableWhitespace .. => .content
  | .processingInstruction .. => .content
  | .skippedEntity .. => .content
  | .warning .. => .error
  | .error .. => .error
  | .fatalError .. => .error
  | .elementDecl .. => .decl
  | .attributeDecl .. => .decl
  | .internalEntityDecl .. => .decl
  | .externalEntityDecl .. => .decl
  | .startDTD .. => .lexical
  | .endDTD => .lexical
  | .startEntity .. => .lexical
  | .endEntity .. => .lexical
  | .startCDATA => .lexical
  | .endCDATA => .lexical
  | .comment .. => .lexical

/-- What a pointer to a handler points to: the program's handler `h`, the `defaultHandler_` of filter `f`, or filter
`f`. -/
inductive Handler where
  | user (h : Nat)
  | default (f : Nat)
  | filter (f : Nat)
  deriving DecidableEq, Repr

/-- What a pointer to a reader points to. -/
inductive Reader where
  | parser (p : Nat)
  | filter (f : Nat)
  deriving DecidableEq, Repr

/-- `XMLFilterImpl`, lines 563-571, with the class derived from it: given the calls there have been and the next,
`makes` are the calls it makes of the methods it overrides; `seen` are the calls there have been. -/
structure Filter where
  parent : Option Reader
  slots : Channel → Handler
  makes : List Call → Call → List Call
  seen : List Call

/-- `expat_wrapper`, saxexpat.hpp lines 319-324 and 330-335. -/
structure Parser where
  slots : Channel → Option Handler
  parsing : Bool
  namespaces : Bool
  prefixes : Bool
  external : Bool

/-- The objects, the calls the program's handlers have had, and the answers to `resolveEntity`. -/
structure World where
  filters : Nat → Filter
  parsers : Nat → Parser
  log : List (Nat × Call)
  answers : List (Str × Str)

/-- A call of `setEntityResolver`, `setDTDHandler` and so on. -/
structure Set where
  reader : Reader
  channel : Channel
  handler : Handler
  deriving DecidableEq, Repr

/-- The program: what handler `h` does when called, given all the calls the program has had, and what its
`resolveEntity` answers. -/
structure Program where
  reacts : List (Nat × Call) → Nat → Call → List Set
  throws : List (Nat × Call) → Nat → Call → Bool
  answer : Nat → Str → Str → Str × Str

/-- The constructor, lines 63-71, and `setDefaults`, lines 539-547. -/
def Filter.init (f : Nat) (parent : Option Reader) (makes : List Call → Call → List Call) : Filter :=
  ⟨parent, fun _ => .default f, makes, []⟩

/-- saxexpat.hpp lines 348-362. -/
def Parser.init : Parser := ⟨fun _ => none, false, true, true, false⟩

def World.setFilter (w : World) (f : Nat) (F : Filter) : World :=
  { w with filters := fun g => if g = f then F else w.filters g }

def World.setParser (w : World) (p : Nat) (P : Parser) : World :=
  { w with parsers := fun q => if q = p then P else w.parsers q }

/-- `setParent`, line 90. -/
def World.setParent (w : World) (f : Nat) (r : Reader) : World :=
  w.setFilter f { w.filters f with parent := some r }

/-- The setters, XMLFilterImpl.hpp lines 150-203 and saxexpat.hpp lines 240-250. -/
def World.set (w : World) (s : Set) : World :=
  match s.reader with
  | .filter f =>
    let F := w.filters f
    w.setFilter f { F with slots := fun c => if c = s.channel then s.handler else F.slots c }
  | .parser p =>
    let P := w.parsers p
    w.setParser p { P with slots := fun c => if c = s.channel then some s.handler else P.slots c }

/-- Calls of setters one after the other. -/
def World.sets (w : World) : List Set → World
  | [] => w
  | s :: ss => (w.set s).sets ss

/-- How a call ends: it returns, an exception leaves it, a null pointer is dereferenced, or it calls itself on and
on. -/
inductive Out where
  | ok (w : World)
  | thrown (w : World)
  | null
  | stuck

def Out.bind (o : Out) (k : World → Out) : Out :=
  match o with
  | .ok w => k w
  | .thrown w => .thrown w
  | .null => .null
  | .stuck => .stuck

/-- Calls one after the other. -/
def each (call : World → Call → Out) : World → List Call → Out
  | w, [] => .ok w
  | w, c :: cs => (call w c).bind fun w => each call w cs

/-- The calls a filter makes when called: those of the class derived from it. -/
def Filter.calls (F : Filter) (c : Call) : List Call :=
  match c with
  | .resolveEntity _ _ => [c]
  | _ => F.makes F.seen c

/-- The program's handler `h` is called. -/
def World.user (w : World) (pr : Program) (h : Nat) (c : Call) : Out :=
  let w1 : World := { w with
    log := w.log ++ [(h, c)],
    answers := match c with
      | .resolveEntity p s => w.answers ++ [pr.answer h p s]
      | _ => w.answers }
  let w2 := w1.sets (pr.reacts w.log h c)
  if pr.throws w.log h c then .thrown w2 else .ok w2

/-- A `DefaultHandler` is called: DefaultHandler.hpp lines 74-600. -/
def World.byDefault (w : World) (c : Call) : Out :=
  match c with
  | .fatalError _ => .thrown w
  | .resolveEntity _ _ => .ok { w with answers := w.answers ++ [([], [])] }
  | _ => .ok w

/-- Filter `f` has been called. -/
def World.push (w : World) (f : Nat) (c : Call) : World :=
  w.setFilter f { w.filters f with seen := (w.filters f).seen ++ [c] }

/-- A handler is called; `depth` bounds how deep filters call filters.  XMLFilterImpl.hpp lines 230-536: each method
hands the call on to the handler of its interface. -/
def deliver (pr : Program) : Nat → World → Handler → Call → Out
  | _, w, .user h, c => w.user pr h c
  | _, w, .default _, c => w.byDefault c
  | 0, _, .filter _, _ => .stuck
  | n + 1, w, .filter f, c =>
    each (fun w o => deliver pr n w ((w.filters f).slots o.channel) o) (w.push f c) ((w.filters f).calls c)

/-- A parser makes a call, if there is a handler: saxexpat.hpp lines 459-472, 548-559, 576-1032. -/
def report (pr : Program) (depth : Nat) (p : Nat) (w : World) (c : Call) : Out :=
  match (w.parsers p).slots c.channel with
  | none => .ok w
  | some h => deliver pr depth w h c

/-- `parsing_` is set. -/
def World.parsing (w : World) (p : Nat) (b : Bool) : World :=
  w.setParser p { w.parsers p with parsing := b }

/-- `expat_wrapper::parse`, saxexpat.hpp lines 451-477, of a source for whose content `body` is reported. -/
def parseParser (pr : Program) (depth : Nat) (w : World) (p : Nat) (body : List Call) : Out :=
  (report pr depth p w .setDocumentLocator).bind fun w =>
  (report pr depth p (w.parsing p true) .startDocument).bind fun w =>
  (each (report pr depth p) w body).bind fun w =>
  (report pr depth p w .endDocument).bind fun w =>
  .ok (w.parsing p false)

/-- The order of `setupParse`, lines 551-556. -/
def channels : List Channel := [.entity, .dtd, .content, .error, .decl, .lexical]

/-- `setupParse`, lines 549-557. -/
def World.setup (w : World) (f : Nat) (r : Reader) : World :=
  w.sets (channels.map fun c => ⟨r, c, .filter f⟩)

/-- `parse`, lines 212-216. -/
def parse (pr : Program) (depth : Nat) : Nat → World → Reader → List Call → Out
  | _, w, .parser p, body => parseParser pr depth w p body
  | 0, _, .filter _, _ => .stuck
  | n + 1, w, .filter f, body =>
    match (w.filters f).parent with
    | none => .null
    | some r => parse pr depth n (w.setup f r) r body

/-- `TextOnly`, SAX/filter/TextOnly.hpp lines 34-60: the methods it overrides do nothing. -/
def textOnly : List Call → Call → List Call
  | _, .startElement .. => []
  | _, .endElement .. => []
  | _, .processingInstruction .. => []
  | _, .skippedEntity .. => []
  | _, .startDTD .. => []
  | _, .endDTD => []
  | _, .startEntity .. => []
  | _, .endEntity .. => []
  | _, .startCDATA => []
  | _, .endCDATA => []
  | _, .comment .. => []
  | _, .notationDecl .. => []
  | _, .unparsedEntityDecl .. => []
  | _, .elementDecl .. => []
  | _, .attributeDecl .. => []
  | _, .internalEntityDecl .. => []
  | _, .externalEntityDecl .. => []
  | _, c => [c]

/-! ## Features -/

/-- The names of features, SAX/helpers/FeatureNames.hpp; `other` is any name that is not one of these. -/
inductive Feature where
  | namespaces | namespacePrefixes | externalGeneral | externalParameter | validation | other
  deriving DecidableEq, Repr

/-- How a call about a feature ends. -/
inductive Told (α : Type) where
  | ok (a : α)
  | notSupported
  | notRecognized
  | stuck

/-- `expat_wrapper::setFeature`, saxexpat.hpp lines 389-430, with `checkNotParsing`, lines 562-571. -/
def Parser.setFeature (P : Parser) (n : Feature) (v : Bool) : Told Parser :=
  match n with
  | .namespaces =>
    if P.parsing then .notSupported
    else .ok { P with namespaces := v, prefixes := if !v && !P.prefixes then true else P.prefixes }
  | .namespacePrefixes =>
    if P.parsing then .notSupported
    else .ok { P with prefixes := v, namespaces := if v && !P.namespaces then true else P.namespaces }
  | .externalGeneral => if P.parsing then .notSupported else .ok { P with external := v }
  | .externalParameter => if P.parsing then .notSupported else .ok { P with external := v }
  | .validation => .notSupported
  | .other => .notRecognized

/-- `expat_wrapper::getFeature`, saxexpat.hpp lines 433-449. -/
def Parser.getFeature (P : Parser) (n : Feature) : Told Bool :=
  match n with
  | .namespaces => .ok P.namespaces
  | .namespacePrefixes => .ok P.prefixes
  | .externalGeneral => .ok P.external
  | .externalParameter => .ok P.external
  | .validation => .ok false
  | .other => .notRecognized

/-- `setFeature` of a reader; of a filter, XMLFilterImpl.hpp lines 115-121. -/
def setFeature : Nat → World → Reader → Feature → Bool → Told World
  | _, w, .parser p, n, v =>
    match (w.parsers p).setFeature n v with
    | .ok P => .ok (w.setParser p P)
    | .notSupported => .notSupported
    | .notRecognized => .notRecognized
    | .stuck => .stuck
  | 0, _, .filter _, _, _ => .stuck
  | d + 1, w, .filter f, n, v =>
    match (w.filters f).parent with
    | none => .notRecognized
    | some r => setFeature d w r n v

/-- `getFeature` of a reader; of a filter, XMLFilterImpl.hpp lines 136-142. -/
def getFeature : Nat → World → Reader → Feature → Told Bool
  | _, w, .parser p, n => (w.parsers p).getFeature n
  | 0, _, .filter _, _ => .stuck
  | d + 1, w, .filter f, n =>
    match (w.filters f).parent with
    | none => .notRecognized
    | some r => getFeature d w r n

end Verif.SaxReader
