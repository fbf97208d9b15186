import Verif.Model.Clone
import Verif.Model.SaxFilter
set_option autoImplicit false
/-!
# include/DOM/SAX2DOM/SAX2DOM.hpp: building a DOM from SAX events

The builder works on the store of `Verif.Clone`.  Documents built before stay alive.  Not modelled: default
attributes and ID attributes (`attributeDecl` does nothing here), the error handler, and the second parser that
is run on the value of an internal entity that has markup in it.  `setDTDHandler` is never called, so
`notationDecl` and `unparsedEntityDecl` are not either.
-/
namespace Verif.Sax2Dom
open Verif.Dom (Id Str Kind Err upd)
open Verif.DomNames (NsName plain)
open Verif.Clone (St Chars Out)
open Verif.SaxFilter (Ev)

/-- The data members of the parser, lines 156-173.  A null node is `none`; of `declaredEntities_` the entries
with a null pointer are left out. -/
structure Parser where
  document : Option Id
  documentType : Option Id
  current : Option Id
  cached : Option Id
  inCDATA : Bool
  inDTD : Bool
  inEntity : Int
  declared : List (Str × Id)
  deriving DecidableEq, Repr

/-- The constructor, lines 57-66. -/
def Parser.init : Parser := ⟨none, none, none, none, false, false, 0, []⟩

/-- The end of a handler: `failed` is a DOMException that leaves `parse`'s call of the reader, `unmodelled` is
what this model leaves out. -/
inductive Res where
  | ok (s : St) (b : Parser)
  | failed (e : Err)
  | diverges
  | ub
  | unmodelled

def Res.bind (r : Res) (f : St → Parser → Res) : Res :=
  match r with
  | .ok s b => f s b
  | r => r

/-- A call of the DOM in a handler that catches nothing. -/
def call {α : Type} (o : Out α) (f : St → α → Res) : Res :=
  match o with
  | .ok s a => f s a
  | .err e => .failed e
  | .diverges => .diverges
  | .ub => .ub

/-- `createTextNode`, `createCDATASection`, `createComment` and then `appendChild`: lines 244-246, 353. -/
def addData (s : St) (d p : Id) (k : Kind) (data : Str) : Out Unit :=
  Clone.append (Clone.new s k (some d) (plain []) false data [] true) p s.base.size

/-- `setAttributeNS` of an element: ElementImpl.hpp lines 92-96, AttrMap.hpp lines 107-116, AttrImpl.hpp lines
126-138, NamedNodeMapImpl.hpp lines 137-142. -/
def setAttributeNS (C : Chars) (s : St) (e : Id) (u q v : Str) : Out Unit :=
  if DomNames.checkName C.name q then
    match DomNames.attrNS u q with
    | .error er => .err er
    | .ok r =>
      let a := s.base.size
      let d := s.base.doc e
      (Clone.append (Clone.new (Clone.new s .attr d r true [] [] false) .text d (plain []) false v [] true) a (a + 1)).bind
        fun s _ =>
      let s := { s with owner := upd s.owner a (some e) }
      if s.base.ro e then .err .readOnly
      else .ok (Clone.setNode s e a ((s.attrs e).findIdx? fun b =>
        AttrMap.namespaceAndNameIs r.uri r.localName (s.nm b))) ()
  else .err .invalidChar

/-- The loop over the attributes, lines 206-212. -/
def addAttrs (C : Chars) (e : Id) : St → List Sax.Attr → Out Unit
  | s, [] => .ok s ()
  | s, a :: as =>
    (setAttributeNS C s e a.uri (if a.qName.isEmpty then a.localName else a.qName) a.value).bind fun s _ => addAttrs C e s as

/-- The body of the `try` in `startElement`, lines 202-214. -/
def element (C : Chars) (s : St) (d p : Id) (uri qName : Str) (atts : List Sax.Attr) : Out Id :=
  match DomNames.createElementNS C.name uri qName with
  | .error e => .err e
  | .ok r =>
    let m := s.base.size
    (Clone.append (Clone.new s .element (some d) r true [] [] true) p m).bind fun s _ =>
    (addAttrs C m s atts).bind fun s _ => .ok s m

/-- The loop of `endEntity`, lines 329-332, from the child `c` on. -/
def cloneInto (C : Chars) : Nat → St → Id → Option Id → Out Unit
  | 0, _, _, _ => .diverges
  | _ + 1, s, _, none => .ok s ()
  | fuel + 1, s, p, some c =>
    (Clone.cloneNode C fuel s c true).bind fun s k =>
    (Clone.append s p k).bind fun s _ => cloneInto C fuel s p (s.base.next c)

/-- `declaredEntities_[name]`. -/
def lookup (name : Str) (l : List (Str × Id)) : Option Id := (l.find? fun e => e.1 == name).map (·.2)

/-- `dtd_pseudo_entity`, SAX/ext/LexicalHandler.hpp. -/
def dtdEntity : Str := "[dtd]".toList

/-- `insert` into `declaredEntities_`: an entry that is there stays. -/
def declare (name : Str) (e : Id) (l : List (Str × Id)) : List (Str × Id) :=
  if (lookup name l).isSome then l else l ++ [(name, e)]

/-- The numbers of the calls of `startDTD`, `endDTD`, `internalEntityDecl` and `externalEntityDecl` among the
calls about the document type. -/
def cStartDTD : Nat := 0
def cEndDTD : Nat := 1
def cInternal : Nat := 2
def cExternal : Nat := 3

/-- `startDTD`, lines 289-296. -/
def startDTD (s : St) (b : Parser) (name pub sys : Str) : Res :=
  match b.document with
  | none => .ub
  | some d =>
    let m := s.base.size
    call (Clone.append (Clone.new s .doctype none (plain name) false [] [pub, sys] false) d m) fun s _ =>
    .ok s { b with documentType := some m, inDTD := true }

/-- `endDTD`, lines 298-302. -/
def endDTD (s : St) (b : Parser) : Res :=
  match b.documentType with
  | none => .ub
  | some t => .ok (Clone.setReadOnly s t) { b with inDTD := false }

/-- `internalEntityDecl`, lines 379-422. -/
def internalEntityDecl (s : St) (b : Parser) (name value : Str) : Res :=
  match b.documentType with
  | none => .ok s b
  | some t =>
    let m := s.base.size
    call (Clone.addEntity s t name [[], [], []]) fun s _ =>
    let b := { b with declared := declare name m b.declared }
    if '<' ∈ value then .unmodelled
    else
      match b.document with
      | none => .ub
      | some d => call (addData s d m .text value) fun s _ => .ok s b

/-- `externalEntityDecl`, lines 424-431. -/
def externalEntityDecl (s : St) (b : Parser) (name pub sys : Str) : Res :=
  match b.documentType with
  | none => .ok s b
  | some t =>
    let m := s.base.size
    call (Clone.addEntity s t name [pub, sys, []]) fun s _ => .ok s { b with declared := declare name m b.declared }

/-- The calls about the document type.  Of `elementDecl` and `attributeDecl`, lines 358-377, nothing is seen
here. -/
def dtd (s : St) (b : Parser) (c : Nat) (args : List Str) : Res :=
  if c = cStartDTD then startDTD s b (args.getD 0 []) (args.getD 1 []) (args.getD 2 [])
  else if c = cEndDTD then endDTD s b
  else if c = cInternal then internalEntityDecl s b (args.getD 0 []) (args.getD 1 [])
  else if c = cExternal then externalEntityDecl s b (args.getD 0 []) (args.getD 1 []) (args.getD 2 [])
  else .ok s b

/-- The handlers. -/
def handle (C : Chars) (fuel : Nat) (s : St) (b : Parser) : Ev → Res
  -- lines 187-190
  | .endDocument => .ok s { b with current := none }
  -- lines 192-226
  | .startElement uri _ qName atts =>
    match b.current, b.document with
    | none, _ => .ok s b
    | some p, some d =>
      match element C s d p uri qName atts with
      | .ok s m => .ok s { b with current := some m }
      | .err _ => .ok s { b with current := none, document := none }
      | .diverges => .diverges
      | .ub => .ub
    | some _, none => .ub
  -- lines 228-236
  | .endElement .. =>
    match b.current with
    | none => .ok s b
    | some p => .ok s { b with current := Dom.getParent s.base p }
  -- lines 238-247
  | .characters ch =>
    match b.current, b.document with
    | none, _ => .ok s b
    | some p, some d => call (addData s d p (if b.inCDATA then .cdata else .text) ch) fun s _ => .ok s b
    | some _, none => .ub
  -- lines 249-255
  | .processingInstruction target data =>
    match b.current, b.document with
    | none, _ => .ok s b
    | some p, some d =>
      if DomNames.checkName C.name target && data.all C.char then
        call (Clone.append (Clone.new s .pi (some d) (plain target) false data [] true) p s.base.size) fun s _ => .ok s b
      else .failed .invalidChar
    | some _, none => .ub
  -- lines 257-263
  | .skippedEntity name =>
    match b.current, b.document with
    | none, _ => .ok s b
    | some p, some d =>
      if b.inDTD then .ok s b
      else if DomNames.checkName C.name name then
        call (Clone.createEntityReference C fuel s d name) fun s k => call (Clone.append s p k) fun s _ => .ok s b
      else .failed .invalidChar
    | some _, none => .ub
  -- lines 304-316
  | .startEntity name =>
    match b.current with
    | none => .ok s b
    | some p =>
      let b := { b with inEntity := b.inEntity + 1 }
      if b.inEntity = 1 then
        .ok s { b with cached := some p, current := (lookup name b.declared).filter fun e => (s.base.kids e).isEmpty }
      else .ok s b
  -- lines 318-336
  | .endEntity name =>
    let b := { b with inEntity := b.inEntity - 1 }
    let b := if b.inEntity = 0 then { b with current := b.cached } else b
    if name = dtdEntity then .ok s b
    else
      match (lookup name b.declared).filter fun e => !(s.base.kids e).isEmpty with
      | some e =>
        match b.current with
        | none => .ub
        | some p => call (cloneInto C fuel s p (s.base.kids e).head?) fun s _ => .ok s b
      | none =>
        match b.current, b.document with
        | some p, some d =>
          if DomNames.checkName C.name name then
            call (Clone.createEntityReference C fuel s d name) fun s k => call (Clone.append s p k) fun s _ => .ok s b
          else .failed .invalidChar
        | _, _ => .ub
  -- lines 338-346
  | .startCDATA => .ok s { b with inCDATA := true }
  | .endCDATA => .ok s { b with inCDATA := false }
  -- lines 348-354
  | .comment text =>
    match b.current, b.document with
    | none, _ => .ok s b
    | some p, some d => call (addData s d p .comment text) fun s _ => .ok s b
    | some _, none => .ub
  | .dtd c args => dtd s b c args
  | _ => .ok s b

/-- A stream of events. -/
def handleAll (C : Chars) (fuel : Nat) : St → Parser → List Ev → Res
  | s, b, [] => .ok s b
  | s, b, e :: es => (handle C fuel s b e).bind fun s b => handleAll C fuel s b es

/-- `parse`, lines 97-134, of a source of which the reader gives the events `es`; the reader's events go through
a TextCoalescer.  `parse` is true if the parser has a document at the end. -/
def parse (C : Chars) (fuel : Nat) (s : St) (b : Parser) (es : List Ev) : Res :=
  let d := s.base.size
  let s := Clone.new s .document (some d) (plain []) false [] [] false
  handleAll C fuel s { b with document := some d, current := some d, inCDATA := false, inDTD := false, inEntity := 0 }
    (SaxFilter.run SaxFilter.coalesce [] es).2

end Verif.Sax2Dom
