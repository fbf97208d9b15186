import Verif.Model.AttrMap
set_option autoImplicit false
/-!
# include/DOM/Simple: cloneNode and importNode

The store of `Verif.Dom` together with names and attributes.  Attributes are nodes of the store, with
their text as children.  Default attributes declared by a document type and the set of ID attributes are
left out.
-/
namespace Verif.Clone
open Verif.Dom (Id Str Kind Err upd)
open Verif.DomNames (NsName plain)

/-- The store.  `nm` is the name with its namespace (of processing instructions, entities and the like
only `name` is used), `isNS` says whether an element is an ElementNSImpl or an attribute an AttrNSImpl,
`attrs` is `attributes_` of an element, `owner` is `ownerElement_` and `specified` `specified_` of an
attribute (AttrImpl.hpp lines 201-203), `ids` are the identifiers of entities, notations and document
types, `entities` are the entities of a document type (DocumentTypeImpl.hpp line 153). -/
structure St where
  base : Dom.St
  nm : Id → NsName
  isNS : Id → Bool
  attrs : Id → List Id
  owner : Id → Option Id
  specified : Id → Bool
  ids : Id → List Str
  entities : Id → List Id

/-- The empty store. -/
def empty : St :=
  { base := Dom.empty, nm := fun _ => plain [], isNS := fun _ => false, attrs := fun _ => [],
    owner := fun _ => none, specified := fun _ => false, ids := fun _ => [], entities := fun _ => [] }

/-- How a call ends. -/
inductive Out (α : Type) where
  | ok (s : St) (a : α)
  | err (e : Err)
  | diverges
  | ub

def Out.bind {α β : Type} (x : Out α) (f : St → α → Out β) : Out β :=
  match x with
  | .ok s a => f s a
  | .err e => .err e
  | .diverges => .diverges
  | .ub => .ub

/-- A node fresh from its constructor: NodeImpl.hpp lines 40-51, AttrImpl.hpp lines 26-34,
ElementImpl.hpp lines 28-36. -/
def new (s : St) (k : Kind) (d : Option Id) (r : NsName) (ns : Bool) (data : Str) (ids : List Str)
    (orphan : Bool) : St :=
  let n := s.base.size
  { base := Dom.alloc s.base k d data orphan false, nm := upd s.nm n r, isNS := upd s.isNS n ns,
    attrs := upd s.attrs n [], owner := upd s.owner n none, specified := upd s.specified n true,
    ids := upd s.ids n ids, entities := upd s.entities n [] }

/-- `appendChild` on the store. -/
def append (s : St) (p c : Id) : Out Unit :=
  match Dom.appendChild s.base p c with
  | .ok b _ => .ok { s with base := b } ()
  | .err e _ => .err e
  | .diverges => .diverges
  | .ub => .ub

/-- `AttrImpl::isOrphaned`, AttrImpl.hpp lines 165-171. -/
def isOrphaned (s : St) (a : Id) : Bool :=
  match s.owner a with
  | none => true
  | some _ => s.base.orphan a

/-- `setNode`, NamedNodeMapImpl.hpp lines 190-204, with the position found. -/
def setNode (s : St) (e a : Id) (pos : Option Nat) : St :=
  let s := { s with base := { s.base with orphan := upd s.base.orphan a false } }
  match pos with
  | none => { s with attrs := upd s.attrs e (s.attrs e ++ [a]) }
  | some i =>
    match (s.attrs e)[i]? with
    | none => s
    | some r =>
      { s with attrs := upd s.attrs e ((s.attrs e).set i a),
               base := { s.base with orphan := upd s.base.orphan r true } }

/-- `setAttributeNode` (`ns` false) and `setAttributeNodeNS` (`ns` true), AttrMap.hpp lines 88-91 and
128-142, 38-47, NamedNodeMapImpl.hpp lines 109-114 and 137-142. -/
def setAttr (s : St) (e a : Id) (ns : Bool) : Out Unit :=
  if !isOrphaned s a && s.owner a = some e then .ok s ()
  else if s.base.ro e then .err .readOnly
  else if !isOrphaned s a && s.owner a ≠ some e then .err .inUse
  else
    let s := { s with owner := upd s.owner a (some e),
                      base := { s.base with orphan := upd s.base.orphan a false } }
    if s.base.doc a ≠ s.base.doc e then .err .wrongDoc
    else
      .ok (setNode s e a ((s.attrs e).findIdx? fun b =>
        if ns then AttrMap.namespaceAndNameIs (s.nm a).uri (s.nm a).localName (s.nm b)
        else AttrMap.nameIs (s.nm a).name (s.nm b))) ()

/-- The nodes `setReadOnly` goes through, with fuel for the depth: NodeImpl.hpp lines 189-199. -/
def below (s : St) : Nat → Id → List Id
  | 0, _ => []
  | fuel + 1, n => n :: (s.base.kids n ++ s.attrs n).flatMap (below s fuel)

/-- `setReadOnly`, NodeImpl.hpp lines 189-199. -/
def setReadOnly (s : St) (n : Id) : St :=
  let l := below s (s.base.size + 1) n
  { s with base := { s.base with ro := fun m => if m ∈ l then true else s.base.ro m } }

/-- `orphaned`, DocumentImpl.hpp lines 475-482. -/
def setOrphan (s : St) (n : Id) : St := { s with base := { s.base with orphan := upd s.base.orphan n true } }

/-- Which characters names and data may have: `is_name_char` and `is_char`. -/
structure Chars where
  name : Char → Bool
  char : Char → Bool

/-- `cloneNode`, or `importNode` called on a document. -/
inductive Mode where
  | clone
  | into (d : Id)
deriving DecidableEq, Repr

/-- The document that gets the copy. -/
def target (s : St) (n : Id) : Mode → Option Id
  | .clone => s.base.doc n
  | .into d => some d

def isClone : Mode → Bool
  | .clone => true
  | .into _ => false

/-- The name of the copy of an element or attribute, and whether it is of the namespace aware class.
`cloneNode`: ElementImpl.hpp line 150, ElementNSImpl.hpp line 55, AttrImpl.hpp line 110, AttrNSImpl.hpp
line 62.  `importNode`: DocumentImpl.hpp lines 246-249 and 262-265. -/
def remake (C : Chars) (s : St) (n : Id) (mode : Mode) (isAttr : Bool) : Except Err (NsName × Bool) :=
  match mode with
  | .clone =>
    if s.isNS n then
      ((if isAttr then DomNames.createAttributeNS C.name (s.nm n).uri (s.nm n).name
        else DomNames.createElementNS C.name (s.nm n).uri (s.nm n).name)).map (·, true)
    else (DomNames.createElement C.name (s.nm n).name).map (·, false)
  | .into _ =>
    if (s.nm n).localName = [] then .ok (plain (s.nm n).name, false)
    else
      ((if isAttr then DomNames.attrNS (s.nm n).uri (s.nm n).name
        else DomNames.elementNS (s.nm n).uri (s.nm n).name)).map (·, true)

/-- The new node, before it gets attributes and children.  `importNode`: DocumentImpl.hpp lines 241-317.
`cloneNode`: lines 148-153 of ElementImpl.hpp, 53-58 of ElementNSImpl.hpp, 108-114 of AttrImpl.hpp, 60-66
of AttrNSImpl.hpp, 52-55 of TextImpl.hpp, 49-52 of CDATASectionImpl.hpp, 32-35 of CommentImpl.hpp, 64-67
of ProcessingInstructionImpl.hpp, 34-41 of DocumentFragmentImpl.hpp, 54-62 of EntityImpl.hpp, 51-56 of
NotationImpl.hpp, 107-111 of DocumentTypeImpl.hpp.  Entity references and documents are treated apart. -/
def make (C : Chars) (mode : Mode) (s : St) (n : Id) : Out Id :=
  let m := s.base.size
  let d := target s n mode
  match s.base.kind n with
  | .element =>
    match remake C s n mode false with
    | .error e => .err e
    | .ok (r, ns) => .ok (new s .element d r ns [] [] true) m
  | .attr =>
    match remake C s n mode true with
    | .error e => .err e
    | .ok (r, ns) => .ok (new s .attr d r ns [] [] true) m
  | .pi =>
    if isClone mode && !(DomNames.checkName C.name (s.nm n).name && (s.base.data n).all C.char) then
      .err .invalidChar
    else .ok (new s .pi d (plain (s.nm n).name) false (s.base.data n) [] true) m
  | .text => .ok (new s .text d (plain []) false (s.base.data n) [] true) m
  | .cdata => .ok (new s .cdata d (plain []) false (s.base.data n) [] true) m
  | .comment => .ok (new s .comment d (plain []) false (s.base.data n) [] true) m
  | .fragment => .ok (new s .fragment d (plain []) false [] [] true) m
  | .entity => .ok (new s .entity d (plain (s.nm n).name) false [] (s.ids n) false) m
  | .notation => .ok (new s .notation d (plain (s.nm n).name) false [] (s.ids n) true) m
  | .doctype =>
    if isClone mode then .ok (new s .doctype none (plain (s.nm n).name) false [] (s.ids n) false) m
    else .err .notSupported
  | .document => if isClone mode then .ub else .err .notSupported
  | .entityRef => .ub

/-- The entity of a name: `documentType_->getEntities()->getNamedItem(name)`, DocumentImpl.hpp lines
221-223. -/
def findEntity (s : St) (d : Id) (name : Str) : Option Id :=
  match s.base.dtype d with
  | none => none
  | some t => (s.entities t).find? fun e => (s.nm e).name == name

/-- What is done to the new node at the end: `setSpecified`, AttrImpl.hpp line 112 and AttrNSImpl.hpp
line 64; `setReadOnly` of an imported entity and `orphaned`, DocumentImpl.hpp lines 329-331, EntityImpl.hpp
line 60. -/
def finish (mode : Mode) (s : St) (n m : Id) : St :=
  match s.base.kind n with
  | .attr => if isClone mode then { s with specified := upd s.specified m (s.specified n) } else s
  | .entity => setOrphan (if isClone mode then s else setReadOnly s m) m
  | _ => s

mutual

/-- `cloneNode(deep)` and `importNode(n, deep)` for nodes that are no documents.  For attributes `deep` is
always on. -/
def copyNode (C : Chars) : Nat → Mode → St → Id → Bool → Out Id
  | 0, _, _, _, _ => .diverges
  | fuel + 1, mode, s, n, deep =>
    if s.base.kind n = .entityRef then
      match target s n mode with
      | none => .ub
      | some d =>
        if isClone mode && !DomNames.checkName C.name (s.nm n).name then .err .invalidChar
        else createEntityReference C fuel s d (s.nm n).name
    else
      (make C mode s n).bind fun s m =>
      (if s.base.kind n = .element then copyAttrs C fuel mode s n m 0 else .ok s ()).bind fun s _ =>
      (if deep || s.base.kind n = .attr then copyKids C fuel mode s m (s.base.kids n).head?
        else .ok s ()).bind fun s _ =>
      .ok (finish mode s n m) m

/-- The loop over the attributes from index `i` on: ElementImpl.hpp lines 175-186, DocumentImpl.hpp lines
267-280. -/
def copyAttrs (C : Chars) : Nat → Mode → St → Id → Id → Nat → Out Unit
  | 0, _, _, _, _, _ => .diverges
  | fuel + 1, mode, s, n, m, i =>
    match (s.attrs n)[i]? with
    | none => .ok s ()
    | some a =>
      if s.specified a then
        (copyNode C fuel mode s a true).bind fun s b =>
        (setAttr s m b ((s.nm a).localName ≠ [])).bind fun s _ =>
        copyAttrs C fuel mode s n m (i + 1)
      else copyAttrs C fuel mode s n m (i + 1)

/-- The loop over the children from `c` on: ElementImpl.hpp lines 188-190, AttrImpl.hpp lines 174-178,
DocumentFragmentImpl.hpp lines 37-39, EntityImpl.hpp lines 57-59, DocumentImpl.hpp lines 224-225 and
323-327. -/
def copyKids (C : Chars) : Nat → Mode → St → Id → Option Id → Out Unit
  | 0, _, _, _, _ => .diverges
  | _ + 1, _, s, _, none => .ok s ()
  | fuel + 1, mode, s, m, some c =>
    (copyNode C fuel mode s c true).bind fun s k =>
    (append s m k).bind fun s _ =>
    copyKids C fuel mode s m (s.base.next c)

/-- `createEntityReference_nocheck`, DocumentImpl.hpp lines 218-230. -/
def createEntityReference (C : Chars) : Nat → St → Id → Str → Out Id
  | 0, _, _, _ => .diverges
  | fuel + 1, s, d, name =>
    let m := s.base.size
    let e := findEntity s d name
    let s := new s .entityRef (some d) (plain name) false [] [] false
    (match e with
      | none => (.ok s () : Out Unit)
      | some e => copyKids C fuel (.into d) s m (s.base.kids e).head?).bind fun s _ =>
    .ok (setReadOnly (setOrphan s m) m) m

end

/-- The loop of `DocumentImpl::cloneNode`, DocumentImpl.hpp lines 459-462. -/
def cloneDocKids (C : Chars) : Nat → St → Id → Id → Option Id → Out Unit
  | 0, _, _, _, _ => .diverges
  | _ + 1, s, _, _, none => .ok s ()
  | fuel + 1, s, n, m, some c =>
    (if s.base.dtype n ≠ some c ∧ s.base.root m ≠ some c then
      (copyNode C fuel (.into m) s c true).bind fun s k => append s m k
      else .ok s ()).bind fun s _ =>
    cloneDocKids C fuel s n m (s.base.next c)

/-- `DocumentImpl::cloneNode`, DocumentImpl.hpp lines 449-465.  The clone of the document type gets its
owner document by `setOwnerDoc`. -/
def cloneDocument (C : Chars) (fuel : Nat) (s : St) (n : Id) (deep : Bool) : Out Id :=
  let m := s.base.size
  let s := new s .document (some m) (plain []) false [] [] false
  (match s.base.dtype n with
    | none => (.ok s () : Out Unit)
    | some t =>
      let d := s.base.size
      let s := new s .doctype (some m) (plain (s.nm t).name) false [] (s.ids t) false
      append s m d).bind fun s _ =>
  (if deep then cloneDocKids C fuel s n m (s.base.kids n).head? else .ok s ()).bind fun s _ =>
  .ok s m

/-- `cloneNode(deep)`. -/
def cloneNode (C : Chars) (fuel : Nat) (s : St) (n : Id) (deep : Bool) : Out Id :=
  if s.base.kind n = .document then cloneDocument C fuel s n deep else copyNode C fuel .clone s n deep

/-- `importNode(n, deep)` called on the document `d`. -/
def importNode (C : Chars) (fuel : Nat) (s : St) (d n : Id) (deep : Bool) : Out Id :=
  copyNode C fuel (.into d) s n deep

/-- The calls of `Verif.Dom` that make or change no named node and delete nothing. -/
def plainOp : Dom.Op → Bool
  | .newDocument | .insertBefore .. | .replaceChild .. | .removeChild .. | .charEdit .. | .splitText .. |
    .normalize .. => true
  | .create _ k _ => k = .text || k = .cdata || k = .comment || k = .fragment
  | _ => false

/-- The other calls. -/
inductive Op where
  | createDocumentType (name : Str) (ids : List Str)
  | createElement (d : Id) (n : Str)
  | createElementNS (d : Id) (u q : Str)
  | createAttribute (d : Id) (n : Str)
  | createAttributeNS (d : Id) (u q : Str)
  | createPI (d : Id) (target data : Str)
  | setPIData (n : Id) (data : Str)
  | createEntityReference (d : Id) (name : Str)
  | setAttributeNode (e a : Id)
  | setAttributeNodeNS (e a : Id)
  | removeAttributeNode (e a : Id)
  | addEntity (t : Id) (name : Str) (ids : List Str)
  | cloneNode (n : Id) (deep : Bool)
  | importNode (d n : Id) (deep : Bool)

def isKind (s : St) (n : Id) (k : Kind) : Bool := decide (n < s.base.size) && decide (s.base.kind n = k)

/-- A node with a name made by a check or not. -/
def created (s : St) (k : Kind) (d : Id) (ns : Bool) : Except Err NsName → Out Unit
  | .error e => .err e
  | .ok r => .ok (new s k (some d) r ns [] [] true) ()

def Out.unit {α : Type} (x : Out α) : Out Unit := x.bind fun s _ => .ok s ()

/-- `removeAttributeNode`, AttrMap.hpp lines 93-99 with NamedNodeMapImpl.hpp lines 116-120 and 206-214. -/
def removeAttr (s : St) (e a : Id) : Out Unit :=
  if s.owner a ≠ some e then .err .notFound
  else if s.base.ro e then .err .readOnly
  else
    match (s.attrs e).findIdx? fun b => AttrMap.nameIs (s.nm a).name (s.nm b) with
    | none => .err .notFound
    | some i =>
      match (s.attrs e)[i]? with
      | none => .ub
      | some b => .ok (setOrphan { s with attrs := upd s.attrs e ((s.attrs e).eraseIdx i) } b) ()

/-- `addEntity` of a document type in a document, DocumentTypeImpl.hpp lines 133-139, with
NamedNodeMapImpl.hpp lines 109-114 and 190-204; the entity is new. -/
def addEntity (s : St) (t : Id) (name : Str) (ids : List Str) : Out Unit :=
  match s.base.doc t with
  | none => .ub
  | some d =>
    let m := s.base.size
    let s := new s .entity (some d) (plain name) false [] ids false
    match (s.entities t).findIdx? fun e => (s.nm e).name == name with
    | none => .ok { s with entities := upd s.entities t (s.entities t ++ [m]) } ()
    | some i =>
      match (s.entities t)[i]? with
      | none => .ub
      | some r => .ok (setOrphan { s with entities := upd s.entities t ((s.entities t).set i m) } r) ()

/-- One of the other calls.  A document type is fresh from `createDocumentType`, DOMImplementation.hpp lines
57-64; documents are cloned apart; `setPIData` is `setData` of a processing instruction, ProcessingInstructionImpl.hpp lines 38-42. -/
def step (C : Chars) (fuel : Nat) (s : St) : Op → Out Unit
  | .createDocumentType name ids =>
    let m := s.base.size
    let s := new s .doctype none (plain name) false [] ids false
    .ok { s with base := { s.base with ro := upd s.base.ro m true } } ()
  | .createElement d n =>
    if isKind s d .document then created s .element d false (DomNames.createElement C.name n) else .ub
  | .createElementNS d u q =>
    if isKind s d .document then created s .element d true (DomNames.createElementNS C.name u q) else .ub
  | .createAttribute d n =>
    if isKind s d .document then created s .attr d false (DomNames.createElement C.name n) else .ub
  | .createAttributeNS d u q =>
    if isKind s d .document then created s .attr d true (DomNames.createAttributeNS C.name u q) else .ub
  | .createPI d target data =>
    if isKind s d .document then
      if DomNames.checkName C.name target && data.all C.char then
        .ok (new s .pi (some d) (plain target) false data [] true) ()
      else .err .invalidChar
    else .ub
  | .setPIData n data =>
    if isKind s n .pi then
      if s.base.ro n then .err .readOnly
      else .ok { s with base := { s.base with data := upd s.base.data n data } } ()
    else .ub
  | .createEntityReference d name =>
    if isKind s d .document then
      if DomNames.checkName C.name name then (createEntityReference C fuel s d name).unit else .err .invalidChar
    else .ub
  | .setAttributeNode e a => if isKind s e .element && isKind s a .attr then setAttr s e a false else .ub
  | .setAttributeNodeNS e a => if isKind s e .element && isKind s a .attr then setAttr s e a true else .ub
  | .removeAttributeNode e a => if isKind s e .element && isKind s a .attr then removeAttr s e a else .ub
  | .addEntity t name ids => if isKind s t .doctype then addEntity s t name ids else .ub
  | .cloneNode n deep => if n < s.base.size ∧ s.base.kind n ≠ .document then (cloneNode C fuel s n deep).unit else .ub
  | .importNode d n deep =>
    if isKind s d .document && decide (n < s.base.size) then (importNode C fuel s d n deep).unit else .ub

end Verif.Clone
