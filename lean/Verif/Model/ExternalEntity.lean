set_option autoImplicit false
/-!
# External entities: include/SAX/wrappers/saxexpat.hpp

What expat reports to one reader, over all the documents it reads, is a sequence; of a reference to an external
entity that is read the content stands inside it.  Features and handlers are not changed on the way.  Entities can
be opened and are well formed, so that `do_parse` succeeds.  Not modelled: what else is reported of declarations
(C92); internal and unparsed entities, which are not kept; that system identifiers are passed on as they are
written, relative ones too.
-/
namespace Verif.ExternalEntity

abbrev Str := List Char

/-- What is declared. -/
inductive Kind where
  | general
  | parameter
  /-- The external subset of a document type. -/
  | subset
  deriving DecidableEq, Repr

/-- An external entity as expat has it: `publicId` may be null. -/
structure Ent where
  kind : Kind
  name : Str
  pub : Option Str
  sys : Str
  deriving DecidableEq, Repr

/-- What expat calls, in its order. -/
inductive Evs where
  | done
  /-- `startDoctypeDecl`, with the identifiers of the external subset, if there is one. -/
  | doctype (pub sys : Option Str) (rest : Evs)
  /-- `entityDeclaration` of an external entity, general or parameter. -/
  | declare (e : Ent) (rest : Evs)
  /-- Anything else; characters stand for it. -/
  | characters (s : Str) (rest : Evs)
  /-- `externalEntityRefHandler` with the identifiers of an entity, and what is reported if it is read. -/
  | ref (e : Ent) (content rest : Evs)
  /-- `parse` returns, and is called again. -/
  | nextDocument (rest : Evs)
  deriving Repr

/-- An input source: the identifiers, and the stream a resolver gave it. -/
structure Src where
  pub : Str
  sys : Str
  stream : Option Nat
  deriving DecidableEq, Repr

structure Cfg where
  /-- `externalResolving_`, line 335. -/
  resolving : Bool
  /-- Whether there is a ContentHandler. -/
  content : Bool
  /-- Whether there is a LexicalHandler. -/
  lexical : Bool
  /-- `entityResolver_`. -/
  resolver : Option (Str → Str → Src)

/-- What is reported, and what is parsed. -/
inductive Rep where
  | characters (s : Str)
  | skippedEntity (n : Str)
  | startEntity (n : Str)
  | parse (s : Src)
  | endEntity (n : Str)
  deriving DecidableEq, Repr

/-- `declaredExternalEnts_`, line 342: a `std::map`. -/
abbrev Map := List (Str × Str)

def find (m : Map) (k : Str) : Option Str := (m.find? fun x => x.1 == k).map Prod.snd

/-- `std::map::insert`: a key that is there stays as it is. -/
def insertKey (m : Map) (k v : Str) : Map :=
  match find m k with
  | some _ => m
  | none => m ++ [(k, v)]

/-- `std::map::operator[]`: a key that is not there is added. -/
def index (m : Map) (k : Str) : Map × Str :=
  match find m k with
  | some v => (m, v)
  | none => (m ++ [(k, [])], [])

/-- `construct_from_utf8`, StringAdaptor.hpp lines 118-121: null gives the empty string. -/
def construct (s : Option Str) : Str := s.getD []

def dtd : Str := ['[', 'd', 't', 'd', ']']

/-- `startDoctypeDecl`, lines 927-943. -/
def startDoctypeDecl (c : Cfg) (m : Map) (pub sys : Option Str) : Map :=
  if c.lexical then insertKey (insertKey m (construct pub) dtd) (construct sys) dtd else m

/-- `entityDeclaration` of an external entity, lines 897-905; `is_parameter_entity` is not looked at. -/
def entityDeclaration (m : Map) (e : Ent) : Map := insertKey (insertKey m (construct e.pub) e.name) e.sys e.name

/-- `contentHandler_->..`, if there is one. -/
def toContent (c : Cfg) (r : Rep) : List Rep := if c.content then [r] else []

/-- `lexicalHandler_->..`, if there is one and the name is not empty. -/
def toLexical (c : Cfg) (n : Str) (r : Rep) : List Rep := if !n.isEmpty && c.lexical then [r] else []

/-- The input source of an entity, lines 1009-1024. -/
def source (c : Cfg) (pub sys : Str) : Src :=
  match c.resolver with
  | some f =>
    let s := f pub sys
    if s.pub.isEmpty && s.sys.isEmpty then { s with pub := pub, sys := sys } else s
  | none => ⟨pub, sys, none⟩

/-- What is reported.  `ref` is `externalEntityRefHandler`, lines 980-1037; expat gives a system identifier with
every reference. -/
def run (c : Cfg) : Map → Evs → Map × List Rep
  | m, .done => (m, [])
  | m, .doctype pub sys rest => run c (startDoctypeDecl c m pub sys) rest
  | m, .declare e rest => run c (entityDeclaration m e) rest
  | m, .characters s rest =>
    let (m, r) := run c m rest
    (m, toContent c (.characters s) ++ r)
  | m, .ref e content rest =>
    let (m, n) := index m e.sys
    if !c.resolving then
      let (m, r) := run c m rest
      (m, (if n.isEmpty then [] else toContent c (.skippedEntity n)) ++ r)
    else
      let (m, r1) := run c m content
      let (m, r2) := run c m rest
      (m, toLexical c n (.startEntity n) ++ .parse (source c (construct e.pub) e.sys) :: r1 ++
        toLexical c n (.endEntity n) ++ r2)
  | m, .nextDocument rest => run c m rest

/-- What a new reader reports. -/
def reports (c : Cfg) (evs : Evs) : List Rep := (run c [] evs).2

end Verif.ExternalEntity
