set_option autoImplicit false
/-!
# Declarations of a document type

Modelled: the callbacks for declarations of /repo/include/SAX/wrappers/saxexpat.hpp, with a handler for
everything, and the calls for document types of /repo/include/SAX/filter/Writer.hpp, with no element open (so that
`startElementClose` does nothing). Comments and processing instructions in a document type are left out.
-/
namespace Verif.Dtd

abbrev Str := List Char

/-- The characters of a text. -/
@[irreducible] def kw (s : String) : Str := s.toList

/-- `XML_Content_Type`, saxexpat.hpp lines 734-741. -/
inductive CType where
  | empty | any | mixed | name | choice | seq
  deriving DecidableEq, Repr

/-- `XML_Content_Quant`, saxexpat.hpp lines 742-748. -/
inductive Quant where
  | none | opt | rep | plus
  deriving DecidableEq, Repr

/-- `XML_cp`, saxexpat.hpp lines 767-775; `numchildren` is the length of the list. -/
inductive Content where
  | mk (type : CType) (quant : Quant) (name : Str) (children : List Content)

/-- The last `switch` of `convertXML_Content`, lines 824-837. -/
def quantText : Quant → Str
  | .none => []
  | .opt => ['?']
  | .rep => ['*']
  | .plus => ['+']

/-- `concatenator`, lines 777-804. -/
def concatenator : CType → Char
  | .mixed => '|'
  | .choice => '|'
  | .seq => ','
  | _ => ' '

/-- The first `switch`, lines 779-805. -/
def opening (isChild : Bool) (type : CType) (name : Str) (childless : Bool) : Str :=
  match type with
  | .empty => (kw "EMPTY")
  | .any => (kw "ANY")
  | .mixed => if childless then (kw "(#PCDATA)") else (kw "(#PCDATA")
  | .name => if isChild then name else '(' :: name ++ [')']
  | .choice => []
  | .seq => []

mutual
/-- `convertXML_Content`, saxexpat.hpp lines 730-838. -/
def convert (isChild : Bool) : Content → Str
  | .mk type quant name children =>
    opening isChild type name children.isEmpty ++
    (if children.isEmpty then []
      else (if type ≠ .mixed then ['('] else []) ++ convertAll (concatenator type) children ++ [')']) ++
    quantText quant
/-- Its loop over the children, lines 813-818. -/
def convertAll (c : Char) : List Content → Str
  | [] => []
  | x :: xs => convert true x ++ convertMore c xs
/-- The children after the first, each after the separator, lines 815-818. -/
def convertMore (c : Char) : List Content → Str
  | [] => []
  | x :: xs => c :: convert true x ++ convertMore c xs
end

/-- What a handler is told of a declaration: the calls of `DeclHandler` and `DTDHandler`. -/
inductive Event where
  | elementDecl (name model : Str)
  | attributeDecl (element attr type valueDefault value : Str)
  | internalEntityDecl (name value : Str)
  | externalEntityDecl (name publicId systemId : Str)
  | unparsedEntityDecl (name publicId systemId notation_ : Str)
  | notationDecl (name publicId systemId : Str)
  | startEntity (name : Str)
  | endEntity (name : Str)
  deriving DecidableEq, Repr

/-- `construct_from_utf8` of a pointer that may be null, Arabica/StringAdaptor.hpp lines 118-121. -/
def text (s : Option Str) : Str := s.getD []

/-- `elementDeclaration`, saxexpat.hpp lines 718-728. -/
def elementDeclaration (name : Str) (model : Content) : Event := .elementDecl name (convert false model)

/-- `attListDeclaration`, lines 840-865; the strings of `AttributeDefaults`. -/
def attListDeclaration (element attr type : Str) (dflt : Option Str) (isrequired : Bool) : Event :=
  let defType :=
    if isrequired then (if dflt.isSome then (kw "#FIXED") else (kw "#REQUIRED")) else (kw "#IMPLIED")
  .attributeDecl element attr type defType (text dflt)

/-- `entityDeclaration`, lines 867-911, without the names it keeps for later. -/
def entityDeclaration (name : Str) (isParameter : Bool) (value systemId publicId notationName : Option Str) : Event :=
  if systemId.isNone ∧ publicId.isNone ∧ notationName.isNone then .internalEntityDecl name (text value)
  else match notationName with
    | none => .externalEntityDecl name (text publicId) (text systemId)
    | some n => .unparsedEntityDecl name (text publicId) (text systemId) n

/-- `notationDeclaration`, lines 913-924. -/
def notationDeclaration (name : Str) (systemId publicId : Option Str) : Event :=
  .notationDecl name (text publicId) (text systemId)

/-! ## The writer -/

/-- `indent_`, `depth_`, `inDTD_`, `internalSubset_`, Writer.hpp lines 48-58. -/
structure Writer where
  indent : Nat
  depth : Nat := 0
  inDTD : Bool := false
  internalSubset : Bool := true
  deriving DecidableEq, Repr

/-- `isDtd`, Writer.hpp lines 400-408. -/
def isDtd (name : Str) : Bool := name = (kw "[dtd]")

/-- `doIndent`, lines 393-397. -/
def doIndent (w : Writer) : Str := List.replicate w.depth ' '

/-- A value between double quotes, written as it is: Writer.hpp lines 637-639, 657-659, 713-715, 727-729. -/
def quoted (s : Str) : Str := '"' :: s ++ ['"']

/-- `publicAndSystem`, lines 699-731. -/
def publicAndSystem (publicId systemId : Str) : Str :=
  [' '] ++
  (if publicId ≠ [] then (kw "PUBLIC ") ++ quoted publicId else []) ++
  (if systemId ≠ [] then (if publicId = [] then (kw "SYSTEM") else []) ++ ' ' :: quoted systemId else [])

/-- `startEntityDecl`, lines 683-697. -/
def startEntityDecl (name : Str) : Str := (kw "<!ENTITY ") ++ name

/-- `startDTD`, lines 411-436. -/
def startDTD (w : Writer) (name publicId systemId : Str) : Writer × Str :=
  ({ w with inDTD := true, depth := w.depth + w.indent },
    (kw "<!DOCTYPE ") ++ name ++ publicAndSystem publicId systemId ++ (kw " [\n"))

/-- `endDTD`, lines 439-450. -/
def endDTD (w : Writer) : Writer × Str :=
  ({ w with inDTD := false, depth := w.depth - w.indent }, (kw "]>\n"))

/-- What is written of a declaration where it is written, lines 522-680. -/
def declaration : Event → Str
  | .elementDecl name model => (kw "<!ELEMENT ") ++ name ++ ' ' :: model ++ (kw ">\n")
  | .attributeDecl element attr type valueDefault value =>
    (kw "<!ATTLIST ") ++ element ++ ' ' :: attr ++ ' ' :: type ++
      (if valueDefault ≠ [] then ' ' :: valueDefault else []) ++
      (if value ≠ [] then ' ' :: quoted value else []) ++ (kw ">\n")
  | .internalEntityDecl name value => startEntityDecl name ++ ' ' :: quoted value ++ (kw ">\n")
  | .externalEntityDecl name publicId systemId => startEntityDecl name ++ publicAndSystem publicId systemId ++ (kw ">\n")
  | .unparsedEntityDecl name publicId systemId n =>
    startEntityDecl name ++ publicAndSystem publicId systemId ++ (kw " NDATA ") ++ n ++ (kw ">\n")
  | .notationDecl name publicId systemId => (kw "<!NOTATION ") ++ name ++ publicAndSystem publicId systemId ++ (kw ">\n")
  | .startEntity _ => []
  | .endEntity _ => []

/-- The calls for declarations, lines 522-680, and `startEntity` and `endEntity`, lines 453-470. -/
def write (w : Writer) : Event → Writer × Str
  | .startEntity name => (if isDtd name then { w with internalSubset := false } else w, [])
  | .endEntity name => (if isDtd name then { w with internalSubset := true } else w, [])
  | e => (w, if w.inDTD && w.internalSubset then doIndent w ++ declaration e else [])

/-- Calls one after the other. -/
def writeAll (w : Writer) : List Event → Writer × Str
  | [] => (w, [])
  | e :: es => let (w', s) := write w e; let (w'', s') := writeAll w' es; (w'', s ++ s')

/-- A document type from its start to its end. -/
def writeDtd (w : Writer) (name publicId systemId : Str) (es : List Event) : Writer × Str :=
  let (w1, s1) := startDTD w name publicId systemId
  let (w2, s2) := writeAll w1 es
  let (w3, s3) := endDTD w2
  (w3, s1 ++ s2 ++ s3)

end Verif.Dtd
