import Verif.Model.Dtd
set_option autoImplicit false
/-!
# Declarations: XML 1.0, and what SAX says of them
-/
namespace Verif.Spec.Dtd
open Verif.Dtd (Quant CType Content Event kw)

abbrev Str := List Char

/-! ## Content models: productions 46 to 51 of XML 1.0, with all white space removed -/

/-- A name, as far as it matters here: none of the characters that mean something in a content model or a
declaration. -/
def Name (n : Str) : Prop :=
  n ≠ [] ∧ ∀ c ∈ n, c ∉ ['(', ')', ',', '|', '?', '*', '+', '#', ' ', '\n', '\t', '\r', '"', '>', '[']

inductive Particle where
  | name (n : Str) (q : Quant)
  | choice (ps : List Particle) (q : Quant)
  | seq (ps : List Particle) (q : Quant)

inductive Model where
  | empty
  | any
  | mixed (names : List Str) (star : Bool)
  | children (p : Particle)

def occurs : Quant → Str
  | .none => []
  | .opt => ['?']
  | .rep => ['*']
  | .plus => ['+']

/-- Texts with a character between each two. -/
def joined (c : Char) : List Str → Str
  | [] => []
  | [s] => s
  | s :: ss => s ++ c :: joined c ss

mutual
inductive Cp : Particle → Str → Prop
  | name (n : Str) (q : Quant) : Name n → Cp (.name n q) (n ++ occurs q)
  | choice (ps : List Particle) (q : Quant) (ss : List Str) : 2 ≤ ps.length → Cps ps ss →
      Cp (.choice ps q) (['('] ++ joined '|' ss ++ [')'] ++ occurs q)
  | seq (ps : List Particle) (q : Quant) (ss : List Str) : 1 ≤ ps.length → Cps ps ss →
      Cp (.seq ps q) (['('] ++ joined ',' ss ++ [')'] ++ occurs q)
inductive Cps : List Particle → List Str → Prop
  | nil : Cps [] []
  | cons (p : Particle) (ps : List Particle) (s : Str) (ss : List Str) : Cp p s → Cps ps ss → Cps (p :: ps) (s :: ss)
end

inductive Derives : Model → Str → Prop
  | empty : Derives .empty (kw "EMPTY")
  | any : Derives .any (kw "ANY")
  | pcdata : Derives (.mixed [] false) (kw "(#PCDATA)")
  | pcdataStar : Derives (.mixed [] true) (kw "(#PCDATA)*")
  | mixed (n : Str) (ns : List Str) : (∀ x ∈ n :: ns, Name x) →
      Derives (.mixed (n :: ns) true) ((kw "(#PCDATA|") ++ joined '|' (n :: ns) ++ (kw ")*"))
  | choice (ps : List Particle) (q : Quant) (s : Str) : Cp (.choice ps q) s → Derives (.children (.choice ps q)) s
  | seq (ps : List Particle) (q : Quant) (s : Str) : Cp (.seq ps q) s → Derives (.children (.seq ps q)) s

/-- A model that is one: names are names, a choice is between two particles or more, a sequence is not empty. -/
inductive Particle.Fine : Particle → Prop
  | name (n : Str) (q : Quant) : Name n → Particle.Fine (.name n q)
  | choice (ps : List Particle) (q : Quant) : 2 ≤ ps.length → (∀ p ∈ ps, Particle.Fine p) → Particle.Fine (.choice ps q)
  | seq (ps : List Particle) (q : Quant) : 1 ≤ ps.length → (∀ p ∈ ps, Particle.Fine p) → Particle.Fine (.seq ps q)

inductive Model.Fine : Model → Prop
  | empty : Model.Fine .empty
  | any : Model.Fine .any
  | pcdata (star : Bool) : Model.Fine (.mixed [] star)
  | choice (ps : List Particle) (q : Quant) : Particle.Fine (.choice ps q) → Model.Fine (.children (.choice ps q))
  | seq (ps : List Particle) (q : Quant) : Particle.Fine (.seq ps q) → Model.Fine (.children (.seq ps q))

/-! What Expat hands over, as the comment in `convertXML_Content` has it from Expat's documentation. -/

def Particle.expat : Particle → Content
  | .name n q => .mk .name q n []
  | .choice ps q => .mk .choice q [] (ps.map Particle.expat)
  | .seq ps q => .mk .seq q [] (ps.map Particle.expat)

def Model.expat : Model → Content
  | .empty => .mk .empty .none [] []
  | .any => .mk .any .none [] []
  | .mixed ns star => .mk .mixed (if star then .rep else .none) [] (ns.map fun n => .mk .name .none n [])
  | .children p => p.expat

/-! ## Declarations -/

inductive Default where
  | implied
  | required
  | fixed (v : Str)
  | value (v : Str)
  deriving DecidableEq, Repr

inductive External where
  | system (s : Str)
  | pub (p s : Str)
  deriving DecidableEq, Repr

inductive Declared where
  | element (name model : Str)
  | attlist (element attr type : Str) (d : Default)
  | internal (parameter : Bool) (name value : Str)
  | external (parameter : Bool) (name : Str) (e : External)
  | unparsed (name : Str) (e : External) (notation_ : Str)
  | notation_ (name : Str) (e : External)
  | publicNotation (name p : Str)
  deriving DecidableEq, Repr

def External.publicId : External → Str
  | .system _ => []
  | .pub p _ => p

def External.systemId : External → Str
  | .system s => s
  | .pub _ s => s

/-- What SAX says is reported of a declaration (SAX/ext/DeclHandler.hpp, SAX/DTDHandler.hpp). -/
def sax : Declared → Event
  | .element n m => .elementDecl n m
  | .attlist e a t .implied => .attributeDecl e a t (kw "#IMPLIED") []
  | .attlist e a t .required => .attributeDecl e a t (kw "#REQUIRED") []
  | .attlist e a t (.fixed v) => .attributeDecl e a t (kw "#FIXED") v
  | .attlist e a t (.value v) => .attributeDecl e a t [] v
  | .internal p n v => .internalEntityDecl (if p then '%' :: n else n) v
  | .external p n e => .externalEntityDecl (if p then '%' :: n else n) e.publicId e.systemId
  | .unparsed n e no => .unparsedEntityDecl n e.publicId e.systemId no
  | .notation_ n e => .notationDecl n e.publicId e.systemId
  | .publicNotation n p => .notationDecl n p []

/-- The pointers Expat hands over for a default: the value, and whether it is required. -/
def Default.expat : Default → Option Str × Bool
  | .implied => (none, false)
  | .required => (none, true)
  | .fixed v => (some v, true)
  | .value v => (some v, false)

/-- And for an external identifier: the system identifier and the public one. -/
def External.expat : External → Option Str × Option Str
  | .system s => (some s, none)
  | .pub p s => (some s, some p)

/-! A reader of document types: tokens, sentences, declarations. Literals stand between double quotes and have no
references in them; the reader refuses those with characters that would be read as something else. -/

inductive Tok where
  | word (w : Str)
  | lit (l : Str)
  deriving DecidableEq, Repr

inductive Mode where
  | between
  | inWord (w : Str)
  | inLit (l : Str)

def white (c : Char) : Bool := c = ' ' || c = '\n' || c = '\t' || c = '\r'

/-- The tokens up to each `>` and each `[`, outside literals, with that character. What follows the last is
dropped if it is white space, and nothing is read if it is not. -/
def sentences : Mode → List Tok → Str → Option (List (List Tok × Char))
  | .between, [], [] => some []
  | .between, _ :: _, [] => none
  | .inWord _, _, [] => none
  | .inLit _, _, [] => none
  | .between, ts, c :: s =>
    if white c then sentences .between ts s
    else if c = '"' then sentences (.inLit []) ts s
    else if c = '>' ∨ c = '[' then (sentences .between [] s).map ((ts, c) :: ·)
    else sentences (.inWord [c]) ts s
  | .inWord w, ts, c :: s =>
    if white c then sentences .between (ts ++ [.word w]) s
    else if c = '"' then none
    else if c = '>' ∨ c = '[' then (sentences .between [] s).map ((ts ++ [.word w], c) :: ·)
    else sentences (.inWord (w ++ [c])) ts s
  | .inLit l, ts, c :: s =>
    if c = '"' then sentences .between (ts ++ [.lit l]) s else sentences (.inLit (l ++ [c])) ts s

/-- An attribute value that is read as it stands. -/
def plainAttribute (v : Str) : Bool := v.all fun c => decide (c ≠ '<' ∧ c ≠ '&' ∧ c ≠ '\n' ∧ c ≠ '\t' ∧ c ≠ '\r')

/-- An entity value that is read as it stands. -/
def plainEntity (v : Str) : Bool := v.all fun c => decide (c ≠ '%' ∧ c ≠ '&')

def readExternal : List Tok → Option (External × List Tok)
  | .word k :: .lit s :: ts =>
    if k = (kw "SYSTEM") then some (.system s, ts)
    else if k = (kw "PUBLIC") then
      match ts with
      | .lit s' :: ts' => some (.pub s s', ts')
      | _ => none
    else none
  | _ => none

def readDefault : List Tok → Option Default
  | [.word k] => if k = (kw "#IMPLIED") then some .implied else if k = (kw "#REQUIRED") then some .required else none
  | [.word k, .lit v] => if k = (kw "#FIXED") ∧ plainAttribute v = true then some (.fixed v) else none
  | [.lit v] => if plainAttribute v = true then some (.value v) else none
  | _ => none

/-- An entity after its name. -/
def readEntity (parameter : Bool) (n : Str) (ts : List Tok) : Option Declared :=
  match ts with
  | [.lit v] => if plainEntity v = true then some (.internal parameter n v) else none
  | ts =>
    match readExternal ts with
    | some (e, []) => some (.external parameter n e)
    | some (e, [.word k, .word no]) => if k = (kw "NDATA") ∧ parameter = false then some (.unparsed n e no) else none
    | _ => none

def readOne : List Tok → Option Declared
  | .word k :: ts =>
    if k = (kw "<!ELEMENT") then
      match ts with
      | [.word n, .word m] => some (.element n m)
      | _ => none
    else if k = (kw "<!ATTLIST") then
      match ts with
      | .word e :: .word a :: .word t :: ts => (readDefault ts).map (.attlist e a t)
      | _ => none
    else if k = (kw "<!ENTITY") then
      match ts with
      | .word n :: ts =>
        if n = ['%'] then
          match ts with
          | .word n :: ts => readEntity true n ts
          | _ => none
        else if n.head? = some '%' then none
        else readEntity false n ts
      | _ => none
    else if k = (kw "<!NOTATION") then
      match ts with
      | [.word n, .word k, .lit p] =>
        if k = (kw "PUBLIC") then some (.publicNotation n p)
        else if k = (kw "SYSTEM") then some (.notation_ n (.system p)) else none
      | .word n :: ts =>
        match readExternal ts with
        | some (e, []) => some (.notation_ n e)
        | _ => none
      | _ => none
    else none
  | _ => none

def readAll : List (List Tok × Char) → Option (List Declared)
  | [] => none
  | (ts, c) :: rest =>
    if ts = [.word [']']] ∧ c = '>' ∧ rest = [] then some []
    else if c = '>' then
      match readOne ts, readAll rest with
      | some d, some ds => some (d :: ds)
      | _, _ => none
    else none

/-- The name, the external identifier, and the declarations. -/
def readDoctype (s : Str) : Option (Str × Option External × List Declared) :=
  match sentences .between [] s with
  | some ((.word k :: .word n :: ts, c) :: rest) =>
    if k = (kw "<!DOCTYPE") ∧ c = '[' then
      match ts with
      | [] => (readAll rest).map fun ds => (n, none, ds)
      | ts =>
        match readExternal ts with
        | some (e, []) => (readAll rest).map fun ds => (n, some e, ds)
        | _ => none
    else none
  | _ => none

/-! What can be written so that it reads back. -/

/-- A name or another piece of text that is one word. -/
def Word (w : Str) : Prop := w ≠ [] ∧ ∀ c ∈ w, white c = false ∧ c ≠ '"' ∧ c ≠ '>' ∧ c ≠ '['

/-- A literal that is not empty and has no double quote in it. -/
def Literal (l : Str) : Prop := l ≠ [] ∧ '"' ∉ l

def External.Fine : External → Prop
  | .system s => Literal s
  | .pub p s => Literal p ∧ Literal s

def Default.Fine : Default → Prop
  | .implied => True
  | .required => True
  | .fixed v => Literal v ∧ plainAttribute v = true
  | .value v => Literal v ∧ plainAttribute v = true

def Declared.Fine : Declared → Prop
  | .element n m => Word n ∧ Word m
  | .attlist e a t d => Word e ∧ Word a ∧ Word t ∧ d.Fine
  | .internal p n v => p = false ∧ Word n ∧ n.head? ≠ some '%' ∧ '"' ∉ v ∧ plainEntity v = true
  | .external p n e => p = false ∧ Word n ∧ n.head? ≠ some '%' ∧ e.Fine
  | .unparsed n e no => Word n ∧ n.head? ≠ some '%' ∧ e.Fine ∧ Word no
  | .notation_ n e => Word n ∧ e.Fine
  | .publicNotation n p => Word n ∧ Literal p

/-- What the document type itself declares: not what stands between the start and the end of the external subset,
which SAX reports as an entity of the name `[dtd]`. -/
inductive Item where
  | declared (d : Declared)
  | external (ds : List Declared)
  | entity (name : Str) (start : Bool)

def Item.events : Item → List Event
  | .declared d => [sax d]
  | .external ds => .startEntity (kw "[dtd]") :: ds.map sax ++ [.endEntity (kw "[dtd]")]
  | .entity n true => [.startEntity n]
  | .entity n false => [.endEntity n]

def Item.own : Item → List Declared
  | .declared d => [d]
  | .external _ => []
  | .entity _ _ => []

def Item.Fine : Item → Prop
  | .declared d => d.Fine
  | .external _ => True
  | .entity n _ => n ≠ (kw "[dtd]")

end Verif.Spec.Dtd
