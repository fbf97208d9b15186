import Verif.Spec.XmlReader
import Verif.Model.DomStream
set_option autoImplicit false
/-!
# A document with its namespaces

Of the model only the types of nodes and attributes are used.
-/
namespace Verif.Spec.DomStream
open Verif.Spec.Xml
open Verif.DomStream (Node Att)

/-- An expanded name: namespace URI (empty for none) and local name. -/
abbrev EName := Str × Str

/-- What a namespace aware reader finds.  The boundaries of CDATA sections are left out. -/
inductive RTok where
  | char (c : Char)
  | open' (name : EName) (atts : List (EName × Str))
  | close (name : EName)
  | pi (target data : Str)
  | comment (text : Str)
  | entity (name : Str)
  deriving DecidableEq, Repr

/-- Cut a name at its first colon. -/
def cutColon : Str → Option (Str × Str)
  | [] => none
  | c :: s => if c = ':' then some ([], s) else (cutColon s).map fun (a, b) => (c :: a, b)

/-- The namespace an attribute declares: prefix (empty for the default namespace) and URI. -/
def declares (a : Str × Str) : Option (Str × Str) :=
  if a.1 = ['x', 'm', 'l', 'n', 's'] then some ([], a.2)
  else match cutColon a.1 with
    | some (p, l) => if p = ['x', 'm', 'l', 'n', 's'] then some (l, a.2) else none
    | none => none

/-- The innermost declaration of a prefix. -/
def bound (p : Str) : List (List (Str × Str)) → Option Str
  | [] => none
  | sc :: scs => match sc.find? (fun d => decide (d.1 = p)) with
    | some d => some d.2
    | none => bound p scs

/-- The expanded name of an element. -/
def elementName (scs : List (List (Str × Str))) (n : Str) : Option EName :=
  match cutColon n with
  | none => some ((bound [] scs).getD [], n)
  | some (p, l) => (bound p scs).map fun u => (u, l)

/-- The expanded name of an attribute: without a prefix it is in no namespace. -/
def attributeName (scs : List (List (Str × Str))) (n : Str) : Option EName :=
  match cutColon n with
  | none => some ([], n)
  | some (p, l) => (bound p scs).map fun u => (u, l)

/-- The attributes that are not namespace declarations. -/
def resolveAtts (scs : List (List (Str × Str))) : List (Str × Str) → Option (List (EName × Str))
  | [] => some []
  | a :: as => match declares a with
    | some _ => resolveAtts scs as
    | none => match attributeName scs a.1, resolveAtts scs as with
      | some n, some r => some ((n, a.2) :: r)
      | _, _ => none

/-- Namespaces in XML: `none` if a prefix is not declared, an element has an attribute twice, or elements
are left open. -/
def resolve : List (List (Str × Str)) → List Tok → Option (List RTok)
  | scs, [] => if scs = [] then some [] else none
  | scs, t :: ts => match t with
    | .char c => (resolve scs ts).map (.char c :: ·)
    | .pi t d => (resolve scs ts).map (.pi t d :: ·)
    | .comment t => (resolve scs ts).map (.comment t :: ·)
    | .entity n => (resolve scs ts).map (.entity n :: ·)
    | .cdataStart => resolve scs ts
    | .cdataEnd => resolve scs ts
    | .open' n as =>
      let scs' := as.filterMap declares :: scs
      if (as.map (·.1)).Nodup then
        match elementName scs' n, resolveAtts scs' as, resolve scs' ts with
        | some e, some r, some rs => some (.open' e r :: rs)
        | _, _, _ => none
      else none
    | .close n => match elementName scs n, resolve scs.tail ts with
      | some e, some rs => some (.close e :: rs)
      | _, _ => none

/-- Reading a document; `none` also if the tags do not nest. -/
def readDocument (s : Str) : Option (List RTok) :=
  (readXml s).bind fun ts => if nested ts [] then resolve [] ts else none

/-- The expanded name of an attribute of the tree. -/
def attName (a : Att) : EName := if a.uri = [] then ([], a.nodeName) else (a.uri, a.localName)

/-- An attribute node that declares a namespace. -/
def isDecl (a : Att) : Bool := a.nodeName = ['x', 'm', 'l', 'n', 's'] || a.prefix' = ['x', 'm', 'l', 'n', 's']

mutual
/-- What a reader should find for a node; `sort` is the order in which the attributes are written. -/
def expected (sort : List Att → List Att) : Node → List RTok
  | .document cs => .pi ['x', 'm', 'l'] ['v', 'e', 'r', 's', 'i', 'o', 'n', '=', '"', '1', '.', '0', '"'] ::
      .char '\n' :: expectedAll sort cs
  | .fragment cs => expectedAll sort cs
  | .element u _ l n atts cs =>
    let e : EName := if u = [] then ([], n) else (u, l)
    .open' e (((sort atts).filter (fun a => !isDecl a)).map fun a => (attName a, a.value)) ::
      expectedAll sort cs ++ [.close e]
  | .text s => s.map .char
  | .cdata s => s.map .char
  | .comment s => [.comment s]
  | .pi t d => [.pi t d]
  | .entityRef n => [.entity n]
  | .other => []

def expectedAll (sort : List Att → List Att) : List Node → List RTok
  | [] => []
  | c :: cs => expected sort c ++ expectedAll sort cs
end

/-- A name without a colon. -/
def NCName (n : Str) : Prop := n ≠ [] ∧ ∀ c ∈ n, nameChar c = true ∧ c ≠ ':'

/-- `]]>` occurs at most once. -/
def OnceAtMost (s : Str) : Prop :=
  ∀ a b c : Str, s ≠ a ++ cdataClose ++ b ++ cdataClose ++ c

/-- An attribute whose strings XML allows, in the namespace its prefix stands for: `pf` gives each
namespace URI its prefix. -/
def AttOk (pf : Str → Str) (a : Att) : Prop :=
  isDecl a = true ∨
  (a.uri = [] ∧ NCName a.nodeName) ∨
  (a.uri ≠ [] ∧ a.nodeName ≠ [] ∧ NCName a.localName ∧ a.prefix' = pf a.uri ∧ NCName (pf a.uri))

mutual
/-- A node whose strings XML allows, each namespace with one prefix in the whole of it; the default
namespace may be one, if every element is in a namespace. -/
def Ok (pf : Str → Str) : Node → Prop
  | .document cs => OkAll pf cs
  | .fragment cs => OkAll pf cs
  | .element u p l n atts cs =>
    (u = [] → NCName n ∧ ∀ v, v ≠ [] → pf v ≠ []) ∧
    (u ≠ [] → NCName l ∧ p = pf u ∧ (p = [] ∨ NCName p)) ∧
    (∀ a ∈ atts, AttOk pf a) ∧ ((atts.filter (fun a => !isDecl a)).map attName).Nodup ∧ OkAll pf cs
  | .text _ => True
  | .cdata s => OnceAtMost s
  | .comment s => ¬ ['-', '-'] <:+: s ++ ['-']
  | .pi t d => NCName t ∧ ¬ piClose <:+: d ∧ ∀ c, d.head? = some c → isWhite c = false
  | .entityRef n => NCName n ∧ predefined n = none
  | .other => True

def OkAll (pf : Str → Str) : List Node → Prop
  | [] => True
  | c :: cs => Ok pf c ∧ OkAll pf cs
end

/-- Different namespaces have different prefixes, and none has the prefix `xmlns`. -/
def Prefixes (pf : Str → Str) : Prop :=
  (∀ u v, u ≠ [] → v ≠ [] → pf u = pf v → u = v) ∧ ∀ u, pf u ≠ ['x', 'm', 'l', 'n', 's']

/-- The namespaces and prefixes of the ancestors of the node written first, as for the node. -/
def AncOk (pf : Str → Str) (anc : List (Str × Str)) : Prop :=
  ∀ e ∈ anc, e.1 ≠ [] → e.2 = pf e.1 ∧ (e.2 = [] ∨ NCName e.2)

end Verif.Spec.DomStream
