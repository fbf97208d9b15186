import Verif.Model.XsltOutput
set_option autoImplicit false
/-!
# What the output of a transformation means

The result tree an XSLT instruction sequence stands for (XSLT 1.0, section 7), and how a reader resolves
the names in a stream of events by the namespace declarations in it (Namespaces in XML 1.0).
-/
namespace Verif.Spec.XsltOutput
open Verif.Xslt (Str QN OAttr Event Instr Instrs)

/-- A space between each `a` and a `b` right behind it. -/
def spaceBetween (a b : Char) : Str → Str
  | x :: y :: rest =>
    if x = a ∧ y = b then x :: ' ' :: spaceBetween a b (y :: rest) else x :: spaceBetween a b (y :: rest)
  | s => s

/-- The text of a comment: hyphens are kept apart, and from the end. -/
def commentOf (s : Str) : Str :=
  if s.getLast? = some '-' then spaceBetween '-' '-' s ++ [' '] else spaceBetween '-' '-' s

/-- The data of a processing instruction. -/
def piOf (s : Str) : Str := spaceBetween '?' '>' s

/-- The result: nodes in document order, with expanded names. -/
inductive Res where
  | start (uri localName : Str) (atts : List (Str × Str × Str))
  | finish
  | text (s : Str)
  | comment (s : Str)
  | pi (target s : Str)
deriving DecidableEq, Repr

/-- The text written directly by a sequence of instructions: what becomes the value of an attribute,
comment or processing instruction; other instructions there are ignored (recovery of sections 7.1.3, 7.3,
7.4). -/
def ownText : Instrs → Str
  | .nil => []
  | .cons (.text s) rest => s ++ ownText rest
  | .cons _ rest => ownText rest

/-- Add an attribute, replacing the value of one with the same expanded name. -/
def putAttr (u l v : Str) : List (Str × Str × Str) → List (Str × Str × Str)
  | [] => [(u, l, v)]
  | a :: as => if a.1 = u ∧ a.2.1 = l then (u, l, v) :: as else a :: putAttr u l v as

/-- The attributes an element gets: those made before any other content. -/
def attrsOf : List (Str × Str × Str) → Instrs → List (Str × Str × Str)
  | acc, .cons (.attr _ l u b) rest => attrsOf (putAttr u l (ownText b) acc) rest
  | acc, _ => acc

mutual
/-- The result of an instruction. Attributes are part of the element, see `attrsOf`. -/
def result : Instr → List Res
  | .text s => [.text s]
  | .element _ l u body => .start u l (attrsOf [] body) :: (results body ++ [.finish])
  | .attr _ _ _ _ => []
  | .copyAttribute _ _ _ _ => []
  | .comment body => [.comment (commentOf (ownText body))]
  | .pi t body => [.pi t (piOf (ownText body))]
/-- The result of a sequence. -/
def results : Instrs → List Res
  | .nil => []
  | .cons i rest => result i ++ results rest
end

/-! ## Reading the events -/

def xmlns : Str := ['x', 'm', 'l', 'n', 's']
def xml : Str := ['x', 'm', 'l']
def xmlUri : Str := "http://www.w3.org/XML/1998/namespace".toList

/-- The open elements, innermost first, each with the prefixes it declares. -/
abbrev Open := List (QN × List (Str × Str))

/-- The first binding of a prefix in a list of declarations. -/
def binding (p : Str) : List (Str × Str) → Option Str
  | [] => none
  | d :: ds => if d.1 = p then some d.2 else binding p ds

/-- The namespace a prefix stands for. -/
def lookup (p : Str) : Open → Option Str
  | [] => if p = xml then some xmlUri else none
  | e :: rest =>
    match binding p e.2 with
    | some u => some u
    | none => lookup p rest

/-- The namespace declaration an attribute is, if it is one. -/
def declaration (a : OAttr) : Option (Str × Str) :=
  if a.qName.1 = xmlns then some (a.qName.2, a.value)
  else if a.qName = ([], xmlns) then some ([], a.value)
  else none

/-- The namespace of an element name: without a prefix the default one, if any. -/
def elementUri (o : Open) (q : QN) : Option Str :=
  if q.1 = [] then some ((lookup [] o).getD []) else lookup q.1 o

/-- An attribute with its expanded name: without a prefix it is in no namespace. -/
def expand (o : Open) (a : OAttr) : Option (Str × Str × Str) :=
  if a.qName.1 = [] then some ([], a.qName.2, a.value)
  else (lookup a.qName.1 o).map fun u => (u, a.qName.2, a.value)

/-- All of a list, or nothing. -/
def allSome {α β : Type} (f : α → Option β) : List α → Option (List β)
  | [] => some []
  | a :: l =>
    match f a, allSome f l with
    | some b, some bs => some (b :: bs)
    | _, _ => none

/-- Read one event: the result nodes it gives and the open elements after it. Nothing if a prefix is
undeclared or declared twice on one element, if two attributes of an element have the same expanded name,
or if an end tag does not fit. -/
def readEvent (o : Open) : Event → Option (List Res × Open)
  | .startElement q _ atts =>
    let decls := atts.filterMap declaration
    let o' := (q, decls) :: o
    match elementUri o' q, allSome (expand o') (atts.filter fun a => (declaration a).isNone) with
    | some u, some as =>
      if (decls.map Prod.fst).Nodup ∧ (as.map fun a => (a.1, a.2.1)).Nodup then
        some ([.start u q.2 as], o')
      else none
    | _, _ => none
  | .endElement q _ =>
    match o with
    | [] => none
    | e :: rest => if e.1 = q then some ([.finish], rest) else none
  | .characters s => some ([.text s], o)
  | .startCDATA => some ([], o)
  | .endCDATA => some ([], o)
  | .comment s => some ([.comment s], o)
  | .pi t s => some ([.pi t s], o)

/-- Read a stream of events. -/
def readEvents : Open → List Event → Option (List Res × Open)
  | o, [] => some ([], o)
  | o, e :: es =>
    match readEvent o e with
    | none => none
    | some (r, o') =>
      match readEvents o' es with
      | none => none
      | some (rs, o'') => some (r ++ rs, o'')

/-- Read a stream of events without its attributes, by the namespaces the sink is told: what is left of
the result, if the tags nest. -/
def readTags : List QN → List Event → Option (List Res × List QN)
  | o, [] => some ([], o)
  | o, .startElement q u _ :: es => (readTags (q :: o) es).map fun r => (.start u q.2 [] :: r.1, r.2)
  | [], .endElement _ _ :: _ => none
  | t :: o, .endElement q _ :: es =>
    if t = q then (readTags o es).map fun r => (.finish :: r.1, r.2) else none
  | o, .characters s :: es => (readTags o es).map fun r => (.text s :: r.1, r.2)
  | o, .startCDATA :: es => readTags o es
  | o, .endCDATA :: es => readTags o es
  | o, .comment s :: es => (readTags o es).map fun r => (.comment s :: r.1, r.2)
  | o, .pi t s :: es => (readTags o es).map fun r => (.pi t s :: r.1, r.2)

/-- A result without attributes. -/
def bare : Res → Res
  | .start u l _ => .start u l []
  | r => r

/-! ## CDATA sections -/

/-- Whether the innermost open element is listed. -/
def listed (cdata : List (Str × Str)) : List (Str × Str) → Bool
  | [] => false
  | e :: _ => decide (e ∈ cdata)

/-- Read one event for its CDATA sections: the expanded names of the open elements, innermost first, and
whether a section is open. Nothing if a section holds anything but text, is opened twice or closed while
none is open, or if text is in a section although its element is not listed, or the other way round. -/
def section1 (cdata : List (Str × Str)) (x : List (Str × Str) × Bool) : Event → Option (List (Str × Str) × Bool)
  | .startElement q u _ => if x.2 then none else some ((u, q.2) :: x.1, false)
  | .endElement _ _ => if x.2 then none else some (x.1.tail, false)
  | .characters _ =>
    if x.2 = listed cdata x.1 then some x else none
  | .startCDATA => if x.2 then none else some (x.1, true)
  | .endCDATA => if x.2 then some (x.1, false) else none
  | .comment _ => if x.2 then none else some x
  | .pi _ _ => if x.2 then none else some x

/-- The same for a stream of events. -/
def sections (cdata : List (Str × Str)) : List (Str × Str) × Bool → List Event → Option (List (Str × Str) × Bool)
  | x, [] => some x
  | x, e :: es =>
    match section1 cdata x e with
    | none => none
    | some y => sections cdata y es

/-! ## Stylesheets whose prefixes always mean the same -/

/-- A prefix the processor may make up. -/
def IsAuto (p : Str) : Prop := ∃ i, p = Verif.Xslt.autoPrefix i

/-- `p` is a prefix of the stylesheet and stands for `u`. -/
def Bound (ns : Str → Str) (p u : Str) : Prop :=
  ns p = u ∧ p ≠ xmlns ∧ ¬ IsAuto p ∧ (p = xml ↔ u = xmlUri)

mutual
/-- Every prefix, and the absence of one on elements, means the same namespace throughout (`ns`), no
prefix is reserved or could be made up by the processor, no attribute is called `xmlns`, and no attribute
is copied. -/
def Consistent (ns : Str → Str) : Instr → Prop
  | .text _ => True
  | .element p _ u body =>
    (if u = [] then ns [] = [] else Bound ns p u) ∧ Consistents ns body
  | .attr p l u body =>
    (if u = [] then l ≠ xmlns else if p = [] then u ≠ xmlUri else Bound ns p u) ∧ Consistents ns body
  | .copyAttribute _ _ _ _ => False
  | .comment body => Consistents ns body
  | .pi _ body => Consistents ns body
/-- The same for a sequence. -/
def Consistents (ns : Str → Str) : Instrs → Prop
  | .nil => True
  | .cons i rest => Consistent ns i ∧ Consistents ns rest
end

mutual
/-- No attribute is copied. -/
def Plain : Instr → Prop
  | .text _ => True
  | .element _ _ _ b => Plains b
  | .attr _ _ _ b => Plains b
  | .copyAttribute _ _ _ _ => False
  | .comment b => Plains b
  | .pi _ b => Plains b
/-- The same for a sequence. -/
def Plains : Instrs → Prop
  | .nil => True
  | .cons i rest => Plain i ∧ Plains rest
end

end Verif.Spec.XsltOutput
