import Verif.Spec.XsltOutput
import Verif.Spec.DomNames
import Verif.Model.XTree
set_option autoImplicit false
/-!
# The tree a transformation is to give

The result of a transformation is a list of nodes in document order (`Verif.Spec.XsltOutput.results`); the
same list can be read off a tree.
-/
namespace Verif.Spec.XsltDomSink
open Verif.XTree (Tree Data Kind)
open Verif.Spec.XsltOutput (Res)

abbrev Str := List Char

mutual
/-- The nodes of a tree in document order, with expanded names. -/
def nodes : Tree → List Res
  | .node d as ks =>
    match d.kind with
    | .element =>
      .start d.uri d.loc (as.map fun a => (a.data.uri, a.data.loc, a.data.value)) :: (nodesAll ks ++ [.finish])
    | .text => [.text d.value]
    | .cdata => [.text d.value]
    | .comment => [.comment d.value]
    | .pi => [.pi d.name d.value]
    | _ => nodesAll ks
def nodesAll : List Tree → List Res
  | [] => []
  | t :: ts => nodes t ++ nodesAll ts
end

/-- Put a node behind others: a text is joined to a text in front of it.  `keep` says whether an empty text
with none in front of it is a node. -/
def put (keep : Bool) (acc : List Res) : Res → List Res
  | .text s =>
    match acc.getLast? with
    | some (.text t) => acc.dropLast ++ [.text (t ++ s)]
    | _ => if s = [] ∧ keep = false then acc else acc ++ [.text s]
  | r => acc ++ [r]

/-- The result as a tree has it: no two texts side by side (XSLT 1.0, section 7.2), and none empty. -/
def joined (rs : List Res) : List Res := rs.foldl (put false) []

/-- The same, but that an empty text may be a node. -/
def joinedEmpty (rs : List Res) : List Res := rs.foldl (put true) []

mutual
/-- Text is in CDATA sections exactly in the elements listed by expanded name. -/
def Sectioned (cdata : List (Str × Str)) : Tree → Prop
  | .node d _ ks => SectionedAll cdata (decide (d.kind = .element ∧ (d.uri, d.loc) ∈ cdata)) ks
def SectionedAll (cdata : List (Str × Str)) (listed : Bool) : List Tree → Prop
  | [] => True
  | t :: ts =>
    (t.kind = .text → listed = false) ∧ (t.kind = .cdata → listed = true) ∧ Sectioned cdata t ∧
      SectionedAll cdata listed ts
end

/-- XML 1.0 [2]. -/
def XmlChars (s : Str) : Prop := ∀ c ∈ s, Xml.Char c.toNat

/-- The names in a result can be names: NCNames for elements and attributes, a Name for the target of a
processing instruction, whose data are characters of XML. -/
def Nameable : Res → Prop
  | .start _ l as => DomNames.NCName l ∧ ∀ a ∈ as, DomNames.NCName a.2.1
  | .pi t s => DomNames.XmlName t ∧ XmlChars s
  | _ => True

/-- Every prefix that stands for a namespace is an NCName. -/
def Prefixes (ns : Str → Str) : Prop := ∀ p, p ≠ [] → ns p ≠ [] → DomNames.NCName p

/-- Seven bit characters only. -/
def Ascii (s : Str) : Prop := ∀ c ∈ s, c.toNat < 128

/-- The names, and the data of processing instructions, are in seven bit characters. -/
def Seven : Res → Prop
  | .start _ l as => Ascii l ∧ ∀ a ∈ as, Ascii a.2.1
  | .pi t s => Ascii t ∧ Ascii s
  | _ => True

end Verif.Spec.XsltDomSink
