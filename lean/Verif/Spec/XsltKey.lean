import Verif.Model.XsltKey
import Verif.Spec.XPathEval
set_option autoImplicit false
/-!
# Keys

https://www.w3.org/TR/1999/REC-xslt-19991116 section 12.2.
-/
namespace Verif.Spec.XsltKey
open Verif.XTree Verif.XPath Verif.XPathEval Verif.Spec.XPathAxes Verif.Spec.XPathNodeSet Verif.Spec.XPathEval

/-- An `xsl:key`: which nodes match its pattern, and the value of its expression for them. -/
structure KeySpec where
  name : List Char
  pattern : XN → Prop
  use : XN → Val

/-- The strings a value stands for: of a node-set those of all its nodes. -/
def StringsOf (w : World) (cv : Conv) (v : Val) (s : List Char) : Prop :=
  match v with
  | .nodes l => ∃ z ∈ l, s = stringValue w z
  | v => s = toString w cv v

/-- The node `y` of the document `doc` has a key of the name with a value that `v` stands for. -/
def HasKey (w : World) (cv : Conv) (ks : List KeySpec) (name : List Char) (v : Val) (doc : Nat) (y : XN) : Prop :=
  y.1 = doc ∧ XNode (w.tree doc) y.2 ∧
    ∃ k ∈ ks, k.name = name ∧ k.pattern y ∧ ∃ s, StringsOf w cv (k.use y) s ∧ StringsOf w cv v s

/-- What `key` is to give for the document: the nodes that have the key, each once in document order. -/
def IsKey (w : World) (cv : Conv) (ks : List KeySpec) (name : List Char) (v : Val) (doc : Nat) (l : List XN) : Prop :=
  InOrder w l ∧ ∀ y, y ∈ l ↔ HasKey w cv ks name v doc y

/-- A node-set with these nodes, in this order. -/
def Lists (ns : NodeSet) (l : List XN) : Prop := ns.nodes = l ∧ (ns.forward = true ∨ l = [])

/-- A declaration of the library stands for an `xsl:key`: in every context its pattern matches what it should, and its
expression has the value it should. Partly for what the code needs: values are node-sets (`nodes`) and the pattern
matches no attributes (`noAttributes`). -/
structure Stands (E : Env) (K : Nat → Prop) (d : Verif.XsltKey.Decl) (k : KeySpec) : Prop where
  pattern_iff : ∀ c x, NodeIn E.w K x → (d.pattern.any (fun me => me E c x) = true ↔ k.pattern x)
  use_eq : ∀ c x, NodeIn E.w K x → k.pattern x →
    ∃ m, Shows m (k.use x) ∧ ∃ fuel, ∀ f, fuel ≤ f → d.use E f c x = .val m
  noAttributes : ∀ x, NodeIn E.w K x → k.pattern x → ¬ IsAttr x.2
  nodes : ∀ x, NodeIn E.w K x → k.pattern x → ∃ l, k.use x = .nodes l ∧ ∀ z ∈ l, NodeIn E.w K z

/-- The declarations of a stylesheet stand for these keys, one by one. -/
inductive Declares (E : Env) (K : Nat → Prop) : List (List Char × Verif.XsltKey.Decl) → List KeySpec → Prop where
  | nil : Declares E K [] []
  | cons (d : Verif.XsltKey.Decl) (k : KeySpec) (ds : List (List Char × Verif.XsltKey.Decl)) (ks : List KeySpec)
      (h : Stands E K d k) (rest : Declares E K ds ks) : Declares E K ((k.name, d) :: ds) (k :: ks)

/-- A call of `key` for one of the keys, with a value, for a context node in a document; partly for what the code needs:
the current node is in the same document (`same`). -/
structure Asks (E : Env) (K : Nat → Prop) (ks : List KeySpec) (k : Verif.XsltKey.Call) (v : Val) : Prop where
  document : K (E.w.home k.x.1)
  same : E.w.home k.c.current.1 = E.w.home k.x.1
  declared : ∃ d ∈ ks, d.name = k.name
  shows : Shows k.a v
  nodes : ∀ l, v = .nodes l → InOrder E.w l ∧ ∀ z ∈ l, NodeIn E.w K z

/-- No two nodes of a value have the same string. -/
def Distinct (w : World) (k : KeySpec) : Prop :=
  ∀ x l, k.pattern x → k.use x = .nodes l → (l.map (stringValue w)).Nodup

end Verif.Spec.XsltKey
