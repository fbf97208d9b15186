import Verif.Model.XPathNodeSet
import Verif.Spec.XPathAxes
set_option autoImplicit false
/-!
# Document order over several trees, and node-sets
-/
namespace Verif.Spec.XPathNodeSet
open Verif.XTree Verif.Spec.XPathAxes

/-- Each document belongs to itself, other trees belong to some document. -/
structure Forest (w : World) : Prop where
  doc : ∀ k, (w.tree k).kind = .document → w.home k = k
  other : ∀ k, (w.tree k).kind ≠ .document → (w.tree (w.home k)).kind = .document

/-- There is a node. -/
def Valid (w : World) (x : XN) : Prop := (sub (w.tree x.1) x.2).isSome

/-- No element has a thousand attributes, no node has more than 2147483 children. -/
def Small (t : Tree) : Prop := ∀ r n, sub t r = some n → n.attrs.length < 1000 ∧ n.kids.length ≤ 2147483

/-- Document order: within a tree as in `Before`; all of one tree is before all of another: here the trees
of one document before or after those of another, by address, and of these the document itself first. -/
def DocBefore (w : World) (x y : XN) : Prop :=
  if x.1 = y.1 then Before x.2 y.2
  else if w.home x.1 = w.home y.1 then (w.tree x.1).kind = .document
  else w.home y.1 < w.home x.1

/-- Of all trees of a document but itself (fragments, detached nodes), the nodes come from at most one. -/
def OneFragment (w : World) (S : XN → Prop) : Prop :=
  ∀ x y, S x → S y → w.home x.1 = w.home y.1 → x.1 ≠ y.1 →
    (w.tree x.1).kind = .document ∨ (w.tree y.1).kind = .document

/-- The nodes the theorems are about. -/
structure Usual (w : World) (S : XN → Prop) : Prop where
  valid : ∀ x, S x → Valid w x
  small : ∀ x, S x → Small (w.tree x.1)
  root : ∀ x, S x → (w.tree x.1).kind ≠ .attribute
  one : OneFragment w S

/-- A strict total order on the nodes. -/
structure TotalOrder (S : XN → Prop) (lt : XN → XN → Prop) : Prop where
  irrefl : ∀ x, S x → ¬ lt x x
  trans : ∀ x y z, S x → S y → S z → lt x y → lt y z → lt x z
  total : ∀ x y, S x → S y → lt x y ∨ x = y ∨ lt y x

/-- What `std::sort` promises (and nothing if the comparison is no order on the list): the same elements,
none before one that is less than it. -/
def StdSort (lt : XN → XN → Bool) (srt : List XN → List XN) : Prop :=
  ∀ l, TotalOrder (· ∈ l) (fun x y => lt x y = true) →
    (srt l).Perm l ∧ (srt l).Pairwise fun x y => lt y x = false

/-- The nodes added by some calls. -/
def added : List Op → List XN
  | [] => []
  | .push x :: os => x :: added os
  | .insert _ xs :: os => xs ++ added os
  | _ :: os => added os

/-- A list of nodes in document order, each once. -/
def InOrder (w : World) (l : List XN) : Prop := l.Pairwise (DocBefore w)

end Verif.Spec.XPathNodeSet
