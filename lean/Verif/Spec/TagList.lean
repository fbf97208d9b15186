import Verif.Model.TagList
import Verif.Spec.Dom
import Verif.Spec.DomHistory
set_option autoImplicit false
/-!
# Specification: the elements with a given name below a node
-/
namespace Verif.Spec.TagList
open Verif.Dom (Id Str St Op)
open Verif.TagList (Name Query TagList)
open Verif.Spec.Dom (Anc)

/-- The element has the name that is looked for: the given tag name, or the given namespace (the empty
string is no namespace) and local name; `*` stands for any. -/
def Named : Query → Name → Prop
  | .tag t, n => t = ['*'] ∨ n.nodeName = t
  | .ns u l, n => (u = ['*'] ∨ n.uri = (if u = [] then none else some u)) ∧ (l = ['*'] ∨ n.localName = l)

/-- `x` is below `root`. -/
def Below (s : St) (root x : Id) : Prop := Anc s.parent root x

/-- No entity reference lies between `root` and `x`. -/
def Clear (s : St) (root x : Id) : Prop :=
  ∀ e, Anc s.parent root e → Anc s.parent e x → s.kind e ≠ .entityRef

/-- The node is in the subtree of the other. -/
def Within (s : St) (a x : Id) : Prop := x = a ∨ Anc s.parent a x

/-- Document order under `root`: `y` is below `x`, or they are in the subtrees of two children of one
node, that of `x` first. -/
def Before (s : St) (root x y : Id) : Prop :=
  Anc s.parent x y ∨ ∃ p a b l1 l2 l3, Within s root p ∧ s.kids p = l1 ++ a :: l2 ++ b :: l3 ∧
    Within s a x ∧ Within s b y

/-- `l` lists the elements below `root` with the name `q`, each once, in document order; those inside
entity references only if `deep`. -/
structure Lists (deep : Bool) (s : St) (nm : Id → Name) (root : Id) (q : Query) (l : List Id) : Prop where
  mem : ∀ x, x ∈ l ↔ s.kind x = .element ∧ Below s root x ∧ Named q (nm x) ∧ (deep = false → Clear s root x)
  once : l.Nodup
  order : l.Pairwise (Before s root)

/-- The store, the names of its nodes, and a list of elements. -/
structure World where
  s : St
  nm : Id → Name
  list : TagList

/-- The worlds after a history: a list is made at some moment on an element or a document, and then come
editing calls, successful or not, that give new nodes any names, changes of prefixes (those `ren`
allows), and queries of the list. -/
inductive Hist (ren : Query → Prop) : World → Prop
  | make (s : St) (nm : Id → Name) (root doc : Id) (q : Query) : Dom.Reach Dom.selfDoc s →
      Dom.live s root = true → s.kind root = .element ∨ s.kind root = .document → s.doc root = some doc →
      Hist ren ⟨s, nm, Verif.TagList.make s nm root doc q⟩
  | ok (w : World) (op : Op) (s' : St) (nm' : Id → Name) : Hist ren w → ¬ Dom.selfDoc w.s op →
      Dom.step w.s op = .ok s' () → (∀ n, n < w.s.size → nm' n = w.nm n) → Hist ren ⟨s', nm', w.list⟩
  | err (w : World) (op : Op) (e : Dom.Err) (s' : St) (nm' : Id → Name) : Hist ren w → ¬ Dom.selfDoc w.s op →
      Dom.step w.s op = .err e s' → (∀ n, n < w.s.size → nm' n = w.nm n) → Hist ren ⟨s', nm', w.list⟩
  | setPrefix (w : World) (n : Id) (p : Str) (nm' : Id → Name) : Hist ren w → ren w.list.query →
      Verif.TagList.setPrefix w.s w.nm n p = some nm' → Hist ren ⟨w.s, nm', w.list⟩
  | getLength (w : World) (L : TagList) (n : Nat) : Hist ren w →
      Verif.TagList.getLength w.s w.nm w.list = (L, .ok n) → Hist ren ⟨w.s, w.nm, L⟩
  | item (w : World) (i : Nat) (L : TagList) (r : Option Id) : Hist ren w →
      Verif.TagList.item w.s w.nm w.list i = (L, .ok r) → Hist ren ⟨w.s, w.nm, L⟩

/-- Prefixes may change only under a list by namespace and local name, on which they have no influence. -/
def byNamespace : Query → Prop
  | .tag _ => False
  | .ns _ _ => True

end Verif.Spec.TagList
