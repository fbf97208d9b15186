import Verif.Model.Dom
set_option autoImplicit false
/-!
# Specification: histories of DOM calls
-/
namespace Verif.Dom

/-- The structure model of DOM Level 2: which kinds of children a node may have (without the number
restrictions of a document). -/
def mayContain : Kind → List Kind
  | .document => [.element, .pi, .comment, .doctype]
  | .fragment => [.element, .pi, .comment, .text, .cdata, .entityRef]
  | .entityRef => [.element, .pi, .comment, .text, .cdata, .entityRef]
  | .element => [.element, .pi, .comment, .text, .cdata, .entityRef]
  | .attr => [.text, .entityRef]
  | .entity => [.element, .pi, .comment, .text, .cdata, .entityRef]
  | _ => []

/-- The one call that breaks the tree: a document as its own new child. -/
def selfDoc (s : St) : Op → Prop
  | .insertBefore p n _ => p = n ∧ s.kind n = .document
  | _ => False

/-- A replacement of the root element of a document by a node that is no element. -/
def staleReplace (s : St) (p c o : Id) : Prop :=
  s.kind p = .document ∧ s.root p = some o ∧ s.kind c ≠ .element

/-- The calls after which `getDocumentElement` is stale: the root element is replaced by a node that is
no element, or purged. -/
def staleRoot (s : St) : Op → Prop
  | .replaceChild p n (some o) => staleReplace s p n o
  | .purgeChild p c => s.kind p = .document ∧ s.root p = some c
  | _ => False

/-- `splitText` of a node without parent, whose new node belongs to nobody. -/
def looseSplit (s : St) : Op → Prop
  | .splitText n _ => s.parent n = none
  | _ => False

/-- The states after a history of calls, successful or failing, that avoids the calls `bad`. -/
inductive Reach (bad : St → Op → Prop) : St → Prop
  | empty : Reach bad empty
  | ok (s s' : St) (op : Op) : Reach bad s → ¬ bad s op → step s op = .ok s' () → Reach bad s'
  | err (s s' : St) (op : Op) (e : Err) : Reach bad s → ¬ bad s op → step s op = .err e s' → Reach bad s'

/-- A given history, for examples; calls that fail are passed over. -/
def runOps : List Op → St → St
  | [], s => s
  | op :: ops, s => match step s op with
    | .ok s' _ => runOps ops s'
    | .err _ s' => runOps ops s'
    | _ => s

end Verif.Dom
