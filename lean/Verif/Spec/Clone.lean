import Verif.Model.Clone
import Verif.Spec.DomHistory
import Verif.Spec.Dom
import Verif.Spec.AttrMap
set_option autoImplicit false
/-!
# Specification: copies of nodes

What the calls of the DOM show of a node is a finite tree.
-/
namespace Verif.Clone
open Verif.Dom (Id Str Kind Err)
open Verif.DomNames (NsName plain)

/-! ## What a node shows -/

/-- A node as seen through the DOM: its type, its name, its value, its identifiers, its attributes and its
children. -/
inductive Tree where
  | node (kind : Kind) (name : NsName) (value : Str) (ids : List Str) (attrs kids : List Tree)

def Tree.kind : Tree → Kind
  | .node k _ _ _ _ _ => k

def Tree.name : Tree → NsName
  | .node _ r _ _ _ _ => r

/-- The name: elements and attributes have namespaces, some kinds have a name only, and texts, comments and
fragments have the same fixed name. -/
def nameOf (s : St) (n : Id) : NsName :=
  match s.base.kind n with
  | .element | .attr => s.nm n
  | .pi | .entity | .notation | .entityRef | .doctype => plain (s.nm n).name
  | _ => plain []

/-- The value of the kinds that hold one themselves. -/
def valueOf (s : St) (n : Id) : Str :=
  match s.base.kind n with
  | .text | .cdata | .comment | .pi => s.base.data n
  | _ => []

def idsOf (s : St) (n : Id) : List Str :=
  match s.base.kind n with
  | .entity | .notation | .doctype => s.ids n
  | _ => []

/-- The attributes given explicitly, in their order. -/
def attrsOf (s : St) (n : Id) : List Id := (s.attrs n).filter s.specified

mutual

/-- The node shows the tree. -/
def Shows (s : St) : Tree → Id → Prop
  | .node k r v i as ks, n =>
    s.base.kind n = k ∧ nameOf s n = r ∧ valueOf s n = v ∧ idsOf s n = i ∧
      ShowsAll s as (attrsOf s n) ∧ ShowsAll s ks (s.base.kids n)

def ShowsAll (s : St) : List Tree → List Id → Prop
  | [], [] => True
  | t :: ts, n :: ns => Shows s t n ∧ ShowsAll s ts ns
  | _, _ => False

end

/-- Everything there is about a node (the counter of changes of a document is no part of it). -/
structure Node where
  kind : Kind
  doc : Option Id
  parent : Option Id
  prev : Option Id
  next : Option Id
  kids : List Id
  ro : Bool
  orphan : Bool
  freed : Bool
  data : Str
  root : Option Id
  dtype : Option Id
  nm : NsName
  isNS : Bool
  attrs : List Id
  owner : Option Id
  specified : Bool
  ids : List Str
  entities : List Id

def node (s : St) (n : Id) : Node :=
  ⟨s.base.kind n, s.base.doc n, s.base.parent n, s.base.prev n, s.base.next n, s.base.kids n, s.base.ro n,
   s.base.orphan n, s.base.freed n, s.base.data n, s.base.root n, s.base.dtype n, s.nm n, s.isNS n,
   s.attrs n, s.owner n, s.specified n, s.ids n, s.entities n⟩

/-- `x` is `n`, a descendant of it or of one of its attributes, or one of its attributes. -/
inductive Within (s : St) (n : Id) : Id → Prop
  | self : Within s n n
  | kid (x y : Id) : Within s n x → y ∈ s.base.kids x → Within s n y
  | attr (x y : Id) : Within s n x → y ∈ s.attrs x → Within s n y

/-! ## Histories -/

/-- The states after a history of calls: of those of `Verif.Dom` that `plainOp` lists, successful or
failing, and of successful other ones. -/
inductive Reach (C : Chars) : St → Prop
  | empty : Reach C empty
  | dom (s : St) (b : Dom.St) (op : Dom.Op) : Reach C s → plainOp op = true → ¬ Dom.selfDoc s.base op →
      (Dom.step s.base op = .ok b () ∨ ∃ e, Dom.step s.base op = .err e b) → Reach C { s with base := b }
  | call (s s' : St) (op : Op) (fuel : Nat) : Reach C s → step C fuel s op = .ok s' () → Reach C s'

/-! ## What can be copied -/

/-- No two attributes have the same node name or the same expanded name. -/
def Apart (as : List Tree) : Prop :=
  as.Pairwise fun a b => a.name.name ≠ b.name.name ∧
    Spec.AttrMap.expanded a.name ≠ Spec.AttrMap.expanded b.name

mutual

/-- Nothing in the tree stands in the way of a copy.  `E name ks` says that a new reference to the entity
`name` has the children `ks`. -/
def Copyable (C : Chars) (E : Str → List Tree → Prop) (imp : Bool) : Tree → Prop
  | .node k r v i as ks =>
    k ≠ .document ∧ k ≠ .doctype ∧ Apart as ∧
      (imp = true → k = .element ∨ k = .attr → r.localName ≠ [] ∨ r = plain r.name) ∧
      (imp = false → k = .pi → v.all C.char = true) ∧
      (k = .entityRef → E r.name ks) ∧
      CopyableAll C E imp as ∧ CopyableAll C E (imp || decide (k = .entityRef)) ks

def CopyableAll (C : Chars) (E : Str → List Tree → Prop) (imp : Bool) : List Tree → Prop
  | [] => True
  | t :: ts => Copyable C E imp t ∧ CopyableAll C E imp ts

end

/-- The entity the document type of the document `d` has under a name. -/
def entityNamed (s : St) (d : Id) (name : Str) : Option Id :=
  match s.base.dtype d with
  | none => none
  | some t => (s.entities t).find? fun e => (s.nm e).name == name

/-- A new reference to the entity `name` in the document `d` should have the children of the entity. -/
def Expansion (s : St) (d : Id) (name : Str) (ks : List Tree) : Prop :=
  match entityNamed s d name with
  | none => ks = []
  | some e => ShowsAll s ks (s.base.kids e)

/-- The document a copy belongs to. -/
def goesTo (s : St) (n : Id) : Mode → Option Id
  | .clone => s.base.doc n
  | .into d => some d

/-- The tree of a copy that is not deep: only attributes and entity references keep their children. -/
def Tree.shallow : Tree → Tree
  | .node k r v i as ks => .node k r v i as (if k = .attr ∨ k = .entityRef then ks else [])

/-! ## Documents -/

/-- Not a document type. -/
def Tree.notType (t : Tree) : Bool := decide (t.kind ≠ .doctype)

def Tree.isElem (t : Tree) : Bool := decide (t.kind = .element)

/-- In a document without entities a new reference has no children. -/
def noEntities : Str → List Tree → Prop := fun _ ks => ks = []

end Verif.Clone
