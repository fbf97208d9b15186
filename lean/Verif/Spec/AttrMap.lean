import Verif.Model.AttrMap
set_option autoImplicit false
/-!
# The attributes of elements as finite maps

The only things taken from the model are the calls, the results and what names `createAttribute` and
`createAttributeNS` make (property C64).
-/
namespace Verif.Spec.AttrMap
open Verif.AttrMap (Attr Elem Doc Op Res)
open Verif.DomNames (NsName Str)
open Verif.Dom (Err)

variable {K : Type} [DecidableEq K]

/-- For every element a partial function from names to attributes. -/
structure M (K : Type) where
  next : Nat
  nm : Attr → Option NsName
  doc : Attr → Doc
  value : Attr → Str
  /-- The element an attribute is in use by. -/
  user : Attr → Option Elem
  cur : Elem → K → Option Attr
  readOnly : Elem → Bool
  edoc : Elem → Doc

def init (edoc : Elem → Doc) : M K :=
  { next := 0, nm := fun _ => none, doc := fun _ => 0, value := fun _ => [], user := fun _ => none,
    cur := fun _ _ => none, readOnly := fun _ => false, edoc := edoc }

/-- How names are made into keys: the key of an attribute, of a name, of a namespace and local name. -/
structure Keys (K : Type) where
  attr : NsName → K
  name : Str → K
  pair : Str → Str → K

def M.bind (m : M K) (e : Elem) (k : K) (v : Option Attr) : M K :=
  { m with cur := fun e' k' => if e' = e ∧ k' = k then v else m.cur e' k' }

def M.use (m : M K) (a : Attr) (v : Option Elem) : M K :=
  { m with user := fun a' => if a' = a then v else m.user a' }

/-- Whatever has the key is let go. -/
def M.letGo (m : M K) (e : Elem) (k : K) : M K :=
  match m.cur e k with
  | none => m
  | some old => (m.bind e k none).use old none

/-- Put an attribute under a key: what was there is returned. -/
def M.put (m : M K) (e : Elem) (k : K) (a : Attr) : M K × Option Attr :=
  (((m.letGo e k).bind e k (some a)).use a (some e), m.cur e k)

def M.new (m : M K) (r : NsName) (d : Doc) (v : Str) : M K :=
  { m with next := m.next + 1, nm := fun a => if a = m.next then some r else m.nm a,
           doc := fun a => if a = m.next then d else m.doc a,
           value := fun a => if a = m.next then v else m.value a }

def M.create (m : M K) (d : Doc) : Except Err NsName → M K × Res
  | .error e => (m, .err e)
  | .ok r => (m.new r d [], .node (some m.next))

def M.set (κ : Keys K) (m : M K) (e : Elem) (a : Attr) : M K × Res :=
  if m.user a = some e then (m, .node (some a))
  else if m.readOnly e then (m, .err .readOnly)
  else if m.user a ≠ none then (m, .err .inUse)
  else if m.doc a ≠ m.edoc e then (m, .err .wrongDoc)
  else match m.nm a with
    | none => (m, .unit)
    | some r => let (m, old) := m.put e (κ.attr r) a; (m, .node old)

def M.remove (m : M K) (e : Elem) (k : K) : M K × Res :=
  if m.readOnly e then (m, .err .readOnly)
  else match m.cur e k with
    | none => (m, .err .notFound)
    | some a => (m.letGo e k, .node (some a))

/-- A new attribute with the name is put in the map. -/
def M.setValue (κ : Keys K) (m : M K) (e : Elem) (v : Str) : Except Err NsName → M K × Res
  | .error er => (m, .err er)
  | .ok r =>
    if m.readOnly e then (m, .err .readOnly)
    else (((m.new r (m.edoc e) v).put e (κ.attr r) m.next).1, .unit)

def M.valueOf (m : M K) : Option Attr → Str
  | none => []
  | some a => m.value a

def step (κ : Keys K) (nameCh : Char → Bool) (m : M K) : Op → M K × Res
  | .createAttribute d n => m.create d (DomNames.createElement nameCh n)
  | .createAttributeNS d u q => m.create d (DomNames.createAttributeNS nameCh u q)
  | .setValue a v => ({ m with value := fun b => if b = a then v else m.value b }, .unit)
  | .setReadOnly e b => ({ m with readOnly := fun e' => if e' = e then b else m.readOnly e' }, .unit)
  | .getNamedItem e n => (m, .node (m.cur e (κ.name n)))
  | .getNamedItemNS e u l => (m, .node (m.cur e (κ.pair u l)))
  | .getAttribute e n => (m, .str (m.valueOf (m.cur e (κ.name n))))
  | .getAttributeNS e u l => (m, .str (m.valueOf (m.cur e (κ.pair u l))))
  | .hasAttribute e n => (m, .bool (m.cur e (κ.name n)).isSome)
  | .hasAttributeNS e u l => (m, .bool (m.cur e (κ.pair u l)).isSome)
  | .setNamedItem e a => m.set κ e a
  | .setNamedItemNS e a => m.set κ e a
  | .removeNamedItem e n => m.remove e (κ.name n)
  | .removeNamedItemNS e u l => m.remove e (κ.pair u l)
  | .removeAttributeNode e a =>
    if m.user a ≠ some e then (m, .err .notFound)
    else match m.nm a with
      | none => (m, .err .notFound)
      | some r => m.remove e (κ.attr r)
  | .setAttribute e n v => m.setValue κ e v (DomNames.createElement nameCh n)
  | .setAttributeNS e u q v => m.setValue κ e v (DomNames.createAttributeNS nameCh u q)

def run (κ : Keys K) (nameCh : Char → Bool) (m : M K) : List Op → M K × List Res
  | [] => (m, [])
  | op :: ops =>
    let (m, r) := step κ nameCh m op
    let (m, rs) := run κ nameCh m ops
    (m, r :: rs)

/-! ### What the theorems ask of a history -/

/-- Calls by node name. -/
def byName : Op → Bool
  | .getNamedItem .. | .setNamedItem .. | .removeNamedItem .. | .getAttribute .. | .hasAttribute .. | .setAttribute ..
  | .removeAttributeNode .. => true
  | _ => false

/-- Calls by namespace and local name. -/
def byPair : Op → Bool
  | .getNamedItemNS .. | .setNamedItemNS .. | .removeNamedItemNS .. | .getAttributeNS .. | .hasAttributeNS ..
  | .setAttributeNS .. => true
  | _ => false

/-- The name of the attribute a call makes. -/
def made (nameCh : Char → Bool) : Op → Option NsName
  | .createAttribute _ n | .setAttribute _ n _ => (DomNames.createElement nameCh n).toOption
  | .createAttributeNS _ u q | .setAttributeNS _ u q _ => (DomNames.createAttributeNS nameCh u q).toOption
  | _ => none

/-- Where the code is not to be trusted with a call: an attribute from another document, an attribute that
is not in use to be removed, an attribute without local name to be set by its local name. -/
def Proper (m : M K) : Op → Prop
  | .setValue a _ => a < m.next
  | .setNamedItem e a => a < m.next ∧ m.doc a = m.edoc e
  | .setNamedItemNS e a => a < m.next ∧ m.doc a = m.edoc e ∧ ∀ r, m.nm a = some r → r.localName ≠ []
  | .removeAttributeNode _ a => a < m.next ∧ m.user a ≠ none
  | .getNamedItemNS _ _ l | .removeNamedItemNS _ _ l | .getAttributeNS _ _ l | .hasAttributeNS _ _ l => l ≠ []
  | _ => True

def AllProper (κ : Keys K) (nameCh : Char → Bool) (m : M K) : List Op → Prop
  | [] => True
  | op :: ops => Proper m op ∧ AllProper κ nameCh (step κ nameCh m op).1 ops

/-- The expanded name of an attribute: one made without namespace has its name as local name. -/
def expanded (r : NsName) : Str × Str := if r.localName = [] then ([], r.name) else (r.uri, r.localName)

/-- The names made with `createAttributeNS` and `setAttributeNS` have local names. -/
def HasLocal (nameCh : Char → Bool) : Op → Prop
  | .createAttributeNS _ u q | .setAttributeNS _ u q _ =>
    ∀ r, (DomNames.createAttributeNS nameCh u q).toOption = some r → r.localName ≠ []
  | _ => True

/-- Keys are node names. -/
def nameKeys : Keys Str := ⟨NsName.name, fun n => n, fun _ _ => []⟩

/-- Keys are expanded names. -/
def pairKeys : Keys (Str × Str) := ⟨expanded, fun n => ([], n), fun u l => (u, l)⟩

/-- Keys are expanded names, and a node name stands for one of them. -/
def mixedKeys (ns : Str → Str × Str) : Keys (Str × Str) := ⟨expanded, ns, fun u l => (u, l)⟩

/-- The items of an element's map are the attributes of its keys, every key once. -/
def ItemsAre (cur : K → Option Attr) (length : Nat) (item : Nat → Option Attr) : Prop :=
  ∃ keys : List K, keys.Nodup ∧ (∀ k, k ∈ keys ↔ cur k ≠ none) ∧ length = keys.length ∧
    ∀ i, item i = keys[i]?.bind cur

end Verif.Spec.AttrMap
