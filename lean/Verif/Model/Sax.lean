import Verif.Model.Uri
import Verif.Model.Names
set_option autoImplicit false
/-!
# SAX helpers: NamespaceSupport, AttributesImpl, XMLBaseSupport, XMLBaseTracker
-/
namespace Verif.Sax

abbrev Str := List Char

/-! ## include/SAX/helpers/NamespaceSupport.hpp -/

/-- One context: a `std::multimap<string, string>` (line 378), kept as the list of its elements in
iteration order. -/
abbrev Context := List (Str × Str)

/-- `NamespaceSupport::contexts_` (line 383), innermost context first. -/
abbrev NsState := List Context

/-- `std::multimap::insert`: in key order, after the elements with an equal key. -/
def mmInsert (k v : Str) : Context → Context
  | [] => [(k, v)]
  | e :: m => if k < e.1 then (k, v) :: e :: m else e :: mmInsert k v m

/-- `std::multimap::find`.  The standard allows any element with that key; as in libstdc++ and libc++
(`lower_bound`) this is the first. -/
def mmFind (k : Str) : Context → Option Str
  | [] => none
  | e :: m => if e.1 = k then some e.2 else mmFind k m

def xmlPrefix : Str := "xml".toList
def xmlnsPrefix : Str := "xmlns".toList
def xmlUri : Str := "http://www.w3.org/XML/1998/namespace".toList

/-- `reset` and the constructor, lines 69-73 and 99-104. -/
def nsInit : NsState := [mmInsert xmlPrefix xmlUri []]

/-- `pushContext`, lines 123-126. -/
def pushContext (s : NsState) : NsState := [] :: s

/-- `popContext`, lines 141-144; `pop_back` of an empty vector is undefined. -/
def popContext : NsState → Option NsState
  | [] => none
  | _ :: s => some s

/-- `declarePrefix`, lines 176-183; `back` of an empty vector is undefined. -/
def declarePrefix (p u : Str) (s : NsState) : Option (Bool × NsState) :=
  if p = xmlPrefix ∨ p = xmlnsPrefix then some (false, s)
  else match s with
    | [] => none
    | c :: s => some (true, mmInsert p u c :: s)

/-- The loop of `getURI`, lines 246-251: `none` if no context has the prefix. -/
def nsFind (p : Str) : NsState → Option Str
  | [] => none
  | c :: s => match mmFind p c with
    | some u => some u
    | none => nsFind p s

/-- `getURI`, lines 244-254. -/
def getURI (p : Str) (s : NsState) : Str := (nsFind p s).getD []

/-- The inner loop of `getPrefix`, lines 279-281. -/
def ctxPrefix (u : Str) : Context → Option Str
  | [] => none
  | e :: m => if e.2 = u then some e.1 else ctxPrefix u m

/-- The loops of `getPrefix`, lines 277-282. -/
def nsPrefix (u : Str) : NsState → Option Str
  | [] => none
  | c :: s => match ctxPrefix u c with
    | some p => some p
    | none => nsPrefix u s

/-- `getPrefix`, lines 275-285. -/
def getPrefix (u : Str) (s : NsState) : Str := (nsPrefix u s).getD []

/-- `getPrefixes()`, lines 300-312. -/
def getPrefixes : NsState → List Str
  | [] => []
  | c :: s => (c.filter (fun e => !e.1.isEmpty)).map (·.1) ++ getPrefixes s

/-- `getPrefixes(uri)`, lines 335-347. -/
def getPrefixesFor (u : Str) : NsState → List Str
  | [] => []
  | c :: s => (c.filter (fun e => decide (e.2 = u))).map (·.1) ++ getPrefixesFor u s

/-- `getDeclaredPrefixes`, lines 361-369; `back` of an empty vector is undefined. -/
def getDeclaredPrefixes : NsState → Option (List Str)
  | [] => none
  | c :: _ => some (c.map (·.1))

/-- The calls that change a `NamespaceSupport`. -/
inductive NsOp where
  | reset
  | push
  | pop
  | declare (p u : Str)
  deriving DecidableEq, Repr

/-- One call. -/
def nsStep (s : NsState) : NsOp → Option NsState
  | .reset => some nsInit
  | .push => some (pushContext s)
  | .pop => popContext s
  | .declare p u => (declarePrefix p u s).map (·.2)

/-- A history of calls; `none` once one is undefined. -/
def nsRun : List NsOp → NsState → Option NsState
  | [], s => some s
  | op :: ops, s => match nsStep s op with
    | none => none
    | some s' => nsRun ops s'

/-! ## include/SAX/helpers/AttributesImpl.hpp -/

/-- `AttributesImpl::Attr`, lines 49-83. -/
structure Attr where
  uri : Str
  localName : Str
  qName : Str
  type : Str
  value : Str
  deriving DecidableEq, Repr

/-- `getURI`, `getLocalName`, `getQName`, `getType`, `getValue` by index, lines 124-192. -/
def attField (f : Attr → Str) (l : List Attr) (i : Nat) : Str :=
  match l[i]? with
  | some a => f a
  | none => []

/-- `getIndex(uri, localName)`, lines 207-213 (`std::find_if`, `std::distance`), -1 if absent. -/
def attIndexNS (u n : Str) : List Attr → Int
  | [] => -1
  | a :: l => if a.uri = u ∧ a.localName = n then 0
              else let r := attIndexNS u n l; if r = -1 then -1 else r + 1

/-- `getIndex(qName)`, lines 222-231. -/
def attIndexQ (q : Str) : List Attr → Int
  | [] => -1
  | a :: l => if a.qName = q then 0
              else let r := attIndexQ q l; if r = -1 then -1 else r + 1

/-- `getType(uri, localName)` and `getValue(uri, localName)`, lines 243-249 and 280-286. -/
def attGetNS (f : Attr → Str) (u n : Str) : List Attr → Str
  | [] => []
  | a :: l => if a.uri = u ∧ a.localName = n then f a else attGetNS f u n l

/-- `getType(qName)` and `getValue(qName)`, lines 259-268 and 296-305. -/
def attGetQ (f : Attr → Str) (q : Str) : List Attr → Str
  | [] => []
  | a :: l => if a.qName = q then f a else attGetQ f q l

/-- The calls that change an `AttributesImpl`. `setAttributes` has the attributes read from its
argument, which is another object; for the same object see `attSetSelf`. -/
inductive AttOp where
  | clear
  | setAttributes (l : List Attr)
  | add (a : Attr)
  | addOrReplace (a : Attr)
  | set (i : Nat) (a : Attr)
  | remove (i : Nat)
  | setURI (i : Nat) (s : Str)
  | setLocalName (i : Nat) (s : Str)
  | setQName (i : Nat) (s : Str)
  | setType (i : Nat) (s : Str)
  | setValue (i : Nat) (s : Str)
  deriving DecidableEq, Repr

/-- The loop of `addOrReplaceAttribute`, lines 382-396: only the value of an existing attribute is
replaced. -/
def attReplace (b : Attr) : List Attr → List Attr
  | [] => [b]
  | a :: l => if a.uri = b.uri ∧ a.localName = b.localName then { a with value := b.value } :: l
              else a :: attReplace b l

/-- Change the attribute at an index below the size, lines 419-541. -/
def attModify (f : Attr → Attr) : Nat → List Attr → List Attr
  | _, [] => []
  | 0, a :: l => f a :: l
  | i + 1, a :: l => a :: attModify f i l

/-- `attributes_.erase(attributes_.begin() + index)`, lines 447-453. -/
def attErase : Nat → List Attr → List Attr
  | _, [] => []
  | 0, _ :: l => l
  | i + 1, a :: l => a :: attErase i l

/-- `setAttributes`, lines 325-337: the list is cleared, then the attributes of the argument are
appended; if the argument is the object itself (`alias`) it is read after the clearing. -/
def attSetFrom (alias : Bool) (arg : List Attr) : List Attr :=
  let cleared : List Attr := []
  cleared ++ (if alias then cleared else arg)

/-- `atts.setAttributes(atts)`. -/
def attSetSelf (l : List Attr) : List Attr := attSetFrom true l

/-- One call, lines 312-541.  `none` is the `std::out_of_range` of `badIndex`. -/
def attStep (l : List Attr) : AttOp → Option (List Attr)
  | .clear => some []
  | .setAttributes m => some (attSetFrom false m)
  | .add a => some (l ++ [a])
  | .addOrReplace a => some (attReplace a l)
  | .set i a => if i < l.length then some (attModify (fun _ => a) i l) else none
  | .remove i => if i < l.length then some (attErase i l) else none
  | .setURI i s => if i < l.length then some (attModify (fun a => { a with uri := s }) i l) else none
  | .setLocalName i s =>
    if i < l.length then some (attModify (fun a => { a with localName := s }) i l) else none
  | .setQName i s => if i < l.length then some (attModify (fun a => { a with qName := s }) i l) else none
  | .setType i s => if i < l.length then some (attModify (fun a => { a with type := s }) i l) else none
  | .setValue i s => if i < l.length then some (attModify (fun a => { a with value := s }) i l) else none

/-! ## include/SAX/helpers/XMLBaseSupport.hpp, include/SAX/filter/XMLBaseTracker.hpp -/

/-- Members of `XMLBaseSupport`, lines 112-116: the stack of (depth, base), top first. -/
structure BaseState where
  bases : List (Int × Str)
  depth : Int
  deriving DecidableEq, Repr

/-- `setDocumentLocation`, lines 57-60. -/
def setDocumentLocation (loc : Str) (s : BaseState) : BaseState :=
  { s with bases := (-1, loc) :: s.bases }

/-- `currentBase`, lines 80-85. -/
def currentBase (s : BaseState) : Str :=
  match s.bases with
  | [] => []
  | b :: _ => b.2

/-- `currentDepth`, lines 100-105. -/
def currentDepth (s : BaseState) : Int :=
  match s.bases with
  | [] => -1
  | b :: _ => b.1

/-- `absolutise`, lines 93-98. -/
def absolutise (base loc : Str) : Uri.Out Str :=
  (Uri.parse base).bind fun b => (Uri.resolve b loc).bind fun u => .ok u.asString

/-- `startElement`, lines 62-71; `xb` is the value of the `xml:base` attribute or empty. -/
def baseStart (xb : Str) (s : BaseState) : Uri.Out BaseState :=
  if xb = [] then .ok { s with depth := s.depth + 1 }
  else (absolutise (currentBase s) xb).bind fun b =>
    .ok ⟨(s.depth + 1, b) :: s.bases, s.depth + 1⟩

/-- `endElement`, lines 73-78. -/
def baseEnd (s : BaseState) : BaseState :=
  { bases := if currentDepth s = s.depth then s.bases.drop 1 else s.bases
    depth := s.depth - 1 }

/-- Element starts (with their `xml:base`) and ends. -/
inductive BaseEv where
  | start (xb : Str)
  | stop
  deriving DecidableEq, Repr

def baseRun : List BaseEv → BaseState → Uri.Out BaseState
  | [], s => .ok s
  | .start xb :: evs, s => (baseStart xb s).bind (baseRun evs)
  | .stop :: evs, s => baseRun evs (baseEnd s)

/-- `XMLBaseTracker` (include/SAX/filter/XMLBaseTracker.hpp lines 15-90) with a locator set:
`currentBase`, lines 66-71, pushes the document location the first time it is asked. -/
def trackerCurrentBase (systemId : Str) (baseSet : Bool) (s : BaseState) : Str × Bool × BaseState :=
  let s' := if baseSet then s else setDocumentLocation systemId s
  (currentBase s', true, s')

end Verif.Sax
