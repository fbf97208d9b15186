set_option autoImplicit false
/-!
# include/DOM/Simple: the node store and the tree editing calls

A node is a number; the data members of `NodeImpl`, `NodeImplWithChildren` and `DocumentImpl` are
functions of it.  A null pointer is `none`.  Virtual calls are resolved by the node's kind.  A call
returns normally, throws a `DOMException` (with whatever it has changed by then), has undefined
behaviour, or does not return.
-/
namespace Verif.Dom

abbrev Id := Nat
abbrev Str := List Char

/-- `DOM::Node_base::Type`, include/DOM/Node.hpp lines 20-35. -/
inductive Kind where
  | element | attr | text | cdata | entityRef | entity | pi | comment | document | doctype | fragment
  | notation
  deriving DecidableEq, Repr

/-- The codes of `DOMException` that occur. -/
inductive Err where
  | indexSize | hierarchy | wrongDoc | invalidChar | readOnly | notFound | notSupported | inUse | namespaceErr
  deriving DecidableEq, Repr

/-- The store.  NodeImpl.hpp lines 231-235 (`parentNode_`, `ownerDoc_`, `prevSibling_`,
`nextSibling_`, `readOnly_`) and 551 (`nodes_`); DocumentImpl.hpp lines 526-534 (`documentElement_`,
`documentType_`, `changesCount_`, `orphans_`: a flag, since a node is only ever put into the set of its
own document); CharacterDataImpl.hpp line 108 (`data_`); AttrImpl.hpp lines 202-205.  `freed` marks
nodes deleted by `purge`, `size` is the number of nodes allocated so far. -/
structure St where
  size : Nat
  kind : Id → Kind
  doc : Id → Option Id
  parent : Id → Option Id
  prev : Id → Option Id
  next : Id → Option Id
  kids : Id → List Id
  ro : Id → Bool
  orphan : Id → Bool
  freed : Id → Bool
  data : Id → Str
  root : Id → Option Id
  dtype : Id → Option Id
  changes : Id → Nat

/-- The empty store. -/
def empty : St where
  size := 0
  kind _ := .text
  doc _ := none
  parent _ := none
  prev _ := none
  next _ := none
  kids _ := []
  ro _ := false
  orphan _ := false
  freed _ := false
  data _ := []
  root _ := none
  dtype _ := none
  changes _ := 0

/-- Assignment to a member of one node. -/
def upd {α : Type} (f : Id → α) (i : Id) (v : α) : Id → α := fun j => if j = i then v else f j

/-- Assignment through a pointer that may be null, guarded as in `if(p != 0) p->m = v`. -/
def updOpt {α : Type} (f : Id → α) (i : Option Id) (v : α) : Id → α :=
  match i with
  | none => f
  | some i => upd f i v

/-- The outcome of a call. -/
inductive Out (α : Type) where
  | ok (s : St) (a : α)
  | err (e : Err) (s : St)
  | diverges
  | ub

def Out.bind {α β : Type} (x : Out α) (f : St → α → Out β) : Out β :=
  match x with
  | .ok s a => f s a
  | .err e s => .err e s
  | .diverges => .diverges
  | .ub => .ub

/-- Kinds derived from `NodeImplWithChildren`: ElementImpl.hpp, AttrImpl.hpp, DocumentImpl.hpp,
DocumentFragmentImpl.hpp, EntityReferenceImpl.hpp, EntityImpl.hpp; the others derive from
`ChildlessNodeImpl`. -/
def hasKids : Kind → Bool
  | .element | .attr | .document | .fragment | .entityRef | .entity => true
  | _ => false

/-- `checkChildType`: ElementImpl.hpp 194-204, AttrImpl.hpp 192-198, DocumentImpl.hpp 515-523,
DocumentFragmentImpl.hpp 55-65, EntityReferenceImpl.hpp 48-61, EntityImpl.hpp 70-80. -/
def childAllowed (p c : Kind) : Bool :=
  match p with
  | .element | .fragment | .entityRef | .entity =>
    match c with
    | .element | .pi | .comment | .text | .cdata | .entityRef => true
    | _ => false
  | .attr =>
    match c with
    | .text | .entityRef => true
    | _ => false
  | .document =>
    match c with
    | .element | .pi | .comment | .doctype => true
    | _ => false
  | _ => false

/-- `getParentNode`, NodeImpl.hpp line 74, overridden in AttrImpl.hpp line 74 and DocumentImpl.hpp line
385. -/
def getParent (s : St) (n : Id) : Option Id :=
  if s.kind n = .attr ∨ s.kind n = .document then none else s.parent n

/-- `setParentNode(0)`, NodeImpl.hpp lines 153-160. -/
def clearParent (s : St) (c : Id) : St :=
  { s with
    orphan := if s.parent c ≠ none ∧ s.doc c ≠ none then upd s.orphan c true else s.orphan
    parent := upd s.parent c none }

/-- `setParentNode(p)`, NodeImpl.hpp lines 153-160. -/
def setParent (s : St) (c p : Id) : St :=
  { s with
    orphan := if s.parent c = none ∧ s.doc c ≠ none then upd s.orphan c false else s.orphan
    parent := upd s.parent c (some p) }

/-- `markChanged`, NodeImpl.hpp lines 545-549 and DocumentImpl.hpp line 469. -/
def markChanged (s : St) (n : Id) : St :=
  match s.doc n with
  | none => s
  | some d => { s with changes := upd s.changes d (s.changes d + 1) }

/-- `findChild` and `deque::erase`, NodeImpl.hpp lines 503-509 and 471: `none` if absent. -/
def eraseChild (c : Id) : List Id → Option (List Id)
  | [] => none
  | a :: l => if a = c then some l else (eraseChild c l).map (a :: ·)

/-- `nodes_.insert(findChild(ref), new)`, NodeImpl.hpp line 404. -/
def insertChild (new ref : Id) : List Id → Option (List Id)
  | [] => none
  | a :: l => if a = ref then some (new :: a :: l) else (insertChild new ref l).map (a :: ·)

/-- `*findChild(old) = new`, NodeImpl.hpp lines 445-446. -/
def substChild (new old : Id) : List Id → Option (List Id)
  | [] => none
  | a :: l => if a = old then some (new :: l) else (substChild new old l).map (a :: ·)

/-- Lines 473-484 of `do_removeChild`, after the erasure has given the list `l`. -/
def unlink (s : St) (p c : Id) (l : List Id) : St :=
  let s := { s with kids := upd s.kids p l }
  let prev := s.prev c
  let next := s.next c
  let s := { s with next := updOpt s.next prev next }
  let s := { s with prev := updOpt s.prev next prev }
  let s := clearParent s c
  let s := { s with prev := upd s.prev c none, next := upd s.next c none }
  markChanged s p

/-- `do_removeChild`, NodeImpl.hpp lines 467-487. -/
def doRemove (s : St) (p : Id) (old : Option Id) : Out Unit :=
  if s.ro p then .err .readOnly s
  else match old with
    | none => .err .notFound s
    | some c =>
      match eraseChild c (s.kids p) with
      | none => .err .notFound s
      | some l => .ok (unlink s p c l) ()

/-- `removeChild`, dispatched: NodeImpl.hpp lines 268-271 (childless) and 351-354, DocumentImpl.hpp
lines 432-442; AttrImpl.hpp 90-94 (the value cache it resets is not modelled here). -/
def removeChild (s : St) (p : Id) (old : Option Id) : Out Unit :=
  if hasKids (s.kind p) = false then .err .notFound s
  else if s.kind p = .document then
    if s.dtype p = old then .err .hierarchy s
    else (doRemove s p old).bind fun s _ =>
      .ok (if s.root p = old then { s with root := upd s.root p none } else s) ()
  else doRemove s p old

/-- `removeIfRequired`, NodeImpl.hpp lines 511-515. -/
def removeIfRequired (s : St) (n : Id) : Out Unit :=
  match getParent s n with
  | none => .ok s ()
  | some q => removeChild s q (some n)

/-- The loop of `checkCanAdd`, NodeImpl.hpp lines 536-538: is `c` on the way from `n` to the root?
`none` if the fuel runs out. -/
def onPath (s : St) (c : Id) : Nat → Option Id → Option Bool
  | _, none => some false
  | 0, some _ => none
  | fuel + 1, some n => if n = c then some true else onPath s c fuel (getParent s n)

/-- `checkCanAdd`, NodeImpl.hpp lines 517-541.  `NodeImplT::getOwnerDocument()` is a qualified call, so
for a document it gives the document itself.  `setOwnerDoc` (lines 180-185) would go down the tree;
only document types have no owner document, and they are childless. -/
def checkCanAdd (s : St) (p c : Id) : Out Unit :=
  match s.doc c with
  | none => .ok { s with doc := upd s.doc c (s.doc p) } ()
  | some d =>
    if s.kind c = .document then
      if s.kind p = .document ∧ d = p then .ok s () else .err .wrongDoc s
    else if s.doc p ≠ none ∧ some d ≠ s.doc p then .err .wrongDoc s
    else match onPath s c (s.size + 1) (some p) with
      | none => .diverges
      | some true => .err .hierarchy s
      | some false =>
        if s.kind p = .entityRef ∧ s.ro p = true then .err .readOnly s
        else if childAllowed (s.kind p) (s.kind c) then .ok s ()
        else .err .hierarchy s

/-- Lines 402-425 of `do_insertBefore`. -/
def link (s : St) (p new : Id) (ref : Option Id) : Out Unit :=
  match ref with
  | some r =>
    match insertChild new r (s.kids p) with
    | none => .err .notFound s
    | some l =>
      let s := { s with kids := upd s.kids p l }
      let prev := s.prev r
      let s := { s with next := updOpt s.next prev (some new) }
      let s := { s with prev := upd s.prev new prev }
      let s := { s with next := upd s.next new (some r) }
      let s := { s with prev := upd s.prev r (some new) }
      .ok (markChanged (setParent s new p) p) ()
  | none =>
    let last := (s.kids p).getLast?
    let s := { s with next := updOpt s.next last (some new) }
    let s := if last = none then s else { s with prev := upd s.prev new last }
    let s := { s with kids := upd s.kids p (s.kids p ++ [new]) }
    .ok (markChanged (setParent s new p) p) ()

/-- `do_insertBefore` of a node that is not a fragment, NodeImpl.hpp lines 400-427. -/
def insertPlain (s : St) (p new : Id) (ref : Option Id) : Out Unit :=
  (checkCanAdd s p new).bind fun s _ =>
  (removeIfRequired s new).bind fun s _ =>
  link s p new ref

/-- What `DocumentImpl::insertBefore` does after the insertion, lines 404-407. -/
def docInserted (s : St) (p new : Id) : St :=
  if s.kind p = .document then
    let s := if s.kind new = .element ∧ s.root p = none then { s with root := upd s.root p (some new) } else s
    if s.kind new = .doctype ∧ s.dtype p = none then { s with dtype := upd s.dtype p (some new) } else s
  else s

/-- `insertBefore`, dispatched: NodeImpl.hpp lines 258-261 (childless), 339-343 and 389-428;
DocumentImpl.hpp lines 395-410.  `appendChild` is `insertBefore` with a null reference child (lines
356-359 and 489-492, DocumentImpl.hpp 444-447).  The loop over the children of a fragment (lines
395-396) is the call itself: starting it again repeats only tests whose outcome does not change. -/
def insertV : Nat → St → Id → Id → Option Id → Out Unit
  | 0, _, _, _, _ => .diverges
  | fuel + 1, s, p, new, ref =>
    if hasKids (s.kind p) = false then .err .hierarchy s
    else if s.kind p = .document ∧ s.kind new = .element ∧ s.root p ≠ none then .err .hierarchy s
    else if s.kind p = .document ∧ s.kind new = .doctype ∧ s.dtype p ≠ none then .err .hierarchy s
    else if s.ro p then .err .readOnly s
    else if s.kind new = .fragment then
      match s.kids new with
      | [] => .ok s ()
      | c :: _ =>
        (removeChild s new (some c)).bind fun s _ =>
        (insertV fuel s p c ref).bind fun s _ =>
        insertV fuel s p new ref
    else (insertPlain s p new ref).bind fun s _ => .ok (docInserted s p new) ()

/-- `insertBefore` with enough fuel for every child of a fragment. -/
def insertBefore (s : St) (p new : Id) (ref : Option Id) : Out Unit :=
  insertV ((s.kids new).length + 2) s p new ref

def appendChild (s : St) (p new : Id) : Out Unit := insertBefore s p new none

/-- Lines 445-462 of `do_replaceChild`, after the substitution has given the list `l`. -/
def substitute (s : St) (p new old : Id) (l : List Id) : St :=
  let s := { s with kids := upd s.kids p l }
  let s := setParent s new p
  let prev := s.prev old
  let next := s.next old
  let s := { s with prev := upd s.prev new prev }
  let s := { s with next := upd s.next new next }
  let s := { s with next := updOpt s.next prev (some new) }
  let s := { s with prev := updOpt s.prev next (some new) }
  let s := clearParent s old
  let s := { s with prev := upd s.prev old none, next := upd s.next old none }
  markChanged s p

/-- `do_replaceChild` of a node that is not a fragment, NodeImpl.hpp lines 443-464. -/
def replacePlain (s : St) (p new : Id) (old : Option Id) : Out Unit :=
  (checkCanAdd s p new).bind fun s _ =>
  (removeIfRequired s new).bind fun s _ =>
  match old with
  | none => .err .notFound s
  | some o =>
    match substChild new o (s.kids p) with
    | none => .err .notFound s
    | some l => .ok (substitute s p new o l) ()

/-- `replaceChild`, dispatched: NodeImpl.hpp lines 263-266 (childless), 345-349 and 430-465;
DocumentImpl.hpp lines 412-430. -/
def replaceV : Nat → St → Id → Id → Option Id → Out Unit
  | 0, _, _, _, _ => .diverges
  | fuel + 1, s, p, new, old =>
    if hasKids (s.kind p) = false then .err .hierarchy s
    else if s.kind p = .document ∧ childAllowed .document (s.kind new) = false then .err .hierarchy s
    else if s.kind p = .document ∧ s.kind new = .doctype ∧ s.dtype p = old then .err .hierarchy s
    else if s.kind p = .document ∧ s.kind new = .element ∧ s.root p ≠ none ∧ s.root p ≠ old then
      .err .hierarchy s
    else if s.ro p then .err .readOnly s
    else if s.kind new = .fragment then
      let lc := (s.kids new).getLast?
      (removeChild s new lc).bind fun s _ =>
      match lc with
      | none => .ub
      | some c =>
        (replaceV fuel s p c old).bind fun s _ =>
        insertV fuel s p new (some c)
    else (replacePlain s p new old).bind fun s _ =>
      .ok (if s.kind p = .document ∧ s.kind new = .element ∧ (s.root p = none ∨ s.root p = old) then
            { s with root := upd s.root p (some new) } else s) ()

def replaceChild (s : St) (p new : Id) (old : Option Id) : Out Unit :=
  replaceV ((s.kids new).length + 2) s p new old

/-- The nodes deleted with `n` (destructor of `NodeImplWithChildren`, NodeImpl.hpp lines 301-305). -/
def subtree (s : St) : Nat → Id → List Id
  | 0, _ => []
  | fuel + 1, n => n :: (s.kids n).flatMap (subtree s fuel)

/-- `purgeChild`: NodeImpl.hpp lines 278-281 (childless), 361-364 and 494-498, DocumentImpl.hpp lines
482-486.  It does not go through the document's `removeChild`. -/
def purgeChild (s : St) (p c : Id) : Out Unit :=
  if hasKids (s.kind p) = false then .err .hierarchy s
  else (doRemove s p (some c)).bind fun s _ =>
    let dead := subtree s (s.size + 1) c
    .ok { s with orphan := upd s.orphan c false
                 freed := fun n => if n ∈ dead then true else s.freed n } ()

/-- The nodes deleted with a document, in order: `~DocumentImpl` deletes the orphans (DocumentImpl.hpp
lines 107-111; a set, here in the order of their numbers), then `~NodeImplWithChildren` the children
(NodeImpl.hpp lines 301-305). -/
def destroyed (s : St) (d : Id) : List Id :=
  ((List.range s.size).filter (fun n => s.orphan n && decide (s.doc n = some d))).flatMap
    (subtree s (s.size + 1)) ++ subtree s (s.size + 1) d

/-- `setReadOnly`, NodeImpl.hpp lines 189-199, without the attribute map. -/
def setReadOnly (s : St) (n : Id) : St :=
  let l := subtree s (s.size + 1) n
  { s with ro := fun m => if m ∈ l then true else s.ro m }

/-- A node fresh from its constructor. -/
def alloc (s : St) (k : Kind) (d : Option Id) (data : Str) (orphan ro : Bool) : St :=
  let n := s.size
  { s with
    size := n + 1
    kind := upd s.kind n k
    doc := upd s.doc n d
    data := upd s.data n data
    orphan := upd s.orphan n orphan
    ro := upd s.ro n ro }

/-- `createDocument` without name and document type, DocumentImpl.hpp lines 72-83 (`ownerDoc_` is the
document itself). -/
def newDocument (s : St) : St := alloc s .document (some s.size) [] false false

/-- `createDocumentType`, DOMImplementation.hpp lines 57-64: no owner document, read only. -/
def newDoctype (s : St) : St := alloc s .doctype none [] false true

/-- The kinds a document creates, DocumentImpl.hpp lines 143-230. -/
def creatable : Kind → Bool
  | .element | .attr | .text | .cdata | .entityRef | .pi | .comment | .fragment => true
  | _ => false

/-- `createElement` and the others, DocumentImpl.hpp lines 143-230.  Checks of names are in
`Verif.Names`.  `createEntityReference` (lines 212-230) goes on to append copies of the entity's children
and then makes the node read only: in a history these are further calls. -/
def create (s : St) (d : Id) (k : Kind) (data : Str) : Out Unit :=
  if creatable k then .ok (alloc s k (some d) data true false) () else .ub

/-- `getDocumentElement`, DocumentImpl.hpp lines 138-141. -/
def getDocumentElement (s : St) (d : Id) : Option Id := s.root d

/-- `offset` is negative or beyond the end of the data (CharacterDataImpl.hpp lines 46, 65, 74, 86; the
length is taken to fit an `int`). -/
def badOffset (s : St) (n : Id) (offset : Int) : Bool :=
  decide (offset < 0) || decide ((s.data n).length < offset)

/-- `substringData`, CharacterDataImpl.hpp lines 44-52 (`std::string::substr`). -/
def substringData (s : St) (n : Id) (offset count : Int) : Out Str :=
  if badOffset s n offset then .err .indexSize s
  else if count < 0 then .err .indexSize s
  else .ok s (((s.data n).drop offset.toNat).take count.toNat)

/-- Assignment to `data_`. -/
def putData (s : St) (n : Id) (d : Str) : St := { s with data := upd s.data n d }

/-- `setData`, CharacterDataImpl.hpp lines 33-37 and 105-110. -/
def setData (s : St) (n : Id) (arg : Str) : Out Unit :=
  if s.ro n then .err .readOnly s else .ok (putData s n arg) ()

/-- `appendData`, CharacterDataImpl.hpp lines 54-58. -/
def appendData (s : St) (n : Id) (arg : Str) : Out Unit :=
  if s.ro n then .err .readOnly s else .ok (putData s n (s.data n ++ arg)) ()

/-- `insertData`, CharacterDataImpl.hpp lines 60-68 (`std::string::insert`). -/
def insertData (s : St) (n : Id) (offset : Int) (arg : Str) : Out Unit :=
  if s.ro n then .err .readOnly s
  else if badOffset s n offset then .err .indexSize s
  else .ok (putData s n ((s.data n).take offset.toNat ++ arg ++ (s.data n).drop offset.toNat)) ()

/-- `replaceData`, CharacterDataImpl.hpp lines 82-92 (`std::string::replace`). -/
def replaceData (s : St) (n : Id) (offset count : Int) (arg : Str) : Out Unit :=
  if s.ro n then .err .readOnly s
  else if badOffset s n offset then .err .indexSize s
  else if count < 0 then .err .indexSize s
  else .ok (putData s n ((s.data n).take offset.toNat ++ arg ++ (s.data n).drop (offset.toNat + count.toNat))) ()

/-- `deleteData`, CharacterDataImpl.hpp lines 70-80. -/
def deleteData (s : St) (n : Id) (offset count : Int) : Out Unit :=
  if s.ro n then .err .readOnly s
  else if badOffset s n offset then .err .indexSize s
  else if count < 0 then .err .indexSize s
  else .ok (putData s n ((s.data n).take offset.toNat ++ [] ++ (s.data n).drop (offset.toNat + count.toNat))) ()

/-- `splitText`, TextImpl.hpp lines 31-43 and CDATASectionImpl.hpp lines 30-40 (which dereferences the
null parent of a node without parent).  The new node is not made an orphan of the document.  Returns the
new node. -/
def splitText (s : St) (n : Id) (offset : Int) : Out Id :=
  if s.ro n then .err .readOnly s
  else
    (substringData s n offset ((s.data n).length - offset)).bind fun s second =>
    (deleteData s n offset ((s.data n).length - offset)).bind fun s _ =>
    let m := s.size
    let s := alloc s (s.kind n) (s.doc n) second false false
    match getParent s n with
    | none => if s.kind n = .text then .ok s m else .ub
    | some p => (insertBefore s p m (s.next n)).bind fun s _ => .ok s m

/-- The inner loop of `normalize`, NodeImpl.hpp lines 108-114: the text node `c` of `n` takes in the text
nodes that follow. -/
def absorb : Nat → St → Id → Id → Out Unit
  | 0, _, _, _ => .diverges
  | fuel + 1, s, n, c =>
    match s.next c with
    | none => .ok s ()
    | some x =>
      if s.kind x = .text then
        (appendData s c (s.data x)).bind fun s _ =>
        (removeChild s n (some x)).bind fun s _ =>
        absorb fuel s n c
      else .ok s ()

/-- The outer loop of `normalize`, NodeImpl.hpp lines 98-122, at a child of `n`; `next` is read again
after the inner loop, which leaves it so.  The attributes of an element (lines 124-127) are normalised
by further calls. -/
def normalizeFrom : Nat → St → Id → Option Id → Out Unit
  | 0, _, _, _ => .diverges
  | _ + 1, s, _, none => .ok s ()
  | fuel + 1, s, n, some c =>
    if s.kind c = .text then
      (absorb (s.size + 1) s n c).bind fun s _ =>
      let next := s.next c
      (if s.data c = [] then removeChild s n (some c) else .ok s ()).bind fun s _ =>
      normalizeFrom fuel s n next
    else
      let next := s.next c
      (normalizeFrom fuel s c (s.kids c).head?).bind fun s _ =>
      normalizeFrom fuel s n next

/-- `normalize`. -/
def normalize (s : St) (n : Id) : Out Unit := normalizeFrom ((s.size + 2) * (s.size + 2)) s n (s.kids n).head?

/-- A call that changes character data. -/
inductive CharEdit where
  | set (arg : Str)
  | append (arg : Str)
  | insert (offset : Int) (arg : Str)
  | delete (offset count : Int)
  | replace (offset count : Int) (arg : Str)
  deriving DecidableEq, Repr

def charEdit (s : St) (n : Id) : CharEdit → Out Unit
  | .set a => setData s n a
  | .append a => appendData s n a
  | .insert o a => insertData s n o a
  | .delete o c => deleteData s n o c
  | .replace o c a => replaceData s n o c a

/-- The kinds derived from `CharacterDataImpl`. -/
def charKind : Kind → Bool
  | .text | .cdata | .comment => true
  | _ => false

/-- The calls of a history. -/
inductive Op where
  | newDocument
  | newDoctype
  | create (d : Id) (k : Kind) (data : Str)
  | insertBefore (p new : Id) (ref : Option Id)
  | replaceChild (p new : Id) (old : Option Id)
  | removeChild (p : Id) (old : Option Id)
  | purgeChild (p c : Id)
  | setReadOnly (n : Id)
  | charEdit (n : Id) (e : CharEdit)
  | splitText (n : Id) (offset : Int)
  | normalize (n : Id)
  deriving DecidableEq, Repr

/-- An allocated node that has not been deleted. -/
def live (s : St) (n : Id) : Bool := decide (n < s.size) && !s.freed n

def liveOpt (s : St) : Option Id → Bool
  | none => true
  | some n => live s n

/-- One call; a deleted node as an argument is undefined. -/
def step (s : St) : Op → Out Unit
  | .newDocument => .ok (newDocument s) ()
  | .newDoctype => .ok (newDoctype s) ()
  | .create d k data => if live s d && decide (s.kind d = .document) then create s d k data else .ub
  | .insertBefore p n r => if live s p && live s n && liveOpt s r then insertBefore s p n r else .ub
  | .replaceChild p n o => if live s p && live s n && liveOpt s o then replaceChild s p n o else .ub
  | .removeChild p o => if live s p && liveOpt s o then removeChild s p o else .ub
  | .purgeChild p c => if live s p && live s c then purgeChild s p c else .ub
  | .setReadOnly n => if live s n then .ok (setReadOnly s n) () else .ub
  | .charEdit n e => if live s n && charKind (s.kind n) then charEdit s n e else .ub
  | .splitText n off =>
    if live s n && (decide (s.kind n = .text) || decide (s.kind n = .cdata)) then
      (splitText s n off).bind fun s _ => .ok s ()
    else .ub
  | .normalize n => if live s n then normalize s n else .ub

end Verif.Dom
