import Verif.Model.XPathEval
set_option autoImplicit false
/-!
# include/XSLT/impl/xslt_key.hpp and the function `key`, xslt_functions.hpp lines 78-138
-/
namespace Verif.XsltKey
open Verif.XTree Verif.XPath Verif.XPathEval

/-- `ExecutionContext`, xpath_execution_context.hpp, without the variables. -/
structure Context where
  current : XN
  position : Int
  last : Int

/-- A `Key` as it is declared, lines 12-26: what the alternatives of the pattern and the expression give for a node.
Both are modelled elsewhere (C71, C75); here they are any functions, but may not look up keys themselves, which XSLT
forbids. -/
structure Decl where
  pattern : List (Env → Context → XN → Bool)
  use : Env → Nat → Context → XN → Ev XVal

/-- `NodeMap`, line 44. -/
abbrev NodeMap := List (List Char × NodeSet)

/-- `nodes[id].push_back(node)`, line 66. -/
def NodeMap.push (id : List Char) (x : XN) : NodeMap → NodeMap
  | [] => [(id, ({} : NodeSet).push x)]
  | (i, ns) :: m => if i = id then (i, ns.push x) :: m else (i, ns) :: NodeMap.push id x m

/-- Lines 36-40; `NodeSet(0)` is an empty set that is not forward. -/
def NodeMap.find (m : NodeMap) (value : List Char) : NodeSet :=
  match m.lookup value with
  | none => { forward := false }
  | some ns => ns

section
variable (E : Env) (fuel : Nat)

/-- The loop of lines 63-67. What is in the map when something fails stays there. -/
def addIds (x : XN) : List XN → NodeMap → NodeMap × Ev Unit
  | [], m => (m, .val ())
  | y :: ys, m =>
    match stringOf E fuel y with
    | .val id => addIds x ys (m.push id x)
    | r => (m, r.bind fun _ => .val ())

/-- Lines 60-69. -/
def addNode (d : Decl) (c : Context) (x : XN) (m : NodeMap) : NodeMap × Ev Unit :=
  if d.pattern.any (fun me => me E c x) then
    match d.use E fuel c x with
    | .val v => addIds E fuel x v.nodeSet.nodes m
    | r => (m, r.bind fun _ => .val ())
  else (m, .val ())

/-- The loop of `populate`, lines 57-70. -/
def addNodes (d : Decl) (c : Context) : List XN → NodeMap → NodeMap × Ev Unit
  | [], m => (m, .val ())
  | x :: xs, m =>
    match addNode E fuel d c x m with
    | (m', .val ()) => addNodes d c xs m'
    | (m', r) => (m', r)

/-- `get_owner_document`, xpath_object.hpp lines 124-130, of the current node, lines 30 and 55. -/
def documentOf (c : Context) : Nat := E.w.home c.current.1

/-- `populate`, lines 51-71. -/
def populate (d : Decl) (c : Context) : NodeMap × Ev Unit :=
  match enumerate (E.w.tree (documentOf E c)) [] .descendantOrSelf fuel with
  | .done l => addNodes E fuel d c (l.map fun r => (documentOf E c, r)) []
  | o => ([], (Ev.ofOutcome o).bind fun _ => .val ())

/-- A `Key` with `nodesPerDocument_`, by address of the document. -/
structure Key where
  decl : Decl
  cache : List (Nat × NodeMap) := []

/-- `Key::lookup`, lines 28-41. -/
def Key.lookup (k : Key) (value : List Char) (c : Context) : Key × Ev NodeSet :=
  match k.cache.lookup (documentOf E c) with
  | some m => (k, .val (m.find value))
  | none =>
    match populate E fuel k.decl c with
    | (m, .val ()) => ({ k with cache := (documentOf E c, m) :: k.cache }, .val (m.find value))
    | (m, r) => ({ k with cache := (documentOf E c, m) :: k.cache }, r.bind fun _ => .undefined)

/-- `keys_` of `DeclaredKeys`, lines 120-123. -/
abbrev Keys := List (List Char × List Key)

/-- `DeclaredKeys::add`, lines 95-98. -/
def Keys.add (name : List Char) (k : Key) : Keys → Keys
  | [] => [(name, [k])]
  | (n, l) :: ks => if n = name then (n, l ++ [k]) :: ks else (n, l) :: Keys.add name k ks

/-- The keys of a stylesheet, xslt_compiled_stylesheet.hpp lines 158-162. -/
def declare (ds : List (List Char × Decl)) : Keys := ds.foldl (fun ks d => ks.add d.1 { decl := d.2 }) []

/-- The loop of lines 111-112. -/
def lookupAll (value : List Char) (c : Context) : List Key → NodeSet → List Key × Ev NodeSet
  | [], nodes => ([], .val nodes)
  | k :: ks, nodes =>
    match k.lookup E fuel value c with
    | (k', .val ns) =>
      let (ks', r) := lookupAll value c ks (nodes.insert nodes.nodes.length ns.nodes)
      (k' :: ks', r)
    | (k', r) => (k' :: ks, r)

/-- Lines 107-114. -/
def lookupIn (value : List Char) (c : Context) : List Key → List Key × Ev NodeSet
  | [k] =>
    let (k', r) := k.lookup E fuel value c
    ([k'], r)
  | ks =>
    let (ks', r) := lookupAll E fuel value c ks {}
    (ks', r.bind fun ns => .val (ns.toDocumentOrder E.srt))

/-- The keys of a name after a look up. -/
def Keys.set (name : List Char) (l : List Key) : Keys → Keys
  | [] => []
  | (n, l') :: ks => if n = name then (n, l) :: ks else (n, l') :: Keys.set name l ks

/-- `DeclaredKeys::lookup`, lines 100-115. -/
def Keys.lookup (keys : Keys) (name value : List Char) (c : Context) : Keys × Ev NodeSet :=
  match List.lookup name keys with
  | none => (keys, .throws)
  | some l =>
    let (l', r) := lookupIn E fuel value c l
    (keys.set name l', r)

/-- The loop of `nodeSetUnion`, xslt_functions.hpp lines 125-129. -/
def unionLoop (name : List Char) (c : Context) : List XN → Keys → NodeSet → Keys × Ev NodeSet
  | [], keys, results => (keys, .val results)
  | y :: ys, keys, results =>
    match stringOf E fuel y with
    | .val id =>
      match keys.lookup E fuel name id c with
      | (keys', .val ns) => unionLoop name c ys keys' (results.insert results.nodes.length ns.nodes)
      | (keys', r) => (keys', r)
    | r => (keys, r.bind fun _ => .undefined)

/-- `KeyFunction::doEvaluate`, lines 107-132, with the values of the arguments, the first as a Clark name. The context
node `x` is not looked at. -/
def keyFunction (keys : Keys) (x : XN) (c : Context) (name : List Char) (a : XVal) : Keys × Ev NodeSet :=
  match a with
  | .nodes ns =>
    let (keys', r) := unionLoop E fuel name c ns.nodes keys {}
    (keys', r.bind fun ns => .val (ns.toDocumentOrder E.srt))
  | a =>
    match a.string E fuel with
    | .val id => keys.lookup E fuel name id c
    | r => (keys, r.bind fun _ => .undefined)

/-- A call of `key`. -/
structure Call where
  x : XN
  c : Context
  name : List Char
  a : XVal

/-- Some calls one after the other, and their results; after a failure the program goes on. -/
def calls (keys : Keys) : List Call → List (Ev NodeSet)
  | [] => []
  | k :: ks =>
    let (keys', r) := keyFunction E fuel keys k.x k.c k.name k.a
    r :: calls keys' ks

end

end Verif.XsltKey
