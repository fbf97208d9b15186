import Verif.Model.Text
set_option autoImplicit false
/-!
# include/DOM/io/Stream.hpp: writing a DOM node as XML

A node is given with its subtree.  Not modelled: the characters' encoding in the stream, and the
allocation of the prefix stack (`pword`): an empty stack stands for a null pointer.
-/
namespace Verif.DomStream
open Verif.Text

abbrev Str := List Char

/-- An attribute: `getNamespaceURI`, `getPrefix`, `getLocalName`, `getNodeName`, `getNodeValue`. -/
structure Att where
  uri : Str
  prefix' : Str
  localName : Str
  nodeName : Str
  value : Str
  deriving DecidableEq, Repr

/-- A node and its subtree. `other` is any node for which nothing is written (lines 402-403). -/
inductive Node where
  | document (children : List Node)
  | fragment (children : List Node)
  | element (uri prefix' localName nodeName : Str) (atts : List Att) (children : List Node)
  | text (s : Str)
  | cdata (s : Str)
  | comment (s : Str)
  | pi (target data : Str)
  | entityRef (name : Str)
  | other

/-- A `std::map` from URIs to prefixes, in key order. -/
abbrev Map := List (Str × Str)

/-- `m.find(k)`. -/
def mapFind (k : Str) : Map → Option Str
  | [] => none
  | e :: m => if e.1 = k then some e.2 else mapFind k m

/-- `m[k] = v`. -/
def mapPut (k v : Str) : Map → Map
  | [] => [(k, v)]
  | e :: m => if e.1 = k then (k, v) :: m else if k < e.1 then (k, v) :: e :: m else e :: mapPut k v m

/-- The state kept in the stream: the prefix stack, innermost map first, and the counter `iword`. -/
structure S where
  stack : List Map
  counter : Nat
  deriving DecidableEq, Repr

/-- `is_uri_declared`, lines 46-60. -/
def isUriDeclared (u : Str) : List Map → Option Str
  | [] => none
  | m :: st => match mapFind u m with
    | some p => some p
    | none => isUriDeclared u st

/-- `current[u] = p` on the innermost map; the stack is not empty here. -/
def declareTop (u p : Str) : List Map → List Map
  | [] => []
  | m :: st => mapPut u p m :: st

/-- The digits of a number, as `std::ostream` writes them. -/
def digits (n : Nat) : Str := Nat.toDigits 10 n

/-- `check_and_output_node_name`, lines 62-93. -/
def checkName (uri prefix' localName nodeName : Str) (isAttribute : Bool) (s : S) : S × Str :=
  if uri.isEmpty then (s, nodeName)
  else
    let (s1, p) := match isUriDeclared uri s.stack with
      | some p => (s, p)
      | none =>
        if isAttribute && prefix'.isEmpty then
          let p := 'a' :: digits s.counter
          ({ stack := declareTop uri p (declareTop uri prefix' s.stack), counter := s.counter + 1 }, p)
        else ({ s with stack := declareTop uri prefix' s.stack }, prefix')
    (s1, (if p.isEmpty then [] else p ++ [':']) ++ localName)

def xmlnsName : Str := ['x', 'm', 'l', 'n', 's']

/-- The condition of lines 176-178: empty names and namespace declarations are left out. -/
def skipped (a : Att) : Bool := a.nodeName.isEmpty || a.nodeName = xmlnsName || a.prefix' = xmlnsName

/-- The loop over the attributes, lines 172-189. -/
def streamAtts : List Att → S → S × Str
  | [], s => (s, [])
  | a :: as, s =>
    if skipped a then streamAtts as s
    else
      let (s1, n) := checkName a.uri a.prefix' a.localName a.nodeName true s
      let (s2, o) := streamAtts as s1
      (s2, ' ' :: n ++ '=' :: '"' :: attributeEscape a.value ++ '"' :: o)

/-- The loop over the namespaces declared, lines 191-208. -/
def streamDecls : Map → Str
  | [] => []
  | (u, p) :: m =>
    ' ' :: xmlnsName ++ (if p.isEmpty then [] else ':' :: p) ++ '=' :: '"' :: attributeEscape u ++ '"' ::
      streamDecls m

/-- The map of the namespaces of the ancestors, lines 146-155: `anc` is the namespace URI and prefix of
each ancestor element, nearest first. -/
def ancestorMap : List (Str × Str) → Map → Map
  | [], m => m
  | (u, p) :: anc, m =>
    if u.isEmpty then ancestorMap anc m
    else if (mapFind u m).isSome then ancestorMap anc m
    else ancestorMap anc (mapPut u p m)

/-- The innermost map. -/
def top : List Map → Map
  | [] => []
  | m :: _ => m

/-- `prefix_mapper`, lines 126-211. `sort` is the order `std::sort` puts the attributes in: the
comparison of lines 114-124 leaves it open for attributes without local names. -/
def prefixMapper (sort : List Att → List Att) (anc : List (Str × Str)) (uri prefix' localName nodeName : Str)
    (atts : List Att) (s : S) : S × Str :=
  let s0 : S := if s.stack.isEmpty then ⟨[ancestorMap anc []], 0⟩ else { s with stack := [] :: s.stack }
  let (s1, n) := checkName uri prefix' localName nodeName false s0
  let (s2, o) := streamAtts (sort atts) s1
  (s2, n ++ o ++ streamDecls (top s2.stack))

/-- `prefix_mapper_pop`, lines 213-231. -/
def prefixMapperPop (uri prefix' localName nodeName : Str) (output : Bool) (s : S) : S × Str :=
  let (s1, o) := if output then checkName uri prefix' localName nodeName false s else (s, [])
  ({ s1 with stack := s1.stack.tail }, o)

/-! ### streamCDATA -/

/-- `value.find(pat)`: where the string first occurs. -/
def findIn (pat : Str) : Str → Option Nat
  | [] => if pat.isEmpty then some 0 else none
  | c :: s => if pat.isPrefixOf (c :: s) then some 0 else (findIn pat s).map (· + 1)

/-- `value.find(pat, from)`. -/
def findFrom (pat s : Str) (start : Nat) : Option Nat := (findIn pat (s.drop start)).map (· + start)

def endMarker : Str := [']', ']', '>']

def startCDATA : Str := ['<', '!', '[', 'C', 'D', 'A', 'T', 'A', '[']
def endCDATA : Str := [']', ']', '>']

/-- The loop of lines 311-321: `substr(value, start, breakAt)` is the `breakAt` characters from `start`
on. At most `fuel` rounds. -/
def cdataLoop (value : Str) : Nat → Nat → Nat → Str
  | 0, start, _ => value.drop start
  | fuel + 1, start, breakAt =>
    let b := breakAt + 2
    ((value.drop start).take b) ++ endCDATA ++ startCDATA ++
      (match findFrom endMarker value b with
       | some b' => cdataLoop value fuel b b'
       | none => value.drop b)

/-- `streamCDATA`, lines 295-325. Each round goes at least two characters further. -/
def streamCDATA (value : Str) : Str :=
  startCDATA ++ (match findFrom endMarker value 0 with
    | none => value
    | some b => cdataLoop value value.length 0 b) ++ endCDATA

/-- The XML declaration, lines 339-360. -/
def declaration : Str :=
  ['<', '?', 'x', 'm', 'l', ' ', 'v', 'e', 'r', 's', 'i', 'o', 'n', '=', '"', '1', '.', '0', '"', '?', '>', '\n']

mutual
/-- `operator<<`, lines 329-407, and `streamElement`, lines 246-267. `anc` as in `ancestorMap`. -/
def streamNode (sort : List Att → List Att) (anc : List (Str × Str)) : Node → S → S × Str
  | .document cs, s => let (s1, o) := streamChildren sort [] cs s; (s1, declaration ++ o)
  | .fragment cs, s => streamChildren sort [] cs s
  | .element u p l n atts cs, s =>
    let (s1, o1) := prefixMapper sort anc u p l n atts s
    if cs.isEmpty then
      let (s2, _) := prefixMapperPop u p l n false s1
      (s2, '<' :: o1 ++ ['/', '>'])
    else
      let (s2, o2) := streamChildren sort ((u, p) :: anc) cs s1
      let (s3, o3) := prefixMapperPop u p l n true s2
      (s3, '<' :: o1 ++ '>' :: o2 ++ '<' :: '/' :: o3 ++ ['>'])
  | .text t, s => (s, textEscape t)
  | .cdata t, s => (s, streamCDATA t)
  | .comment t, s => (s, '<' :: '!' :: '-' :: '-' :: t ++ ['-', '-', '>'])
  | .pi t d, s => (s, '<' :: '?' :: t ++ ' ' :: d ++ ['?', '>'])
  | .entityRef n, s => (s, '&' :: n ++ [';'])
  | .other, s => (s, [])

/-- `streamChildren`, lines 235-244. -/
def streamChildren (sort : List Att → List Att) (anc : List (Str × Str)) : List Node → S → S × Str
  | [], s => (s, [])
  | c :: cs, s =>
    let (s1, o1) := streamNode sort anc c s
    let (s2, o2) := streamChildren sort anc cs s1
    (s2, o1 ++ o2)
end

end Verif.DomStream
