import Verif.Lemmas.XsltKey
import Verif.Props.XPathEval
set_option autoImplicit false
/-!
# C77: keys
-/
namespace Verif.Props.XsltKey
open Verif.XTree Verif.XPath Verif.XPathEval Verif.XsltKey
open Verif.Spec.XPathAxes Verif.Spec.XPathNodeSet Verif.Spec.XPathEval Verif.Spec.XsltKey
open Verif.Props.XPathAxes (el tx doc at')
open Verif.Props.XPathValue (digits)

variable {E : Env} {K : Nat → Prop}

/-- One after the other, from any keys that are right. -/
theorem calls_ok (hw : Forest E.w) (hK : Documents E.w K) (hsrt : StdSort (nodesLessThan E.w) E.srt)
    {sps : List KeySpec} : ∀ (cs : List (Call × Val)) (keys : Keys), KeysOk E K keys sps →
    (∀ p ∈ cs, Asks E K sps p.1 p.2) →
    ∃ fuel, ∀ f, fuel ≤ f → ∀ (i : Nat) (k : Call) (v : Val), cs[i]? = some (k, v) →
      ∃ ns, (calls E f keys (cs.map Prod.fst))[i]? = some (.val ns) ∧ (ns.forward = true ∨ ns.nodes = []) ∧
        (∀ y, y ∈ ns.nodes ↔ HasKey E.w E.cv sps k.name v (E.w.home k.x.1) y) ∧
        ((∀ sp ∈ sps, Distinct E.w sp) → InOrder E.w ns.nodes)
  | [], keys, _, _ => ⟨0, fun f _ i k v h => by simp at h⟩
  | (k, v) :: cs, keys, hk, h => by
    have a := h _ (.head _)
    have hd : documentOf E k.c = E.w.home k.x.1 := a.same
    obtain ⟨keys', ns, ⟨F, hF⟩, h1, h2⟩ := sure_key hw hK hsrt hk k.x k.c (by rw [hd]; exact a.document) k.name
      a.declared (v := v) ⟨a.shows, a.nodes⟩
    obtain ⟨G, hG⟩ := calls_ok hw hK hsrt cs keys' h1 (fun p hp => h p (.tail _ hp))
    refine ⟨max F G, fun f hf i k' v' e => ?_⟩
    have e1 := hF f (by omega)
    simp only at e1
    simp only [List.map_cons, calls, e1]
    cases i with
    | zero =>
      simp only [List.getElem?_cons_zero, Option.some.injEq, Prod.mk.injEq] at e
      obtain ⟨rfl, rfl⟩ := e
      refine ⟨ns, rfl, h2.forward, fun y => ?_, fun hdd => h2.order fun sp m => hdd sp (List.mem_filter.1 m).1⟩
      rw [h2.mem y, hd]
      rfl
    | succ i =>
      rw [List.getElem?_cons_succ] at e ⊢
      exact hG f (by omega) i k' v' e

/-- C77: however often and in whatever order the keys of a stylesheet are asked for, every call of `key` gives the nodes
of the document of the context node that have a key of this name with one of these values, each once and in document
order.

Partial: the expressions of the keys give node-sets (`C77_violated_use`) of nodes with distinct strings
(`C77_violated_twice`), the patterns match no attributes (`C77_violated_attribute`), neither depends on the current node
(`C77_violated_current`); the current node is in the document of the context node (`C77_violated_document`); the
documents do not change (`C77_violated_stale`). -/
theorem C77_partial (hw : Forest E.w) (hK : Documents E.w K) (hsrt : StdSort (nodesLessThan E.w) E.srt)
    (ds : List (List Char × Decl)) (sps : List KeySpec) (hd : Declares E K ds sps) (hu : ∀ sp ∈ sps, Distinct E.w sp)
    (cs : List (Call × Val)) (hcs : ∀ p ∈ cs, Asks E K sps p.1 p.2) :
    ∃ fuel, ∀ f, fuel ≤ f → ∀ (i : Nat) (k : Call) (v : Val), cs[i]? = some (k, v) →
      ∃ ns l, (calls E f (declare ds) (cs.map Prod.fst))[i]? = some (.val ns) ∧ Lists ns l ∧
        IsKey E.w E.cv sps k.name v (E.w.home k.x.1) l := by
  obtain ⟨F, h⟩ := calls_ok hw hK hsrt cs (declare ds) (declare_ok hd) hcs
  refine ⟨F, fun f hf i k v e => ?_⟩
  obtain ⟨ns, h1, h2, h3, h4⟩ := h f hf i k v e
  exact ⟨ns, ns.nodes, h1, ⟨rfl, h2⟩, h4 hu, h3⟩

/-- C77 without the condition that strings are distinct: the nodes are the right ones, but may come more than once. -/
theorem C77_members_partial (hw : Forest E.w) (hK : Documents E.w K) (hsrt : StdSort (nodesLessThan E.w) E.srt)
    (ds : List (List Char × Decl)) (sps : List KeySpec) (hd : Declares E K ds sps)
    (cs : List (Call × Val)) (hcs : ∀ p ∈ cs, Asks E K sps p.1 p.2) :
    ∃ fuel, ∀ f, fuel ≤ f → ∀ (i : Nat) (k : Call) (v : Val), cs[i]? = some (k, v) →
      ∃ ns, (calls E f (declare ds) (cs.map Prod.fst))[i]? = some (.val ns) ∧
        ∀ y, y ∈ ns.nodes ↔ HasKey E.w E.cv sps k.name v (E.w.home k.x.1) y := by
  obtain ⟨F, h⟩ := calls_ok hw hK hsrt cs (declare ds) (declare_ok hd) hcs
  refine ⟨F, fun f hf i k v e => ?_⟩
  obtain ⟨ns, h1, _, h3, _⟩ := h f hf i k v e
  exact ⟨ns, h1, h3⟩

theorem declare_none (name : List Char) : ∀ (ds : List (List Char × Decl)) (keys : Keys),
    (∀ d ∈ ds, d.1 ≠ name) → List.lookup name keys = none →
    List.lookup name (ds.foldl (fun (ks : Keys) d => ks.add d.1 { decl := d.2 }) keys) = none
  | [], keys, _, h => h
  | d :: ds, keys, hd, h => by
    refine declare_none name ds _ (fun d' m => hd d' (.tail _ m)) ?_
    rw [add_lookup, if_neg (fun e => hd d (.head _) e.symm)]
    exact h

/-- C77: a key that is not declared is an error, here for values that are no node-sets. -/
theorem C77_undeclared_partial (f : Nat) (ds : List (List Char × Decl)) (x : XN) (c : Context) (name s : List Char)
    (h : ∀ d ∈ ds, d.1 ≠ name) : (keyFunction E f (declare ds) x c name (.str s)).2 = .throws := by
  have := declare_none name ds [] h rfl
  simp only [keyFunction, XVal.string, Keys.lookup]
  rw [declare, this]

/-! ## An example -/

/-- `<a><b x="k">k</b><c>k</c><b>l</b></a>` and `<a><b>k</b></a>` -/
def kWorld : World where
  tree n := if n = 1 then doc [el ['a'] [] [el ['b'] [at' ['x'] ['k']] [tx ['k']], el ['c'] [] [tx ['k']], el ['b'] [] [tx ['l']]]]
    else doc [el ['a'] [] [el ['b'] [] [tx ['k']]]]
  home n := n

theorem kWorld_forest : Forest kWorld where
  doc k h := rfl
  other k h := by
    refine absurd ?_ h
    simp only [kWorld]
    split <;> rfl

def kK (n : Nat) : Prop := n = 1 ∨ n = 2

theorem kDocuments : Documents kWorld kK where
  document k h := by rcases h with rfl | rfl <;> rfl
  dom k h := by rcases h with rfl | rfl <;> exact domTree_of_check (by decide +kernel)
  expanded k h := by rcases h with rfl | rfl <;> exact expanded_of_check (by decide +kernel)
  small k h := by rcases h with rfl | rfl <;> exact small_of_check (by decide +kernel)
  normalized k h := by rcases h with rfl | rfl <;> exact normalized_of_check (by decide +kernel)

def kEnv : Env where
  w := kWorld
  srt := sortLt (nodesLessThan kWorld)
  cv := digits
  vars _ _ := none

/-- Whether a node is an element with this name. -/
def isEl (w : World) (n : List Char) (x : XN) : Bool :=
  match x.2, sub (w.tree x.1) x.2 with
  | .child _ :: _, some t => t.kind == .element && t.data.name == n
  | _, _ => false

/-- `<xsl:key name="n" match="…" use="."/>` -/
def kDecl (n : List Char) : Decl where
  pattern := [fun E _ x => isEl E.w n x]
  use _ _ _ x := .val (.nodes { nodes := [x], sorted := true })

def kSpec (n : List Char) : KeySpec where
  name := ['n']
  pattern x := isEl kWorld n x = true
  use x := .nodes [x]

theorem kStands (n : List Char) : Stands kEnv kK (kDecl n) (kSpec n) where
  pattern_iff c x hx := by
    simp only [kDecl, kSpec, List.any_cons, List.any_nil, Bool.or_false]
    rfl
  use_eq c x hx h := ⟨.nodes { nodes := [x], sorted := true }, ⟨rfl, rfl⟩, 0, fun f _ => rfl⟩
  noAttributes x hx h := by
    obtain ⟨i, r⟩ := x
    cases r with
    | nil => exact id
    | cons st r =>
      cases st with
      | child j => exact id
      | attr j => cases h
  nodes x hx h := ⟨[x], rfl, by simpa using hx⟩

theorem kDistinct (n : List Char) : Distinct kWorld (kSpec n) := by
  intro x l _ e
  cases e
  simp

/-- Two keys with one name, for elements `b` and `c`. -/
def kDecls : List (List Char × Decl) := [(['n'], kDecl ['b']), (['n'], kDecl ['c'])]

def kSpecs : List KeySpec := [kSpec ['b'], kSpec ['c']]

theorem kDeclares : Declares kEnv kK kDecls kSpecs :=
  .cons (kDecl ['b']) (kSpec ['b']) _ _ (kStands _) (.cons (kDecl ['c']) (kSpec ['c']) _ _ (kStands _) .nil)

/-- `key('n', 'k')` in one document and in the other, and with a node-set in the first again. -/
def kCalls : List (Call × Val) :=
  [(⟨(1, []), ⟨(1, []), 1, 1⟩, ['n'], .str ['k']⟩, .str ['k']),
   (⟨(2, []), ⟨(2, [.child 0]), 1, 1⟩, ['n'], .str ['k']⟩, .str ['k']),
   (⟨(1, []), ⟨(1, []), 1, 1⟩, ['n'], .nodes { nodes := [(1, [.child 2, .child 0])], sorted := true }⟩,
     .nodes [(1, [.child 2, .child 0])])]

theorem element_node {t : Tree} {i : Nat} {n : Tree} (e : sub t [.child i, .child 0] = some n) (h : n.kind = .element) :
    XNode t [.child i, .child 0] := by
  refine ⟨by simp [AllChild], ⟨n, e, by rw [h]; decide, by rw [h]; decide⟩, ?_⟩
  rintro ⟨⟨m, e', h'⟩, _⟩
  rw [e] at e'
  cases e'
  rw [h] at h'
  simp at h'

theorem kAsks : ∀ p ∈ kCalls, Asks kEnv kK kSpecs p.1 p.2 := by
  intro p hp
  simp only [kCalls, List.mem_cons, List.not_mem_nil, or_false] at hp
  rcases hp with rfl | rfl | rfl
  · exact ⟨.inl rfl, rfl, ⟨_, .head _, rfl⟩, rfl, by intro l e; cases e⟩
  · exact ⟨.inr rfl, rfl, ⟨_, .head _, rfl⟩, rfl, by intro l e; cases e⟩
  · refine ⟨.inl rfl, rfl, ⟨_, .head _, rfl⟩, ⟨rfl, rfl⟩, ?_⟩
    intro l e
    cases e
    refine ⟨List.pairwise_singleton _ _, fun z hz => ?_⟩
    cases List.mem_singleton.1 hz
    exact ⟨.inl rfl, element_node (n := el ['b'] [] [tx ['l']]) rfl rfl⟩


/-- `C77_partial` of the example. -/
example : ∃ fuel, ∀ f, fuel ≤ f → ∀ (i : Nat) (k : Call) (v : Val), kCalls[i]? = some (k, v) →
    ∃ ns l, (calls kEnv f (declare kDecls) (kCalls.map Prod.fst))[i]? = some (.val ns) ∧ Lists ns l ∧
      IsKey kWorld digits kSpecs k.name v (kWorld.home k.x.1) l :=
  C77_partial kWorld_forest kDocuments (sortLt_spec _) kDecls kSpecs kDeclares
    (by
      intro sp h
      simp only [kSpecs, List.mem_cons, List.not_mem_nil, or_false] at h
      rcases h with rfl | rfl <;> exact kDistinct _)
    kCalls kAsks

/-- What is found. -/
def found : Ev NodeSet → Option (List XN)
  | .val ns => some ns.nodes
  | _ => none

/-- Its results: two elements, one, and one. -/
example : (calls kEnv 40 (declare kDecls) (kCalls.map Prod.fst)).map found =
    [some [(1, [.child 0, .child 0]), (1, [.child 1, .child 0])], some [(2, [.child 0, .child 0])],
      some [(1, [.child 2, .child 0])]] := by decide +kernel

/-- A key that is not declared. -/
example : (keyFunction kEnv 40 (declare kDecls) (1, []) ⟨(1, []), 1, 1⟩ ['m'] (.str ['k'])).2 = .throws :=
  C77_undeclared_partial 40 kDecls (1, []) ⟨(1, []), 1, 1⟩ ['m'] ['k'] (by decide)

/-! ## Where the code is wrong -/

/-- `key('n', 'k')` in the first document with one key, first time. -/
def ask (d : Decl) : Option (List XN) :=
  found (keyFunction kEnv 40 (declare [(['n'], d)]) (1, []) ⟨(1, []), 1, 1⟩ ['n'] (.str ['k'])).2

/-- `<xsl:key name="n" match="@x" use="."/>` -/
def attrDecl : Decl where
  pattern := [fun _ _ x => decide (x.2 = [.attr 0, .child 0, .child 0])]
  use _ _ _ x := .val (.nodes { nodes := [x], sorted := true })

def attrSpec : KeySpec where
  name := ['n']
  pattern x := x.2 = [.attr 0, .child 0, .child 0]
  use x := .nodes [x]

/-- Attributes have keys, but are not found. -/
theorem C77_violated_attribute :
    HasKey kWorld digits [attrSpec] ['n'] (.str ['k']) 1 (1, [.attr 0, .child 0, .child 0]) ∧ ask attrDecl = some [] :=
  ⟨⟨rfl, ⟨by simp [AllChild], at' ['x'] ['k'], rfl, by decide +kernel⟩, attrSpec, .head _, rfl, rfl, ['k'], ⟨_, .head _, by decide +kernel⟩, rfl⟩, by decide +kernel⟩

/-- `<xsl:key name="n" match="b" use="string(.)"/>` -/
def strDecl : Decl where
  pattern := [fun E _ x => isEl E.w ['b'] x]
  use E f _ x := (stringOf E f x).bind fun s => .val (.str s)

def strSpec : KeySpec where
  name := ['n']
  pattern x := isEl kWorld ['b'] x = true
  use x := .str (stringValue kWorld x)

/-- The value of the expression need not be a node-set, but if it is not, nothing is found. -/
theorem C77_violated_use :
    HasKey kWorld digits [strSpec] ['n'] (.str ['k']) 1 (1, [.child 0, .child 0]) ∧ ask strDecl = some [] :=
  ⟨⟨rfl, element_node (n := el ['b'] [at' ['x'] ['k']] [tx ['k']]) rfl rfl, strSpec, .head _, rfl, by unfold strSpec; decide +kernel, ['k'],
    by unfold strSpec StringsOf Verif.Spec.XPathEval.toString; decide +kernel, rfl⟩, by decide +kernel⟩

/-- `<xsl:key name="n" match="a" use="*"/>` -/
def twiceDecl : Decl where
  pattern := [fun E _ x => isEl E.w ['a'] x]
  use _ _ _ _ := .val (.nodes { nodes := [(1, [.child 0, .child 0]), (1, [.child 1, .child 0]), (1, [.child 2, .child 0])], sorted := true })

/-- A node that has the value twice is in the node-set twice. -/
theorem C77_violated_twice : ask twiceDecl = some [(1, [.child 0]), (1, [.child 0])] := by decide +kernel

/-- `<xsl:key name="n" match="b" use="current()"/>` -/
def currentDecl : Decl where
  pattern := [fun E _ x => isEl E.w ['b'] x]
  use _ _ c _ := .val (.nodes { nodes := [c.current], sorted := true })

/-- The current node is not the one whose key is computed, but the one where the first look up in the document was made:
there no key has the value, and the node has it if the look up is made from `c`. -/
theorem C77_violated_current :
    HasKey kWorld digits [kSpec ['b']] ['n'] (.str ['k']) 1 (1, [.child 0, .child 0]) ∧ ask currentDecl = some [] ∧
    found (keyFunction kEnv 40 (declare [(['n'], currentDecl)]) (1, []) ⟨(1, [.child 1, .child 0]), 1, 1⟩ ['n']
      (.str ['k'])).2 = some [(1, [.child 0, .child 0]), (1, [.child 2, .child 0])] := by
  refine ⟨⟨rfl, element_node (n := el ['b'] [at' ['x'] ['k']] [tx ['k']]) rfl rfl, kSpec ['b'], .head _, rfl, ?_, ['k'], ⟨_, .head _, by decide +kernel⟩, rfl⟩,
    by decide +kernel, by decide +kernel⟩
  unfold kSpec
  decide +kernel

/-- Nodes of the document of the current node are found, when the context node is in another. -/
theorem C77_violated_document :
    HasKey kWorld digits [kSpec ['c'], kSpec ['b']] ['n'] (.str ['k']) 2 (2, [.child 0, .child 0]) ∧
    found (keyFunction kEnv 40 (declare kDecls) (2, []) ⟨(1, []), 1, 1⟩ ['n'] (.str ['k'])).2 =
      some [(1, [.child 0, .child 0]), (1, [.child 1, .child 0])] := by
  refine ⟨⟨rfl, element_node (n := el ['b'] [] [tx ['k']]) rfl rfl, kSpec ['b'], .tail _ (.head _), rfl, ?_, ['k'], ⟨_, .head _, by decide +kernel⟩, rfl⟩,
    by decide +kernel⟩
  unfold kSpec
  decide +kernel

/-- The first document with its elements removed. -/
def emptied : Env := { kEnv with w := { kWorld with tree := fun n => if n = 1 then doc [el ['a'] [] []] else kWorld.tree n } }

/-- The stylesheet is run, the document changed, and the stylesheet run again: nodes are found that are not there. -/
theorem C77_violated_stale :
    ∃ keys, keys = (keyFunction kEnv 40 (declare kDecls) (1, []) ⟨(1, []), 1, 1⟩ ['n'] (.str ['k'])).1 ∧
      found (keyFunction emptied 40 keys (1, []) ⟨(1, []), 1, 1⟩ ['n'] (.str ['k'])).2 =
        some [(1, [.child 0, .child 0]), (1, [.child 1, .child 0])] ∧
      sub (emptied.w.tree 1) [.child 0, .child 0] = none :=
  ⟨_, rfl, by decide +kernel, by decide +kernel⟩

end Verif.Props.XsltKey
