import Verif.Lemmas.XsltAvailable
import Verif.Props.XPathNodeSet
set_option autoImplicit false
/-!
# C87: asking what there is; C88: `generate-id`
-/
namespace Verif.Props.XsltAvailable
open Verif.XsltAvailable
open Verif.Spec.XsltAvailable hiding Str Scope
open Verif.XTree hiding Str
open Verif.Spec.XPathNodeSet
open Verif.XsltCompile (Ext El openChild)
open Verif.XPathEval (standardFunction)

/-- The namespaces in scope in the examples. -/
def scope : Scope := [("xsl".toList, xslt), ("t".toList, xslt), ("x".toList, "urn:x".toList), ([], "urn:d".toList)]

theorem expands_of {sc : Scope} {q p l u : Str} (h1 : Expat.isQName q = true) (h2 : Expat.cut q = some (p, l))
    (h3 : q = p ++ ':' :: l ∧ ':' ∉ p) (h4 : sc.lookup p = some u) : Expands sc q u l :=
  ⟨(isQName_iff q).1 h1, .inr ⟨p, h3.1, h3.2, h4⟩⟩

theorem expands_plain {sc : Scope} {q : Str} (h1 : Expat.isQName q = true) (h2 : ':' ∉ q) : Expands sc q [] q :=
  ⟨(isQName_iff q).1 h1, .inl ⟨h2, rfl, rfl⟩⟩

/-! ## C87 -/

/-- `element-available` of a name in a namespace says if it is the name of an instruction of XSLT 1.0.

Partial: not for names in no namespace (`C87_violated_null`), with a prefix that is not declared
(`C87_violated_prefix`); and it says so of two the processor does not have (`C87_violated_fallback`). -/
theorem C87_element_partial (sc : Scope) (q u l : Str) (h : Expands sc q u l) (hu : u ≠ []) :
    elementAvailable sc q = some (decide (u = xslt ∧ l ∈ instructions)) := by
  rw [elementAvailable, parse_expands h, Option.map_some]
  congr 1
  by_cases e : u = xslt
  · rw [if_neg (fun c => c.1 e)]
    simp only [e, true_and]
    exact elementNames_eq l
  · rw [if_pos ⟨e, hu⟩]
    simp [e]

example : Expands scope "t:for-each".toList xslt "for-each".toList :=
  expands_of (p := "t".toList) (by decide +kernel) (by decide +kernel) (by decide +kernel) (by decide +kernel)
example : elementAvailable scope "t:for-each".toList = some true := by decide +kernel
example : elementAvailable scope "t:sort".toList = some false := by decide +kernel
example : elementAvailable scope "x:for-each".toList = some false := by decide +kernel

/-- And it says so of the elements the compiler takes in a template, whatever compiles expressions,
attribute value templates and names, as long as one of each compiles.

Partial: not for `xsl:fallback` and `xsl:number`. -/
theorem C87_usable_partial {ε μ ν π : Type} (E : Ext ε μ ν π) (cur : Bool) (inner : Scope)
    (h1 : ∃ s e, s ≠ [] ∧ E.expr cur true inner s = some e) (h2 : ∃ s e, s ≠ [] ∧ E.avt cur inner s = some e)
    (h3 : ∃ s n, s ≠ [] ∧ E.name inner s = some n)
    (sc : Scope) (q l : Str) (h : Expands sc q xslt l) (hf : l ≠ "fallback".toList) (hn : l ≠ "number".toList) :
    elementAvailable sc q = some true ↔
      ∃ el : El, el.uri = xslt ∧ el.loc = l ∧ (openChild E cur el).isSome = true := by
  rw [C87_element_partial sc q xslt l h (by decide)]
  simp only [true_and, Option.some.injEq, decide_eq_true_eq]
  constructor
  · intro hl
    obtain ⟨s1, e1, n1, g1⟩ := h1
    obtain ⟨s2, e2, n2, g2⟩ := h2
    obtain ⟨s3, e3, n3, g3⟩ := h3
    obtain ⟨c1, v1, r1⟩ := List.exists_cons_of_ne_nil n1
    obtain ⟨c2, v2, r2⟩ := List.exists_cons_of_ne_nil n2
    obtain ⟨c3, v3, r3⟩ := List.exists_cons_of_ne_nil n3
    subst r1 r2 r3
    obtain ⟨as, ha⟩ := usable g1 g2 g3 hl hf hn
    exact ⟨elem l as inner, rfl, rfl, ha⟩
  · rintro ⟨el, hu, hl, ho⟩
    exact hl ▸ (unusable hu ho).1

/-- `function-available` says if the name is that of a function of XPath 1.0 or XSLT 1.0 but three this
processor does not have. -/
theorem C87_function_names (sc : Scope) (q u l : Str) (h : Expands sc q u l) :
    functionAvailable sc q = some (decide (u = [] ∧ l ∈ xpathFunctions ++ xsltFunctions ∧
      ¬ (l = "id".toList ∨ l = "lang".toList ∨ l = "format-number".toList))) := by
  rw [functionAvailable, parse_expands h, Option.map_some]
  congr 1
  rw [Bool.eq_iff_iff, List.contains_iff_mem, decide_eq_true_eq, functionNames_mem, functionLocals_mem]

/-- `function-available` says if a call of the function can be made in a template: it compiles, and
evaluating it does not throw because there is no such function.

Partial: not for `unparsed-entity-uri` (`C87_violated_unparsed`), and not for a prefix that is not declared
(`C87_violated_prefix`). -/
theorem C87_function_partial (sc : Scope) (q u l : Str) (h : Expands sc q u l)
    (hl : l ≠ "unparsed-entity-uri".toList) :
    functionAvailable sc q = some true ↔ createFunction true u l = .function := by
  rw [functionAvailable, parse_expands h, Option.map_some, made_iff u l hl, Option.some.injEq,
    List.contains_iff_mem, functionNames_mem]

example : functionAvailable scope "substring-after".toList = some true := by decide +kernel
example : functionAvailable scope "generate-id".toList = some true := by decide +kernel
example : functionAvailable scope "x:generate-id".toList = some false := by decide +kernel
example : functionAvailable scope "id".toList = some false := by decide +kernel
example : createFunction true [] "substring-after".toList = .function := by decide +kernel
example : createFunction true "urn:x".toList "generate-id".toList = .throws := by decide +kernel
example : Expands scope "substring-after".toList [] "substring-after".toList :=
  expands_plain (by decide +kernel) (by decide +kernel)

/-- Both throw if the argument is no qualified name. -/
theorem C87_bad (sc : Scope) (q : Str) (h : ¬ Spec.Xml.QName (q.map Char.toNat)) :
    elementAvailable sc q = none ∧ functionAvailable sc q = none := by
  rw [elementAvailable, functionAvailable, parse_bad h]
  exact ⟨rfl, rfl⟩

example : ¬ Spec.Xml.QName ("a:b:c".toList.map Char.toNat) := fun h => by
  rw [← isQName_iff] at h
  exact absurd h (by decide +kernel)

/-- `system-property` gives the value of a property in the XSLT namespace, and nothing for another.

Partial: if `xsl` and no other prefix is declared for the XSLT namespace (`C87_violated_property`). -/
theorem C87_property_partial (sc : Scope) (q u l : Str) (h : Expands sc q u l)
    (hx : sc.lookup "xsl".toList = some xslt) (ho : ∀ p, sc.lookup p = some xslt → p = "xsl".toList) :
    systemProperty q = if u = xslt then property l else [] := by
  obtain ⟨_, ⟨hc, hu, hl⟩ | ⟨p, hq, hp, hu⟩⟩ := h
  · subst hu hl
    rw [if_neg (by decide), systemProperty, if_neg, if_neg, if_neg]
    all_goals
      intro e
      rw [e] at hc
      exact absurd hc (by decide +kernel)
  · have key : ∀ m : Str, q = "xsl".toList ++ ':' :: m ↔ p = "xsl".toList ∧ l = m := by
      intro m
      constructor
      · intro e
        have c1 := cut_some (p := p) (l := l) hp
        rw [← hq, e, cut_some (by decide)] at c1
        cases c1
        exact ⟨rfl, rfl⟩
      · rintro ⟨e1, e2⟩
        rw [hq, e1, e2]
    by_cases hux : u = xslt
    · have hpx := ho p (hux ▸ hu)
      rw [if_pos hux]
      have k1 := key "version".toList
      have k2 := key "vendor".toList
      have k3 := key "vendor-url".toList
      simp only [hpx, true_and] at k1 k2 k3
      unfold systemProperty property
      rw [show "xsl:version".toList = "xsl".toList ++ ':' :: "version".toList from by decide +kernel,
        show "xsl:vendor".toList = "xsl".toList ++ ':' :: "vendor".toList from by decide +kernel,
        show "xsl:vendor-url".toList = "xsl".toList ++ ':' :: "vendor-url".toList from by decide +kernel]
      simp only [k1, k2, k3]
      rfl
    · have hpx : p ≠ "xsl".toList := by
        intro e
        rw [e, hx] at hu
        exact hux (Option.some.inj hu).symm
      rw [if_neg hux, systemProperty, if_neg, if_neg, if_neg]
      · exact fun e => hpx ((key "vendor-url".toList).1 (e.trans (by decide +kernel))).1
      · exact fun e => hpx ((key "vendor".toList).1 (e.trans (by decide +kernel))).1
      · exact fun e => hpx ((key "version".toList).1 (e.trans (by decide +kernel))).1

example : systemProperty "xsl:vendor-url".toList = "http://www.jezuk.co.uk/arabica/".toList := by decide +kernel
example : ([("xsl".toList, xslt), ("x".toList, "urn:x".toList)] : Scope).lookup "xsl".toList = some xslt ∧
    ∀ p, ([("xsl".toList, xslt), ("x".toList, "urn:x".toList)] : Scope).lookup p = some xslt → p = "xsl".toList := by
  refine ⟨by decide +kernel, fun p h => ?_⟩
  rw [List.lookup_cons] at h
  by_cases e : p = "xsl".toList
  · exact e
  · rw [show (p == "xsl".toList) = false by simpa using e, List.lookup_cons] at h
    by_cases e' : p = "x".toList
    · subst e'; exact absurd h (by decide +kernel)
    · rw [show (p == "x".toList) = false by simpa using e'] at h
      simp at h

/-- A name in no namespace is said to be the name of an instruction, which XSLT 1.0 rules out. -/
theorem C87_violated_null : Expands scope "if".toList [] "if".toList ∧
    elementAvailable scope "if".toList = some true :=
  ⟨expands_plain (by decide +kernel) (by decide +kernel), by decide +kernel⟩

/-- So is one with a prefix that is not declared, which is an error; and `function-available` takes it for
a name without a prefix. -/
theorem C87_violated_prefix : scope.lookup "nowhere".toList = none ∧
    elementAvailable scope "nowhere:if".toList = some true ∧
    functionAvailable scope "nowhere:string".toList = some true := by decide +kernel

/-- `xsl:fallback` and `xsl:number` are said to be available, and a stylesheet with one does not compile,
whatever its attributes. -/
theorem C87_violated_fallback {ε μ ν π : Type} (E : Ext ε μ ν π) (cur : Bool) (el : El) (hu : el.uri = xslt)
    (hl : el.loc = "fallback".toList ∨ el.loc = "number".toList) :
    elementAvailable scope ("xsl:".toList ++ el.loc) = some true ∧ openChild E cur el = none := by
  constructor
  · rcases hl with hl | hl <;> rw [hl] <;> decide +kernel
  · cases ho : openChild E cur el with
    | none => rfl
    | some f =>
      obtain ⟨_, h1, h2⟩ := unusable hu (show (openChild E cur el).isSome = true by rw [ho]; rfl)
      rcases hl with hl | hl
      · exact absurd hl h1
      · exact absurd hl h2

/-- `unparsed-entity-uri` is said to be available, and an expression that calls it does not compile. -/
theorem C87_violated_unparsed (cur : Bool) : functionAvailable scope "unparsed-entity-uri".toList = some true ∧
    createFunction cur [] "unparsed-entity-uri".toList = .refused := by
  cases cur <;> decide +kernel

/-- Functions of XPath 1.0 and of XSLT 1.0 the processor does not have. -/
theorem C87_violated_missing (cur : Bool) (l : Str)
    (h : l = "id".toList ∨ l = "lang".toList ∨ l = "format-number".toList) :
    l ∈ xpathFunctions ++ xsltFunctions ∧ createFunction cur [] l = .refused := by
  rcases h with h | h | h <;> subst h <;> cases cur <;> decide +kernel

/-- The property is looked for by the prefix, not by what it is declared for: with another prefix there is
no version, and with `xsl` declared for something else there is one. -/
theorem C87_violated_property :
    Expands scope "t:version".toList xslt "version".toList ∧ systemProperty "t:version".toList = [] ∧
    Expands [("xsl".toList, "urn:x".toList)] "xsl:version".toList "urn:x".toList "version".toList ∧
    systemProperty "xsl:version".toList = "1.0".toList := by
  refine ⟨expands_of (p := "t".toList) ?_ ?_ ?_ ?_, ?_, expands_of (p := "xsl".toList) ?_ ?_ ?_ ?_, ?_⟩ <;>
    decide +kernel

/-! ## C88 -/

/-- The ids of two nodes are the same if and only if they are the same node; an id is made of ASCII letters
and digits, and there is at least one; the id of a node-set, filled and used by any calls in any order, is that
of its first node in document order, and of an empty one the empty string.

Partial: `addr` is where nodes are while the transformation runs: nodes that are there all the time, at
different places. Namespace nodes are made anew each time they are asked for. An id does not begin with a
letter (`C88_violated_letter`). -/
theorem C88_partial (w : World) (hw : Forest w) (S : XN → Prop) (hS : Usual w S)
    (srt : List XN → List XN) (hsrt : StdSort (nodesLessThan w) srt)
    (addr : XN → Nat) (hinj : ∀ x y, S x → S y → addr x = addr y → x = y) :
    (∀ x y, S x → S y → (generateId srt addr x none = generateId srt addr y none ↔ x = y)) ∧
    (∀ x, ∃ s, generateId srt addr x none = some s ∧ s ≠ [] ∧ ∀ c ∈ s, Alphanumeric c) ∧
    (∀ (b : Bool) (ops : List Op) (z : XN), (∀ x ∈ added ops, S x) →
      (added ops = [] ∧ generateId srt addr z (some (NodeSet.run srt { forward := b } ops)) = some []) ∨
      ∃ x ∈ added ops, (∀ y ∈ added ops, y = x ∨ DocBefore w x y) ∧
        generateId srt addr z (some (NodeSet.run srt { forward := b } ops)) = generateId srt addr x none) := by
  refine ⟨fun x y hx hy => ⟨fun h => ?_, fun h => h ▸ rfl⟩, fun x => ⟨_, rfl, ?_, printPointer_alnum _⟩, ?_⟩
  · exact hinj x y hx hy (printPointer_inj (Option.some.inj h))
  · intro e
    have := printPointer_zero (addr x)
    rw [e] at this
    cases this
  · intro b ops z hops
    obtain ⟨hm, _, _, _, _, ht⟩ := Verif.Props.XPathNodeSet.C37_partial w hw S hS srt hsrt b ops hops _ rfl
    by_cases he : added ops = []
    · left
      refine ⟨he, ?_⟩
      have : (NodeSet.run srt { forward := b } ops).nodes = [] := by
        rw [List.eq_nil_iff_forall_not_mem]
        intro x hx
        have := (hm x).1 hx
        rw [he] at this
        cases this
      rw [generateId, this]
      rfl
    · right
      obtain ⟨x, h1, h2, h3⟩ := ht he
      refine ⟨x, h2, h3, ?_⟩
      have hn : (NodeSet.run srt { forward := b } ops).nodes.length ≠ 0 := by
        intro e
        have := (hm x).2 h2
        rw [List.eq_nil_of_length_eq_zero e] at this
        cases this
      show (if _ then _ else _) = _
      rw [if_neg hn, h1]
      rfl

/-- Not what XSLT 1.0 section 12.4 asks for: an id is to begin with a letter, so that it is a name. -/
theorem C88_violated_letter (srt : List XN → List XN) (addr : XN → Nat) (x : XN) :
    ∃ s, generateId srt addr x none = some ('0' :: s) := by
  have := printPointer_zero (addr x)
  cases h : printPointer (addr x) with
  | nil => rw [h] at this; cases this
  | cons c s =>
    rw [h] at this
    cases this
    exact ⟨s, by rw [generateId, h]⟩

/-- Two nodes of the example and where they might be. -/
example : generateId id (fun x => if x.2 = [] then 0x55d0c8 else 0x55d0f0) (3, [.child 1]) none = some "0x55d0f0".toList := by
  decide +kernel
open Verif.Props.XPathNodeSet in
example : generateId (sortLt (nodesLessThan exWorld)) (fun x => if x = (3, [.child 1]) then 0xab0 else 0xff) (4, [])
    (some (NodeSet.run (sortLt (nodesLessThan exWorld)) { forward := false }
      [.push (5, [.child 0]), .push (3, [.child 1]), .sort])) = some "0xab0".toList := by decide +kernel

end Verif.Props.XsltAvailable
