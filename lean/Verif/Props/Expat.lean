import Verif.Lemmas.Expat
set_option autoImplicit false
/-!
# C69: the events of the Expat reader
-/
namespace Verif.Props.Expat
open Verif.Expat
open Verif.Sax (Str Attr)
open Verif.SaxFilter (Ev)

/-- A reader with the feature namespaces, that has not parsed yet. -/
def fresh (prefixes : Bool) : Reader := ⟨true, prefixes, Sax.nsInit, []⟩

/-- C69, what the reader does: for every document that keeps to the rules of namespaces the handlers get the events
of the document, with the namespaces and local names that the declarations in scope give, without an error, and the
reader is as before, ready for the next document; but an element that declares nothing reports again the end of what
the element around it declares. -/
theorem C69_exact : ∃ order : List Str → List Str, (∀ l, (order l).Perm l) ∧
    ∀ (prefixes : Bool) (is : List Item), ItemsOk initial is →
      parse (fresh prefixes) (itemsCallbacks is) = .ok (fresh prefixes) ((docEvents (ownOrOuter order) prefixes is).map .ev) := by
  refine ⟨order, order_perm, ?_⟩
  intro prefixes is h
  unfold parse fresh
  rw [items_run is Sax.nsInit [] initial _ stands_init h]
  simp [docEvents]

/-- C69: but for the ends of prefix mappings, the events are those that SAX asks for. -/
theorem C69_partial (prefixes : Bool) (is : List Item) (h : ItemsOk initial is) :
    ∃ out : List Ev, parse (fresh prefixes) (itemsCallbacks is) = .ok (fresh prefixes) (out.map .ev) ∧
      out.filter notEnd = (docEvents (own id) prefixes is).filter notEnd := by
  obtain ⟨order, _, he⟩ := C69_exact
  refine ⟨_, he prefixes is h, ?_⟩
  unfold docEvents
  simp only [List.filter_append, List.cons_append, List.filter_cons]
  rw [items_notEnd (ownOrOuter order) (own id) is initial _ ["xml".toList]]

/-- C69: if every element has a declaration the ends of mappings are right too. -/
theorem C69_ends_partial : ∃ order : List Str → List Str, (∀ l, (order l).Perm l) ∧
    ∀ (prefixes : Bool) (is : List Item), ItemsOk initial is → ItemsDeclare is →
      parse (fresh prefixes) (itemsCallbacks is) = .ok (fresh prefixes) ((docEvents (own order) prefixes is).map .ev) := by
  obtain ⟨order, hp, he⟩ := C69_exact
  refine ⟨order, hp, ?_⟩
  intro prefixes is h hd
  rw [he prefixes is h]
  unfold docEvents
  rw [items_declare order is initial _ ["xml".toList] hd]

/-- C69: without the feature namespaces every document is reported as it is written. -/
theorem C69_no_namespaces (r : Reader) (hr : r.namespaces = false) (is : List Item) :
    parse r (itemsCallbacks is) = .ok r ((Ev.startDocument :: itemsRaw is ++ [Ev.endDocument]).map .ev) := by
  unfold parse
  rw [items_raw hr is]
  simp

/-! ## a document -/

/-- `<r xmlns="u" xmlns:a="v"><a:b c="1" a:d="2">t</a:b></r>` -/
def sample : List Item :=
  [.element "r".toList [("xmlns".toList, "u".toList), ("xmlns:a".toList, "v".toList)]
    [.element "a:b".toList [("c".toList, "1".toList), ("a:d".toList, "2".toList)] [.text "t".toList]]]

theorem nc (q : Str) (h : isQName q = true) : Name q := by
  refine (Names.qname_iff (q.map Char.toNat)).mp ?_
  rw [Names.wide, List.map_map]
  exact h

theorem prefixOk_none {sc : Scope} {q : Str} (h : parts q = none) : PrefixOk sc q := by
  intro p l e
  rw [h] at e
  cases e

theorem prefixOk_some {sc : Scope} {q p l : Str} (h : parts q = some (p, l)) (hp : (namespaceOf sc p).getD [] ≠ []) : PrefixOk sc q := by
  intro p' l' e
  rw [h] at e
  cases e
  exact hp

theorem sample_ok : ItemsOk initial sample := by
  simp only [sample, ItemsOk, ItemOk, and_true]
  refine ⟨nc _ (by decide +kernel), ?_, by decide, by decide, prefixOk_none (by decide), ?_, nc _ (by decide +kernel), ?_, by decide, by decide,
    prefixOk_some (p := "a".toList) (l := "b".toList) (by decide) (by decide), ?_⟩
  · intro a ha
    simp only [List.mem_cons, List.not_mem_nil, or_false] at ha
    rcases ha with rfl | rfl <;> exact nc _ (by decide +kernel)
  · intro a ha hd
    simp only [List.mem_cons, List.not_mem_nil, or_false] at ha
    rcases ha with rfl | rfl <;> exact absurd hd (by decide)
  · intro a ha
    simp only [List.mem_cons, List.not_mem_nil, or_false] at ha
    rcases ha with rfl | rfl <;> exact nc _ (by decide +kernel)
  · intro a ha hd
    simp only [List.mem_cons, List.not_mem_nil, or_false] at ha
    rcases ha with rfl | rfl
    · exact prefixOk_none (by decide)
    · exact prefixOk_some (p := "a".toList) (l := "d".toList) (by decide) (by decide)

/-- The events that SAX asks for. -/
example : docEvents (own id) false sample = [.startDocument,
    .startPrefixMapping [] "u".toList, .startPrefixMapping "a".toList "v".toList,
    .startElement "u".toList "r".toList "r".toList [],
    .startElement "v".toList "b".toList "a:b".toList
      [⟨[], "c".toList, "c".toList, "CDATA".toList, "1".toList⟩, ⟨"v".toList, "d".toList, "a:d".toList, "CDATA".toList, "2".toList⟩],
    .characters "t".toList,
    .endElement "v".toList "b".toList "a:b".toList,
    .endElement "u".toList "r".toList "r".toList,
    .endPrefixMapping [], .endPrefixMapping "a".toList, .endDocument] := by decide +kernel

example : ItemsDeclare [.element "r".toList [("xmlns".toList, "u".toList)] [.text "t".toList]] := by
  simp only [ItemsDeclare, ItemDeclares]
  decide

/-! ## violations -/

/-- C69 does not hold: `<r/>` reports the end of the mapping of `xml`, that nobody reported the start of. -/
theorem C69_violated_end : ItemsOk initial [.element "r".toList [] []] ∧
    parse (fresh false) (itemsCallbacks [.element "r".toList [] []]) = .ok (fresh false) [.ev .startDocument,
      .ev (.startElement [] "r".toList "r".toList []), .ev (.endElement [] "r".toList "r".toList), .ev (.endPrefixMapping "xml".toList),
      .ev .endDocument] := by
  refine ⟨?_, by decide +kernel⟩
  simp only [ItemsOk, ItemOk, and_true]
  exact ⟨nc _ (by decide +kernel), (fun a ha => by cases ha), by decide, by decide, prefixOk_none (by decide), (fun a ha => by cases ha)⟩

/-- C69 does not hold: in the sample the mappings of the root end after its child, and again after the root. -/
theorem C69_violated_twice : ItemsOk initial sample ∧ ∃ out, parse (fresh false) (itemsCallbacks sample) = .ok (fresh false) out ∧
    out.count (.ev (.startPrefixMapping "a".toList "v".toList)) = 1 ∧ out.count (.ev (.endPrefixMapping "a".toList)) = 2 ∧
    out.idxOf (.ev (.endPrefixMapping "a".toList)) < out.idxOf (.ev (.endElement "u".toList "r".toList "r".toList)) := by
  refine ⟨sample_ok, [.ev .startDocument, .ev (.startPrefixMapping [] "u".toList), .ev (.startPrefixMapping "a".toList "v".toList),
    .ev (.startElement "u".toList "r".toList "r".toList []),
    .ev (.startElement "v".toList "b".toList "a:b".toList
      [⟨[], "c".toList, "c".toList, "CDATA".toList, "1".toList⟩, ⟨"v".toList, "d".toList, "a:d".toList, "CDATA".toList, "2".toList⟩]),
    .ev (.characters "t".toList),
    .ev (.endElement "v".toList "b".toList "a:b".toList), .ev (.endPrefixMapping []), .ev (.endPrefixMapping "a".toList),
    .ev (.endElement "u".toList "r".toList "r".toList), .ev (.endPrefixMapping []), .ev (.endPrefixMapping "a".toList), .ev .endDocument], ?_⟩
  decide +kernel

/-- C69 does not hold: an attribute whose name begins with `xmlns` declares the default namespace. -/
theorem C69_violated_xmlnsfoo :
    parse (fresh false) [.start "r".toList [("xmlnsfoo".toList, "u".toList)], .stop "r".toList] = .ok (fresh false) [.ev .startDocument,
      .ev (.startPrefixMapping [] "u".toList), .ev (.startElement "u".toList "r".toList "r".toList []),
      .ev (.endElement "u".toList "r".toList "r".toList), .ev (.endPrefixMapping []), .ev .endDocument] := by decide +kernel

/-- C69 does not hold: declaring `xml` as what it is, as namespaces allow, is an error. -/
theorem C69_violated_xml :
    parse (fresh false) [.start "r".toList [("xmlns:xml".toList, "http://www.w3.org/XML/1998/namespace".toList)], .stop "r".toList] =
      .ok (fresh false) [.ev .startDocument, .error,
      .ev (.startPrefixMapping "xml".toList "http://www.w3.org/XML/1998/namespace".toList),
      .ev (.startElement [] "r".toList "r".toList []), .ev (.endElement [] "r".toList "r".toList), .ev .endDocument] := by decide +kernel

/-- C69 does not hold: after `<r xmlns="u">`, that is not well-formed, the reader puts `<s/>` into the namespace `u`. -/
theorem C69_violated_reuse : ∃ r, parseBroken (fresh false) [.start "r".toList [("xmlns".toList, "u".toList)]] = .ok r [.ev .startDocument,
      .ev (.startPrefixMapping [] "u".toList), .ev (.startElement "u".toList "r".toList "r".toList []), .fatal, .ev .endDocument] ∧
    parse r (itemsCallbacks [.element "s".toList [] []]) = .ok r [.ev .startDocument,
      .ev (.startElement "u".toList "s".toList "s".toList []), .ev (.endElement "u".toList "s".toList "s".toList),
      .ev (.endPrefixMapping []), .ev .endDocument] :=
  ⟨⟨true, false, [[([], "u".toList)], [(Sax.xmlPrefix, Sax.xmlUri)]], [true]⟩, by decide +kernel, by decide +kernel⟩

end Verif.Props.Expat
