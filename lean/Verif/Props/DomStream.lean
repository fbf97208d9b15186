import Verif.Lemmas.DomStream
set_option autoImplicit false
set_option linter.unusedSimpArgs false
/-!
# C34 and C63: writing DOM nodes to a stream
-/
namespace Verif.Props.DomStream
open Verif.DomStream Verif.XmlReader
open Verif.Spec.Xml hiding Str
open Verif.Spec.DomStream

/-- C34 for data with at most one `]]>`: the output reads as CDATA sections whose contents, put together,
are the data, none of them holding `]]>`. -/
theorem C34_partial (s : Str) (h : OnceAtMost s) : ∃ parts : List Str,
    readXml (streamCDATA s) = some (parts.flatMap fun p => .cdataStart :: p.map Tok.char ++ [.cdataEnd]) ∧
    parts.flatten = s ∧ ∀ p ∈ parts, ¬ cdataClose <:+: p := by
  obtain ⟨parts, h1, h2, h3⟩ := streamCDATA_parts s h
  refine ⟨parts, ?_, h2, h3⟩
  unfold readXml
  rw [h1, run_parts parts h3]
  rfl

theorem once_of_check (s : Str)
    (h : ((List.range (s.length + 1)).filter fun k => cdataClose.isPrefixOf (s.drop k)).length ≤ 1) :
    OnceAtMost s := by
  intro a b c hs
  have h1 : a.length ∈ (List.range (s.length + 1)).filter fun k => cdataClose.isPrefixOf (s.drop k) := by
    rw [List.mem_filter, List.mem_range]
    refine ⟨by rw [hs]; simp; omega, List.isPrefixOf_iff_prefix.mpr ⟨b ++ cdataClose ++ c, ?_⟩⟩
    rw [hs, show a ++ cdataClose ++ b ++ cdataClose ++ c = a ++ (cdataClose ++ (b ++ cdataClose ++ c)) by simp,
      List.drop_left]
  have h2 : (a ++ cdataClose ++ b).length ∈ (List.range (s.length + 1)).filter fun k => cdataClose.isPrefixOf (s.drop k) := by
    rw [List.mem_filter, List.mem_range]
    refine ⟨by rw [hs]; simp only [List.length_append]; omega, List.isPrefixOf_iff_prefix.mpr ⟨c, ?_⟩⟩
    rw [hs, show a ++ cdataClose ++ b ++ cdataClose ++ c = (a ++ cdataClose ++ b) ++ (cdataClose ++ c) by simp,
      List.drop_left]
  generalize hL : ((List.range (s.length + 1)).filter fun k => cdataClose.isPrefixOf (s.drop k)) = L at h h1 h2
  match L, h with
  | [], _ => cases h1
  | [x], _ =>
    have e1 := List.mem_singleton.mp h1
    have e2 := List.mem_singleton.mp h2
    simp [cdataClose] at e1 e2
    omega

/-- `a]]>]b`. -/
example : OnceAtMost ['a', ']', ']', '>', ']', 'b'] := once_of_check _ (by decide +kernel)

/-- C34 is false of the code for `a]]>b]]>c`: the second section takes as many characters as the position
of its break, not those up to it, so that characters are written twice and `]]>` in the section ends it
early. -/
theorem C34_violated :
    streamCDATA "a]]>b]]>c".toList = "<![CDATA[a]]]]><![CDATA[>b]]>c]]><![CDATA[>c]]>".toList ∧
    readXml (streamCDATA "a]]>b]]>c".toList) = some
      (.cdataStart :: "a]]".toList.map Tok.char ++ .cdataEnd :: .cdataStart :: ">b".toList.map Tok.char ++
        .cdataEnd :: "c]]>".toList.map Tok.char ++ .cdataStart :: ">c".toList.map Tok.char ++ [.cdataEnd]) := by
  decide +kernel

/-- C63 for nodes in which each namespace has one prefix, different namespaces have different prefixes,
and nothing is in no namespace if one is the default: what is written is read as the same nodes with the
same expanded names.  `sort` is any order the attributes are put in; `anc` are the namespaces and prefixes
of the ancestors of the node. -/
theorem C63_partial (pf : Str → Str) (hx : Prefixes pf) (sort : List Att → List Att)
    (hsort : ∀ l, (sort l).Perm l) (anc : List (Str × Str)) (hanc : AncOk pf anc) (node : Node)
    (hok : Ok pf node) :
    readDocument (streamNode sort anc node ⟨[], 0⟩).2 = some (expected sort node) := by
  obtain ⟨_, toks, h1, h2, h3⟩ := streamNode_spec hx sort hsort node hok anc ⟨[], 0⟩ hanc ⟨by simp, by simp⟩
  unfold readDocument readXml
  rw [h1]
  have hn : nested toks [] = true := by
    have := h2 [] []
    rw [List.append_nil] at this
    rw [this]; rfl
  have hr := h3 [] [] rfl
  rw [List.append_nil, List.append_nil] at hr
  show (if nested toks [] = true then resolve [] toks else none) = _
  rw [if_pos hn]
  exact hr

/-! ### A document -/

def u : Str := "urn:u".toList
def v : Str := "urn:v".toList

/-- `p` for `u`, `q` for `v`, and some other prefix for everything else. -/
def pf (x : Str) : Str := if x = u then ['p'] else if x = v then ['q'] else 'z' :: 'z' :: x

theorem pf_prefixes : Prefixes pf := by
  refine ⟨?_, ?_⟩
  · intro a b _ _ h
    unfold pf at h
    by_cases ha : a = u <;> by_cases hb : b = u <;> by_cases ha' : a = v <;> by_cases hb' : b = v <;>
      simp_all
  · intro a h
    unfold pf at h
    by_cases ha : a = u <;> by_cases ha' : a = v <;> simp_all

theorem ncname_of (n : Str) (h : (decide (n ≠ []) && n.all fun c => nameChar c && decide (c ≠ ':')) = true) :
    NCName n := by
  simp only [Bool.and_eq_true, decide_eq_true_eq, List.all_eq_true] at h
  exact ⟨h.1, h.2⟩

/-- `<p:a xmlns:p="urn:u" xmlns:q="urn:v" q:x="&lt;" y="1"><b/>...<q:c/></p:a>`, with a declaration
among the attributes. -/
def doc : Node :=
  .document [.comment "top".toList,
    .element u ['p'] ['a'] "p:a".toList
      [⟨v, ['q'], ['x'], "q:x".toList, "<\"".toList⟩, ⟨[], [], [], ['y'], ['1']⟩,
       ⟨"http://www.w3.org/2000/xmlns/".toList, "xmlns".toList, ['p'], "xmlns:p".toList, u⟩]
      [.element [] [] [] ['b'] [] [], .text "1 < 2".toList, .cdata "]]>".toList, .entityRef ['e'],
       .pi ['t'] [], .element v ['q'] ['c'] "q:c".toList [] [.text ['&']]]]

theorem doc_ok : Ok pf doc := by
  have hnd : ∀ w, w ≠ [] → pf w ≠ [] := by
    intro w _; unfold pf; split
    · simp
    · split <;> simp
  have hu : u ≠ [] := by decide +kernel
  have hv : v ≠ [] := by decide +kernel
  have pu : pf u = ['p'] := by decide +kernel
  have pv : pf v = ['q'] := by decide +kernel
  simp only [doc, Ok, OkAll]
  refine ⟨by decide +kernel, ⟨fun h => (hu h).elim, fun _ => ⟨ncname_of _ (by decide +kernel), by rw [pu],
    .inr (ncname_of _ (by decide +kernel))⟩, ?_, by decide +kernel, ?_⟩, trivial⟩
  · intro a ha
    simp only [List.mem_cons, List.not_mem_nil, or_false] at ha
    rcases ha with rfl | rfl | rfl
    · exact .inr (.inr ⟨hv, by decide +kernel, ncname_of _ (by decide +kernel), by rw [pv],
        by rw [pv]; exact ncname_of _ (by decide +kernel)⟩)
    · exact .inr (.inl ⟨rfl, ncname_of _ (by decide +kernel)⟩)
    · exact .inl (by decide +kernel)
  · refine ⟨⟨fun _ => ⟨ncname_of _ (by decide +kernel), hnd⟩, fun h => (h rfl).elim, by simp, by simp, trivial⟩,
      trivial, once_of_check _ (by decide +kernel), ⟨ncname_of _ (by decide +kernel), by decide +kernel⟩,
      ⟨ncname_of _ (by decide +kernel), by decide +kernel, by simp⟩,
      ⟨fun h => (hv h).elim, fun _ => ⟨ncname_of _ (by decide +kernel), by rw [pv],
        .inr (ncname_of _ (by decide +kernel))⟩, by simp, by simp, trivial, trivial⟩, trivial⟩

example : readDocument (streamNode id [] doc ⟨[], 0⟩).2 = some (expected id doc) :=
  C63_partial pf pf_prefixes id (fun _ => List.Perm.refl _) [] (by intro e he; cases he) doc doc_ok

/-! ### What goes wrong otherwise -/

/-- C63 is false of the code for an element without namespace inside one of a default namespace: nothing
undoes the default, and it is read as being in that namespace. -/
theorem C63_violated_none :
    let node := Node.element u [] ['a'] ['a'] [] [.element [] [] [] ['b'] [] []]
    readDocument (streamNode id [] node ⟨[], 0⟩).2 =
      some [.open' (u, ['a']) [], .open' (u, ['b']) [], .close (u, ['b']), .close (u, ['a'])] ∧
    expected id node = [.open' (u, ['a']) [], .open' ([], ['b']) [], .close ([], ['b']), .close (u, ['a'])] := by
  constructor <;> rfl

/-- Nor is it true for an attribute in the namespace that is the default: it is written without prefix,
which for an attribute means no namespace. -/
theorem C63_violated_attribute :
    let node := Node.element u [] ['a'] ['a'] [⟨u, ['p'], ['x'], "p:x".toList, ['1']⟩] []
    readDocument (streamNode id [] node ⟨[], 0⟩).2 =
      some [.open' (u, ['a']) [(([], ['x']), ['1'])], .close (u, ['a'])] ∧
    expected id node = [.open' (u, ['a']) [((u, ['x']), ['1'])], .close (u, ['a'])] := by
  constructor <;> rfl

/-- Nor for a prefix that stands for another namespace further in: the outer namespace counts as declared
though its prefix is hidden. -/
theorem C63_violated_hidden :
    let node := Node.element u ['p'] ['a'] "p:a".toList []
      [.element v ['p'] ['b'] "p:b".toList [] [.element u ['p'] ['c'] "p:c".toList [] []]]
    readDocument (streamNode id [] node ⟨[], 0⟩).2 =
      some [.open' (u, ['a']) [], .open' (v, ['b']) [], .open' (v, ['c']) [], .close (v, ['c']),
        .close (v, ['b']), .close (u, ['a'])] := by
  rfl

/-- Nor for an element and an attribute with one prefix for two namespaces: the prefix is declared twice
in one tag, and the output is not well-formed. -/
theorem C63_violated_twice :
    let node := Node.element u ['p'] ['a'] "p:a".toList [⟨v, ['p'], ['x'], "p:x".toList, ['1']⟩] []
    (streamNode id [] node ⟨[], 0⟩).2 = "<p:a p:x=\"1\" xmlns:p=\"urn:u\" xmlns:p=\"urn:v\"/>".toList ∧
    readDocument (streamNode id [] node ⟨[], 0⟩).2 = none := by
  constructor <;> decide +kernel

/-- Nor for a prefix like those the code makes up. -/
theorem C63_violated_generated :
    let node := Node.element u "a0".toList ['a'] "a0:a".toList [⟨v, [], ['x'], ['x'], ['1']⟩] []
    (streamNode id [] node ⟨[], 0⟩).2 = "<a0:a a0:x=\"1\" xmlns:a0=\"urn:u\" xmlns:a0=\"urn:v\"/>".toList ∧
    readDocument (streamNode id [] node ⟨[], 0⟩).2 = none := by
  constructor <;> decide +kernel

end Verif.Props.DomStream
