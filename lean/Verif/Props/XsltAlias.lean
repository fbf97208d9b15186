import Verif.Lemmas.XsltAlias
set_option autoImplicit false
/-!
# C89: namespace aliases
-/
namespace Verif.Props.XsltAlias
open Verif.XsltAlias
open Verif.Xslt (Instr Instrs transform)
open Verif.Spec.XsltAlias hiding Str xslt

/-- What an element made comes to: expanded names and values. -/
def names (x : Made × List (Made × Str)) : Result := ⟨x.1.uri, x.1.loc, x.2.map fun a => (a.1.uri, a.1.loc, a.2)⟩

/-- What the specification gives for a literal result element. -/
def expected : List Alias × Item → Option Result
  | (as, .literal u l _ ats) => some (result as u l ats)
  | (_, .alias ..) => none

theorem run_literals {as : List Alias} {is : List Item} {ls : List (List Alias × Item)} (h : Literals as is ls) :
    ∀ c : Ctx, Knows c.remap as → (∀ i ∈ is, PrefixNamed i) → (∀ p ∈ ls, Fine p.1 p.2) →
    ∃ es, compile c is = some es ∧ es.map (fun e => (make e).map names) = ls.map expected := by
  induction h with
  | nil as => intro c _ _ _; exact ⟨[], rfl, rfl⟩
  | alias as a i is ls hd _ ih =>
    intro c hk hp hf
    cases i with
    | literal u l q ats => exact hd.elim
    | alias sc sp rp =>
      obtain ⟨es, h1, h2⟩ := ih { c with remap := (a.stylesheet, orDefault rp, a.result) :: c.remap }
        (knows_declared hk hd (hp _ List.mem_cons_self)) (fun i hi => hp i (List.mem_cons_of_mem _ hi)) hf
      refine ⟨es, ?_, h2⟩
      rw [compile, declare_alias hd]
      exact h1
  | literal as u l q ats is ls _ ih =>
    intro c hk hp hf
    obtain ⟨h1, e, r, h2, h3⟩ := make_inline hk (hf _ List.mem_cons_self)
    obtain ⟨es, h4, h5⟩ := ih (inlineElement c u l q ats).1 (by rw [h1]; exact hk)
      (fun i hi => hp i (List.mem_cons_of_mem _ hi)) (fun p hp => hf p (List.mem_cons_of_mem _ hp))
    refine ⟨(inlineElement c u l q ats).2 :: es, ?_, ?_⟩
    · rw [compile]
      simp only [h4, Option.map_some]
    · simp only [List.map_cons, h2, Option.map_some, h5, expected]
      rw [← h3]
      rfl

/-- Each literal result element, with its attributes, has in the result the local names it has in the
stylesheet, in the namespaces that the last aliases declared before it give, and the values.

Partial: aliases declared after an element do not hold for it (`C89_violated_order`); an element whose
namespace has an alias by `#default` cannot be made (`C89_violated_default`), nor an attribute put into no
namespace so (`C89_violated_none`). -/
theorem C89_partial (is : List Item) (ls : List (List Alias × Item)) (h : Literals [] is ls)
    (hp : ∀ i ∈ is, PrefixNamed i) (hf : ∀ p ∈ ls, Fine p.1 p.2) :
    ∃ es, compile {} is = some es ∧ es.map (fun e => (make e).map names) = ls.map expected :=
  run_literals h {} knows_nil hp hf

theorem literals_after {as : List Alias} : ∀ (ds : List Item) (bs : List Alias) (ts : List Item),
    ds.length = bs.length → (∀ x ∈ ds.zip bs, Declares x.1 x.2) → (∀ t ∈ ts, ∃ u l q ats, t = .literal u l q ats) →
    Literals as (ds ++ ts) (ts.map fun t => (as ++ bs, t)) := by
  intro ds
  induction ds generalizing as with
  | nil =>
    intro bs ts hl _ ht
    rw [List.eq_nil_of_length_eq_zero hl.symm, List.append_nil, List.nil_append]
    induction ts with
    | nil => exact .nil as
    | cons t ts ih =>
      obtain ⟨u, l, q, ats, rfl⟩ := ht t List.mem_cons_self
      exact .literal as u l q ats ts _ (ih fun t h => ht t (List.mem_cons_of_mem _ h))
  | cons d ds ih =>
    intro bs ts hl hd ht
    cases bs with
    | nil => cases hl
    | cons b bs =>
      rw [List.cons_append]
      refine .alias as b d _ _ (hd (d, b) (by simp)) ?_
      have := ih (as := as ++ [b]) bs ts (by simpa using hl) (fun x hx => hd x (by simp [hx])) ht
      simpa using this

/-- In a stylesheet with all its aliases first, each literal result element is made as all of them say. -/
theorem C89_first_partial (ds : List Item) (as : List Alias) (ts : List Item) (hl : ds.length = as.length)
    (hd : ∀ x ∈ ds.zip as, Declares x.1 x.2) (ht : ∀ t ∈ ts, ∃ u l q ats, t = .literal u l q ats)
    (hp : ∀ i ∈ ds, PrefixNamed i) (hf : ∀ t ∈ ts, Fine as t) :
    ∃ es, compile {} (ds ++ ts) = some es ∧
      es.map (fun e => (make e).map names) = ts.map fun t => expected (as, t) := by
  have h := literals_after (as := []) ds as ts hl hd ht
  rw [List.nil_append] at h
  obtain ⟨es, h1, h2⟩ := C89_partial _ _ h (by
      intro i hi
      rcases List.mem_append.1 hi with hi | hi
      · exact hp i hi
      · obtain ⟨u, l, q, ats, rfl⟩ := ht i hi; trivial) (by
      intro p hp
      obtain ⟨t, h1, rfl⟩ := List.mem_map.1 hp
      exact hf t h1)
  refine ⟨es, h1, h2.trans ?_⟩
  rw [List.map_map]
  rfl

/-- A prefix that stands for no namespace. -/
def Undeclared (sc : Scope) (p : Str) : Prop := p ≠ "#default".toList ∧ (p = [] ∨ sc.lookup p = none)

/-- A stylesheet with an alias for a prefix that is not declared is refused, whatever else is in it. -/
theorem C89_refused (is : List Item) (sc : Scope) (sp rp : Str) (h : .alias sc sp rp ∈ is)
    (hu : Undeclared sc sp ∨ Undeclared sc rp) (c : Ctx) : compile c is = none := by
  induction is generalizing c with
  | nil => cases h
  | cons i is ih =>
    rcases List.mem_cons.1 h with h' | h'
    · subst h'
      rw [compile]
      have : declare sc sp rp c = none := by
        have key : ∀ p, Undeclared sc p → p = [] ∨ ((sc.lookup (orDefault p)).isNone = true ∧ orDefault p ≠ []) := by
          intro p ⟨h1, h2⟩
          rw [orDefault, if_neg h1]
          by_cases e : p = []
          · exact .inl e
          · exact .inr ⟨by rw [h2.resolve_left e]; rfl, e⟩
        rw [declare]
        rcases hu with hu | hu
        · rcases key sp hu with k | k
          · rw [if_pos (.inl k)]
          · rw [if_pos k]
            split <;> rfl
        · rcases key rp hu with k | k
          · rw [if_pos (.inr k)]
          · rw [if_pos k]
            split
            · rfl
            · split <;> rfl
      rw [this]
      rfl
    · cases i with
      | alias sc' sp' rp' =>
        rw [compile]
        cases declare sc' sp' rp' c with
        | none => rfl
        | some c' => exact ih h' c'
      | literal u l q ats =>
        rw [compile]
        simp only [ih h', Option.map_none]

/-! ## Example: a stylesheet that makes stylesheets -/

def axsl : Str := "urn:alias".toList
def xslt : Str := Spec.XsltAlias.xslt
def scope : Scope := [("xsl".toList, xslt), ("axsl".toList, axsl), ("d".toList, "urn:x".toList), ([], "urn:d".toList)]
def sheet : List Item :=
  [.alias scope "axsl".toList "xsl".toList, .alias scope "d".toList "#default".toList,
   .literal axsl "template".toList "axsl:template".toList
     [⟨[], "match".toList, "match".toList, "/".toList⟩, ⟨xslt, "version".toList, "xsl:version".toList, "1.0".toList⟩,
      ⟨"urn:x".toList, "id".toList, "d:id".toList, "7".toList⟩],
   .literal [] "p".toList "p".toList []]

def aliases : List Alias := [⟨axsl, xslt, true⟩, ⟨"urn:x".toList, "urn:d".toList, false⟩]

example : (compile {} sheet).map (fun es => es.map (fun e => (make e).map names)) =
    some [some ⟨xslt, "template".toList, [([], "match".toList, "/".toList), ("urn:d".toList, "id".toList, "7".toList)]⟩,
      some ⟨[], "p".toList, []⟩] := by decide +kernel

theorem nc_of {l : Str} (h : ':' ∉ l) (hq : Expat.isQName l = true) : Spec.Xml.NCName (l.map Char.toNat) := by
  rcases (XsltAvailable.isQName_iff l).1 hq with h' | ⟨p, m, e, _⟩
  · exact h'
  · have : ':'.toNat ∈ l.map Char.toNat := by rw [e]; simp
    obtain ⟨c, hc, e⟩ := List.mem_map.1 this
    exact absurd (Char.toNat_inj.1 e ▸ hc) h

example : (∀ x ∈ (sheet.take 2).zip aliases, Declares x.1 x.2) ∧ (∀ i ∈ sheet.take 2, PrefixNamed i) ∧
    ∀ t ∈ sheet.drop 2, Fine aliases t := by
  have n1 : Spec.Xml.NCName ("axsl".toList.map Char.toNat) := nc_of (by decide) (by decide +kernel)
  have n2 : Spec.Xml.NCName ("xsl".toList.map Char.toNat) := nc_of (by decide) (by decide +kernel)
  have n3 : Spec.Xml.NCName ("d".toList.map Char.toNat) := nc_of (by decide) (by decide +kernel)
  have n4 : Spec.Xml.NCName ("template".toList.map Char.toNat) := nc_of (by decide) (by decide +kernel)
  have n5 : Spec.Xml.NCName ("match".toList.map Char.toNat) := nc_of (by decide) (by decide +kernel)
  have n6 : Spec.Xml.NCName ("version".toList.map Char.toNat) := nc_of (by decide) (by decide +kernel)
  have n7 : Spec.Xml.NCName ("id".toList.map Char.toNat) := nc_of (by decide) (by decide +kernel)
  have n8 : Spec.Xml.NCName ("p".toList.map Char.toNat) := nc_of (by decide) (by decide +kernel)
  refine ⟨?_, ?_, ?_⟩
  · intro x hx
    simp only [sheet, aliases, List.take, List.zip, List.zipWith, List.mem_cons, List.not_mem_nil, or_false] at hx
    rcases hx with rfl | rfl
    · exact ⟨by unfold means; rw [if_neg (by decide)]; decide +kernel,
        by unfold means; rw [if_neg (by decide)]; decide +kernel, by decide⟩
    · exact ⟨by unfold means; rw [if_neg (by decide)]; decide +kernel,
        by unfold means; rw [if_pos rfl]; decide +kernel, by decide⟩
  · intro i hi
    simp only [sheet, List.take, List.mem_cons, List.not_mem_nil, or_false] at hi
    rcases hi with rfl | rfl
    · exact .inr n2
    · exact .inl rfl
  · intro t ht
    simp only [sheet, List.drop, List.mem_cons, List.not_mem_nil, or_false] at ht
    rcases ht with rfl | rfl
    · refine ⟨⟨n4, .inr ⟨_, n1, rfl⟩⟩, ?_, ?_⟩
      · intro a ha
        rw [show lastFor aliases axsl = some ⟨axsl, xslt, true⟩ by decide +kernel] at ha
        cases ha; rfl
      · intro t ht
        simp only [List.mem_cons, List.not_mem_nil, or_false] at ht
        rcases ht with rfl | rfl | rfl
        · refine ⟨⟨n5, .inl rfl⟩, fun a ha => ?_⟩
          rw [show lastFor aliases [] = none by decide +kernel] at ha
          cases ha
        · refine ⟨⟨n6, .inr ⟨_, n2, rfl⟩⟩, fun a ha => ?_⟩
          rw [show lastFor aliases xslt = none by decide +kernel] at ha
          cases ha
        · refine ⟨⟨n7, .inr ⟨_, n3, rfl⟩⟩, fun a ha => ?_⟩
          rw [show lastFor aliases "urn:x".toList = some ⟨"urn:x".toList, "urn:d".toList, false⟩ by decide +kernel] at ha
          cases ha
          exact .inr (by decide)
    · refine ⟨⟨n8, .inl rfl⟩, fun a ha => ?_, fun t ht => nomatch ht⟩
      rw [show lastFor aliases [] = none by decide +kernel] at ha
      cases ha

/-! ## What the code does otherwise -/

theorem create_colon (l : Str) : create (':' :: l) = none := by
  rw [create, if_neg]
  rw [XsltAvailable.isQName_iff]
  rintro (h | ⟨p, m, e, hp, _⟩)
  · exact (ncname_colon h).1 (by simp)
  · cases p with
    | nil => obtain ⟨c, t, h, _⟩ := hp; cases h
    | cons c p =>
      rw [List.map_cons, List.cons_append] at e
      obtain ⟨e1, _⟩ := List.cons.inj e
      have hc : Spec.Xml.NCName ([':'].map Char.toNat ++ p) := by rw [List.map_singleton, e1]; exact hp
      obtain ⟨c', t, h, hs, ht⟩ := hc
      have e2 : ':'.toNat = c' := (List.cons.inj h).1
      have : Spec.Xml.NCName ([':'].map Char.toNat) := ⟨c', [], by rw [← e2]; rfl, hs, by simp⟩
      exact (ncname_colon this).1 (by simp)

/-- An element in a namespace with an alias to the default namespace: the stylesheet compiles, and executing
the element throws, because its name begins with a colon. For every element, and any default namespace. -/
theorem C89_violated_default (sc : Scope) (sp u : Str) (hm : means sc sp u) (l q : Str) (ats : List Attr) :
    ∃ e, compile {} [.alias sc sp "#default".toList, .literal u l q ats] = some [e] ∧ make e = none := by
  have hd : Declares (.alias sc sp "#default".toList) ⟨u, (sc.lookup []).getD [], false⟩ :=
    ⟨hm, by unfold means; rw [if_pos rfl], by simp⟩
  rw [compile, declare_alias hd]
  refine ⟨_, rfl, ?_⟩
  have hi : ∀ (ats : List Attr) (c : Ctx), (inlineAtts c ats).1.remap = c.remap := by
    intro ats
    induction ats with
    | nil => intro c; rfl
    | cons a ats ih =>
      intro c
      rw [inlineAtts]
      split
      · exact ih c
      · split
        · exact ih c
        · split
          · exact ih c
          · split
            · exact ih _
            · exact ih c
  simp only [inlineElement, hi, List.lookup_cons, beq_self_eq_true, make, makeName, orDefault, if_true,
    List.nil_append, create_colon, Option.bind_none]

/-- An attribute in a namespace with an alias to no namespace. -/
theorem C89_violated_none : ∃ e,
    compile {} [.alias [("d".toList, "urn:x".toList)] "d".toList "#default".toList,
      .literal [] "p".toList "p".toList [⟨"urn:x".toList, "id".toList, "d:id".toList, "7".toList⟩]] = some [e] ∧
    make e = none :=
  ⟨_, rfl, by decide +kernel⟩

/-- An alias declared after an element does not hold for it. In XSLT the order of declarations makes no
difference. -/
theorem C89_violated_order : ∃ e,
    compile {} [.literal axsl "if".toList "axsl:if".toList [], .alias scope "axsl".toList "xsl".toList] = some [e] ∧
    (make e).map names = some ⟨axsl, "if".toList, []⟩ :=
  ⟨_, rfl, by decide +kernel⟩

/-- The instructions a literal result element without attributes in a namespace executes, with more in it. -/
def instructions (x : Made × List (Made × Str)) (more : Instrs) : Instr :=
  .element x.1.prefix x.1.loc x.1.uri
    (x.2.foldr (fun a r => .cons (.attr a.1.prefix a.1.loc a.1.uri (.cons (.text a.2) .nil)) r) more)

/-- The compiler makes up the same prefixes as the output does. A literal attribute with an alias to the default
namespace, and an `xsl:attribute` in another namespace: both have the prefix `auto-ns1`, which is declared once,
for the second. -/
theorem C89_violated_clash : ∃ e x,
    compile {} [.alias scope "d".toList "#default".toList,
      .literal [] "p".toList "p".toList [⟨"urn:x".toList, "id".toList, "d:id".toList, "7".toList⟩]] = some [e] ∧
    make e = some x ∧
    transform [] (.cons (instructions x (.cons (.attr [] "y".toList "urn:y".toList .nil) .nil)) .nil) =
      [.startElement ([], "p".toList) []
        [⟨"urn:d".toList, "id".toList, ("auto-ns1".toList, "id".toList), "7".toList⟩,
         ⟨"urn:y".toList, "y".toList, ("auto-ns1".toList, "y".toList), []⟩,
         ⟨Xslt.xmlnsUri, "auto-ns1".toList, (Xslt.strXmlns, "auto-ns1".toList), "urn:y".toList⟩],
       .endElement ([], "p".toList) []] :=
  ⟨_, _, rfl, rfl, by decide +kernel⟩

end Verif.Props.XsltAlias
