import Verif.Lemmas.DtdRead
set_option autoImplicit false
/-!
# C92, C93: declarations of a document type
-/
namespace Verif.Props.Dtd
open Verif.Dtd
open Verif.Spec.Dtd hiding Str

/-! ## What the reader reports -/

/-- An element declaration is reported with its name and the text of its content model: one that the grammar of
XML 1.0 derives from the model.

Partial: not for mixed content with elements (`C92_violated_mixed`). -/
theorem C92_partial (n : Str) (m : Model) (h : m.Fine) :
    ∃ s, elementDeclaration n m.expat = .elementDecl n s ∧ Derives m s :=
  ⟨_, rfl, derives_convert h⟩

/-- The text tells what the model is: the grammar derives it from one model only. -/
theorem C92_unique (m m' : Model) (s : Str) (h : Derives m s) (h' : Derives m' s) : m = m' := by
  rcases derives_head h with ⟨rfl, rfl⟩ | ⟨rfl, rfl⟩ | ⟨ns, b, x, rfl, rfl⟩ | ⟨p, c, x, rfl, hp, rfl, hc⟩
  · rcases derives_head h' with ⟨rfl, e⟩ | ⟨rfl, e⟩ | ⟨_, _, _, rfl, e⟩ | ⟨_, _, _, rfl, _, e, _⟩
    · rfl
    · exact absurd e (by decide +kernel)
    · rw [show kw "EMPTY" = ['E', 'M', 'P', 'T', 'Y'] by decide +kernel] at e; cases e
    · rw [show kw "EMPTY" = ['E', 'M', 'P', 'T', 'Y'] by decide +kernel] at e; cases e
  · rcases derives_head h' with ⟨rfl, e⟩ | ⟨rfl, e⟩ | ⟨_, _, _, rfl, e⟩ | ⟨_, _, _, rfl, _, e, _⟩
    · exact absurd e (by decide +kernel)
    · rfl
    · rw [show kw "ANY" = ['A', 'N', 'Y'] by decide +kernel] at e; cases e
    · rw [show kw "ANY" = ['A', 'N', 'Y'] by decide +kernel] at e; cases e
  · rcases derives_head h' with ⟨rfl, e⟩ | ⟨rfl, e⟩ | ⟨ns', b', _, rfl, e⟩ | ⟨_, _, _, rfl, _, e, hc⟩
    · rw [show kw "EMPTY" = ['E', 'M', 'P', 'T', 'Y'] by decide +kernel] at e; cases e
    · rw [show kw "ANY" = ['A', 'N', 'Y'] by decide +kernel] at e; cases e
    · have e1 : kw "(#PCDATA)" = kw "(#PCDATA" ++ [')'] := by decide +kernel
      have e2 : kw "(#PCDATA)*" = kw "(#PCDATA" ++ [')', '*'] := by decide +kernel
      have e3 : kw "(#PCDATA|" = kw "(#PCDATA" ++ ['|'] := by decide +kernel
      have e4 : kw ")*" = [')', '*'] := by decide +kernel
      generalize hs : '(' :: '#' :: x = s at h h'
      clear e
      cases h with
      | pcdata =>
        generalize ht : kw "(#PCDATA)" = t at h'
        rw [e1] at ht
        cases h' with
        | pcdata => rfl
        | pcdataStar => rw [e2, List.append_cancel_left_eq] at ht; cases ht
        | mixed n ns _ => rw [e3, List.append_assoc, List.append_assoc, List.append_cancel_left_eq] at ht; cases ht
      | pcdataStar =>
        generalize ht : kw "(#PCDATA)*" = t at h'
        rw [e2] at ht
        cases h' with
        | pcdata => rw [e1, List.append_cancel_left_eq] at ht; cases ht
        | pcdataStar => rfl
        | mixed n ns _ => rw [e3, List.append_assoc, List.append_assoc, List.append_cancel_left_eq] at ht; cases ht
      | mixed n ns hn =>
        generalize ht : kw "(#PCDATA|" ++ joined '|' (n :: ns) ++ kw ")*" = t at h'
        rw [e3, List.append_assoc, List.append_assoc] at ht
        cases h' with
        | pcdata => rw [e1, List.append_cancel_left_eq] at ht; cases ht
        | pcdataStar => rw [e2, List.append_cancel_left_eq] at ht; cases ht
        | mixed n' ns' hn' =>
          rw [e3, List.append_assoc, List.append_assoc, List.append_cancel_left_eq, List.append_cancel_left_eq, e4] at ht
          have inj : ∀ {xs ys : List Spec.Dtd.Str}, (xs.map fun n => Particle.name n .none) = (ys.map fun n => Particle.name n .none) →
              xs = ys := by
            intro xs
            induction xs with
            | nil => intro ys h; cases ys with
              | nil => rfl
              | cons y ys => cases h
            | cons x xs ih => intro ys h; cases ys with
              | nil => cases h
              | cons y ys =>
                simp only [List.map_cons, List.cons.injEq, Particle.name.injEq, and_true] at h
                rw [h.1, ih h.2]
          obtain ⟨k, _, _⟩ := cps_unique (N := (joined '|' (n :: ns)).length + 1)
            (fun hl => cp_unique _ hl) (.inl rfl) (.inl rfl) (by simp) (by simp) (names_cps hn) (names_cps hn')
            (Nat.lt_succ_self _) ht
          rw [inj k]
    · cases e
      exact absurd rfl hc
  · rcases derives_head h' with ⟨rfl, e⟩ | ⟨rfl, e⟩ | ⟨_, _, _, rfl, e⟩ | ⟨p', _, _, rfl, hp', e, _⟩
    · rw [show kw "EMPTY" = ['E', 'M', 'P', 'T', 'Y'] by decide +kernel] at e; cases e
    · rw [show kw "ANY" = ['A', 'N', 'Y'] by decide +kernel] at e; cases e
    · cases e
      exact absurd rfl hc
    · rw [particle_unique hp hp']

/-- Violated: mixed content with elements is reported without the bar between `#PCDATA` and the first of them, so
whatever the names are the text is not that of any content model. -/
theorem C92_violated_mixed (e n : Str) (ns : List Str) (h : ∀ x ∈ n :: ns, Name x) :
    elementDeclaration e (Model.mixed (n :: ns) true).expat =
      .elementDecl e (kw "(#PCDATA" ++ joined '|' (n :: ns) ++ kw ")*") ∧
    ∀ m, ¬ Derives m (kw "(#PCDATA" ++ joined '|' (n :: ns) ++ kw ")*") := by
  have e1 : kw "(#PCDATA)" = kw "(#PCDATA" ++ [')'] := by decide +kernel
  have e2 : kw "(#PCDATA)*" = kw "(#PCDATA" ++ [')', '*'] := by decide +kernel
  have e3 : kw "(#PCDATA|" = kw "(#PCDATA" ++ ['|'] := by decide +kernel
  have e4 : kw ")*" = [')', '*'] := by decide +kernel
  have e5 : kw "(#PCDATA" = '(' :: '#' :: kw "PCDATA" := by decide +kernel
  constructor
  · have hm : ∀ xs : List Str, (xs.map fun n => Content.mk .name .none n []).map (convert true) = xs := by
      intro xs
      induction xs with
      | nil => rfl
      | cons x xs ih =>
        rw [List.map_cons, List.map_cons, ih]
        congr 1
        simp [convert, opening, quantText]
    rw [elementDeclaration, Model.expat, convert, all_joined, hm, e4]
    simp [opening, concatenator, quantText]
  · intro m hd
    obtain ⟨c, x, hx, hc⟩ : ∃ c x, joined '|' (n :: ns) = c :: x ∧ c ≠ ')' ∧ c ≠ '|' := by
      have hn := h n List.mem_cons_self
      cases n with
      | nil => exact absurd rfl hn.1
      | cons c n =>
        refine ⟨c, n ++ (ns.flatMap fun x => '|' :: x), by rw [joined_cons]; rfl, ?_, ?_⟩
        · rintro rfl; exact hn.2 _ List.mem_cons_self (by simp)
        · rintro rfl; exact hn.2 _ List.mem_cons_self (by simp)
    rw [hx] at hd
    rcases derives_head hd with ⟨rfl, k⟩ | ⟨rfl, k⟩ | ⟨ns', b, y, rfl, k⟩ | ⟨_, c', y, rfl, _, k, hc'⟩
    · rw [e5, show kw "EMPTY" = ['E', 'M', 'P', 'T', 'Y'] by decide +kernel] at k; cases k
    · rw [e5, show kw "ANY" = ['A', 'N', 'Y'] by decide +kernel] at k; cases k
    · generalize ht : kw "(#PCDATA" ++ (c :: x) ++ kw ")*" = t at hd
      rw [List.append_assoc, List.cons_append] at ht
      cases hd with
      | pcdata => rw [e1, List.append_cancel_left_eq] at ht; injection ht with k1 k2; exact hc.1 k1
      | pcdataStar => rw [e2, List.append_cancel_left_eq] at ht; injection ht with k1 k2; exact hc.1 k1
      | mixed n' ns'' hn' =>
        rw [e3, List.append_assoc, List.append_assoc, List.append_cancel_left_eq, List.cons_append] at ht
        injection ht with k1 k2
        exact hc.2 k1
    · rw [e5] at k
      cases k
      exact hc' rfl

/-- An attribute declaration is reported as SAX says, if the default is `#IMPLIED`, `#REQUIRED` or `#FIXED`.

Partial: not if it is a value alone (`C92_violated_default`). -/
theorem C92_attribute_partial (e a t : Str) (d : Default) (h : ∀ v, d ≠ .value v) :
    attListDeclaration e a t d.expat.1 d.expat.2 = sax (.attlist e a t d) := by
  cases d with
  | value v => exact absurd rfl (h v)
  | _ => rfl

/-- Violated: a default value alone is reported as `#IMPLIED`, with the value. -/
theorem C92_violated_default (e a t v : Str) :
    attListDeclaration e a t (Default.value v).expat.1 (Default.value v).expat.2 =
      .attributeDecl e a t (kw "#IMPLIED") v ∧
    attListDeclaration e a t (Default.value v).expat.1 (Default.value v).expat.2 ≠ sax (.attlist e a t (.value v)) := by
  refine ⟨rfl, fun k => ?_⟩
  have : (Event.attributeDecl e a t (kw "#IMPLIED") v) = .attributeDecl e a t [] v := k
  simp only [Event.attributeDecl.injEq] at this
  exact absurd this.2.2.2.1 (by decide +kernel)

/-- Entities are reported as SAX says: internal ones with their value, external ones with their identifiers,
unparsed ones with their notation also.

Partial: not parameter entities (`C92_violated_parameter`). -/
theorem C92_entity_partial (n v no : Str) (e : External) :
    entityDeclaration n false (some v) none none none = sax (.internal false n v) ∧
    entityDeclaration n false none e.expat.1 e.expat.2 none = sax (.external false n e) ∧
    entityDeclaration n false none e.expat.1 e.expat.2 (some no) = sax (.unparsed n e no) ∧
    notationDeclaration n e.expat.1 e.expat.2 = sax (.notation_ n e) ∧
    notationDeclaration n none (some v) = sax (.publicNotation n v) := by
  cases e <;> exact ⟨rfl, rfl, rfl, rfl, rfl⟩

/-- Violated: a parameter entity is reported as the general entity of its name is. -/
theorem C92_violated_parameter (n : Str) (value sys pub no : Option Str) :
    entityDeclaration n true value sys pub no = entityDeclaration n false value sys pub no ∧
    ∀ v, entityDeclaration n true (some v) none none none ≠ sax (.internal true n v) := by
  refine ⟨rfl, fun v k => ?_⟩
  have : Event.internalEntityDecl n v = .internalEntityDecl ('%' :: n) v := k
  simp only [Event.internalEntityDecl.injEq, and_true] at this
  have := congrArg List.length this
  simp at this

/-! ## What the writer writes -/

/-- A document type whose declarations are reported to the writer as SAX says reads back from what is written: its
name, its external identifier, and all its declarations in their order, and none that are of the external subset.
The writer is then as it was, outside a document type.

Partial: without parameter entities (`C93_violated_parameter`), empty default values and identifiers
(`C93_violated_empty`), and values with double quotes or with markup (`C93_violated_quote`). -/
theorem C93_partial (w : Writer) (hw : w.internalSubset = true) (n : Str) (hn : Word n) (e : Option External)
    (he : ∀ x, e = some x → x.Fine) (is : List Item) (h : ∀ i ∈ is, i.Fine) (ho : ∀ i ∈ is, ∀ d ∈ i.own, d.Fine) :
    ∃ s, writeDtd w n (e.elim [] External.publicId) (e.elim [] External.systemId) (is.flatMap Item.events) =
        ({ w with inDTD := false }, s) ∧
      readDoctype s = some (n, e, is.flatMap Item.own) := by
  have hi := write_items (w := { w with inDTD := true, depth := w.depth + w.indent }) rfl hw is h
  obtain ⟨ss, h1, h2⟩ := read_declarations { w with inDTD := true, depth := w.depth + w.indent } (is.flatMap Item.own)
    (fun d hd => by
      obtain ⟨i, hi, hd⟩ := List.mem_flatMap.1 hd
      exact ho i hi d hd)
  refine ⟨(kw "<!DOCTYPE " ++ n ++ publicAndSystem (e.elim [] External.publicId) (e.elim [] External.systemId) ++
      kw " [\n") ++ ((is.flatMap Item.own).flatMap fun d =>
        doIndent { w with inDTD := true, depth := w.depth + w.indent } ++ declaration (sax d)) ++ kw "]>\n", ?_, ?_⟩
  · simp only [writeDtd, startDTD, hi, endDTD, Nat.add_sub_cancel]
  · have hs := doctype_start hn he (((is.flatMap Item.own).flatMap fun d =>
        doIndent { w with inDTD := true, depth := w.depth + w.indent } ++ declaration (sax d)) ++ kw "]>\n")
    rw [h1] at hs
    rw [List.append_assoc, read_doctype hs, h2]
    rfl

/-- The texts of content models that are reported can be written. -/
theorem C93_models (n : Str) (hn : Word n) (m : Model) (h : m.Fine) :
    ∃ s, elementDeclaration n m.expat = sax (.element n s) ∧ (Declared.element n s).Fine ∧ Derives m s :=
  ⟨_, rfl, ⟨hn, word_model h⟩, derives_convert h⟩

/-- What is read back of a document type with one declaration that nothing reads. -/
theorem unreadable {w : Writer} (hw : w.internalSubset = true) {n : Str} (hn : Word n) {ev : Event} {ts : List Tok}
    (hev : ∀ w' : Writer, write w' ev = (w', if w'.inDTD && w'.internalSubset then doIndent w' ++ declaration ev else []))
    (ht : ts ≠ [.word [']']])
    (h : ∀ x, sentences .between [] (declaration ev ++ x) = (sentences .between [] x).map ((ts, '>') :: ·))
    (hr : readOne ts = none) : readDoctype (writeDtd w n [] [] [ev]).2 = none := by
  obtain ⟨ind, dep, inD, isub⟩ := w
  cases hw
  have e : (writeDtd ⟨ind, dep, inD, true⟩ n [] [] [ev]).2 =
      kw "<!DOCTYPE " ++ n ++ publicAndSystem [] [] ++ kw " [\n" ++
        (List.replicate (dep + ind) ' ' ++ (declaration ev ++ kw "]>\n")) := by
    simp only [writeDtd, startDTD, writeAll, hev, endDTD, doIndent]
    simp
  have hs := doctype_start (e := none) hn (fun _ h => nomatch h)
    (List.replicate (dep + ind) ' ' ++ (declaration ev ++ kw "]>\n"))
  rw [spaces, h, show sentences .between [] (kw "]>\n") = some [([.word [']']], '>')] by decide +kernel] at hs
  rw [e]
  refine (read_doctype (e := none) (ss := [(ts, '>'), ([.word [']']], '>')]) (n := n) hs).trans ?_
  rw [readAll, if_neg (fun k => ht k.1), if_pos rfl, hr]
  rfl

/-- Violated: a document type that declares an attribute with a default value, reported by the reader and written
by the writer, is not one that can be read, whatever the names and the value are. -/
theorem C93_violated_default (w : Writer) (hw : w.internalSubset = true) (n e a t v : Str) (hn : Word n) (he : Word e)
    (ha : Word a) (ht : Word t) (hv : Literal v) :
    readDoctype (writeDtd w n [] [] [attListDeclaration e a t (some v) false]).2 = none := by
  refine unreadable (ts := [.word (kw "<!ATTLIST"), .word e, .word a, .word t, .word (kw "#IMPLIED"), .lit v]) hw hn
    (fun _ => rfl) (by simp) ?_ ?_
  · intro x
    have : attListDeclaration e a t (some v) false = .attributeDecl e a t (kw "#IMPLIED") v := rfl
    rw [this]
    simp only [declaration, List.append_assoc, List.cons_append]
    rw [if_pos (by decide +kernel), if_pos hv.1]
    rw [attlist_text (t := t) he ha, List.cons_append, word_space ht]
    show sentences _ _ (kw "#IMPLIED" ++ ' ' :: (quoted v ++ (kw ">\n" ++ x))) = _
    rw [word_space word_implied, lit_step hv.2, gt_newline]
    rfl
  · rw [readOne]
    rw [if_neg (by decide +kernel), if_pos rfl]
    show Option.map _ (readDefault [.word (kw "#IMPLIED"), .lit v]) = none
    rw [readDefault, if_neg (by intro k; exact absurd k.1 (by decide +kernel))]
    rfl

/-- Violated: nor is one with a parameter entity, reported as SAX says. -/
theorem C93_violated_parameter (w : Writer) (hw : w.internalSubset = true) (n p v : Str) (hn : Word n) (hp : Word p)
    (hv : '"' ∉ v) : readDoctype (writeDtd w n [] [] [sax (.internal true p v)]).2 = none := by
  have hp' : Word ('%' :: p) := ⟨by simp, fun c hc => by
    rcases List.mem_cons.1 hc with rfl | hc
    · decide
    · exact hp.2 c hc⟩
  refine unreadable (ts := [.word (kw "<!ENTITY"), .word ('%' :: p), .lit v]) hw hn (fun _ => rfl) (by simp) ?_ ?_
  · intro x
    simp only [sax, declaration, startEntityDecl, List.append_assoc, List.cons_append, if_true]
    have := word_space hp' [.word (kw "<!ENTITY")] (quoted v ++ (kw ">\n" ++ x))
    rw [List.cons_append] at this
    rw [kw_entity, word_space word_entity, List.nil_append, this, lit_step hv, gt_newline]
    rfl
  · have hne : ¬ ('%' :: p) = ['%'] := by
      intro k
      cases k
      exact hp.1 rfl
    rw [readOne.eq_def]
    dsimp only
    rw [if_neg (by decide +kernel), if_neg (by decide +kernel), if_pos rfl, if_neg hne,
      if_pos (show ('%' :: p).head? = some '%' from rfl)]

/-- Violated: empty default values and empty system identifiers are left out, and what is left is not a
declaration. -/
theorem C93_violated_empty :
    readDoctype (writeDtd ⟨2, 0, false, true⟩ ['d'] [] [] [sax (.attlist ['e'] ['a'] (kw "CDATA") (.fixed []))]).2 = none ∧
    readDoctype (writeDtd ⟨2, 0, false, true⟩ ['d'] [] [] [sax (.attlist ['e'] ['a'] (kw "CDATA") (.value []))]).2 = none ∧
    readDoctype (writeDtd ⟨2, 0, false, true⟩ ['d'] [] [] [sax (.external false ['e'] (.system []))]).2 = none := by
  decide +kernel

/-- Violated: values are written as they are, with double quotes around them, whatever they have in them. -/
theorem C93_violated_quote :
    readDoctype (writeDtd ⟨2, 0, false, true⟩ ['d'] [] [] [sax (.internal false ['e'] ['"'])]).2 = none ∧
    readDoctype (writeDtd ⟨2, 0, false, true⟩ ['d'] [] []
      [sax (.attlist ['e'] ['a'] (kw "CDATA") (.fixed ['<']))]).2 = none := by
  decide +kernel

/-! ## The hypotheses are met -/

/-- `(a, (b | c)*, d?)` -/
def model : Model := .children (.seq [.name ['a'] .none, .choice [.name ['b'] .none, .name ['c'] .none] .rep,
  .name ['d'] .opt] .none)

theorem model_fine : model.Fine := by
  refine .seq _ _ (.seq _ _ (by decide) ?_)
  intro p hp
  simp only [List.mem_cons, List.not_mem_nil, or_false] at hp
  have nm : ∀ c : Char, c ∉ ['(', ')', ',', '|', '?', '*', '+', '#', ' ', '\n', '\t', '\r', '"', '>', '['] → Name [c] := by
    intro c hc
    refine ⟨by simp, fun d hd => ?_⟩
    rw [List.mem_singleton] at hd
    subst hd
    exact hc
  rcases hp with rfl | rfl | rfl
  · exact .name _ _ (nm 'a' (by decide))
  · refine .choice _ _ (by decide) ?_
    intro p hp
    simp only [List.mem_cons, List.not_mem_nil, or_false] at hp
    rcases hp with rfl | rfl
    · exact .name _ _ (nm 'b' (by decide))
    · exact .name _ _ (nm 'c' (by decide))
  · exact .name _ _ (nm 'd' (by decide))

example : convert false model.expat = kw "(a,(b|c)*,d?)" := by
  rw [show kw "(a,(b|c)*,d?)" = ['(', 'a', ',', '(', 'b', '|', 'c', ')', '*', ',', 'd', '?', ')'] by decide +kernel]
  simp [model, Model.expat, Particle.expat, convert, convertAll, convertMore, opening, concatenator, quantText]

example : ∃ s, elementDeclaration ['e'] model.expat = .elementDecl ['e'] s ∧ Derives model s :=
  C92_partial _ _ model_fine

/-- A document type with declarations of several kinds, one of them in the external subset. -/
def items : List Item := [.declared (.element ['e'] (kw "(a,b)")), .external [.element ['x'] (kw "ANY")],
  .entity ['p'] true, .declared (.attlist ['e'] ['a'] (kw "CDATA") (.fixed ['1'])), .entity ['p'] false,
  .declared (.unparsed ['u'] (.pub ['p'] ['s']) ['n'])]

theorem items_fine : (∀ i ∈ items, i.Fine) ∧ ∀ i ∈ items, ∀ d ∈ i.own, d.Fine := by
  have w1 : ∀ c : Char, white c = false ∧ c ≠ '"' ∧ c ≠ '>' ∧ c ≠ '[' → Word [c] := by
    intro c hc
    refine ⟨by simp, fun d hd => ?_⟩
    rw [List.mem_singleton] at hd
    subst hd
    exact hc
  have f1 : (Declared.element ['e'] (kw "(a,b)")).Fine := ⟨w1 'e' (by decide), ⟨by decide +kernel, by decide +kernel⟩⟩
  have f2 : (Declared.attlist ['e'] ['a'] (kw "CDATA") (.fixed ['1'])).Fine :=
    ⟨w1 'e' (by decide), w1 'a' (by decide), ⟨by decide +kernel, by decide +kernel⟩, ⟨by decide, by decide⟩, by decide⟩
  have f3 : (Declared.unparsed ['u'] (.pub ['p'] ['s']) ['n']).Fine :=
    ⟨w1 'u' (by decide), by decide, ⟨⟨by decide, by decide⟩, ⟨by decide, by decide⟩⟩, w1 'n' (by decide)⟩
  have f4 : ['p'] ≠ kw "[dtd]" := by decide +kernel
  constructor
  · intro i hi
    simp only [items, List.mem_cons, List.not_mem_nil, or_false] at hi
    rcases hi with rfl | rfl | rfl | rfl | rfl | rfl
    · exact f1
    · trivial
    · exact f4
    · exact f2
    · exact f4
    · exact f3
  · intro i hi d hd
    simp only [items, List.mem_cons, List.not_mem_nil, or_false] at hi
    rcases hi with rfl | rfl | rfl | rfl | rfl | rfl <;> simp [Item.own] at hd <;> subst hd <;> assumption

example : ∃ s, writeDtd { indent := 2 } ['d'] [] (kw "d.dtd") (items.flatMap Item.events) = ({ indent := 2 }, s) ∧
    readDoctype s = some (['d'], some (.system (kw "d.dtd")), items.flatMap Item.own) :=
  C93_partial { indent := 2 } rfl ['d'] ⟨by simp, by decide⟩ (some (.system (kw "d.dtd")))
    (by rintro x ⟨⟩; exact ⟨by decide +kernel, by decide +kernel⟩) items items_fine.1 items_fine.2

example : (items.flatMap Item.own).length = 3 := by decide +kernel

end Verif.Props.Dtd
