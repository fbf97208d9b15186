import Verif.Lemmas.Dtd
set_option autoImplicit false
set_option linter.unusedSimpArgs false
set_option linter.unusedVariables false
namespace Verif.Dtd
open Verif.Spec.Dtd hiding Str

/-! ## Tokens -/

theorem white_step {c : Char} (h : white c = true) (ts : List Tok) (x : Str) :
    sentences .between ts (c :: x) = sentences .between ts x := by
  rw [sentences, if_pos h]

theorem stop_step {c : Char} (h : c = '>' ∨ c = '[') (ts : List Tok) (x : Str) :
    sentences .between ts (c :: x) = (sentences .between [] x).map ((ts, c) :: ·) := by
  have h1 : white c ≠ true := by rcases h with rfl | rfl <;> decide
  have h2 : c ≠ '"' := by rcases h with rfl | rfl <;> decide
  rw [sentences, if_neg h1, if_neg h2, if_pos h]

theorem spaces (n : Nat) (ts : List Tok) (x : Str) :
    sentences .between ts (List.replicate n ' ' ++ x) = sentences .between ts x := by
  induction n with
  | zero => rfl
  | succ n ih => rw [List.replicate_succ, List.cons_append, white_step (by decide), ih]

theorem in_word {w : Str} (h : ∀ c ∈ w, white c = false ∧ c ≠ '"' ∧ c ≠ '>' ∧ c ≠ '[') :
    ∀ (a : Str) (ts : List Tok) (x : Str), sentences (.inWord a) ts (w ++ x) = sentences (.inWord (a ++ w)) ts x := by
  induction w with
  | nil => intro a ts x; simp
  | cons c w ih =>
    intro a ts x
    obtain ⟨h1, h2, h3, h4⟩ := h c List.mem_cons_self
    rw [List.cons_append, sentences, if_neg (by rw [h1]; decide), if_neg h2,
      if_neg (fun k => k.elim h3 h4), ih fun x hx => h x (List.mem_cons_of_mem _ hx)]
    simp

theorem between_word {w : Str} (h : Word w) (ts : List Tok) (x : Str) :
    sentences .between ts (w ++ x) = sentences (.inWord w) ts x := by
  obtain ⟨hn, h⟩ := h
  cases w with
  | nil => exact absurd rfl hn
  | cons c w =>
    obtain ⟨h1, h2, h3, h4⟩ := h c List.mem_cons_self
    rw [List.cons_append, sentences, if_neg (by rw [h1]; decide), if_neg h2,
      if_neg (fun k => k.elim h3 h4), in_word fun x hx => h x (List.mem_cons_of_mem _ hx)]
    rfl

theorem word_space {w : Str} (h : Word w) (ts : List Tok) (x : Str) :
    sentences .between ts (w ++ ' ' :: x) = sentences .between (ts ++ [.word w]) x := by
  rw [between_word h, sentences, if_pos (by decide)]

theorem word_stop {w : Str} (h : Word w) (ts : List Tok) (x : Str) :
    sentences .between ts (w ++ '>' :: x) = (sentences .between [] x).map ((ts ++ [.word w], '>') :: ·) := by
  rw [between_word h, sentences, if_neg (by decide), if_neg (by decide), if_pos (.inl rfl)]

theorem in_lit {l : Str} (h : '"' ∉ l) : ∀ (a : Str) (ts : List Tok) (x : Str),
    sentences (.inLit a) ts (l ++ '"' :: x) = sentences .between (ts ++ [.lit (a ++ l)]) x := by
  induction l with
  | nil => intro a ts x; rw [List.nil_append, sentences, if_pos rfl, List.append_nil]
  | cons c l ih =>
    intro a ts x
    rw [List.mem_cons, not_or] at h
    rw [List.cons_append, sentences, if_neg (fun e => h.1 e.symm), ih h.2]
    simp

theorem lit_step {l : Str} (h : '"' ∉ l) (ts : List Tok) (x : Str) :
    sentences .between ts (quoted l ++ x) = sentences .between (ts ++ [.lit l]) x := by
  have : quoted l ++ x = '"' :: (l ++ '"' :: x) := by simp [quoted]
  rw [this, sentences, if_neg (by decide), if_pos rfl, in_lit h]
  rfl

theorem gt_newline (ts : List Tok) (x : Str) :
    sentences .between ts ((kw ">\n") ++ x) = (sentences .between [] x).map ((ts, '>') :: ·) := by
  have : (kw ">\n") ++ x = '>' :: '\n' :: x := by rw [show kw ">\n" = ['>', '\n'] by decide +kernel]; rfl
  rw [this, stop_step (.inl rfl), white_step (by decide)]

theorem word_gt {w : Str} (h : Word w) (ts : List Tok) (x : Str) :
    sentences .between ts (w ++ ((kw ">\n") ++ x)) = (sentences .between [] x).map ((ts ++ [.word w], '>') :: ·) := by
  have : (kw ">\n") ++ x = '>' :: '\n' :: x := by rw [show kw ">\n" = ['>', '\n'] by decide +kernel]; rfl
  rw [this, word_stop h, white_step (by decide)]

/-- The tokens of an external identifier. -/
def extToks : External → List Tok
  | .system s => [.word (kw "SYSTEM"), .lit s]
  | .pub p s => [.word (kw "PUBLIC"), .lit p, .lit s]

theorem word_system : Word (kw "SYSTEM") := ⟨by decide +kernel, by decide +kernel⟩
theorem word_public : Word (kw "PUBLIC") := ⟨by decide +kernel, by decide +kernel⟩

theorem ext_text {e : External} (h : e.Fine) (ts : List Tok) (x : Str) :
    ∃ y, publicAndSystem e.publicId e.systemId ++ x = ' ' :: y ∧
      sentences .between ts y = sentences .between (ts ++ extToks e) x := by
  cases e with
  | system s =>
    obtain ⟨h1, h2⟩ := h
    refine ⟨(kw "SYSTEM") ++ ' ' :: (quoted s ++ x), ?_, ?_⟩
    · show publicAndSystem [] s ++ x = _
      rw [publicAndSystem, if_neg (by simp), if_pos h1, if_pos rfl]
      simp
    · rw [word_space word_system, lit_step h2, extToks]
      simp
  | pub p s =>
    obtain ⟨⟨h1, h2⟩, h3, h4⟩ := h
    refine ⟨(kw "PUBLIC") ++ ' ' :: (quoted p ++ ' ' :: (quoted s ++ x)), ?_, ?_⟩
    · show publicAndSystem p s ++ x = _
      rw [publicAndSystem, if_pos h1, if_pos h3, if_neg h1]
      have : (kw "PUBLIC ") = (kw "PUBLIC") ++ [' '] := by decide +kernel
      rw [this]
      simp
    · rw [word_space word_public, lit_step h2, white_step (by decide), lit_step h4, extToks]
      simp

theorem name_ext {n : Str} (hn : Word n) {e : External} (h : e.Fine) (ts : List Tok) (x : Str) :
    sentences .between ts (n ++ (publicAndSystem e.publicId e.systemId ++ x)) =
      sentences .between (ts ++ .word n :: extToks e) x := by
  obtain ⟨y, h1, h2⟩ := ext_text h (ts ++ [.word n]) x
  rw [h1, word_space hn, h2]
  simp

theorem read_ext (e : External) (ts : List Tok) : readExternal (extToks e ++ ts) = some (e, ts) := by
  cases e with
  | system s =>
    rw [extToks, List.cons_append, List.cons_append, List.nil_append, readExternal.eq_def]
    dsimp only
    rw [if_pos rfl]
  | pub p s =>
    rw [extToks, List.cons_append, List.cons_append, List.cons_append, List.nil_append, readExternal,
      if_neg (by decide +kernel), if_pos rfl]

/-! ## Declarations -/

def defToks : Default → List Tok
  | .implied => [.word (kw "#IMPLIED")]
  | .required => [.word (kw "#REQUIRED")]
  | .fixed v => [.word (kw "#FIXED"), .lit v]
  | .value v => [.lit v]

/-- The tokens of a declaration. -/
def toks : Declared → List Tok
  | .element n m => [.word (kw "<!ELEMENT"), .word n, .word m]
  | .attlist e a t d => .word (kw "<!ATTLIST") :: .word e :: .word a :: .word t :: defToks d
  | .internal _ n v => [.word (kw "<!ENTITY"), .word n, .lit v]
  | .external _ n e => .word (kw "<!ENTITY") :: .word n :: extToks e
  | .unparsed n e no => .word (kw "<!ENTITY") :: .word n :: extToks e ++ [.word (kw "NDATA"), .word no]
  | .notation_ n e => .word (kw "<!NOTATION") :: .word n :: extToks e
  | .publicNotation n p => [.word (kw "<!NOTATION"), .word n, .word (kw "PUBLIC"), .lit p]

theorem word_element : Word (kw "<!ELEMENT") := ⟨by decide +kernel, by decide +kernel⟩
theorem word_attlist : Word (kw "<!ATTLIST") := ⟨by decide +kernel, by decide +kernel⟩
theorem word_entity : Word (kw "<!ENTITY") := ⟨by decide +kernel, by decide +kernel⟩
theorem word_notation : Word (kw "<!NOTATION") := ⟨by decide +kernel, by decide +kernel⟩
theorem word_doctype : Word (kw "<!DOCTYPE") := ⟨by decide +kernel, by decide +kernel⟩
theorem word_ndata : Word (kw "NDATA") := ⟨by decide +kernel, by decide +kernel⟩
theorem word_implied : Word (kw "#IMPLIED") := ⟨by decide +kernel, by decide +kernel⟩
theorem word_required : Word (kw "#REQUIRED") := ⟨by decide +kernel, by decide +kernel⟩
theorem word_fixed : Word (kw "#FIXED") := ⟨by decide +kernel, by decide +kernel⟩

theorem kw_element (x : Str) : (kw "<!ELEMENT ") ++ x = (kw "<!ELEMENT") ++ ' ' :: x := by
  rw [show (kw "<!ELEMENT ") = (kw "<!ELEMENT") ++ [' '] by decide +kernel, List.append_assoc]; rfl
theorem kw_attlist (x : Str) : (kw "<!ATTLIST ") ++ x = (kw "<!ATTLIST") ++ ' ' :: x := by
  rw [show (kw "<!ATTLIST ") = (kw "<!ATTLIST") ++ [' '] by decide +kernel, List.append_assoc]; rfl
theorem kw_entity (x : Str) : (kw "<!ENTITY ") ++ x = (kw "<!ENTITY") ++ ' ' :: x := by
  rw [show (kw "<!ENTITY ") = (kw "<!ENTITY") ++ [' '] by decide +kernel, List.append_assoc]; rfl
theorem kw_notation (x : Str) : (kw "<!NOTATION ") ++ x = (kw "<!NOTATION") ++ ' ' :: x := by
  rw [show (kw "<!NOTATION ") = (kw "<!NOTATION") ++ [' '] by decide +kernel, List.append_assoc]; rfl
theorem kw_doctype (x : Str) : (kw "<!DOCTYPE ") ++ x = (kw "<!DOCTYPE") ++ ' ' :: x := by
  rw [show (kw "<!DOCTYPE ") = (kw "<!DOCTYPE") ++ [' '] by decide +kernel, List.append_assoc]; rfl
theorem kw_ndata (x : Str) : (kw " NDATA ") ++ x = ' ' :: ((kw "NDATA") ++ ' ' :: x) := by
  rw [show (kw " NDATA ") = ' ' :: ((kw "NDATA") ++ [' ']) by decide +kernel]; simp

theorem attlist_text {e a t : Str} (he : Word e) (ha : Word a) (y : Str) :
    sentences .between [] ((kw "<!ATTLIST ") ++ (e ++ ' ' :: (a ++ ' ' :: y))) =
      sentences .between [.word (kw "<!ATTLIST"), .word e, .word a] y := by
  rw [kw_attlist, word_space word_attlist, word_space he, word_space ha]
  rfl

theorem declaration_sentence {d : Declared} (h : d.Fine) (x : Str) :
    sentences .between [] (declaration (sax d) ++ x) = (sentences .between [] x).map ((toks d, '>') :: ·) := by
  cases d with
  | element n m =>
    obtain ⟨h1, h2⟩ := h
    simp only [sax, declaration, List.append_assoc, List.cons_append]
    rw [kw_element, word_space word_element, word_space h1, word_gt h2]
    rfl
  | attlist e a t df =>
    obtain ⟨h1, h2, h3, h4⟩ := h
    cases df with
    | implied =>
      simp only [sax, declaration, List.append_assoc, List.cons_append]
      rw [if_pos (by decide +kernel), if_neg (by decide)]
      rw [attlist_text (t := t) h1 h2, List.cons_append, word_space h3, List.nil_append, word_gt word_implied]
      rfl
    | required =>
      simp only [sax, declaration, List.append_assoc, List.cons_append]
      rw [if_pos (by decide +kernel), if_neg (by decide)]
      rw [attlist_text (t := t) h1 h2, List.cons_append, word_space h3, List.nil_append, word_gt word_required]
      rfl
    | fixed v =>
      obtain ⟨⟨h5, h6⟩, h7⟩ := h4
      simp only [sax, declaration, List.append_assoc, List.cons_append]
      rw [if_pos (by decide +kernel), if_pos h5]
      rw [attlist_text (t := t) h1 h2, List.cons_append, word_space h3]
      show sentences _ _ (kw "#FIXED" ++ ' ' :: (quoted v ++ (kw ">\n" ++ x))) = _
      rw [word_space word_fixed, lit_step h6, gt_newline]
      rfl
    | value v =>
      obtain ⟨⟨h5, h6⟩, h7⟩ := h4
      simp only [sax, declaration, List.append_assoc, List.cons_append]
      rw [if_neg (by decide), if_pos h5]
      rw [attlist_text (t := t) h1 h2, List.nil_append, List.cons_append, word_space h3, lit_step h6, gt_newline]
      rfl
  | internal p n v =>
    obtain ⟨rfl, h2, h3, h4, h5⟩ := h
    simp only [sax, declaration, startEntityDecl, List.append_assoc, List.cons_append, Bool.false_eq_true, if_false]
    rw [kw_entity, word_space word_entity, word_space h2, lit_step h4, gt_newline]
    rfl
  | external p n e =>
    obtain ⟨rfl, h2, h3, h4⟩ := h
    simp only [sax, declaration, startEntityDecl, List.append_assoc, List.cons_append, Bool.false_eq_true, if_false]
    rw [kw_entity, word_space word_entity, name_ext h2 h4, gt_newline]
    rfl
  | unparsed n e no =>
    obtain ⟨h1, h2, h3, h4⟩ := h
    simp only [sax, declaration, startEntityDecl, List.append_assoc, List.cons_append]
    rw [kw_entity, word_space word_entity, name_ext h1 h3, kw_ndata, white_step (by decide), word_space word_ndata,
      word_gt h4]
    simp [toks]
  | notation_ n e =>
    obtain ⟨h1, h2⟩ := h
    simp only [sax, declaration, List.append_assoc, List.cons_append]
    rw [kw_notation, word_space word_notation, name_ext h1 h2, gt_newline]
    rfl
  | publicNotation n p =>
    obtain ⟨h1, h2, h3⟩ := h
    simp only [sax, declaration, publicAndSystem, List.append_assoc, List.cons_append]
    rw [if_pos h2, if_neg (by simp)]
    have : (kw "PUBLIC ") = (kw "PUBLIC") ++ [' '] := by decide +kernel
    rw [this, kw_notation, word_space word_notation]
    simp only [List.append_assoc, List.cons_append, List.nil_append]
    rw [word_space h1, word_space word_public, lit_step h3, gt_newline]
    rfl

theorem read_default {d : Default} (h : d.Fine) : readDefault (defToks d) = some d := by
  cases d with
  | implied => decide +kernel
  | required => decide +kernel
  | fixed v =>
    show (if (kw "#FIXED") = (kw "#FIXED") ∧ plainAttribute v = true then _ else _) = _
    rw [if_pos ⟨rfl, h.2⟩]
  | value v =>
    show (if plainAttribute v = true then _ else _) = _
    rw [if_pos h.2]

theorem entity_ext (n : Str) (e : External) : readEntity false n (extToks e) = some (.external false n e) := by
  have := read_ext e []
  rw [List.append_nil] at this
  cases e with
  | system s => rw [extToks] at this ⊢; simp only [readEntity, this]
  | pub p s => rw [extToks] at this ⊢; simp only [readEntity, this]

theorem entity_ndata (n : Str) (e : External) (no : Str) :
    readEntity false n (extToks e ++ [.word (kw "NDATA"), .word no]) = some (.unparsed n e no) := by
  have := read_ext e [.word (kw "NDATA"), .word no]
  cases e with
  | system s => rw [extToks] at this ⊢; simp only [List.cons_append, List.nil_append] at this ⊢
                simp [readEntity, this]
  | pub p s => rw [extToks] at this ⊢; simp only [List.cons_append, List.nil_append] at this ⊢
               simp [readEntity, this]

theorem one_entity {n : Str} (h : n.head? ≠ some '%') (ts : List Tok) :
    readOne (.word (kw "<!ENTITY") :: .word n :: ts) = readEntity false n ts := by
  show (if (kw "<!ENTITY") = (kw "<!ELEMENT") then _ else if (kw "<!ENTITY") = (kw "<!ATTLIST") then _ else
    if (kw "<!ENTITY") = (kw "<!ENTITY") then _ else _) = _
  rw [if_neg (by decide +kernel), if_neg (by decide +kernel), if_pos rfl]
  show (if n = ['%'] then _ else if n.head? = some '%' then _ else _) = _
  rw [if_neg (by rintro rfl; exact h rfl), if_neg h]

theorem read_toks {d : Declared} (h : d.Fine) : readOne (toks d) = some d := by
  cases d with
  | element n m =>
    show (if (kw "<!ELEMENT") = (kw "<!ELEMENT") then _ else _) = _
    rw [if_pos rfl]
  | attlist e a t df =>
    show (if (kw "<!ATTLIST") = (kw "<!ELEMENT") then _ else
      if (kw "<!ATTLIST") = (kw "<!ATTLIST") then (readDefault (defToks df)).map _ else _) = _
    rw [if_neg (by decide +kernel), if_pos rfl, read_default h.2.2.2]
    rfl
  | internal p n v =>
    obtain ⟨rfl, h2, h3, h4, h5⟩ := h
    rw [toks, one_entity h3]
    show (if plainEntity v = true then _ else _) = _
    rw [if_pos h5]
  | external p n e =>
    obtain ⟨rfl, h2, h3, h4⟩ := h
    rw [toks, one_entity h3, entity_ext]
  | unparsed n e no =>
    obtain ⟨h1, h2, h3, h4⟩ := h
    rw [toks, List.cons_append, List.cons_append, one_entity h2, entity_ndata]
  | notation_ n e =>
    cases e with
    | system s =>
      show (if (kw "<!NOTATION") = (kw "<!ELEMENT") then _ else if (kw "<!NOTATION") = (kw "<!ATTLIST") then _
        else if (kw "<!NOTATION") = (kw "<!ENTITY") then _ else
        if (kw "<!NOTATION") = (kw "<!NOTATION") then (if (kw "SYSTEM") = (kw "PUBLIC") then _ else
          if (kw "SYSTEM") = (kw "SYSTEM") then _ else _) else _) = _
      rw [if_neg (by decide +kernel), if_neg (by decide +kernel), if_neg (by decide +kernel), if_pos rfl,
        if_neg (by decide +kernel), if_pos rfl]
    | pub p s =>
      show (if (kw "<!NOTATION") = (kw "<!ELEMENT") then _ else if (kw "<!NOTATION") = (kw "<!ATTLIST") then _
        else if (kw "<!NOTATION") = (kw "<!ENTITY") then _ else
        if (kw "<!NOTATION") = (kw "<!NOTATION") then
          (match readExternal [.word (kw "PUBLIC"), .lit p, .lit s] with
          | some (e, []) => some (Declared.notation_ n e)
          | _ => none) else _) = _
      have := read_ext (.pub p s) []
      rw [extToks, List.append_nil] at this
      rw [if_neg (by decide +kernel), if_neg (by decide +kernel), if_neg (by decide +kernel), if_pos rfl, this]
  | publicNotation n p =>
    show (if (kw "<!NOTATION") = (kw "<!ELEMENT") then _ else if (kw "<!NOTATION") = (kw "<!ATTLIST") then _
      else if (kw "<!NOTATION") = (kw "<!ENTITY") then _ else
      if (kw "<!NOTATION") = (kw "<!NOTATION") then (if (kw "PUBLIC") = (kw "PUBLIC") then _ else _) else _) = _
    rw [if_neg (by decide +kernel), if_neg (by decide +kernel), if_neg (by decide +kernel), if_pos rfl, if_pos rfl]

/-! ## Documents types -/

theorem toks_ne (d : Declared) : toks d ≠ [.word [']']] := by
  cases d <;> simp [toks]

theorem write_declared (w : Writer) (d : Declared) :
    write w (sax d) = (w, if w.inDTD && w.internalSubset then doIndent w ++ declaration (sax d) else []) := by
  cases d with
  | attlist e a t df => cases df <;> rfl
  | _ => rfl

theorem writeAll_append (w : Writer) (es es' : List Event) :
    writeAll w (es ++ es') = ((writeAll (writeAll w es).1 es').1, (writeAll w es).2 ++ (writeAll (writeAll w es).1 es').2) := by
  induction es generalizing w with
  | nil => rfl
  | cons e es ih => simp only [List.cons_append, writeAll, ih, List.append_assoc]

/-- Nothing is written of the external subset. -/
theorem write_silent {w : Writer} (h : w.internalSubset = false) (ds : List Declared) :
    writeAll w (ds.map sax) = (w, []) := by
  induction ds with
  | nil => rfl
  | cons d ds ih => simp only [List.map_cons, writeAll, write_declared, h, Bool.and_false, Bool.false_eq_true, if_false, ih]; rfl

theorem write_item {w : Writer} (h1 : w.inDTD = true) (h2 : w.internalSubset = true) {i : Item} (h : i.Fine) :
    writeAll w i.events = (w, i.own.flatMap fun d => doIndent w ++ declaration (sax d)) := by
  obtain ⟨ind, dep, inD, isub⟩ := w
  cases h1
  cases h2
  cases i with
  | declared d =>
    simp only [Item.events, Item.own, writeAll, write_declared, List.flatMap_cons, List.flatMap_nil]
    simp
  | external ds =>
    have e1 : write ⟨ind, dep, true, true⟩ (.startEntity (kw "[dtd]")) = (⟨ind, dep, true, false⟩, []) := by
      simp only [write, isDtd, decide_true, if_true]
    have e2 : write ⟨ind, dep, true, false⟩ (.endEntity (kw "[dtd]")) = (⟨ind, dep, true, true⟩, []) := by
      simp only [write, isDtd, decide_true, if_true]
    have e3 := write_silent (w := ⟨ind, dep, true, false⟩) rfl ds
    rw [Item.events, Item.own, writeAll.eq_def]
    simp only [List.cons_append, e1, writeAll_append, e3, writeAll, e2]
    rfl
  | entity n b =>
    have hn : isDtd n = false := by
      rw [isDtd]
      exact decide_eq_false h
    cases b
    · simp only [Item.events, Item.own, writeAll, write, hn]; rfl
    · simp only [Item.events, Item.own, writeAll, write, hn]; rfl

theorem write_items {w : Writer} (h1 : w.inDTD = true) (h2 : w.internalSubset = true) :
    ∀ is : List Item, (∀ i ∈ is, i.Fine) →
    writeAll w (is.flatMap Item.events) = (w, (is.flatMap Item.own).flatMap fun d => doIndent w ++ declaration (sax d)) := by
  intro is
  induction is with
  | nil => intro _; rfl
  | cons i is ih =>
    intro h
    rw [List.flatMap_cons, writeAll_append, write_item h1 h2 (h i List.mem_cons_self)]
    simp only [ih fun x hx => h x (List.mem_cons_of_mem _ hx), List.flatMap_cons, List.flatMap_append]

theorem read_declarations (w : Writer) (ds : List Declared) (h : ∀ d ∈ ds, d.Fine) :
    ∃ ss, sentences .between [] ((ds.flatMap fun d => doIndent w ++ declaration (sax d)) ++ (kw "]>\n")) = some ss ∧
      readAll ss = some ds := by
  induction ds with
  | nil =>
    refine ⟨[([.word [']']], '>')], ?_, by decide +kernel⟩
    show sentences .between [] (kw "]>\n") = _
    decide +kernel
  | cons d ds ih =>
    obtain ⟨ss, h1, h2⟩ := ih fun x hx => h x (List.mem_cons_of_mem _ hx)
    refine ⟨(toks d, '>') :: ss, ?_, ?_⟩
    · rw [List.flatMap_cons, List.append_assoc, List.append_assoc, doIndent, spaces,
        declaration_sentence (h d List.mem_cons_self)]
      rw [doIndent] at h1
      rw [h1]
      rfl
    · rw [readAll, if_neg (fun k => toks_ne d k.1), if_pos rfl, read_toks (h d List.mem_cons_self), h2]

/-! ## Content models are words -/

def okChar (c : Char) : Prop := white c = false ∧ c ≠ '"' ∧ c ≠ '>' ∧ c ≠ '['

theorem ok_joined {k : Char} (hk : okChar k) {ss : List Str} (h : ∀ s ∈ ss, ∀ c ∈ s, okChar c) :
    ∀ c ∈ joined k ss, okChar c := by
  cases ss with
  | nil => intro c hc; simp [joined] at hc
  | cons s ss =>
    rw [joined_cons]
    intro c hc
    rcases List.mem_append.1 hc with hc | hc
    · exact h s List.mem_cons_self c hc
    · obtain ⟨x, hx, hc⟩ := List.mem_flatMap.1 hc
      rcases List.mem_cons.1 hc with rfl | hc
      · exact hk
      · exact h x (List.mem_cons_of_mem _ hx) c hc

theorem ok_name {n : Str} (h : Name n) : ∀ c ∈ n, okChar c := by
  intro c hc
  have := h.2 c hc
  simp only [List.mem_cons, List.not_mem_nil, or_false, not_or] at this
  obtain ⟨_, _, _, _, _, _, _, _, h1, h2, h3, h4, h5, h6, h7⟩ := this
  exact ⟨by simp [white, h1, h2, h3, h4], h5, h6, h7⟩

theorem ok_occurs (q : Quant) : ∀ c ∈ occurs q, okChar c := by
  intro c hc
  cases q <;> simp [occurs] at hc <;> subst hc <;> exact ⟨by decide, by decide, by decide, by decide⟩

theorem ok_group {k : Char} (hk : okChar k) {ss : List Str} (h : ∀ s ∈ ss, ∀ c ∈ s, okChar c) (q : Quant) :
    ∀ c ∈ ['('] ++ joined k ss ++ [')'] ++ occurs q, okChar c := by
  intro c hc
  rcases List.mem_append.1 hc with hc | hc
  · rcases List.mem_append.1 hc with hc | hc
    · rcases List.mem_append.1 hc with hc | hc
      · rw [List.mem_singleton] at hc; subst hc; exact ⟨by decide, by decide, by decide, by decide⟩
      · exact ok_joined hk h c hc
    · rw [List.mem_singleton] at hc; subst hc; exact ⟨by decide, by decide, by decide, by decide⟩
  · exact ok_occurs q c hc

theorem ok_particle {p : Particle} (h : p.Fine) : ∀ c ∈ convert true p.expat, okChar c := by
  have sub : ∀ {ps : List Particle}, (∀ p ∈ ps, ∀ c ∈ convert true p.expat, okChar c) →
      ∀ s ∈ (ps.map Particle.expat).map (convert true), ∀ c ∈ s, okChar c := by
    intro ps h s hs
    rw [List.map_map] at hs
    obtain ⟨p, hp, rfl⟩ := List.mem_map.1 hs
    exact h p hp
  induction h with
  | name n q hn =>
    rw [Particle.expat, convert, quant_occurs]
    intro c hc
    have hc : c ∈ n ++ occurs q := by simpa [opening] using hc
    rcases List.mem_append.1 hc with hc | hc
    · exact ok_name hn c hc
    · exact ok_occurs q c hc
  | choice ps q hl _ ih =>
    rw [Particle.expat, group_convert true (.inl ⟨rfl, rfl⟩) (by intro e; rw [e] at hl; simp at hl)]
    exact ok_group ⟨by decide, by decide, by decide, by decide⟩ (sub ih) q
  | seq ps q hl _ ih =>
    rw [Particle.expat, group_convert true (.inr ⟨rfl, rfl⟩) (by intro e; rw [e] at hl; simp at hl)]
    exact ok_group ⟨by decide, by decide, by decide, by decide⟩ (sub ih) q

theorem word_model {m : Model} (h : m.Fine) : Word (convert false m.expat) := by
  have ws : Word (kw "EMPTY") ∧ Word (kw "ANY") ∧ Word (kw "(#PCDATA)") ∧ Word (kw "(#PCDATA)*") :=
    ⟨⟨by decide +kernel, by decide +kernel⟩, ⟨by decide +kernel, by decide +kernel⟩,
      ⟨by decide +kernel, by decide +kernel⟩, ⟨by decide +kernel, by decide +kernel⟩⟩
  have hd := derives_convert h
  have group : ∀ {p : Particle}, p.Fine → (∀ n q, p ≠ .name n q) → convert false p.expat = convert true p.expat := by
    intro p hp hn
    cases hp with
    | name n q _ => exact absurd rfl (hn n q)
    | choice ps q hl _ =>
      have hn : ps ≠ [] := by intro e; rw [e] at hl; simp at hl
      rw [Particle.expat, group_convert true (.inl ⟨rfl, rfl⟩) hn, group_convert false (.inl ⟨rfl, rfl⟩) hn]
    | seq ps q hl _ =>
      have hn : ps ≠ [] := by intro e; rw [e] at hl; simp at hl
      rw [Particle.expat, group_convert true (.inr ⟨rfl, rfl⟩) hn, group_convert false (.inr ⟨rfl, rfl⟩) hn]
  have made : ∀ {p : Particle}, p.Fine → (∀ n q, p ≠ .name n q) → Word (convert false p.expat) := by
    intro p hp hn
    rw [group hp hn]
    refine ⟨?_, ok_particle hp⟩
    obtain ⟨c, x, e, _⟩ := cp_head (cp_convert hp)
    rw [e]
    simp
  cases h with
  | empty =>
    have : convert false Model.empty.expat = kw "EMPTY" := by simp [Model.expat, convert, opening, quantText]
    rw [this]; exact ws.1
  | any =>
    have : convert false Model.any.expat = kw "ANY" := by simp [Model.expat, convert, opening, quantText]
    rw [this]; exact ws.2.1
  | pcdata star =>
    cases star
    · have : convert false (Model.mixed [] false).expat = kw "(#PCDATA)" := by
        simp [Model.expat, convert, opening, quantText]
      rw [this]; exact ws.2.2.1
    · have : convert false (Model.mixed [] true).expat = kw "(#PCDATA)*" := by
        have e : kw "(#PCDATA)*" = kw "(#PCDATA)" ++ ['*'] := by decide +kernel
        rw [e]
        simp [Model.expat, convert, opening, quantText]
      rw [this]; exact ws.2.2.2
  | choice ps q hp => exact made hp (fun _ _ e => nomatch e)
  | seq ps q hp => exact made hp (fun _ _ e => nomatch e)

/-! ## The start of a document type -/

theorem doctype_start {n : Str} (hn : Word n) {e : Option External} (he : ∀ x, e = some x → x.Fine) (x : Str) :
    sentences .between [] (kw "<!DOCTYPE " ++ n ++
        publicAndSystem (e.elim [] External.publicId) (e.elim [] External.systemId) ++ kw " [\n" ++ x) =
      (sentences .between [] x).map ((.word (kw "<!DOCTYPE") :: .word n :: e.elim [] extToks, '[') :: ·) := by
  have eb : kw " [\n" = [' ', '[', '\n'] := by decide +kernel
  rw [eb]
  simp only [List.append_assoc, List.cons_append, List.nil_append]
  rw [kw_doctype, word_space word_doctype]
  cases e with
  | none =>
    have : publicAndSystem [] [] = [' '] := by rw [publicAndSystem, if_neg (by simp), if_neg (by simp)]; rfl
    simp only [Option.elim, this, List.cons_append, List.nil_append]
    rw [word_space hn, white_step (by decide), stop_step (.inr rfl), white_step (by decide)]
    rfl
  | some e =>
    simp only [Option.elim]
    rw [name_ext hn (he e rfl), white_step (by decide), stop_step (.inr rfl), white_step (by decide)]
    rfl

theorem read_doctype {n : Str} {e : Option External} {ss : List (List Tok × Char)} {s : Str}
    (h : sentences .between [] s = some ((.word (kw "<!DOCTYPE") :: .word n :: e.elim [] extToks, '[') :: ss)) :
    readDoctype s = (readAll ss).map fun ds => (n, e, ds) := by
  rw [readDoctype, h]
  dsimp only
  rw [if_pos ⟨rfl, rfl⟩]
  cases e with
  | none => rfl
  | some e =>
    have := read_ext e []
    rw [List.append_nil] at this
    cases e with
    | system s => simp only [Option.elim]; rw [extToks] at this ⊢; simp only [this]
    | pub p s => simp only [Option.elim]; rw [extToks] at this ⊢; simp only [this]

end Verif.Dtd
