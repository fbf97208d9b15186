import Verif.Lemmas.XsltOutput5
set_option autoImplicit false
/-!
# C48, C49, C55, C56: the output of a transformation
-/
namespace Verif.Props.XsltOutput
open Verif.Xslt Verif.Spec.XsltOutput

/-! ## C55: nodes -/

/-- C55: the tags of the output nest, and the elements, text, comments and processing instructions are
those the instructions stand for, in order. -/
theorem C55_nodes (cdata : List (Str × Str)) (is : Instrs) (h : Plains is) :
    readTags [] (transform cdata is) = some ((results is).map bare, []) := by
  obtain ⟨evs, ho, ht, _⟩ := (steps is h { cdata := cdata } (init_idle cdata)).trace
  unfold transform
  rw [ho]
  exact ht []

/-- C55: no call for a comment or processing instruction goes on for ever. -/
theorem C55_ends (cdata : List (Str × Str)) (is : Instrs) (h : Plains is) :
    (execs { cdata := cdata } is).hung = false :=
  (steps is h { cdata := cdata } (init_idle cdata)).hung

/-! ## C56: CDATA sections -/

/-- C56: text is inside a CDATA section exactly if its element is one of those listed, a section holds
nothing but text, and none is left open. -/
theorem C56_cdata (cdata : List (Str × Str)) (is : Instrs) (h : Plains is) :
    sections cdata ([], false) (transform cdata is) = some ([], false) := by
  have hs := steps is h { cdata := cdata } (init_idle cdata)
  obtain ⟨evs, ho, _, hc, _⟩ := hs.trace
  have h1 : isOpen (execs { cdata := cdata } is) = false := by
    unfold isOpen isCDATA
    rw [hs.elements]
    simp
  rw [h1] at hc
  unfold transform
  rw [ho]
  exact hc

/-! ## C49: comments and processing instructions -/

theorem spaceBetween_sub (a b : Char) (s : Str) : s.Sublist (spaceBetween a b s) := by
  fun_induction spaceBetween a b s with
  | case1 x y rest h ih => exact (ih.cons ' ').cons_cons x
  | case2 x y rest h ih => exact ih.cons_cons x
  | case3 s h => exact List.Sublist.refl _

theorem spaceBetween_others (a b : Char) (s : Str) :
    (spaceBetween a b s).filter (fun c => c ≠ ' ') = s.filter (fun c => c ≠ ' ') := by
  fun_induction spaceBetween a b s with
  | case1 x y rest h ih => simp only [List.filter_cons, ih]; simp
  | case2 x y rest h ih => simp only [List.filter_cons (x := x), ih]
  | case3 s h => rfl

theorem spaceBetween_same (a b : Char) (s : Str) (h : ¬ ∃ x y, s = x ++ a :: b :: y) : spaceBetween a b s = s := by
  fun_induction spaceBetween a b s with
  | case1 x y rest hxy ih => exact absurd ⟨[], rest, by rw [hxy.1, hxy.2]; rfl⟩ h
  | case2 x y rest hxy ih =>
    rw [ih]
    rintro ⟨p, q, he⟩
    exact h ⟨x :: p, q, by rw [he]; rfl⟩
  | case3 s h => rfl

/-- C49: for every text the search for hyphens ends; the comment has no two hyphens in a row and no
hyphen at its end; only spaces have been put in; and a text that was fine is left alone. -/
theorem C49_comment (s : Str) : ∃ c, commentText s = some c ∧
    (¬ ∃ x y, c = x ++ '-' :: '-' :: y) ∧ c.getLast? ≠ some '-' ∧
    s.Sublist c ∧ c.filter (fun c => c ≠ ' ') = s.filter (fun c => c ≠ ' ') ∧
    ((¬ ∃ x y, s = x ++ '-' :: '-' :: y) → s.getLast? ≠ some '-' → c = s) := by
  refine ⟨commentOf s, commentText_eq s, ?_, ?_, ?_, ?_, ?_⟩
  · rintro ⟨x, y, h⟩
    unfold commentOf at h
    by_cases hl : s.getLast? = some '-'
    · rw [if_pos hl] at h
      rcases List.eq_nil_or_concat y with rfl | ⟨z, d, rfl⟩
      · have := congrArg List.getLast? h
        simp at this
      · have h2 : spaceBetween '-' '-' s ++ [' '] = (x ++ '-' :: '-' :: z) ++ [d] := by rw [h]; simp
        have h3 := (List.append_inj' h2 rfl).1
        exact spaceBetween_apart '-' '-' (by decide) (by decide) s ⟨x, z, h3⟩
    · rw [if_neg hl] at h
      exact spaceBetween_apart '-' '-' (by decide) (by decide) s ⟨x, y, h⟩
  · unfold commentOf
    by_cases hl : s.getLast? = some '-'
    · rw [if_pos hl]; simp
    · rw [if_neg hl, spaceBetween_getLast]; exact hl
  · unfold commentOf
    split
    · exact (spaceBetween_sub '-' '-' s).trans (List.sublist_append_left _ _)
    · exact spaceBetween_sub '-' '-' s
  · unfold commentOf
    split
    · rw [List.filter_append, spaceBetween_others]; simp
    · exact spaceBetween_others '-' '-' s
  · intro h1 h2
    unfold commentOf
    rw [if_neg h2]
    exact spaceBetween_same _ _ s h1

/-- C49: the same for processing instructions, which must not contain `?>`. -/
theorem C49_pi (s : Str) : ∃ c, piData s = some c ∧
    (¬ ∃ x y, c = x ++ '?' :: '>' :: y) ∧
    s.Sublist c ∧ c.filter (fun c => c ≠ ' ') = s.filter (fun c => c ≠ ' ') ∧
    ((¬ ∃ x y, s = x ++ '?' :: '>' :: y) → c = s) :=
  ⟨piOf s, piData_eq s, spaceBetween_apart '?' '>' (by decide) (by decide) s, spaceBetween_sub _ _ s,
    spaceBetween_others _ _ s, spaceBetween_same _ _ s⟩

example : commentText ['-', '-', '-', 'a', '-'] = some ['-', ' ', '-', ' ', '-', 'a', '-', ' '] := by decide
example : piData ['?', '?', '>', '>'] = some ['?', '?', ' ', '>', '>'] := by decide

mutual
theorem result_comments (i : Instr) (c : Str) (h : Res.comment c ∈ (result i).map bare) : ∃ s, c = commentOf s := by
  match i, h with
  | .text s, h => simp [result, bare] at h
  | .element p l u b, h =>
    simp [result, bare] at h
    obtain ⟨a, h1, h2⟩ := h
    exact results_comments b c (List.mem_map.mpr ⟨a, h1, h2⟩)
  | .attr _ _ _ _, h => simp [result] at h
  | .copyAttribute _ _ _ _, h => simp [result] at h
  | .comment b, h => simp [result, bare] at h; exact ⟨_, h⟩
  | .pi t b, h => simp [result, bare] at h
theorem results_comments (is : Instrs) (c : Str) (h : Res.comment c ∈ (results is).map bare) :
    ∃ s, c = commentOf s := by
  match is, h with
  | .nil, h => simp [results] at h
  | .cons i rest, h =>
    rw [results, List.map_append, List.mem_append] at h
    rcases h with h | h
    · exact result_comments i c h
    · exact results_comments rest c h
end

mutual
theorem result_pis (i : Instr) (t d : Str) (h : Res.pi t d ∈ (result i).map bare) : ∃ s, d = piOf s := by
  match i, h with
  | .text s, h => simp [result, bare] at h
  | .element p l u b, h =>
    simp [result, bare] at h
    obtain ⟨a, h1, h2⟩ := h
    exact results_pis b t d (List.mem_map.mpr ⟨a, h1, h2⟩)
  | .attr _ _ _ _, h => simp [result] at h
  | .copyAttribute _ _ _ _, h => simp [result] at h
  | .comment b, h => simp [result, bare] at h
  | .pi t b, h => simp [result, bare] at h; exact ⟨_, h.2⟩
theorem results_pis (is : Instrs) (t d : Str) (h : Res.pi t d ∈ (results is).map bare) : ∃ s, d = piOf s := by
  match is, h with
  | .nil, h => simp [results] at h
  | .cons i rest, h =>
    rw [results, List.map_append, List.mem_append] at h
    rcases h with h | h
    · exact result_pis i t d h
    · exact results_pis rest t d h
end

theorem readTags_mem (es : List Event) : ∀ (o o' : List QN) (rs : List Res), readTags o es = some (rs, o') →
    (∀ c, Event.comment c ∈ es → Res.comment c ∈ rs) ∧ ∀ t d, Event.pi t d ∈ es → Res.pi t d ∈ rs := by
  induction es with
  | nil => intros; simp
  | cons e es ih =>
    intro o o' rs h
    cases e with
    | startElement q u a =>
      simp only [readTags, Option.map_eq_some_iff] at h
      obtain ⟨⟨r, o1⟩, h1, h2⟩ := h
      simp only [Prod.mk.injEq] at h2
      obtain ⟨rfl, rfl⟩ := h2
      simpa using ih _ _ _ h1
    | endElement q u =>
      cases o with
      | nil => simp [readTags] at h
      | cons t o =>
        rw [readTags] at h
        by_cases ht : t = q
        · rw [if_pos ht] at h
          simp only [Option.map_eq_some_iff] at h
          obtain ⟨⟨r, o1⟩, h1, h2⟩ := h
          simp only [Prod.mk.injEq] at h2
          obtain ⟨rfl, rfl⟩ := h2
          simpa using ih _ _ _ h1
        · rw [if_neg ht] at h; cases h
    | characters s =>
      simp only [readTags, Option.map_eq_some_iff] at h
      obtain ⟨⟨r, o1⟩, h1, h2⟩ := h
      simp only [Prod.mk.injEq] at h2
      obtain ⟨rfl, rfl⟩ := h2
      simpa using ih _ _ _ h1
    | startCDATA => rw [readTags] at h; simpa using ih _ _ _ h
    | endCDATA => rw [readTags] at h; simpa using ih _ _ _ h
    | comment s =>
      simp only [readTags, Option.map_eq_some_iff] at h
      obtain ⟨⟨r, o1⟩, h1, h2⟩ := h
      simp only [Prod.mk.injEq] at h2
      obtain ⟨rfl, rfl⟩ := h2
      have := ih _ _ _ h1
      refine ⟨?_, by simpa using this.2⟩
      intro c hc
      rcases List.mem_cons.mp hc with hc | hc
      · cases hc; simp
      · exact List.mem_cons_of_mem _ (this.1 c hc)
    | pi t s =>
      simp only [readTags, Option.map_eq_some_iff] at h
      obtain ⟨⟨r, o1⟩, h1, h2⟩ := h
      simp only [Prod.mk.injEq] at h2
      obtain ⟨rfl, rfl⟩ := h2
      have := ih _ _ _ h1
      refine ⟨by simpa using this.1, ?_⟩
      intro c d hc
      rcases List.mem_cons.mp hc with hc | hc
      · cases hc; simp
      · exact List.mem_cons_of_mem _ (this.2 c d hc)

/-- C49: every comment and processing instruction a transformation delivers is well formed. -/
theorem C49_output (cdata : List (Str × Str)) (is : Instrs) (h : Plains is) :
    (∀ c, Event.comment c ∈ transform cdata is →
      (¬ ∃ x y, c = x ++ '-' :: '-' :: y) ∧ c.getLast? ≠ some '-') ∧
    ∀ t d, Event.pi t d ∈ transform cdata is → ¬ ∃ x y, d = x ++ '?' :: '>' :: y := by
  have hr := readTags_mem _ _ _ _ (C55_nodes cdata is h)
  refine ⟨?_, ?_⟩
  · intro c hc
    obtain ⟨s, rfl⟩ := results_comments is c (hr.1 c hc)
    obtain ⟨c', h1, h2, h3, _⟩ := C49_comment s
    rw [commentText_eq] at h1
    cases h1
    exact ⟨h2, h3⟩
  · intro t d hd
    obtain ⟨s, rfl⟩ := results_pis is t d (hr.2 t d hd)
    exact spaceBetween_apart '?' '>' (by decide) (by decide) s

/-! ## C48: names -/

/-- C48 in full: what a reader makes of the output, resolving names by the declarations in it, is the
result the instructions stand for, attributes included. -/
def NamesKept (is : Instrs) : Prop := ∀ cdata, readEvents [] (transform cdata is) = some (results is, [])

/-- C48, partial: for stylesheets in which a prefix, and its absence on elements, always means the same.
Missing: stylesheets that use a prefix for several namespaces, and copied attributes; see
`C48_violated`. -/
theorem C48_partial (ns : Str → Str) (is : Instrs) (h : Consistents ns is) : NamesKept is := by
  intro cdata
  obtain ⟨evs, ho, _, _, hn, _⟩ := (steps is (Verif.Xslt.Consistents.plain ns is h) { cdata := cdata } (init_idle cdata)).trace
  unfold transform
  rw [ho]
  exact hn ns [] rfl h (init_inv ns cdata)

/-- Sequences of instructions. -/
def seq : List Instr → Instrs
  | [] => .nil
  | i :: is => .cons i (seq is)

def u1 : Str := ['u', '1']
def u2 : Str := ['u', '2']
def a : Str := ['a']
def b : Str := ['b']
def p : Str := ['p']

/-- `<p:a xmlns:p='u1'>` with two attributes, one of which needs a made up prefix and is set twice, a
comment, and a default namespace further in. -/
def exOk : Instrs := seq [
  .element p a u1 (seq [.attr [] b u2 (seq [.text a]), .attr p b u1 (seq [.text b]),
    .attr [] b u2 (seq [.text b, .comment .nil, .text b]), .comment (seq [.text ['-', '-']]),
    .element [] b ['d'] (seq [.text b, .element p b u1 .nil])])]

def exNs (q : Str) : Str := if q = p then u1 else if q = [] then ['d'] else []

theorem not_auto (q : Str) (h : q.head? ≠ some 'a') : ¬ IsAuto q := by
  rintro ⟨i, rfl⟩
  exact h rfl

theorem exOk_consistent : Consistents exNs exOk := by
  have hx : u1 ≠ xmlUri ∧ u2 ≠ xmlUri ∧ ['d'] ≠ xmlUri := by decide +kernel
  have hp : Bound exNs p u1 := ⟨by decide, by decide, not_auto _ (by decide),
    ⟨fun h => absurd h (by decide), fun h => absurd h hx.1⟩⟩
  have hd : Bound exNs [] ['d'] := ⟨by decide, by decide, not_auto _ (by decide),
    ⟨fun h => absurd h (by decide), fun h => absurd h hx.2.2⟩⟩
  have e1 : u1 ≠ [] := by decide
  have e2 : u2 ≠ [] := by decide
  have e3 : p ≠ [] := by decide
  simp only [exOk, seq, Consistents, Consistent, if_neg e1, if_neg e2, if_neg e3, if_pos, and_true, true_and]
  exact ⟨hp, hx.2.1, hp, hx.2.1, by simpa using hd, hp⟩

/-- What the example reads as. -/
example : NamesKept exOk ∧ results exOk = [.start u1 a [(u2, b, ['b', 'b']), (u1, b, ['b'])],
    .comment ['-', ' ', '-', ' '], .start ['d'] b [], .text b, .start u1 b [], .finish, .finish, .finish] :=
  ⟨C48_partial exNs exOk exOk_consistent, by decide⟩

example : Plains exOk := Verif.Xslt.Consistents.plain _ _ exOk_consistent

/-- C48 is violated: two attributes of one element with one prefix for two namespaces; an element in no
namespace inside one with a default namespace; a prefix that has been redeclared in between; a copied
attribute whose prefix is not declared; and a copied attribute of the same name as another. -/
theorem C48_violated :
    ¬ NamesKept (seq [.element [] a [] (seq [.attr p a u1 .nil, .attr p b u2 .nil])]) ∧
    ¬ NamesKept (seq [.element [] a u1 (seq [.element [] b [] .nil])]) ∧
    ¬ NamesKept (seq [.element p a u1 (seq [.element p b u2 (seq [.element p a u1 .nil])])]) ∧
    (readEvents [] (transform [] (seq [.element [] a [] (seq [.copyAttribute u1 b (p, b) a])])) = none) ∧
    (readEvents [] (transform [] (seq [.element [] a [] (seq [.attr [] b [] .nil,
      .copyAttribute [] b ([], b) a])])) = none) := by
  refine ⟨fun h => ?_, fun h => ?_, fun h => ?_, by decide +kernel, by decide +kernel⟩
  · exact absurd (congrArg (Option.map Prod.fst) (h [])) (by decide +kernel)
  · exact absurd (congrArg (Option.map Prod.fst) (h [])) (by decide +kernel)
  · exact absurd (congrArg (Option.map Prod.fst) (h [])) (by decide +kernel)

end Verif.Props.XsltOutput
