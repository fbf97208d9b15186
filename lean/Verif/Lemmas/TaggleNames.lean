import Verif.Lemmas.HtmlScan2
import Verif.Lemmas.Taggle2
import Verif.Lemmas.Names
set_option autoImplicit false
set_option linter.unusedSimpArgs false
set_option linter.unusedVariables false
/-! # Lemmas about the names the HTML parser reports -/
namespace Verif.Taggle
open Spec

variable {cfg : Cfg}

/-! ### Names -/

def First (c : Char) : Prop := Verif.Spec.Xml.Letter c.toNat ∨ c = '_'
def Later (c : Char) : Prop := Verif.Spec.Xml.NCNameChar c.toNat

theorem schar_letter {c : Char} (h : XmlChars.isLetter (schar c) = true) :
    Verif.Spec.Xml.Letter c.toNat := by
  unfold schar at h
  by_cases h1 : c.toNat < 128
  · rw [if_pos h1] at h; exact (Names.letter_iff _).1 h
  · rw [if_neg h1] at h
    by_cases h2 : c.toNat < 256
    · rw [if_pos h2, Names.neg_letter _ (by omega)] at h; exact absurd h (by simp)
    · rw [if_neg h2] at h; exact (Names.letter_iff _).1 h

theorem neg_digit (c : Int) (h : c < 0) : XmlChars.isDigit c = false := by
  unfold XmlChars.isDigit
  rw [Names.digit_table, Names.neg_inAny c _ h]

theorem schar_digit {c : Char} (h : XmlChars.isDigit (schar c) = true) :
    Verif.Spec.Xml.In Verif.Spec.Xml.digit c.toNat := by
  unfold schar at h
  by_cases h1 : c.toNat < 128
  · rw [if_pos h1] at h; exact (Names.digit_iff _).1 h
  · rw [if_neg h1] at h
    by_cases h2 : c.toNat < 256
    · rw [if_pos h2, neg_digit _ (by omega)] at h; exact absurd h (by simp)
    · rw [if_neg h2] at h; exact (Names.digit_iff _).1 h

theorem char_eq {c d : Char} (h : c.toNat = d.toNat) : c = d := Char.ext (UInt32.toNat_inj.1 h)

theorem later_letter {c : Char} (h : Verif.Spec.Xml.Letter c.toNat) : Later c := by
  refine ⟨.inl h, fun he => ?_⟩
  rw [he] at h
  have := (Names.letter_iff 0x3A).2 h
  rw [show ((0x3A : Nat) : Int) = 0x3A from rfl, Names.not_colon_class.1] at this
  exact absurd this (by simp)

theorem later_digit {c : Char} (h : Verif.Spec.Xml.In Verif.Spec.Xml.digit c.toNat) : Later c := by
  refine ⟨.inr (.inl h), fun he => ?_⟩
  rw [he] at h
  have := (Names.digit_iff 0x3A).2 h
  rw [show ((0x3A : Nat) : Int) = 0x3A from rfl, Names.not_colon_class.2.1] at this
  exact absurd this (by simp)

theorem later_underscore : Later '_' := ⟨.inr (.inr (.inr (.inr (.inl rfl)))), by decide⟩
theorem later_minus : Later '-' := ⟨.inr (.inr (.inr (.inl rfl))), by decide⟩
theorem later_dot : Later '.' := ⟨.inr (.inr (.inl rfl)), by decide⟩
theorem first_underscore : First '_' := .inr rfl

theorem first_later {c : Char} (h : First c) : Later c := by
  rcases h with h | h
  · exact later_letter h
  · rw [h]; exact later_underscore

/-- `NCName` on characters. -/
theorem ncname_mk {c : Char} {t : Str} (h : First c) (ht : ∀ x ∈ t, Later x) : NCName (c :: t) := by
  refine ⟨c.toNat, t.map Char.toNat, rfl, ?_, ?_⟩
  · rcases h with h | h
    · exact .inl h
    · exact .inr (by rw [h])
  · intro x hx
    obtain ⟨y, hy, rfl⟩ := List.mem_map.1 hx
    exact ht y hy

theorem ncname_inv {s : Str} (h : NCName s) : ∃ c t, s = c :: t ∧ First c ∧ ∀ x ∈ t, Later x := by
  obtain ⟨n, r, he, h1, h2⟩ := h
  cases s with
  | nil => simp at he
  | cons c t =>
    simp at he
    refine ⟨c, t, rfl, ?_, ?_⟩
    · rcases h1 with h1 | h1
      · exact .inl (by rw [he.1]; exact h1)
      · exact .inr (char_eq (by rw [he.1]; exact h1))
    · intro x hx
      exact h2 _ (by rw [← he.2]; exact List.mem_map.2 ⟨x, hx, rfl⟩)

theorem qname_nc {s : Str} (h : NCName s) : QName s := .inl h

theorem qname_mk {p l : Str} (hp : NCName p) (hl : NCName l) : QName (p ++ ':' :: l) :=
  .inr ⟨p.map Char.toNat, l.map Char.toNat, by simp, hp, hl⟩

theorem qname_inv {s : Str} (h : QName s) : NCName s ∨ ∃ p l, s = p ++ ':' :: l ∧ NCName p ∧ NCName l := by
  rcases h with h | ⟨p, l, he, hp, hl⟩
  · exact .inl h
  · right
    obtain ⟨a, b, hs, ha, hb⟩ := List.map_eq_append_iff.1 he
    cases b with
    | nil => simp at hb
    | cons x b =>
      simp at hb
      have hx : x = ':' := char_eq hb.1
      refine ⟨a, b, by rw [hs, hx], ?_, ?_⟩
      · show Verif.Spec.Xml.NCName _; rw [ha]; exact hp
      · show Verif.Spec.Xml.NCName _; rw [hb.2]; exact hl

def RestOk (r : Str) : Prop :=
  ∃ p, (∀ x ∈ p, Later x) ∧ (r = p ∨ ∃ q, r = p ++ ':' :: q ∧ (q = [] ∨ NCName q))

theorem restOk_cons {c : Char} {r : Str} (hc : Later c) (h : RestOk r) : RestOk (c :: r) := by
  obtain ⟨p, hp, h⟩ := h
  refine ⟨c :: p, ?_, ?_⟩
  · intro x hx
    rcases List.mem_cons.1 hx with hx | hx
    · rw [hx]; exact hc
    · exact hp x hx
  · rcases h with h | ⟨q, h, hq⟩
    · exact .inl (by rw [h])
    · exact .inr ⟨q, by rw [h]; rfl, hq⟩

theorem restOk_later {r : Str} (h : ∀ x ∈ r, Later x) : RestOk r := ⟨r, h, .inl rfl⟩

theorem later_ncname {q : Str} (h : q = [] ∨ NCName q) : ∀ x ∈ q, Later x := by
  intro x hx
  rcases h with h | h
  · rw [h] at hx; exact absurd hx (by simp)
  · obtain ⟨c, t, rfl, h1, h2⟩ := ncname_inv h
    rcases List.mem_cons.1 hx with hx | hx
    · rw [hx]; exact first_later h1
    · exact h2 x hx

theorem makeLoop_ok : ∀ l : Str,
    RestOk (makeLoop cfg l false false) ∧
    (∀ x ∈ makeLoop cfg l true false, Later x) ∧
    (makeLoop cfg l true true = [] ∨ NCName (makeLoop cfg l true true)) ∧
    (makeLoop cfg l false true = [] ∨
      ∃ c t, makeLoop cfg l false true = c :: t ∧ First c ∧ RestOk t)
  | [] => ⟨restOk_later (by simp [makeLoop]), by simp [makeLoop], .inl rfl, .inl rfl⟩
  | c :: cs => by
    obtain ⟨i1, i2, i3, i4⟩ := makeLoop_ok cs
    simp only [makeLoop]
    by_cases h1 : (XmlChars.isLetter (schar c) || c == '_') = true
    · simp only [if_pos h1]
      have hf : First c := by
        rw [Bool.or_eq_true, beq_iff_eq] at h1
        rcases h1 with h | h
        · exact .inl (schar_letter h)
        · exact .inr h
      refine ⟨restOk_cons (first_later hf) i1, ?_, .inr (ncname_mk hf i2), .inr ⟨c, _, rfl, hf, i1⟩⟩
      intro x hx
      rcases List.mem_cons.1 hx with hx | hx
      · rw [hx]; exact first_later hf
      · exact i2 x hx
    · simp only [if_neg h1]
      by_cases h2 : (XmlChars.isDigit (schar c) || c == '-' || c == '.') = true
      · simp only [if_pos h2]
        have hl : Later c := by
          simp only [Bool.or_eq_true, beq_iff_eq] at h2
          rcases h2 with (h | h) | h
          · exact later_digit (schar_digit h)
          · rw [h]; exact later_minus
          · rw [h]; exact later_dot
        refine ⟨by simpa using restOk_cons hl i1, ?_, .inr ?_, .inr ⟨'_', c :: _, by simp, first_underscore,
          restOk_cons hl i1⟩⟩
        · intro x hx
          simp only [Bool.false_eq_true, if_false, List.nil_append] at hx
          rcases List.mem_cons.1 hx with hx | hx
          · rw [hx]; exact hl
          · exact i2 x hx
        · simp only [if_true]
          refine ncname_mk first_underscore ?_
          intro x hx
          simp at hx
          rcases hx with hx | hx
          · rw [hx]; exact hl
          · exact i2 x hx
      · simp only [if_neg h2]
        by_cases h3 : c = ':'
        · have hff : (c == ':' && !false) = true := by rw [h3]; decide
          have hft : ¬ (c == ':' && !true) = true := by simp
          simp only [if_pos hff, if_neg hft]
          refine ⟨?_, i2, i3, .inr ⟨'_', (if cfg.translateColons = true then '_' else c) :: makeLoop cfg cs true true, by simp,
            first_underscore, ?_⟩⟩
          · simp only [Bool.false_eq_true, if_false, List.nil_append]
            by_cases ht : cfg.translateColons = true
            · rw [if_pos ht]; exact restOk_cons later_underscore (restOk_later (later_ncname i3))
            · rw [if_neg ht, h3]; exact ⟨[], by simp, .inr ⟨_, rfl, i3⟩⟩
          · by_cases ht : cfg.translateColons = true
            · rw [if_pos ht]; exact restOk_cons later_underscore (restOk_later (later_ncname i3))
            · rw [if_neg ht, h3]; exact ⟨[], by simp, .inr ⟨_, rfl, i3⟩⟩
        · have hff : ∀ b : Bool, ¬ (c == ':' && b) = true := by
            intro b; simp [h3]
          simp only [if_neg (hff _)]
          exact ⟨i1, i2, i3, i4⟩

theorem later_not_colon {c : Char} (h : Later c) : c ≠ ':' := fun he => h.2 (by rw [he])

theorem makeName_qname (b : Str) : QName (makeName cfg b) := by
  unfold makeName
  simp only []
  rcases (makeLoop_ok (cfg := cfg) b).2.2.2 with h | ⟨c, t, h, hc, p, hp, ht⟩
  · rw [h, if_pos (.inl rfl)]
    exact qname_nc (ncname_mk first_underscore (by simp))
  · rw [h]
    rcases ht with ht | ⟨q, ht, hq⟩
    · subst ht
      rw [if_neg]
      · exact qname_nc (ncname_mk hc hp)
      · rintro (h | h)
        · simp at h
        · have hm := List.mem_of_getLast? h
          rcases List.mem_cons.1 hm with hm | hm
          · exact later_not_colon (first_later hc) hm.symm
          · exact later_not_colon (hp _ hm) rfl
    · rcases hq with hq | hq
      · subst hq
        rw [if_pos]
        · have e : c :: t ++ ['_'] = (c :: p) ++ ':' :: ['_'] := by rw [ht]; simp
          rw [e]
          exact qname_mk (ncname_mk hc hp) (ncname_mk first_underscore (by simp))
        · right
          rw [ht]
          show ((c :: p) ++ [':']).getLast? = _
          rw [List.getLast?_append]; rfl
      · have e : c :: t = (c :: p) ++ ':' :: q := by rw [ht]; rfl
        rw [e, if_neg]
        · exact qname_mk (ncname_mk hc hp) hq
        · rintro (h | h)
          · simp at h
          · obtain ⟨d, r, rfl, hd, hr⟩ := ncname_inv hq
            have h' : (d :: r).getLast? = some ':' := by
              have : (c :: p) ++ ':' :: d :: r = ((c :: p) ++ [':']) ++ (d :: r) := by simp
              rw [this, List.getLast?_append] at h
              cases hx : (d :: r).getLast? with
              | none => simp at hx
              | some y => rw [hx] at h; exact h
            have hm := List.mem_of_getLast? h'
            rcases List.mem_cons.1 hm with hm | hm
            · exact later_not_colon (first_later hd) hm.symm
            · exact later_not_colon (hr _ hm) rfl

theorem lower1_cases (c : Char) :
    lower1 c = c ∨ (65 ≤ c.toNat ∧ c.toNat ≤ 90 ∧ (lower1 c).toNat = c.toNat + 32) := by
  unfold lower1
  by_cases hc : 65 ≤ c.toNat ∧ c.toNat ≤ 90
  · rw [if_pos hc]
    refine .inr ⟨hc.1, hc.2, ?_⟩
    have hv : (c.toNat + 32).isValidChar := by unfold Nat.isValidChar; omega
    unfold Char.ofNat
    rw [dif_pos hv]; rfl
  · rw [if_neg hc]; exact .inl rfl

theorem ascii_letter {n : Nat} (h1 : 97 ≤ n) (h2 : n ≤ 122) : Verif.Spec.Xml.Letter n :=
  .inl ⟨(97, 122), by decide +kernel, h1, h2⟩

theorem first_lower {c : Char} (h : First c) : First (lower1 c) := by
  rcases lower1_cases c with hc | ⟨h1, h2, h3⟩
  · rw [hc]; exact h
  · exact .inl (by rw [h3]; exact ascii_letter (by omega) (by omega))

theorem later_lower {c : Char} (h : Later c) : Later (lower1 c) := by
  rcases lower1_cases c with hc | ⟨h1, h2, h3⟩
  · rw [hc]; exact h
  · exact later_letter (by rw [h3]; exact ascii_letter (by omega) (by omega))

theorem ncname_lower {s : Str} (h : NCName s) : NCName (lower s) := by
  obtain ⟨c, t, rfl, h1, h2⟩ := ncname_inv h
  refine ncname_mk (first_lower h1) ?_
  intro x hx
  obtain ⟨y, hy, rfl⟩ := List.mem_map.1 hx
  exact later_lower (h2 y hy)

theorem qname_lower {s : Str} (h : QName s) : QName (lower s) := by
  rcases qname_inv h with h | ⟨p, l, rfl, hp, hl⟩
  · exact qname_nc (ncname_lower h)
  · have : lower (p ++ ':' :: l) = lower p ++ ':' :: lower l := by
      unfold lower
      rw [List.map_append, List.map_cons]
      rfl
    rw [this]
    exact qname_mk (ncname_lower hp) (ncname_lower hl)

theorem qname_uncolon {s : Str} (h : QName s) : NCName (s.map fun c => if c = ':' then '_' else c) := by
  have key : ∃ c t, s = c :: t ∧ First c ∧ ∀ x ∈ t, Later x ∨ x = ':' := by
    rcases qname_inv h with h | ⟨p, l, rfl, hp, hl⟩
    · obtain ⟨c, t, h1, h2, h3⟩ := ncname_inv h
      exact ⟨c, t, h1, h2, fun x hx => .inl (h3 x hx)⟩
    · obtain ⟨c, t, rfl, h2, h3⟩ := ncname_inv hp
      obtain ⟨d, u, rfl, g2, g3⟩ := ncname_inv hl
      refine ⟨c, t ++ ':' :: d :: u, rfl, h2, fun x hx => ?_⟩
      simp at hx
      rcases hx with hx | hx | hx | hx
      · exact .inl (h3 x hx)
      · exact .inr hx
      · rw [hx]; exact .inl (first_later g2)
      · exact .inl (g3 x hx)
  obtain ⟨c, t, rfl, h1, h2⟩ := key
  rw [List.map_cons, if_neg (later_not_colon (first_later h1))]
  refine ncname_mk h1 ?_
  intro x hx
  obtain ⟨y, hy, rfl⟩ := List.mem_map.1 hx
  by_cases hyc : y = ':'
  · simp only [hyc, if_true]; exact later_underscore
  · simp only [hyc, if_false]
    rcases h2 y hy with h | h
    · exact h
    · exact absurd h hyc

theorem qname_ne {s : Str} (h : QName s) : s ≠ [] := by
  rcases qname_inv h with h | ⟨p, l, rfl, _, _⟩
  · obtain ⟨c, t, rfl, _⟩ := ncname_inv h; simp
  · simp

/-! ### Attributes -/

theorem goodAtts_nil : GoodAtts [] := ⟨by simp, by simp, by simp⟩

theorem goodAtts_filter {l : List Att} (h : GoodAtts l) (f : Att → Bool) : GoodAtts (l.filter f) :=
  ⟨fun a ha => h.qname a (List.mem_filter.1 ha).1, fun a ha => h.xmlns a (List.mem_filter.1 ha).1,
    (List.filter_sublist.map _).nodup h.distinct⟩

theorem goodAtts_set {l : List Att} (h : GoodAtts l) {name : Str} (hn : QName name) (ty v : Str) :
    GoodAtts (setAtt l name ty v) := by
  unfold setAtt
  by_cases hx : name = "xmlns".toList ∨ "xmlns:".toList.isPrefixOf name = true
  · rw [if_pos hx]; exact h
  · rw [if_neg hx]
    have hx' : name ≠ "xmlns".toList ∧ ∀ r, name ≠ "xmlns:".toList ++ r := by
      refine ⟨fun hh => hx (.inl hh), fun r hh => hx (.inr ?_)⟩
      rw [hh]
      exact List.isPrefixOf_iff_prefix.2 (List.prefix_append _ _)
    cases hf : l.findIdx? (fun a => a.qName == name) with
    | none =>
      simp only []
      have hno := List.findIdx?_eq_none_iff.1 hf
      refine ⟨?_, ?_, ?_⟩
      · intro a ha
        rcases List.mem_append.1 ha with ha | ha
        · exact h.qname a ha
        · simp at ha; subst ha; exact hn
      · intro a ha
        rcases List.mem_append.1 ha with ha | ha
        · exact h.xmlns a ha
        · simp at ha; subst ha; exact hx'
      · rw [List.map_append, List.nodup_append]
        refine ⟨h.distinct, by simp, ?_⟩
        intro a ha b hb
        obtain ⟨x, hx1, rfl⟩ := List.mem_map.1 ha
        simp at hb
        subst hb
        have := hno x hx1
        simpa using this
    | some i =>
      simp only []
      obtain ⟨hi, hp, _⟩ := List.findIdx?_eq_some_iff_getElem.1 hf
      simp at hp
      have hmem : ∀ (w : Att), ∀ a ∈ l.set i w, a ∈ l ∨ a = w := by
        intro w a ha
        exact List.mem_or_eq_of_mem_set ha
      refine ⟨?_, ?_, ?_⟩
      · intro a ha
        rcases hmem _ a ha with ha | ha
        · exact h.qname a ha
        · subst ha; exact hn
      · intro a ha
        rcases hmem _ a ha with ha | ha
        · exact h.xmlns a ha
        · subst ha; exact hx'
      · rw [List.map_set]
        have : (l.map (·.qName)).set i name = l.map (·.qName) := by
          apply List.ext_getElem
          · simp
          · intro j h1 h2
            rw [List.getElem_set]
            by_cases hij : i = j
            · subst hij; rw [if_pos rfl]; simp [hp]
            · rw [if_neg hij]
        rw [this]
        exact h.distinct

/-! ### Elements -/

def Placed (t : EType) : Prop := t.memberOf ≠ 0 ∨ t.parent ≠ none

def Good2 (e : Elem) : Prop := Placed e.ty → QName e.ty.name ∧ GoodAtts e.atts

def Good1 (e : Elem) : Prop := e.ty.name ≠ "<pcdata>".toList → Good2 e

def GoodType (t : EType) : Prop :=
  (QName t.name ∧ GoodAtts t.atts) ∨ t.name = "<pcdata>".toList ∨ (t.memberOf = 0 ∧ t.parent = none)

theorem good_newElem {t : EType} (h : GoodType t) : Good1 (newElem cfg t) := by
  intro hn hp
  rcases h with h | h | h
  · refine ⟨h.1, ?_⟩
    show GoodAtts (if cfg.defaultAttributes then t.atts else [])
    by_cases hd : cfg.defaultAttributes = true
    · rw [if_pos hd]; exact h.2
    · rw [if_neg hd]; exact goodAtts_nil
  · exact absurd h hn
  · rcases hp with hp | hp
    · exact absurd h.1 hp
    · exact absurd h.2 hp

structure Fine (s : St) : Prop where
  stack : ∀ e ∈ s.stack, Good2 e
  saved : ∀ e ∈ s.saved, Good2 e
  new : ∀ e, s.newElement = some e → Good1 e
  types : GoodNames s.schema
  pcd : s.pcdata.ty.name = "<pcdata>".toList
  att : s.attributeName = [] ∨ QName s.attributeName
  target : s.piTarget = [] ∨ NCName s.piTarget
  out : ∀ e ∈ s.out, Writable e

theorem fine_emits {s : St} (h : Fine s) (es : List Ev) (he : ∀ e ∈ es, Writable e) :
    Fine (s.emits es) :=
  ⟨h.stack, h.saved, h.new, h.types, h.pcd, h.att, h.target, fun e hm => by
    rcases List.mem_append.1 hm with hm | hm
    · exact h.out e hm
    · exact he e hm⟩

theorem fine_push {s : St} (h : Fine s) {e : Elem} (he : Good2 e) (hp : Placed e.ty) :
    Fine (push cfg s e) := by
  have hc : QName e.ty.name ∧ GoodAtts (clean e).atts := ⟨(he hp).1, goodAtts_filter (he hp).2 _⟩
  refine ⟨?_, h.saved, h.new, h.types, h.pcd, h.att, h.target, ?_⟩
  · intro x hx
    have hx' : x ∈ clean e :: s.stack := hx
    rcases List.mem_cons.1 hx' with hx' | hx'
    · rw [hx']; exact fun _ => hc
    · exact h.stack x hx'
  · intro x hx
    have hx' : x ∈ s.out ++ (openMappings cfg s.schema (clean e) ++
      [.startElement (reported cfg (clean e).ty).1 (reported cfg (clean e).ty).2 (clean e).ty.name
        (clean e).atts]) := hx
    rcases List.mem_append.1 hx' with hx' | hx'
    · exact h.out x hx'
    · rcases List.mem_append.1 hx' with hx' | hx'
      · unfold openMappings at hx'
        rcases List.mem_append.1 hx' with hx' | hx'
        · split at hx'
          · simp at hx'; rw [hx']; trivial
          · simp at hx'
        · obtain ⟨a, _, rfl⟩ := List.mem_map.1 hx'; trivial
      · simp at hx'
        rw [hx']
        exact hc

theorem fine_pop {s : St} (h : Fine s) : Fine (pop cfg s) := by
  unfold pop
  cases hs : s.stack with
  | nil => exact h
  | cons e rest =>
    refine ⟨fun x hx => h.stack x (by rw [hs]; exact List.mem_cons_of_mem _ hx), h.saved, h.new,
      h.types, h.pcd, h.att, h.target, ?_⟩
    intro x hx
    have hx' : x ∈ s.out ++ (.endElement (reported cfg e.ty).1 (reported cfg e.ty).2 e.ty.name ::
      closeMappings cfg s.schema e) := hx
    rcases List.mem_append.1 hx' with hx' | hx'
    · exact h.out x hx'
    · rcases List.mem_cons.1 hx' with hx' | hx'
      · rw [hx']; trivial
      · unfold closeMappings at hx'
        rcases List.mem_append.1 hx' with hx' | hx'
        · split at hx'
          · simp at hx'; rw [hx']; trivial
          · simp at hx'
        · obtain ⟨a, _, rfl⟩ := List.mem_map.1 hx'; trivial

theorem fine_saved {s : St} (h : Fine s) {l : List Elem} (hl : ∀ e ∈ l, Good2 e) :
    Fine { s with saved := l } :=
  ⟨h.stack, hl, h.new, h.types, h.pcd, h.att, h.target, h.out⟩

theorem fine_restartablyPop {s : St} (h : Fine s) : Fine (restartablyPop cfg s) := by
  unfold restartablyPop
  cases hs : s.stack with
  | nil => exact h
  | cons e rest =>
    simp only []
    by_cases hc : (cfg.restartElements && e.ty.has fRestart) = true
    · rw [if_pos hc]
      refine fine_saved (fine_pop h) ?_
      intro x hx
      rw [saved_pop] at hx
      rcases List.mem_cons.1 hx with hx | hx
      · rw [hx]
        intro hp
        have := h.stack e (by rw [hs]; simp) hp
        exact ⟨this.1, goodAtts_filter this.2 _⟩
      · exact h.saved x hx
    · rw [if_neg hc]; exact fine_pop h

theorem canContain_placed {a b : EType} (h : canContain a b = true) : Placed b := by
  refine .inl fun h0 => ?_
  unfold canContain at h
  rw [h0] at h
  simp at h

theorem fine_restartLoop (e : Option Elem) : ∀ (l : List Elem) (s : St), Fine s →
    (∀ x ∈ l, Good2 x) → Fine (restartLoop cfg e l s)
  | [], s, h, _ => by rw [restartLoop]; exact fine_saved h (by simp)
  | x :: rest, s, h, hl => by
    rw [restartLoop]
    by_cases hc : (canContain s.top x.ty && e.all (fun e => canContain x.ty e.ty)) = true
    · rw [if_pos hc]
      rw [Bool.and_eq_true] at hc
      exact fine_restartLoop e rest _ (fine_push h (hl x (by simp)) (canContain_placed hc.1))
        (fun y hy => hl y (by simp [hy]))
    · rw [if_neg hc]; exact fine_saved h hl

theorem fine_restart (e : Option Elem) {s : St} (h : Fine s) : Fine (restart cfg e s) :=
  fine_restartLoop e s.saved s h h.saved

theorem fine_popN : ∀ (n : Nat) (s : St), Fine s → Fine (popN cfg n s)
  | 0, s, h => h
  | n + 1, s, h => by rw [popN]; exact fine_popN n _ (fine_restartablyPop h)

theorem fine_popUpto : ∀ (n : Nat) (s : St), Fine s → Fine (popUpto cfg n s)
  | 0, s, h => h
  | n + 1, s, h => by
    rw [popUpto]
    by_cases hl : s.stack.length ≤ 2
    · rw [if_pos hl]; exact h
    · rw [if_neg hl]; exact fine_popUpto n _ (fine_restartablyPop h)

theorem fine_popPreclosed : ∀ (l : List Elem) (s : St), Fine s → Fine (popPreclosed cfg l s)
  | [], s, h => h
  | e :: rest, s, h => by
    rw [popPreclosed]
    by_cases hp : e.preclosed = true
    · rw [if_pos hp]; exact fine_popPreclosed rest _ (fine_pop h)
    · rw [if_neg hp]; exact h

theorem fine_popAll : ∀ (l : List Elem) (s : St), Fine s → Fine (popAll cfg l s)
  | [], s, h => h
  | [_], s, h => h
  | _ :: b :: rest, s, h => by rw [popAll]; exact fine_popAll (b :: rest) _ (fine_pop h); simp

theorem mem_modify {α : Type} (f : α → α) : ∀ (l : List α) (i : Nat) (x : α), x ∈ l.modify i f →
    x ∈ l ∨ ∃ y ∈ l, x = f y
  | [], i, x, h => by simp at h
  | a :: l, 0, x, h => by
    simp at h
    rcases h with h | h
    · exact .inr ⟨a, by simp, h⟩
    · exact .inl (by simp [h])
  | a :: l, i + 1, x, h => by
    simp at h
    rcases h with h | h
    · exact .inl (by simp [h])
    · rcases mem_modify f l i x h with h | ⟨y, hy, h⟩
      · exact .inl (by simp [h])
      · exact .inr ⟨y, by simp [hy], h⟩

theorem fine_etagName {s : St} (h : Fine s) (name : Str) : Fine (etagName cfg s name) := by
  unfold etagName
  cases hf : s.stack.findIdx? (fun e => e.ty.name == name) with
  | none => exact h
  | some i =>
    simp only []
    by_cases hl : s.stack.length ≤ i + 2
    · rw [if_pos hl]; exact h
    · rw [if_neg hl]
      apply fine_restart
      apply fine_popPreclosed
      by_cases hn : ((s.stack.take i).any (fun e => e.ty.has fNoforce)) = true
      · rw [if_pos hn]
        refine ⟨?_, h.saved, h.new, h.types, h.pcd, h.att, h.target, h.out⟩
        intro x hx
        rcases mem_modify _ _ _ _ hx with hx | ⟨y, hy, hx⟩
        · exact h.stack x hx
        · rw [hx]; exact h.stack y hy
      · rw [if_neg hn]; exact fine_pop (fine_popN i s h)

theorem fine_new {s : St} (h : Fine s) : Fine { s with newElement := none } :=
  ⟨h.stack, h.saved, fun e he => absurd he (by simp), h.types, h.pcd, h.att, h.target, h.out⟩

theorem fine_etagBasic {s : St} (h : Fine s) (b : Str) : Fine (etagBasic cfg s b) := by
  unfold etagBasic
  simp only []
  by_cases hb : b ≠ []
  · rw [if_pos hb]
    cases s.schema.getType (makeName cfg b) with
    | none => exact fine_new h
    | some t => exact fine_etagName (fine_new h) _
  · rw [if_neg hb]; exact fine_etagName (fine_new h) _

theorem climb_good {s : St} (ht : GoodNames s.schema) : ∀ (fuel : Nat) (e : Elem) (chain : List Elem)
    (i : Nat) (l : List Elem), Good1 e → (∀ x ∈ chain, Good1 x ∧ Placed x.ty) →
    climb cfg s fuel e chain = .ok (i, l) → ∀ x ∈ l, Good1 x ∧ Placed x.ty
  | 0, e, chain, i, l, _, _, h => by rw [climb] at h; exact absurd h (by simp)
  | fuel + 1, e, chain, i, l, he, hc, h => by
    rw [climb] at h
    cases hf : s.stack.findIdx? (fun x => canContain x.ty e.ty) with
    | some j =>
      rw [hf] at h
      simp only [Out.ok.injEq, Prod.mk.injEq] at h
      obtain ⟨hj, hp, _⟩ := List.findIdx?_eq_some_iff_getElem.1 hf
      rw [← h.2]
      intro x hx
      rcases List.mem_cons.1 hx with hx | hx
      · rw [hx]; exact ⟨he, canContain_placed hp⟩
      · exact hc x hx
    | none =>
      rw [hf] at h
      simp only [] at h
      cases hp : e.ty.parent with
      | none => rw [hp] at h; exact absurd h (by simp)
      | some p =>
        rw [hp] at h
        simp only [] at h
        cases hty : s.schema.types[p]? with
        | none => rw [hty] at h; exact absurd h (by simp)
        | some t =>
          rw [hty] at h
          simp only [] at h
          refine climb_good ht fuel _ _ i l (good_newElem (ht t.1 t.2 (List.mem_of_getElem? hty))) ?_ h
          intro x hx
          rcases List.mem_cons.1 hx with hx | hx
          · rw [hx]; exact ⟨he, .inr (by rw [hp]; simp)⟩
          · exact hc x hx

theorem fine_pushChain : ∀ (l : List Elem) (s : St), Fine s → (∀ x ∈ l, Good1 x ∧ Placed x.ty) →
    Fine (pushChain cfg l s)
  | [], s, h, _ => h
  | e :: rest, s, h, hl => by
    rw [pushChain]
    refine fine_pushChain rest _ (fine_restart _ ?_) (fun x hx => hl x (by simp [hx]))
    by_cases hn : e.ty.name ≠ "<pcdata>".toList
    · rw [if_pos hn]; exact fine_push h ((hl e (by simp)).1 hn) (hl e (by simp)).2
    · rw [if_neg hn]; exact h

theorem fine_rectify {fuel : Nat} {s t : St} {e : Elem} (h : Fine s) (he : Good1 e)
    (ht : rectify cfg fuel s e = .ok t) : Fine t := by
  unfold rectify at ht
  cases hc : climb cfg s fuel e [] with
  | throws => rw [hc] at ht; exact absurd ht (by simp)
  | ub => rw [hc] at ht; exact absurd ht (by simp)
  | diverges => rw [hc] at ht; exact absurd ht (by simp)
  | ok r =>
    obtain ⟨i, l⟩ := r
    rw [hc] at ht
    simp only [Out.ok.injEq] at ht
    subst ht
    exact fine_new (fine_pushChain l _ (fine_popUpto i s h)
      (climb_good h.types fuel e [] i l he (by simp) hc))

theorem good_pcdata {s : St} (h : Fine s) : Good1 s.pcdata := fun hn => absurd h.pcd hn

/-! ### Tokens -/

theorem not_question_gt {d : Str} (h : '>' ∉ d) : ∀ p r, d ≠ p ++ '?' :: '>' :: r := by
  intro p r he
  exact h (by rw [he]; simp)

theorem getType_good {S : Schema} (h : GoodNames S) {n : Str} {t : EType} (ht : S.getType n = some t) :
    GoodType t := by
  unfold Schema.getType at ht
  rw [Option.map_eq_some_iff] at ht
  obtain ⟨⟨k, t'⟩, hf, ht⟩ := ht
  simp at ht
  subst ht
  exact h k t' (List.mem_of_find?_eq_some hf)

theorem fine_handle {fuel : Nat} {s t : St} {tok : Tok} (h : Fine s) (hk : TokOk tok)
    (ht : handle cfg fuel s tok = .ok t) : Fine t := by
  cases tok with
  | adup b =>
    simp only [handle, Out.ok.injEq] at ht; subst ht
    unfold adup
    cases hn : s.newElement with
    | none => exact h
    | some e =>
      simp only []
      by_cases ha : s.attributeName = []
      · rw [if_pos ha]; exact h
      · rw [if_neg ha]
        refine ⟨h.stack, h.saved, ?_, h.types, h.pcd, .inl rfl, h.target, h.out⟩
        intro x hx
        simp only [Option.some.injEq] at hx
        subst hx
        intro hne hp
        have := h.new e hn hne hp
        exact ⟨this.1, goodAtts_set this.2 (h.att.resolve_left ha) _ _⟩
  | aname b =>
    simp only [handle, Out.ok.injEq] at ht; subst ht
    unfold aname
    cases hn : s.newElement with
    | none => exact h
    | some e =>
      exact ⟨h.stack, h.saved, fun x hx => h.new x (by rw [hn]; exact hx), h.types, h.pcd,
        .inr (qname_lower (makeName_qname b)), h.target, h.out⟩
  | aval b =>
    simp only [handle, Out.ok.injEq] at ht; subst ht
    unfold aval
    cases hn : s.newElement with
    | none => exact h
    | some e =>
      simp only []
      by_cases ha : s.attributeName = []
      · rw [if_pos ha]; exact h
      · rw [if_neg ha]
        refine ⟨h.stack, h.saved, ?_, h.types, h.pcd, .inl rfl, h.target, h.out⟩
        intro x hx
        simp only [Option.some.injEq] at hx
        subst hx
        intro hne hp
        have := h.new e hn hne hp
        exact ⟨this.1, goodAtts_set this.2 (h.att.resolve_left ha) _ _⟩
  | cmnt b =>
    simp only [handle, Out.ok.injEq] at ht; subst ht
    exact fine_emits h [.comment b] (fun e he => by simp at he; rw [he]; exact hk)
  | decl b =>
    simp only [handle] at ht
    unfold decl at ht
    cases hs : split b with
    | none => rw [hs] at ht; exact absurd ht (by simp)
    | some v =>
      rw [hs] at ht
      simp only [] at ht
      by_cases hd : v.head? = some "DOCTYPE".toList
      · rw [if_pos hd] at ht
        by_cases hp : s.doctypeIsPresent = true
        · rw [if_pos hp] at ht; simp only [Out.ok.injEq] at ht; subst ht; exact h
        · rw [if_neg hp] at ht
          have h' : Fine { s with doctypeIsPresent := true } :=
            ⟨h.stack, h.saved, h.new, h.types, h.pcd, h.att, h.target, h.out⟩
          by_cases hw : (declWords v).1 ≠ []
          · rw [if_pos hw] at ht; simp only [Out.ok.injEq] at ht; subst ht
            refine fine_emits h' _ (fun e he => ?_)
            simp at he
            rcases he with he | he <;> rw [he] <;> trivial
          · rw [if_neg hw] at ht; simp only [Out.ok.injEq] at ht; subst ht; exact h'
      · rw [if_neg hd] at ht; simp only [Out.ok.injEq] at ht; subst ht; exact h
  | entity b =>
    simp only [handle, Out.ok.injEq] at ht; subst ht
    exact ⟨h.stack, h.saved, h.new, h.types, h.pcd, h.att, h.target, h.out⟩
  | etag b =>
    simp only [handle, Out.ok.injEq] at ht; subst ht
    unfold etag etagCdata
    by_cases hc : (cfg.cdataElements && s.top.has fCdata) = true
    · rw [if_pos hc]
      by_cases hl : lower b = lower s.top.name
      · rw [if_pos hl]; exact fine_etagBasic h b
      · rw [if_neg hl]
        have := fine_emits h [.characters "</".toList, .characters b, .characters ">".toList]
          (fun e he => by simp at he; rcases he with he | he | he <;> rw [he] <;> trivial)
        exact ⟨this.stack, this.saved, this.new, this.types, this.pcd, this.att, this.target, this.out⟩
    · rw [if_neg hc]; exact fine_etagBasic h b
  | gi b =>
    simp only [handle, Out.ok.injEq] at ht; subst ht
    unfold gi
    cases hn : s.newElement with
    | some e0 => exact h
    | none =>
      simp only []
      by_cases hm : makeName cfg b = []
      · rw [if_pos hm]; exact h
      · rw [if_neg hm]
        cases hg : s.schema.getType (makeName cfg b) with
        | some t =>
          exact ⟨h.stack, h.saved, fun x hx => by
            simp only [Option.some.injEq] at hx; subst hx
            exact good_newElem (getType_good h.types hg), h.types, h.pcd, h.att, h.target, h.out⟩
        | none =>
          simp only []
          by_cases hi : cfg.ignoreBogons = true
          · rw [if_pos hi]; exact h
          · rw [if_neg hi]
            have hT : GoodNames (s.schema.addType (makeName cfg b) (if cfg.bogonsEmpty then mEmpty else mAny)
              (if cfg.rootBogons then mAny else mAny - mRoot) 0
              (if cfg.rootBogons then none else some s.schema.root)) := by
              intro k t hm
              unfold Schema.addType at hm
              simp only [List.mem_append, List.mem_singleton, Prod.mk.injEq] at hm
              rcases hm with hm | ⟨_, hm⟩
              · exact h.types k t hm
              · left
                rw [hm]
                exact ⟨makeName_qname b, goodAtts_nil⟩
            cases hg2 : (s.schema.addType (makeName cfg b) (if cfg.bogonsEmpty then mEmpty else mAny)
              (if cfg.rootBogons then mAny else mAny - mRoot) 0
              (if cfg.rootBogons then none else some s.schema.root)).getType (makeName cfg b) with
            | some t =>
              exact ⟨h.stack, h.saved, fun x hx => by
                simp only [Option.some.injEq] at hx; subst hx
                exact good_newElem (getType_good hT hg2), hT, h.pcd, h.att, h.target, h.out⟩
            | none =>
              exact ⟨h.stack, h.saved, fun x hx => by
                simp only [Option.some.injEq] at hx; subst hx
                exact good_newElem (.inr (.inr ⟨rfl, rfl⟩)), hT, h.pcd, h.att, h.target, h.out⟩
  | pcdata b =>
    simp only [handle] at ht
    unfold pcdata at ht
    by_cases hbe : b = []
    · rw [if_pos hbe] at ht; simp only [Out.ok.injEq] at ht; subst ht; exact h
    · rw [if_neg hbe] at ht
      by_cases hw : (b.all (fun c => XmlChars.isSpace (schar c)) && !canContain s.top s.pcdata.ty) = true
      · rw [if_pos hw] at ht; simp only [Out.ok.injEq] at ht; subst ht
        by_cases hiw : cfg.ignorableWhitespace = true
        · rw [if_pos hiw]
          exact fine_emits h [.ignorable b] (fun e he => by simp at he; rw [he]; trivial)
        · rw [if_neg hiw]; exact h
      · rw [if_neg hw] at ht
        cases hre : rectify cfg fuel s s.pcdata with
        | ok s' =>
          rw [hre] at ht; simp only [Out.ok.injEq] at ht; subst ht
          exact fine_emits (fine_rectify h (good_pcdata h) hre) [.characters b]
            (fun e he => by simp at he; rw [he]; trivial)
        | throws => rw [hre] at ht; exact absurd ht (by simp)
        | ub => rw [hre] at ht; exact absurd ht (by simp)
        | diverges => rw [hre] at ht; exact absurd ht (by simp)
  | pi b =>
    simp only [handle, Out.ok.injEq] at ht; subst ht
    unfold procInst
    cases hn : s.newElement with
    | some e0 => exact h
    | none =>
      simp only []
      by_cases hp : s.piTarget = [] ∨ lower s.piTarget = "xml".toList
      · rw [if_pos hp]; exact h
      · rw [if_neg hp]
        have hw : Writable (.pi s.piTarget (if b.getLast? = some '?' then b.dropLast else b)) := by
          refine ⟨h.target.resolve_left (fun hh => hp (.inl hh)), ?_, ?_⟩
          · rintro x m l he ⟨hx, hm, hl⟩
            refine hp (.inr ?_)
            rw [he]
            rcases hx with rfl | rfl <;> rcases hm with rfl | rfl <;> rcases hl with rfl | rfl <;>
              decide +kernel
          · apply not_question_gt
            have hk' : '>' ∉ b := hk
            by_cases hl : b.getLast? = some '?'
            · rw [if_pos hl]; exact fun hm => hk' ((List.dropLast_sublist _).subset hm)
            · rw [if_neg hl]; exact hk'
        have := fine_emits h [_] (fun e he => by simp at he; rw [he]; exact hw)
        exact ⟨this.stack, this.saved, this.new, this.types, this.pcd, this.att, .inl rfl, this.out⟩
  | pitarget b =>
    simp only [handle, Out.ok.injEq] at ht; subst ht
    unfold pitarget
    cases hn : s.newElement with
    | some e0 => exact h
    | none =>
      exact ⟨h.stack, h.saved, fun x hx => h.new x (by rw [hn]; exact hx), h.types, h.pcd, h.att,
        .inr (qname_uncolon (makeName_qname b)), h.out⟩
  | stagc b =>
    simp only [handle] at ht
    unfold stagc at ht
    cases hn : s.newElement with
    | none => rw [hn] at ht; simp only [Out.ok.injEq] at ht; subst ht; exact h
    | some e0 =>
      rw [hn] at ht; simp only [] at ht
      cases hre : rectify cfg fuel s e0 with
      | ok s' =>
        rw [hre] at ht; simp only [Out.ok.injEq] at ht; subst ht
        have hf := fine_rectify h (h.new e0 hn) hre
        by_cases hm : s'.top.model = mEmpty
        · rw [if_pos hm]; exact fine_etagBasic hf b
        · rw [if_neg hm]; exact hf
      | throws => rw [hre] at ht; exact absurd ht (by simp)
      | ub => rw [hre] at ht; exact absurd ht (by simp)
      | diverges => rw [hre] at ht; exact absurd ht (by simp)
  | stage b =>
    simp only [handle] at ht
    unfold stage at ht
    cases hn : s.newElement with
    | none => rw [hn] at ht; simp only [Out.ok.injEq] at ht; subst ht; exact h
    | some e0 =>
      rw [hn] at ht; simp only [] at ht
      cases hre : rectify cfg fuel s e0 with
      | ok s' =>
        rw [hre] at ht; simp only [Out.ok.injEq] at ht; subst ht
        exact fine_etagBasic (fine_rectify h (h.new e0 hn) hre) b
      | throws => rw [hre] at ht; exact absurd ht (by simp)
      | ub => rw [hre] at ht; exact absurd ht (by simp)
      | diverges => rw [hre] at ht; exact absurd ht (by simp)

theorem fine_all {fuel : Nat} : ∀ (ts : List Tok) (s t : St), Fine s → (∀ k ∈ ts, TokOk k) →
    handleAll cfg fuel s ts = .ok t → Fine t
  | [], s, t, h, _, ht => by
    rw [handleAll] at ht; simp only [Out.ok.injEq] at ht; subst ht; exact h
  | tok :: ts, s, t, h, hk, ht => by
    rw [handleAll] at ht
    have h' : Fine { s with cdata := false } :=
      ⟨h.stack, h.saved, h.new, h.types, h.pcd, h.att, h.target, h.out⟩
    cases hh : handle cfg fuel { s with cdata := false } tok with
    | ok s' =>
      rw [hh] at ht
      exact fine_all ts s' t (fine_handle h' (hk tok (by simp)) hh) (fun k hm => hk k (by simp [hm])) ht
    | throws => rw [hh] at ht; exact absurd ht (by simp)
    | ub => rw [hh] at ht; exact absurd ht (by simp)
    | diverges => rw [hh] at ht; exact absurd ht (by simp)

theorem fine_start {S : Schema} {r pc : EType} (hR : Roots S r pc) (hr : r.memberOf = 0 ∧ r.parent = none)
    (hg : GoodNames S) (seen : Bool) : Fine (start cfg S seen) := by
  refine ⟨?_, by simp [start], fun e he => absurd he (by simp [start]), hg, ?_, .inl rfl, .inl rfl, ?_⟩
  · intro e he
    simp only [start, hR.root, Option.getD_some, List.mem_singleton] at he
    rw [he]
    rintro (h | h)
    · exact absurd hr.1 h
    · exact absurd hr.2 h
  · show (newElem cfg ((S.getType "<pcdata>".toList).getD nullType)).ty.name = _
    rw [hR.pcdata]; exact hR.name
  · intro e he
    have he' : e ∈ Ev.startDocument :: (if S.uri ≠ [] then [Ev.startPrefix S.prefix' S.uri] else []) := he
    rcases List.mem_cons.1 he' with he' | he'
    · rw [he']; trivial
    · split at he'
      · simp at he'; rw [he']; trivial
      · simp at he'

theorem fine_eof {fuel : Nat} {s t : St} (h : Fine s) (ht : eof cfg fuel s = .ok t) : Fine t := by
  unfold eof at ht
  have key : ∀ s', Fine s' → Fine ((popAll cfg s'.stack s').emits
      ((if (popAll cfg s'.stack s').schema.uri ≠ [] then [.endPrefix (popAll cfg s'.stack s').schema.prefix']
        else []) ++ [.endDocument])) := by
    intro s' hs'
    refine fine_emits (fine_popAll _ _ hs') _ (fun e he => ?_)
    rcases List.mem_append.1 he with he | he
    · split at he
      · simp at he; rw [he]; trivial
      · simp at he
    · simp at he; rw [he]; trivial
  cases hv : s.virgin with
  | false =>
    rw [hv] at ht
    simp only [Bool.false_eq_true, if_false, Out.ok.injEq] at ht
    subst ht
    exact key s h
  | true =>
    rw [hv] at ht
    simp only [if_true] at ht
    cases hre : rectify cfg fuel s s.pcdata with
    | ok s' =>
      rw [hre] at ht
      simp only [Out.ok.injEq] at ht
      subst ht
      exact key s' (fine_rectify h (good_pcdata h) hre)
    | throws => rw [hre] at ht; exact absurd ht (by simp)
    | ub => rw [hre] at ht; exact absurd ht (by simp)
    | diverges => rw [hre] at ht; exact absurd ht (by simp)

end Verif.Taggle
