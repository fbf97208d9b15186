import Verif.Model.DomNames
import Verif.Spec.DomNames
import Verif.Lemmas.Names
set_option autoImplicit false
set_option linter.unusedSimpArgs false
/-!
# C64: the names of elements and attributes
-/
namespace Verif.Props.DomNames
open Verif.DomNames Verif.Spec
open Verif.Dom (Err)
open Verif.Spec.DomNames (QName XmlName NCName elementRefused attributeRefused attributeUri codes)

deriving instance DecidableEq for Except

theorem wide_iff (c : Char) : wideNameChar c = true ↔ Xml.NameChar c.toNat := Names.nameChar_iff c.toNat

theorem checkName_iff (s : Str) :
    checkName wideNameChar s = true ↔ s ≠ [] ∧ ∀ c ∈ s, Xml.NameChar c.toNat := by
  unfold checkName
  rw [Bool.and_eq_true, List.all_eq_true]
  constructor
  · rintro ⟨h1, h2⟩
    exact ⟨by cases s <;> simp_all, fun c hc => (wide_iff c).mp (h2 c hc)⟩
  · rintro ⟨h1, h2⟩
    exact ⟨by cases s <;> simp_all, fun c hc => (wide_iff c).mpr (h2 c hc)⟩

/-- C64, the characters: an element or attribute is created without a complaint about characters exactly
for nonempty strings of name characters (wide strings). -/
theorem C64_characters (n u : Str) :
    (createElement wideNameChar n = .ok (plain n) ↔ n ≠ [] ∧ ∀ c ∈ n, Xml.NameChar c.toNat) ∧
    (createElement wideNameChar n = .error .invalidChar ↔ ¬ (n ≠ [] ∧ ∀ c ∈ n, Xml.NameChar c.toNat)) ∧
    (createElementNS wideNameChar u n = .error .invalidChar ↔ ¬ (n ≠ [] ∧ ∀ c ∈ n, Xml.NameChar c.toNat)) ∧
    (createAttributeNS wideNameChar u n = .error .invalidChar ↔ ¬ (n ≠ [] ∧ ∀ c ∈ n, Xml.NameChar c.toNat)) := by
  have hp : ∀ h p hu b, checkPrefixAndNamespace h p hu u b ≠ .error .invalidChar := by
    intro h p hu b
    unfold checkPrefixAndNamespace
    repeat' split
    all_goals simp
  have he : elementNS u n ≠ .error .invalidChar := by
    unfold elementNS
    cases hc : cut n with
    | none =>
      simp only
      cases hk : checkPrefixAndNamespace false [] (!u.isEmpty) u false with
      | error e => intro h; cases h; exact hp _ _ _ _ hk
      | ok r => simp
    | some r =>
      obtain ⟨p, l⟩ := r
      simp only
      cases hk : checkPrefixAndNamespace true p (!u.isEmpty) u false with
      | error e => intro h; cases h; exact hp _ _ _ _ hk
      | ok r => simp
  have ha : attrNS u n ≠ .error .invalidChar := by
    unfold attrNS
    cases hc : cut n with
    | none =>
      simp only
      cases hk : checkPrefixAndNamespace (decide (n = xmlns)) (if n = xmlns then n else []) (!u.isEmpty) u true with
      | error e => intro h; cases h; exact hp _ _ _ _ hk
      | ok r => simp
    | some r =>
      obtain ⟨p, l⟩ := r
      simp only
      cases hk : checkPrefixAndNamespace true p (!u.isEmpty) u true with
      | error e => intro h; cases h; exact hp _ _ _ _ hk
      | ok r => simp
  rw [← checkName_iff]
  unfold createElement createElementNS createAttributeNS
  by_cases h : checkName wideNameChar n = true
  · simp [h, he, ha]
  · simp [h]

theorem ncname_nameChar {s : Str} (h : NCName s) : s ≠ [] ∧ ∀ c ∈ s, Xml.NameChar c.toNat ∧ c ≠ ':' := by
  obtain ⟨c, t, hs, hc, ht⟩ := h
  unfold codes at hs
  cases s with
  | nil => cases hs
  | cons d s =>
    simp only [List.map_cons, List.cons.injEq] at hs
    obtain ⟨h1, h2⟩ := hs
    refine ⟨by simp, ?_⟩
    intro x hx
    rcases List.mem_cons.mp hx with hx | hx
    · subst hx
      rw [h1]
      constructor
      · rcases hc with hc | hc
        · exact .inl hc
        · rw [hc]; exact .inr (.inr (.inr (.inr (.inl rfl))))
      · intro hx
        rw [hx] at h1
        rw [← h1] at hc
        rcases hc with hc | hc
        · exact absurd ((Names.letter_iff 58).mpr hc) (by decide +kernel)
        · exact absurd hc (by decide)
    · have := ht x.toNat (by rw [← h2]; exact List.mem_map.mpr ⟨x, hx, rfl⟩)
      refine ⟨this.1, ?_⟩
      intro hxc
      rw [hxc] at this
      exact this.2 rfl

theorem cut_none (s : Str) (h : ':' ∉ s) : cut s = none := by
  induction s with
  | nil => rfl
  | cons c s ih =>
    simp only [List.mem_cons, not_or] at h
    rw [cut, if_neg (Ne.symm h.1), ih h.2]; rfl

theorem cut_some (p l : Str) (h : ':' ∉ p) : cut (p ++ ':' :: l) = some (p, l) := by
  induction p with
  | nil => rfl
  | cons c p ih =>
    simp only [List.mem_cons, not_or] at h
    rw [List.cons_append, cut, if_neg (Ne.symm h.1), ih h.2]; rfl

theorem qname_check (q : QName) (h : q.Ok) : checkName wideNameChar q.text = true := by
  rw [checkName_iff]
  cases q with
  | unprefixed l =>
    have := ncname_nameChar h
    exact ⟨this.1, fun c hc => (this.2 c hc).1⟩
  | prefixed p l =>
    have h1 := ncname_nameChar h.1
    have h2 := ncname_nameChar h.2
    refine ⟨by simp [QName.text], ?_⟩
    intro c hc
    rcases List.mem_append.mp hc with hc | hc
    · exact (h1.2 c hc).1
    · rcases List.mem_cons.mp hc with hc | hc
      · rw [hc]; exact .inr (.inr (.inr (.inr (.inr (.inl rfl)))))
      · exact (h2.2 c hc).1

/-- C64 for qualified names: `createElementNS` refuses exactly the combinations DOM Level 2 lists, and the
element it gives has the name, prefix, local name and namespace asked for. -/
theorem C64_element_partial (q : QName) (h : q.Ok) (u : Str) :
    (elementRefused q u ∧ createElementNS wideNameChar u q.text = .error .namespaceErr) ∨
    (¬ elementRefused q u ∧ createElementNS wideNameChar u q.text =
      .ok ⟨q.text, !u.isEmpty, u, q.prefix', q.localName⟩) := by
  unfold createElementNS
  rw [if_pos (qname_check q h)]
  unfold elementNS
  cases q with
  | unprefixed l =>
    refine .inr ⟨id, ?_⟩
    have := ncname_nameChar (show NCName l from h)
    rw [show (QName.unprefixed l).text = l from rfl, cut_none l (fun hc => (this.2 _ hc).2 rfl)]
    rfl
  | prefixed p l =>
    have h1 := ncname_nameChar (show NCName p from h.1)
    have hcol : ':' ∉ p := fun hc => (h1.2 _ hc).2 rfl
    rw [show (QName.prefixed p l).text = p ++ ':' :: l from rfl, cut_some p l hcol]
    simp only []
    unfold checkPrefixAndNamespace elementRefused
    by_cases hx : p = xml
    · subst hx
      by_cases hu : u = xmlURI
      · subst hu
        have e6 : xmlURI.isEmpty = false := by decide +kernel
        refine .inr ⟨?_, by simp [hcol, e6, QName.prefix', QName.localName]⟩
        rintro (hc | hc)
        · exact absurd hc (by decide +kernel)
        · exact hc.2 rfl
      · refine .inl ⟨.inr ⟨rfl, hu⟩, ?_⟩
        simp [hu, show ':' ∉ xml by decide +kernel]
    · have hx' : p ≠ Verif.Spec.DomNames.xmlPrefix := hx
      cases u with
      | nil => exact .inl ⟨.inl rfl, by simp [hcol, hx]⟩
      | cons c u => exact .inr ⟨by simp [hx'], by simp [hcol, hx, QName.text, QName.prefix', QName.localName]⟩

/-- The same for `createAttributeNS`. -/
theorem C64_attribute_partial (q : QName) (h : q.Ok) (u : Str) :
    (attributeRefused q u ∧ createAttributeNS wideNameChar u q.text = .error .namespaceErr) ∨
    (¬ attributeRefused q u ∧ createAttributeNS wideNameChar u q.text =
      .ok ⟨q.text, !(attributeUri q u).isEmpty, attributeUri q u, q.prefix', q.localName⟩) := by
  have e1 : Verif.Spec.DomNames.xmlnsPrefix = xmlns := by decide +kernel
  have e2 : Verif.Spec.DomNames.xmlnsUri = xmlnsURI := rfl
  have e3 : Verif.Spec.DomNames.xmlPrefix = xml := by decide +kernel
  have e4 : Verif.Spec.DomNames.xmlUri = xmlURI := rfl
  have e5 : xmlnsURI.isEmpty = false := by decide +kernel
  have e6 : xmlURI.isEmpty = false := by decide +kernel
  have e7 : xml ≠ xmlns := by decide +kernel
  unfold createAttributeNS
  rw [if_pos (qname_check q h)]
  unfold attrNS
  cases q with
  | unprefixed l =>
    have := ncname_nameChar (show NCName l from h)
    have hcol : ':' ∉ l := fun hc => (this.2 _ hc).2 rfl
    rw [show (QName.unprefixed l).text = l from rfl, cut_none l hcol]
    simp only []
    unfold checkPrefixAndNamespace attributeRefused attributeUri
    rw [e1, e2]
    by_cases hl : l = xmlns
    · subst hl
      have hcx : ':' ∉ xmlns := by decide +kernel
      by_cases hu : u = xmlnsURI ∨ u = []
      · refine .inr ⟨fun hc => hu.elim hc.2.1 hc.2.2, ?_⟩
        simp [hu, hcx, Ne.symm e7, e5, QName.text, QName.prefix', QName.localName]
      · refine .inl ⟨⟨rfl, fun hc => hu (.inl hc), fun hc => hu (.inr hc)⟩, ?_⟩
        simp [hu, hcx, Ne.symm e7]
    · refine .inr ⟨fun hc => hl hc.1, ?_⟩
      simp [hl, QName.text, QName.prefix', QName.localName]
  | prefixed p l =>
    have h1 := ncname_nameChar (show NCName p from h.1)
    have hcol : ':' ∉ p := fun hc => (h1.2 _ hc).2 rfl
    rw [show (QName.prefixed p l).text = p ++ ':' :: l from rfl, cut_some p l hcol]
    simp only []
    unfold checkPrefixAndNamespace attributeRefused attributeUri
    simp only [e1, e2, e3, e4]
    by_cases hx : p = xml
    · subst hx
      by_cases hu : u = xmlURI
      · subst hu
        refine .inr ⟨?_, ?_⟩
        · rintro (hc | hc | hc)
          · exact hc.2 rfl
          · exact e7 hc.1
          · exact absurd hc.2 (by decide +kernel)
        · simp [hcol, e7, e6, QName.text, QName.prefix', QName.localName]
      · exact .inl ⟨.inl ⟨rfl, hu⟩, by simp [hcol, hu]⟩
    · by_cases hn : p = xmlns
      · by_cases hu : u = xmlnsURI ∨ u = []
        · refine .inr ⟨?_, ?_⟩
          · rintro (hc | hc | hc)
            · exact hx hc.1
            · exact hu.elim hc.2.1 hc.2.2
            · exact hc.1 hn
          · simp [hcol, hx, hn, hu, e5, QName.text, QName.prefix', QName.localName]
            subst hn
            simp [Ne.symm e7, hcol]
        · refine .inl ⟨.inr (.inl ⟨hn, fun hc => hu (.inl hc), fun hc => hu (.inr hc)⟩), ?_⟩
          simp [hcol, hx, hn, hu]
          subst hn
          simp [Ne.symm e7, hcol]
      · cases u with
        | nil => exact .inl ⟨.inr (.inr ⟨hn, rfl⟩), by simp [hcol, hx, hn]⟩
        | cons c u =>
          refine .inr ⟨by simp [hx, hn], by simp [hcol, hx, hn, QName.text, QName.prefix', QName.localName]⟩

/-- `p:a` with and without a namespace. -/
example : (QName.prefixed ['p'] ['a']).Ok := by
  refine ⟨⟨_, _, rfl, .inl ?_, by simp⟩, ⟨_, _, rfl, .inl ?_, by simp⟩⟩
  · exact (Names.letter_iff _).mp (by decide +kernel)
  · exact (Names.letter_iff _).mp (by decide +kernel)

theorem not_name (s : Str) (c : Nat) (t : List Nat) (hs : codes s = c :: t) (hc : XmlChars.isLetter c = false)
    (h1 : c ≠ '_'.toNat) (h2 : c ≠ ':'.toNat) : ¬ XmlName s := by
  rintro ⟨d, t', hs', hd, _⟩
  rw [hs] at hs'
  cases hs'
  rcases hd with hd | hd | hd
  · have := (Names.letter_iff c).mpr hd
    rw [hc] at this; cases this
  · exact h1 hd
  · exact h2 hd

/-- C64 is false of the code for strings whose first character no name may start with: they are
accepted. -/
theorem C64_violated_start :
    ¬ XmlName ['1', 'a'] ∧ createElement wideNameChar ['1', 'a'] = .ok (plain ['1', 'a']) ∧
    ¬ XmlName ['-'] ∧ createElement wideNameChar ['-'] = .ok (plain ['-']) := by
  refine ⟨not_name _ _ _ rfl ?_ ?_ ?_, ?_, not_name _ _ _ rfl ?_ ?_ ?_, ?_⟩ <;> decide +kernel

/-- Malformed qualified names are accepted too: without prefix, without local name, with two colons. -/
theorem C64_violated_qualified :
    createElementNS wideNameChar ['u'] [':', 'a'] = .ok ⟨[':', 'a'], true, ['u'], [], ['a']⟩ ∧
    createElementNS wideNameChar ['u'] ['p', ':'] = .ok ⟨['p', ':'], true, ['u'], ['p'], []⟩ ∧
    createElementNS wideNameChar ['u'] "p:a:b".toList = .ok ⟨"p:a:b".toList, true, ['u'], ['p'], "a:b".toList⟩ := by
  refine ⟨?_, ?_, ?_⟩ <;> decide +kernel

/-- With strings of bytes no name with a character outside ASCII is accepted: every byte of its UTF-8
encoding is negative.  The name `ä` is `C3 A4`. -/
theorem C64_violated_bytes (n : Str) (c : Char) (hc : c ∈ n) (h : 128 ≤ c.toNat) (h' : c.toNat < 256) :
    createElement byteNameChar n = .error .invalidChar := by
  have hb : byteNameChar c = false := by
    unfold byteNameChar
    rw [if_neg (by omega)]
    exact Names.neg_nameChar _ (by omega)
  have : checkName byteNameChar n = false := by
    unfold checkName
    rw [Bool.and_eq_false_iff]
    right
    rw [List.all_eq_false]
    exact ⟨c, hc, by simp [hb]⟩
  unfold createElement
  rw [this]; rfl

example : (Char.ofNat 0xC3) ∈ [Char.ofNat 0xC3, Char.ofNat 0xA4] ∧ 128 ≤ (Char.ofNat 0xC3).toNat := by decide +kernel

end Verif.Props.DomNames
