import Verif.Lemmas.Names
set_option autoImplicit false
/-!
# C09, C10: XML character classes and names
-/
namespace Verif.Props.Names
open Verif.XmlChars Verif.Names Verif.Spec

/-- C09: every predicate accepts exactly the code points of its production. -/
theorem C09_classes (c : Nat) :
    (isChar c = true ↔ Xml.Char c) ∧
    (isSpace c = true ↔ Xml.Space c) ∧
    (isBaseChar c = true ↔ Xml.In Xml.baseChar c) ∧
    (isIdeographic c = true ↔ Xml.In Xml.ideographic c) ∧
    (isLetter c = true ↔ Xml.Letter c) ∧
    (isDigit c = true ↔ Xml.In Xml.digit c) ∧
    (isCombiningChar c = true ↔ Xml.In Xml.combiningChar c) ∧
    (isExtender c = true ↔ Xml.In Xml.extender c) ∧
    (isNameChar c = true ↔ Xml.NameChar c) ∧
    (isNCNameChar c = true ↔ Xml.NCNameChar c) ∧
    (isLetterOrDigit c = true ↔ Xml.Letter c ∨ Xml.In Xml.digit c) :=
  ⟨char_iff c, space_iff c, base_iff c, ideo_iff c, letter_iff c, digit_iff c, comb_iff c,
   ext_iff c, nameChar_iff c, ncnameChar_iff c, by
    unfold isLetterOrDigit; rw [Bool.or_eq_true, letter_iff, digit_iff]⟩

/-- C09: no negative character (a sign extended byte) is in any class. -/
theorem C09_negative (c : Int) (h : c < 0) :
    isLetter c = false ∧ isNameChar c = false ∧ isNCNameChar c = false ∧ isSpace c = false ∧
    isChar c = false := by
  refine ⟨neg_letter c h, neg_nameChar c h, neg_ncnameChar c h, ?_, ?_⟩
  · unfold isSpace; simp; omega
  · unfold isChar; simp; omega

example : isLetter 0x0E4 = true ∧ isLetter 0x0D7 = false ∧ isCombiningChar 0x0300 = true ∧
    isBaseChar 0xD7A3 = true ∧ isBaseChar 0xD7A4 = false := by decide +kernel

/-- C10: on wide strings `is_ncname` accepts exactly the NCName production. -/
theorem C10_ncname (s : List Nat) : isNCName (s.map Int.ofNat) = true ↔ Xml.NCName s :=
  ncname_iff s

/-- C10: on wide strings `is_qname` accepts exactly the QName production. -/
theorem C10_qname (s : List Nat) : isQName (s.map Int.ofNat) = true ↔ Xml.QName s :=
  qname_iff s

/-- C10: parsing an accepted QName splits it at its only colon into NCNames that join back to it;
an unprefixed attribute name has no namespace, an unprefixed element name the default one; any
other string is rejected. -/
theorem C10_parse (s : List Nat) (isAttr : Bool) (mapper : List Int → List Int) :
    (Xml.QName s ↔ ∃ q, parseQName (s.map Int.ofNat) isAttr mapper = some q) ∧
    ∀ q, parseQName (s.map Int.ofNat) isAttr mapper = some q →
      q.raw = s.map Int.ofNat ∧
      ((q.pfx = [] ∧ q.localName = s.map Int.ofNat ∧ Xml.NCName s ∧
          q.uri = if isAttr then [] else mapper []) ∨
       ∃ p l, q.pfx = p.map Int.ofNat ∧ q.localName = l.map Int.ofNat ∧ s = p ++ ':'.toNat :: l ∧
          Xml.NCName p ∧ Xml.NCName l ∧ q.uri = mapper q.pfx) := by
  have hq := qname_iff s
  unfold wide at hq
  refine ⟨?_, ?_⟩
  · rw [← hq]
    unfold parseQName
    by_cases h : isQName (s.map Int.ofNat) = true
    · simp only [h, if_true, true_iff]
      split
      · exact ⟨_, rfl⟩
      · exact ⟨_, rfl⟩
    · simp [h]
  · intro q h
    unfold parseQName at h
    split at h
    · rename_i hqn
      have hQ := hq.mp hqn
      split at h
      · rename_i hf
        simp at h; subst h
        refine ⟨rfl, Or.inl ⟨rfl, rfl, ?_, rfl⟩⟩
        rcases hQ with h1 | ⟨p, l, rfl, _, _⟩
        · exact h1
        · exfalso
          have := (findColon_none _).mp hf
          apply this
          simp
      · rename_i i hf
        simp at h; subst h
        refine ⟨rfl, Or.inr ⟨s.take i, s.drop (i + 1), by simp, by simp, ?_⟩⟩
        rcases hQ with h1 | ⟨p, l, rfl, hp, hl⟩
        · exfalso
          apply ncname_no_colon s h1
          rw [← wide_colon]
          unfold wide
          rw [(findColon_some _ _ hf).1]; simp
        · have hnp : (0x3A : Int) ∉ wide p := by
            rw [wide_colon]; exact ncname_no_colon _ hp
          have : findColon (wide (p ++ ':'.toNat :: l)) = some p.length := by
            have := findColon_append (wide p) (wide l) hnp
            simpa [wide] using this
          unfold wide at this
          rw [this] at hf
          simp at hf; subst hf
          simp [hp, hl]
    · simp at h

/-- C10: for names that are ASCII the byte string functions give the same answer. -/
theorem C10_ascii_bytes (s : List UInt8) (h : ∀ b ∈ s, b.toNat < 128) :
    isQName (s.map fun b => b.toInt8.toInt) = true ↔ Xml.QName (s.map UInt8.toNat) := by
  rw [← qname_iff]
  unfold wide
  have : s.map (fun b => b.toInt8.toInt) = (s.map UInt8.toNat).map Int.ofNat := by
    simp only [List.map_map]
    apply List.map_congr_left
    intro b hb
    have := h b hb
    simp only [Function.comp, Int.ofNat_eq_natCast]
    have hx : ∀ n : Fin 128, (UInt8.ofNat n.val).toInt8.toInt = (n.val : Int) := by decide +kernel
    have := hx ⟨b.toNat, this⟩
    simpa using this
  rw [this]

/-- C10 is false of the code for byte strings in UTF-8: bytes above 127 arrive as negative
characters and no name containing one is accepted, although e.g. the letter U+00E9 is one. -/
theorem C10_bytes_violated (s : List UInt8) (h : ∃ b ∈ s, 128 ≤ b.toNat) :
    isNCName (s.map fun b => b.toInt8.toInt) = false ∧
    isQName (s.map fun b => b.toInt8.toInt) = false := by
  have hneg : ∀ b : UInt8, 128 ≤ b.toNat → b.toInt8.toInt < 0 := by
    intro b hb
    have hx : ∀ n : Fin 256, 128 ≤ n.val → (UInt8.ofNat n.val).toInt8.toInt < 0 := by
      decide +kernel
    have := hx ⟨b.toNat, b.toNat_lt⟩ hb
    simpa using this
  have key : ∀ l : List Int, (∃ c ∈ l, c < 0) → isNCName l = false := by
    intro l hl
    cases l with
    | nil => rfl
    | cons c t =>
      obtain ⟨x, hx, hx0⟩ := hl
      simp only [List.mem_cons] at hx
      simp only [isNCName]
      rcases hx with hx | hx
      · subst hx
        rw [neg_letter x hx0]
        simp; omega
      · split
        · cases hr : ncnameRest t with
          | false => rfl
          | true =>
            have := (ncnameRest_iff t).mp hr x hx
            rw [neg_ncnameChar x hx0] at this; cases this
        · rfl
  obtain ⟨b, hb, hb1⟩ := h
  have hl : ∃ c ∈ s.map (fun b => b.toInt8.toInt), c < 0 :=
    ⟨b.toInt8.toInt, List.mem_map.mpr ⟨b, hb, rfl⟩, hneg b hb1⟩
  refine ⟨key _ hl, ?_⟩
  unfold isQName
  split
  · exact key _ hl
  · rename_i i hf
    obtain ⟨h1, h2⟩ := findColon_some _ _ hf
    obtain ⟨c, hc, hc0⟩ := hl
    rw [h1] at hc
    simp only [List.mem_append, List.mem_cons] at hc
    rcases hc with hc | hc | hc
    · rw [key _ ⟨c, hc, hc0⟩]; rfl
    · omega
    · rw [key _ ⟨c, hc, hc0⟩]; simp

example : Xml.NCName ("é".toList.map Char.toNat) ∧
    isNCName ("é".toUTF8.toList.map fun b => b.toInt8.toInt) = false := by
  refine ⟨⟨0xE9, [], rfl, Or.inl ((letter_iff _).mp (by decide +kernel)), by simp⟩, ?_⟩
  decide +kernel

example : isQName ("a:b".toList.map fun c => Int.ofNat c.toNat) = true ∧
    isQName ("a:b:c".toList.map fun c => Int.ofNat c.toNat) = false ∧
    isQName (":b".toList.map fun c => Int.ofNat c.toNat) = false := by decide +kernel

/-- C10: equality of parsed names is equality of the pair local name and namespace. -/
theorem C10_equality (a b : QualifiedName) :
    QualifiedName.eqv a b = true ↔ a.localName = b.localName ∧ a.uri = b.uri := by
  unfold QualifiedName.eqv; simp

/-- C10: for names whose namespace does not contain `}` (no URI does) and whose local name is an
NCName, the Clark notation of two names is the same exactly if the names are equal. -/
theorem C10_clark (a b : QualifiedName) (ha : (0x7D : Int) ∉ a.uri) (hb : (0x7D : Int) ∉ b.uri)
    (la : isNCName a.localName = true) (lb : isNCName b.localName = true) :
    a.clarkName = b.clarkName ↔ QualifiedName.eqv a b = true := by
  rw [C10_equality]
  unfold QualifiedName.clarkName
  have hstart : ∀ l : List Int, isNCName l = true → ∀ t, l ≠ 0x7B :: t := by
    rintro l hl t rfl
    have : isLetter 0x7B = false := by decide +kernel
    simp [isNCName, this] at hl
  have split : ∀ (u v x y : List Int), (0x7D : Int) ∉ u → (0x7D : Int) ∉ v →
      u ++ 0x7D :: x = v ++ 0x7D :: y → u = v ∧ x = y := by
    intro u
    induction u with
    | nil =>
      intro v x y _ hv h
      cases v with
      | nil => simpa using h
      | cons c v => simp at h hv; exact absurd h.1 hv.1
    | cons c u ih =>
      intro v x y hu hv h
      cases v with
      | nil => simp at h hu; exact absurd h.1.symm hu.1
      | cons d v =>
        simp at h hu hv
        have := ih v x y hu.2 hv.2 h.2
        exact ⟨by rw [h.1, this.1], this.2⟩
  by_cases h1 : a.uri = [] <;> by_cases h2 : b.uri = []
  · simp [h1, h2]
  · simp only [h1, h2, if_true, if_false]
    constructor
    · intro h; exact absurd h (hstart _ la _)
    · intro h; exact absurd h.2.symm h2
  · simp only [h1, h2, if_true, if_false]
    constructor
    · intro h; exact absurd h.symm (hstart _ lb _)
    · intro h; exact h.2.elim
  · simp only [h1, h2, if_false]
    constructor
    · intro h
      simp at h
      have := split _ _ _ _ ha hb h
      exact ⟨this.2, this.1⟩
    · intro h; rw [h.1, h.2]

end Verif.Props.Names
