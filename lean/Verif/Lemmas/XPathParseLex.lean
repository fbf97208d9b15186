import Verif.Spec.XPathParse
set_option autoImplicit false
set_option linter.unusedSimpArgs false
set_option linter.unusedVariables false
namespace Verif.XPathParse

/-! ## characters -/

theorem isAlpha_eq (c : Char) : isAlpha c = c.isAlpha := by
  simp only [isAlpha, Char.isAlpha, Char.isUpper, Char.isLower, Char.le_def]
  rw [Bool.or_comm, Bool.decide_and]

theorem isDigit_eq (c : Char) : isDigit c = c.isDigit := by
  simp only [isDigit, Char.isDigit, Char.le_def]

theorem isNCNameChar_eq (c : Char) : isNCNameChar c = nameChar c := by
  simp only [isNCNameChar, nameChar, isAlpha_eq, isDigit_eq]

theorem isSpace_of_isWhite {c : Char} (h : isWhite c = true) : isSpace c = true := by
  simp only [isWhite, isSpace, Bool.or_eq_true, beq_iff_eq] at *
  rcases h with ((h | h) | h) | h <;> simp [h]

theorem not_space_of_nameChar {c : Char} (h : nameChar c = true) : isSpace c = false := by
  by_cases hs : isSpace c = true
  · exfalso
    simp only [isSpace, Bool.or_eq_true, beq_iff_eq] at hs
    rcases hs with ((((rfl | rfl) | rfl) | rfl) | rfl) | rfl <;> revert h <;> decide
  · simpa using hs

theorem nameChar_of_nameStart {c : Char} (h : nameStart c = true) : nameChar c = true := by
  simp only [nameStart, nameChar, Bool.or_eq_true] at *
  rcases h with h | h
  · exact Or.inl (Or.inl (Or.inl (Or.inl h)))
  · exact Or.inr h

theorem not_digit_of_nameStart {c : Char} (h : nameStart c = true) : isDigit c = false := by
  by_cases hs : isDigit c = true
  · exfalso
    rw [← Bool.not_eq_false] at hs
    apply hs
    simp only [nameStart, ← isAlpha_eq, isAlpha, isDigit, Bool.or_eq_true, Bool.and_eq_true, decide_eq_true_eq,
      beq_iff_eq, Char.le_def, Bool.and_eq_false_iff, decide_eq_false_iff_not] at *
    rcases h with (h | h) | h
    · right
      have h1 := h.1
      simp only [UInt32.le_iff_toNat_le, UInt32.not_le, UInt32.lt_iff_toNat_lt] at *
      have : 'a'.val.toNat = 97 := rfl
      have : '9'.val.toNat = 57 := rfl
      omega
    · right
      have h1 := h.1
      simp only [UInt32.le_iff_toNat_le, UInt32.not_le, UInt32.lt_iff_toNat_lt] at *
      have : 'A'.val.toNat = 65 := rfl
      have : '9'.val.toNat = 57 := rfl
      omega
    · subst h
      right
      decide
  · simpa using hs

/-! ## white space -/

def skip (s : Str) : Str := s.dropWhile isSpace

def sT (s : Str) : List Tree := match s.takeWhile isSpace with | [] => [] | w => [.node .s w []]

theorem space_eq (s : Str) : space s = some (sT s, skip s) := rfl

theorem skip_nil : skip [] = [] := rfl

theorem skip_cons {c : Char} {s : Str} (h : isSpace c = false) : skip (c :: s) = c :: s := by
  simp [skip, List.dropWhile_cons, h]

theorem sT_cons {c : Char} {s : Str} (h : isSpace c = false) : sT (c :: s) = [] := by
  simp [sT, List.takeWhile_cons, h]

theorem skip_white {w s : Str} (h : w.all isSpace = true) : skip (w ++ s) = skip s := by
  induction w with
  | nil => rfl
  | cons c w ih =>
    simp only [List.all_cons, Bool.and_eq_true] at h
    simp only [skip, List.cons_append, List.dropWhile_cons, h.1, if_true]
    exact ih h.2

theorem skip_not_space {s : Str} {c : Char} {u : Str} (h : skip s = c :: u) : isSpace c = false := by
  induction s with
  | nil => simp [skip] at h
  | cons d s ih =>
    by_cases hd : isSpace d = true
    · simp only [skip, List.dropWhile_cons, hd, if_true] at h
      exact ih h
    · simp only [Bool.not_eq_true] at hd
      rw [skip_cons hd] at h
      cases h
      exact hd

theorem skip_skip (s : Str) : skip (skip s) = skip s := by
  cases h : skip s with
  | nil => rfl
  | cons c u => exact skip_cons (skip_not_space h)

theorem sT_skip (s : Str) : sT (skip s) = [] := by
  cases h : skip s with
  | nil => rfl
  | cons c u => exact sT_cons (skip_not_space h)

theorem sT_cases (s : Str) : sT s = [] ∨ ∃ w, sT s = [.node .s w []] := by
  unfold sT
  cases s.takeWhile isSpace with
  | nil => exact Or.inl rfl
  | cons a b => exact Or.inr ⟨_, rfl⟩

theorem skip_length (s : Str) : (skip s).length ≤ s.length := (List.dropWhile_sublist isSpace).length_le

theorem all_space_of_white {w : Str} (h : w.all isWhite = true) : w.all isSpace = true := by
  simp only [List.all_eq_true] at *
  exact fun c hc => isSpace_of_isWhite (h c hc)

/-! ## literal strings -/

theorem lit_append (id : Id) (w s : Str) : lit id w (w ++ s) = some ([.node id w []], s) := by
  simp [lit]

theorem lit_none_head {id : Id} {a : Char} {w s : Str} (h : ∀ c u, s = c :: u → a ≠ c) :
    lit id (a :: w) s = none := by
  cases s with
  | nil => simp [lit]
  | cons c u =>
    have := h c u rfl
    simp [lit, List.isPrefixOf, this]

theorem lit_some {id : Id} {w s r : Str} {ts : List Tree} (h : lit id w s = some (ts, r)) :
    s = w ++ r ∧ ts = [.node id w []] := by
  unfold lit at h
  by_cases hp : w.isPrefixOf s = true
  · rw [if_pos hp] at h
    simp only [Option.some.injEq, Prod.mk.injEq] at h
    obtain ⟨t, rfl⟩ := List.isPrefixOf_iff_prefix.mp hp
    simp at h
    exact ⟨by rw [h.2], h.1.symm⟩
  · rw [if_neg hp] at h
    cases h

theorem lit_none {id : Id} {w s : Str} (h : ¬ ∃ r, s = w ++ r) : lit id w s = none := by
  cases hl : lit id w s with
  | none => rfl
  | some p => exact absurd ⟨p.2, (lit_some (r := p.2) (ts := p.1) hl).1⟩ h

/-! ## names -/

/-- What comes next is not part of a name. -/
def Ends (s : Str) : Prop := ∀ c u, s = c :: u → nameChar c = false

theorem takeWhile_append_stop {p : Char → Bool} {n s : Str} (hn : n.all p = true)
    (hs : ∀ c u, s = c :: u → p c = false) : (n ++ s).takeWhile p = n ∧ (n ++ s).dropWhile p = s := by
  induction n with
  | nil =>
    cases s with
    | nil => exact ⟨rfl, rfl⟩
    | cons c u => simp [List.takeWhile_cons, List.dropWhile_cons, hs c u rfl]
  | cons c n ih =>
    simp only [List.all_cons, Bool.and_eq_true] at hn
    simp [List.takeWhile_cons, List.dropWhile_cons, hn.1, ih hn.2]

def ncTree (n : Str) : Tree := .node .ncName n []

theorem isNC_fun : isNCNameChar = nameChar := funext isNCNameChar_eq

theorem ncName_append {n s : Str} (hn : NcName n) (hs : Ends s) : ncName (n ++ s) = some ([ncTree n], s) := by
  cases n with
  | nil => exact absurd hn (by simp [NcName])
  | cons c n =>
    obtain ⟨h1, h2⟩ := hn
    obtain ⟨e1, e2⟩ := takeWhile_append_stop (p := nameChar) h2 hs
    have h3 : (isAlpha c || c == '_') = true := by rw [isAlpha_eq]; exact h1
    simp only [List.cons_append, ncName, h3, if_true, isNC_fun, e1, e2]
    rfl

theorem ncName_none {s : Str} (h : ∀ c u, s = c :: u → nameStart c = false) : ncName s = none := by
  cases s with
  | nil => rfl
  | cons c u =>
    have := h c u rfl
    have h3 : (isAlpha c || c == '_') = false := by rw [isAlpha_eq]; exact this
    simp [ncName, h3]

theorem NcName.cons {n : Str} (h : NcName n) : ∃ c u, n = c :: u ∧ nameStart c = true ∧ u.all nameChar = true := by
  cases n with
  | nil => exact absurd h (by simp [NcName])
  | cons c u => exact ⟨c, u, rfl, h.1, h.2⟩

theorem NcName.all {n : Str} (h : NcName n) : n.all nameChar = true := by
  obtain ⟨c, u, rfl, h1, h2⟩ := h.cons
  simp [nameChar_of_nameStart h1, h2]

def qTree (q : QName) : Tree :=
  match q.pre with
  | none => ncTree q.loc
  | some p => .node .qName [] [ncTree p, ncTree q.loc]

theorem ends_colon (s : Str) : Ends (':' :: s) := by
  intro c u h
  cases h
  decide

/-- Not a colon next. -/
def NoColon (s : Str) : Prop := ∀ c u, s = c :: u → c ≠ ':'

theorem discard_lit_none {id : Id} {a : Char} {s : Str} (h : ∀ c u, s = c :: u → c ≠ a) :
    discard (lit id [a]) s = none := by
  rw [discard, lit_none_head (fun c u e => (h c u e).symm)]

theorem discard_lit (id : Id) (w s : Str) : discard (lit id w) (w ++ s) = some ([], s) := by
  rw [discard, lit_append]

theorem qName_append {q : QName} {s : Str} {ns : Str → Option Str} (hq : q.Ok ns) (hs : Ends s) (hc : NoColon s) :
    qName (qText q ++ s) = some ([qTree q], s) := by
  obtain ⟨pre, loc⟩ := q
  cases pre with
  | none =>
    have e : ncName (loc ++ s) = some ([ncTree loc], s) := ncName_append hq.1 hs
    have e2 : seq ncName (discard (lit .qName [':'])) (loc ++ s) = none := by
      simp only [seq, e, discard_lit_none hc]
    simp only [qName, rule, seq, opt, qText] at e2 ⊢
    rw [e2]
    simp [e, qTree, group]
  | some p =>
    have hp := (hq.2 p rfl).1
    have e : ncName (p ++ ':' :: (loc ++ s)) = some ([ncTree p], ':' :: (loc ++ s)) := ncName_append hp (ends_colon _)
    have e1 : ncName (loc ++ s) = some ([ncTree loc], s) := ncName_append hq.1 hs
    have e2 : seq ncName (discard (lit .qName [':'])) (p ++ ':' :: (loc ++ s)) = some ([ncTree p], loc ++ s) := by
      have := discard_lit .qName [':'] (loc ++ s)
      simp only [List.cons_append, List.nil_append] at this
      simp [seq, e, this]
    have e3 : qText ⟨some p, loc⟩ ++ s = p ++ ':' :: (loc ++ s) := by simp [qText]
    rw [e3]
    simp only [qName, rule, seq, opt] at e2 ⊢
    rw [e2]
    simp [e1, qTree, group]

theorem qName_none {s : Str} (h : ∀ c u, s = c :: u → nameStart c = false) : qName s = none := by
  simp [qName, rule, seq, opt, ncName_none h]

/-- A prefix and no name. -/
theorem qName_none_colon {p s : Str} (hp : NcName p) (h : ∀ c u, s = c :: u → nameStart c = false) :
    qName (p ++ ':' :: s) = none := by
  have e : ncName (p ++ ':' :: s) = some ([ncTree p], ':' :: s) := ncName_append hp (ends_colon _)
  have e2 : seq ncName (discard (lit .qName [':'])) (p ++ ':' :: s) = some ([ncTree p], s) := by
    have := discard_lit .qName [':'] s
    simp only [List.cons_append, List.nil_append] at this
    simp [seq, e, this]
  simp only [qName, rule, seq, opt] at e2 ⊢
  rw [e2]
  simp [ncName_none h]

/-! ## keywords -/

theorem prefix_of_name {k n v r : Str} (hk : k.all nameChar = true) (hv : Ends v) (h : n ++ v = k ++ r) :
    ∃ m, n = k ++ m ∧ r = m ++ v := by
  induction k generalizing n with
  | nil => exact ⟨n, rfl, h.symm⟩
  | cons c k ih =>
    simp only [List.all_cons, Bool.and_eq_true] at hk
    cases n with
    | nil =>
      have := hv c (k ++ r) h
      rw [hk.1] at this
      cases this
    | cons d n =>
      simp only [List.cons_append, List.cons.injEq] at h
      obtain ⟨rfl, h⟩ := h
      obtain ⟨m, rfl, rfl⟩ := ih hk.2 h
      exact ⟨m, rfl, rfl⟩

theorem alt_some {a b : P} {s : Str} {x : List Tree × Str} (h : alt a b s = some x) : a s = some x ∨ b s = some x := by
  unfold alt at h
  cases ha : a s with
  | none => rw [ha] at h; exact Or.inr h
  | some y => rw [ha] at h; exact Or.inl h

theorem alt_left {a b : P} {s : Str} {x : List Tree × Str} (h : a s = some x) : alt a b s = some x := by
  simp [alt, h]

theorem alt_right {a b : P} {s : Str} (h : a s = none) : alt a b s = b s := by
  simp [alt, h]

def typeId : NodeType → Id
  | .comment => .comment
  | .text => .text
  | .pi => .processingInstruction
  | .node => .node

theorem nodeType_some {s r : Str} {ts : List Tree} (h : nodeType s = some (ts, r)) :
    ∃ t : NodeType, s = (typeText t).toList ++ r := by
  rcases alt_some h with h | h
  · exact ⟨.comment, (lit_some h).1⟩
  rcases alt_some h with h | h
  · exact ⟨.text, (lit_some h).1⟩
  rcases alt_some h with h | h
  · exact ⟨.pi, (lit_some h).1⟩
  · exact ⟨.node, (lit_some h).1⟩

theorem nodeType_append (t : NodeType) (s : Str) :
    nodeType ((typeText t).toList ++ s) = some ([.node (typeId t) (typeText t).toList []], s) := by
  cases t with
  | comment => exact alt_left (lit_append _ _ _)
  | text => exact (alt_right (lit_none_head (by intro c u h; cases h; decide))).trans (alt_left (lit_append _ _ _))
  | pi =>
    exact (alt_right (lit_none_head (by intro c u h; cases h; decide))).trans
      ((alt_right (lit_none_head (by intro c u h; cases h; decide))).trans (alt_left (lit_append _ _ _)))
  | node =>
    exact (alt_right (lit_none_head (by intro c u h; cases h; decide))).trans
      ((alt_right (lit_none_head (by intro c u h; cases h; decide))).trans
        ((alt_right (lit_none_head (by intro c u h; cases h; decide))).trans (lit_append _ _ _)))

theorem typeText_name (t : NodeType) : NcName (typeText t).toList := by
  cases t <;> exact ⟨by decide, by decide⟩

def axisId : Axis → Id
  | .ancestor => .ancestor
  | .ancestorOrSelf => .ancestorOrSelf
  | .attribute => .attribute
  | .child => .child
  | .descendant => .descendant
  | .descendantOrSelf => .descendantOrSelf
  | .following => .following
  | .followingSibling => .followingSibling
  | .namespace => .namespace
  | .parent => .parent
  | .preceding => .preceding
  | .precedingSibling => .precedingSibling
  | .self => .self

theorem axisText_name (a : Axis) : NcName (axisText a).toList := by
  cases a <;> exact ⟨by decide, by decide⟩

theorem axisName_some {s r : Str} {ts : List Tree} (h : axisName s = some (ts, r)) :
    ∃ a : Axis, s = (axisText a).toList ++ r := by
  rcases alt_some h with h | h
  · exact ⟨.ancestorOrSelf, (lit_some h).1⟩
  rcases alt_some h with h | h
  · exact ⟨.ancestor, (lit_some h).1⟩
  rcases alt_some h with h | h
  · exact ⟨.attribute, (lit_some h).1⟩
  rcases alt_some h with h | h
  · exact ⟨.child, (lit_some h).1⟩
  rcases alt_some h with h | h
  · exact ⟨.descendantOrSelf, (lit_some h).1⟩
  rcases alt_some h with h | h
  · exact ⟨.descendant, (lit_some h).1⟩
  rcases alt_some h with h | h
  · exact ⟨.followingSibling, (lit_some h).1⟩
  rcases alt_some h with h | h
  · exact ⟨.following, (lit_some h).1⟩
  rcases alt_some h with h | h
  · exact ⟨.namespace, (lit_some h).1⟩
  rcases alt_some h with h | h
  · exact ⟨.parent, (lit_some h).1⟩
  rcases alt_some h with h | h
  · exact ⟨.precedingSibling, (lit_some h).1⟩
  rcases alt_some h with h | h
  · exact ⟨.preceding, (lit_some h).1⟩
  · exact ⟨.self, (lit_some h).1⟩

/-- A longer keyword does not match a shorter one. -/
theorem lit_none_name {id : Id} {k n s : Str} (hk : k.all nameChar = true) (hs : Ends s) (h : k.isPrefixOf n = false) :
    lit id k (n ++ s) = none := by
  apply lit_none
  rintro ⟨r, hr⟩
  obtain ⟨m, rfl, _⟩ := prefix_of_name hk hs hr
  rw [List.isPrefixOf_iff_prefix.mpr (List.prefix_append k m)] at h
  cases h

theorem axisName_append (a : Axis) {s : Str} (hs : Ends s) :
    axisName ((axisText a).toList ++ s) = some ([.node (axisId a) (axisText a).toList []], s) := by
  cases a
  · refine (alt_right (lit_none_name (n := "ancestor".toList) (by decide) hs (by decide))).trans ?_
    exact alt_left (lit_append _ _ _)
  · exact alt_left (lit_append _ _ _)
  · refine (alt_right (lit_none_name (n := "attribute".toList) (by decide) hs (by decide))).trans ?_
    refine (alt_right (lit_none_name (n := "attribute".toList) (by decide) hs (by decide))).trans ?_
    exact alt_left (lit_append _ _ _)
  · refine (alt_right (lit_none_name (n := "child".toList) (by decide) hs (by decide))).trans ?_
    refine (alt_right (lit_none_name (n := "child".toList) (by decide) hs (by decide))).trans ?_
    refine (alt_right (lit_none_name (n := "child".toList) (by decide) hs (by decide))).trans ?_
    exact alt_left (lit_append _ _ _)
  · refine (alt_right (lit_none_name (n := "descendant".toList) (by decide) hs (by decide))).trans ?_
    refine (alt_right (lit_none_name (n := "descendant".toList) (by decide) hs (by decide))).trans ?_
    refine (alt_right (lit_none_name (n := "descendant".toList) (by decide) hs (by decide))).trans ?_
    refine (alt_right (lit_none_name (n := "descendant".toList) (by decide) hs (by decide))).trans ?_
    refine (alt_right (lit_none_name (n := "descendant".toList) (by decide) hs (by decide))).trans ?_
    exact alt_left (lit_append _ _ _)
  · refine (alt_right (lit_none_name (n := "descendant-or-self".toList) (by decide) hs (by decide))).trans ?_
    refine (alt_right (lit_none_name (n := "descendant-or-self".toList) (by decide) hs (by decide))).trans ?_
    refine (alt_right (lit_none_name (n := "descendant-or-self".toList) (by decide) hs (by decide))).trans ?_
    refine (alt_right (lit_none_name (n := "descendant-or-self".toList) (by decide) hs (by decide))).trans ?_
    exact alt_left (lit_append _ _ _)
  · refine (alt_right (lit_none_name (n := "following".toList) (by decide) hs (by decide))).trans ?_
    refine (alt_right (lit_none_name (n := "following".toList) (by decide) hs (by decide))).trans ?_
    refine (alt_right (lit_none_name (n := "following".toList) (by decide) hs (by decide))).trans ?_
    refine (alt_right (lit_none_name (n := "following".toList) (by decide) hs (by decide))).trans ?_
    refine (alt_right (lit_none_name (n := "following".toList) (by decide) hs (by decide))).trans ?_
    refine (alt_right (lit_none_name (n := "following".toList) (by decide) hs (by decide))).trans ?_
    refine (alt_right (lit_none_name (n := "following".toList) (by decide) hs (by decide))).trans ?_
    exact alt_left (lit_append _ _ _)
  · refine (alt_right (lit_none_name (n := "following-sibling".toList) (by decide) hs (by decide))).trans ?_
    refine (alt_right (lit_none_name (n := "following-sibling".toList) (by decide) hs (by decide))).trans ?_
    refine (alt_right (lit_none_name (n := "following-sibling".toList) (by decide) hs (by decide))).trans ?_
    refine (alt_right (lit_none_name (n := "following-sibling".toList) (by decide) hs (by decide))).trans ?_
    refine (alt_right (lit_none_name (n := "following-sibling".toList) (by decide) hs (by decide))).trans ?_
    refine (alt_right (lit_none_name (n := "following-sibling".toList) (by decide) hs (by decide))).trans ?_
    exact alt_left (lit_append _ _ _)
  · refine (alt_right (lit_none_name (n := "namespace".toList) (by decide) hs (by decide))).trans ?_
    refine (alt_right (lit_none_name (n := "namespace".toList) (by decide) hs (by decide))).trans ?_
    refine (alt_right (lit_none_name (n := "namespace".toList) (by decide) hs (by decide))).trans ?_
    refine (alt_right (lit_none_name (n := "namespace".toList) (by decide) hs (by decide))).trans ?_
    refine (alt_right (lit_none_name (n := "namespace".toList) (by decide) hs (by decide))).trans ?_
    refine (alt_right (lit_none_name (n := "namespace".toList) (by decide) hs (by decide))).trans ?_
    refine (alt_right (lit_none_name (n := "namespace".toList) (by decide) hs (by decide))).trans ?_
    refine (alt_right (lit_none_name (n := "namespace".toList) (by decide) hs (by decide))).trans ?_
    exact alt_left (lit_append _ _ _)
  · refine (alt_right (lit_none_name (n := "parent".toList) (by decide) hs (by decide))).trans ?_
    refine (alt_right (lit_none_name (n := "parent".toList) (by decide) hs (by decide))).trans ?_
    refine (alt_right (lit_none_name (n := "parent".toList) (by decide) hs (by decide))).trans ?_
    refine (alt_right (lit_none_name (n := "parent".toList) (by decide) hs (by decide))).trans ?_
    refine (alt_right (lit_none_name (n := "parent".toList) (by decide) hs (by decide))).trans ?_
    refine (alt_right (lit_none_name (n := "parent".toList) (by decide) hs (by decide))).trans ?_
    refine (alt_right (lit_none_name (n := "parent".toList) (by decide) hs (by decide))).trans ?_
    refine (alt_right (lit_none_name (n := "parent".toList) (by decide) hs (by decide))).trans ?_
    refine (alt_right (lit_none_name (n := "parent".toList) (by decide) hs (by decide))).trans ?_
    exact alt_left (lit_append _ _ _)
  · refine (alt_right (lit_none_name (n := "preceding".toList) (by decide) hs (by decide))).trans ?_
    refine (alt_right (lit_none_name (n := "preceding".toList) (by decide) hs (by decide))).trans ?_
    refine (alt_right (lit_none_name (n := "preceding".toList) (by decide) hs (by decide))).trans ?_
    refine (alt_right (lit_none_name (n := "preceding".toList) (by decide) hs (by decide))).trans ?_
    refine (alt_right (lit_none_name (n := "preceding".toList) (by decide) hs (by decide))).trans ?_
    refine (alt_right (lit_none_name (n := "preceding".toList) (by decide) hs (by decide))).trans ?_
    refine (alt_right (lit_none_name (n := "preceding".toList) (by decide) hs (by decide))).trans ?_
    refine (alt_right (lit_none_name (n := "preceding".toList) (by decide) hs (by decide))).trans ?_
    refine (alt_right (lit_none_name (n := "preceding".toList) (by decide) hs (by decide))).trans ?_
    refine (alt_right (lit_none_name (n := "preceding".toList) (by decide) hs (by decide))).trans ?_
    refine (alt_right (lit_none_name (n := "preceding".toList) (by decide) hs (by decide))).trans ?_
    exact alt_left (lit_append _ _ _)
  · refine (alt_right (lit_none_name (n := "preceding-sibling".toList) (by decide) hs (by decide))).trans ?_
    refine (alt_right (lit_none_name (n := "preceding-sibling".toList) (by decide) hs (by decide))).trans ?_
    refine (alt_right (lit_none_name (n := "preceding-sibling".toList) (by decide) hs (by decide))).trans ?_
    refine (alt_right (lit_none_name (n := "preceding-sibling".toList) (by decide) hs (by decide))).trans ?_
    refine (alt_right (lit_none_name (n := "preceding-sibling".toList) (by decide) hs (by decide))).trans ?_
    refine (alt_right (lit_none_name (n := "preceding-sibling".toList) (by decide) hs (by decide))).trans ?_
    refine (alt_right (lit_none_name (n := "preceding-sibling".toList) (by decide) hs (by decide))).trans ?_
    refine (alt_right (lit_none_name (n := "preceding-sibling".toList) (by decide) hs (by decide))).trans ?_
    refine (alt_right (lit_none_name (n := "preceding-sibling".toList) (by decide) hs (by decide))).trans ?_
    refine (alt_right (lit_none_name (n := "preceding-sibling".toList) (by decide) hs (by decide))).trans ?_
    exact alt_left (lit_append _ _ _)
  · refine (alt_right (lit_none_name (n := "self".toList) (by decide) hs (by decide))).trans ?_
    refine (alt_right (lit_none_name (n := "self".toList) (by decide) hs (by decide))).trans ?_
    refine (alt_right (lit_none_name (n := "self".toList) (by decide) hs (by decide))).trans ?_
    refine (alt_right (lit_none_name (n := "self".toList) (by decide) hs (by decide))).trans ?_
    refine (alt_right (lit_none_name (n := "self".toList) (by decide) hs (by decide))).trans ?_
    refine (alt_right (lit_none_name (n := "self".toList) (by decide) hs (by decide))).trans ?_
    refine (alt_right (lit_none_name (n := "self".toList) (by decide) hs (by decide))).trans ?_
    refine (alt_right (lit_none_name (n := "self".toList) (by decide) hs (by decide))).trans ?_
    refine (alt_right (lit_none_name (n := "self".toList) (by decide) hs (by decide))).trans ?_
    refine (alt_right (lit_none_name (n := "self".toList) (by decide) hs (by decide))).trans ?_
    refine (alt_right (lit_none_name (n := "self".toList) (by decide) hs (by decide))).trans ?_
    refine (alt_right (lit_none_name (n := "self".toList) (by decide) hs (by decide))).trans ?_
    exact lit_append _ _ _

/-! ## numbers and literals -/

theorem isDigit_fun : isDigit = Char.isDigit := funext isDigit_eq

/-- What comes next is not part of a number. -/
def NumEnds (s : Str) : Prop := ∀ c u, s = c :: u → isDigit c = false ∧ c ≠ '.'

theorem dot_not_digit : Char.isDigit '.' = false := by decide

theorem number_append {t s : Str} (ht : Num t) (hs : NumEnds s) :
    ∃ id, (id = Id.number ∨ id = Id.digits) ∧ number (t ++ s) = some ([.node id t []], s) := by
  obtain ⟨a, b, ha, hb, h⟩ := ht
  have hs1 : ∀ c u, s = c :: u → Char.isDigit c = false := fun c u h => by rw [← isDigit_eq]; exact (hs c u h).1
  have hdot : ∀ c u, '.' :: (b ++ s) = c :: u → Char.isDigit c = false := by
    intro c u h; cases h; decide
  rcases h with ⟨rfl, hne⟩ | ⟨rfl, hne⟩ | ⟨rfl, hne⟩
  · refine ⟨.digits, Or.inr rfl, ?_⟩
    obtain ⟨e1, e2⟩ := takeWhile_append_stop ha hs1
    cases t with
    | nil => exact absurd rfl hne
    | cons c t =>
      have hc : c ≠ '.' := by
        rintro rfl
        simp [dot_not_digit] at ha
      rw [List.cons_append] at e1 e2 ⊢
      rw [number.eq_3]
      · rw [isDigit_fun, e1, e2]
        cases s with
        | nil => rfl
        | cons d s =>
          have := (hs d s rfl).2
          simp
          split
          · rename_i h
            cases h
            exact absurd rfl this
          · rfl
      · intro h; cases h
      · intro s' h
        cases h
        exact hc rfl
  · refine ⟨.number, Or.inl rfl, ?_⟩
    obtain ⟨e1, e2⟩ := takeWhile_append_stop ha hdot
    obtain ⟨e3, e4⟩ := takeWhile_append_stop hb hs1
    cases a with
    | nil => exact absurd rfl hne
    | cons c a =>
      have hc : c ≠ '.' := by
        rintro rfl
        simp [dot_not_digit] at ha
      have e5 : (c :: a ++ '.' :: b) ++ s = c :: (a ++ '.' :: (b ++ s)) := by simp
      rw [e5]
      rw [List.cons_append] at e1 e2
      rw [number.eq_3]
      · rw [isDigit_fun, e1, e2]
        simp [e3, e4]
      · intro h; cases h
      · intro s' h
        cases h
        exact hc rfl
  · refine ⟨.number, Or.inl rfl, ?_⟩
    obtain ⟨e3, e4⟩ := takeWhile_append_stop hb hs1
    rw [List.cons_append, number.eq_2, isDigit_fun, e3, e4]
    cases b with
    | nil => exact absurd rfl hne
    | cons c b => rfl

theorem number_none {s : Str} (h : ∀ c u, s = c :: u → isDigit c = false ∧
    (c = '.' → ∀ d v, u = d :: v → isDigit d = false)) : number s = none := by
  cases s with
  | nil => rfl
  | cons c u =>
    obtain ⟨h1, h2⟩ := h c u rfl
    by_cases hc : c = '.'
    · subst hc
      rw [number.eq_2]
      cases u with
      | nil => rfl
      | cons d v =>
        simp [List.takeWhile_cons, h2 rfl d v rfl]
    · rw [number.eq_3]
      · simp [List.takeWhile_cons, h1]
      · intro h; cases h
      · intro s' h
        cases h
        exact hc rfl

theorem quoted_append {q : Char} {t s : Str} (ht : q ∉ t) :
    quoted q (q :: t ++ [q] ++ s) = some ([.node .literal t []], s) := by
  have h1 : t.all (fun c => decide (c ≠ q)) = true := by
    simp only [List.all_eq_true, decide_eq_true_eq]
    intro c hc e
    exact ht (e ▸ hc)
  have h2 : ∀ c u, q :: s = c :: u → (decide (c ≠ q)) = false := by
    intro c u e; cases e; simp
  obtain ⟨e1, e2⟩ := takeWhile_append_stop h1 h2
  have e : q :: t ++ [q] ++ s = q :: (t ++ q :: s) := by simp
  rw [e]
  simp only [quoted, if_true, e1, e2]

theorem literal_append {q : Char} {t s : Str} (h : Quoted q t) :
    literal (q :: t ++ [q] ++ s) = some ([.node .literal t []], s) := by
  rcases h with ⟨rfl | rfl, ht⟩
  · exact alt_left (quoted_append ht)
  · refine (alt_right ?_).trans (quoted_append ht)
    simp [quoted]

theorem literal_none {s : Str} (h : ∀ c u, s = c :: u → c ≠ '"' ∧ c ≠ '\'') : literal s = none := by
  cases s with
  | nil => rfl
  | cons c u => simp [literal, alt, quoted, h c u rfl]

/-! ## tokens -/

theorem reads_append {a b : List Tok} {s r : Str} : Reads (a ++ b) s r ↔ ∃ m, Reads a s m ∧ Reads b m r := by
  induction a generalizing s with
  | nil =>
    constructor
    · intro h; exact ⟨s, .nil _, h⟩
    · rintro ⟨m, h1, h2⟩; cases h1; exact h2
  | cons t a ih =>
    constructor
    · intro h
      cases h with
      | cons _ _ w s' _ h1 h2 h3 h4 =>
        obtain ⟨m, e1, e2⟩ := ih.mp h4
        exact ⟨m, .cons t a w s' m h1 h2 h3 e1, e2⟩
    · rintro ⟨m, h1, h2⟩
      cases h1 with
      | cons _ _ w s' _ h1 h2' h3 h4 => exact .cons t _ w s' _ h1 h2' h3 (ih.mpr ⟨m, h4, h2⟩)

theorem reads_cons {t : Tok} {ts : List Tok} {s r : Str} (h : Reads (t :: ts) s r) :
    ∃ w m, s = w ++ (t.text ++ m) ∧ w.all isSpace = true ∧ (t.tight = true → w = []) ∧ (t.isName = true → Ends m) ∧
      Reads ts m r := by
  cases h with
  | cons _ _ w m _ h1 h2 h3 h4 => exact ⟨w, m, rfl, all_space_of_white h1, h2, h3, h4⟩

theorem reads_length {ts : List Tok} {s r : Str} (h : Reads ts s r) : r.length ≤ s.length := by
  induction h with
  | nil r => exact Nat.le_refl _
  | cons t ts w s r _ _ _ _ ih => simp; omega

/-- A token that begins with something. -/
def Tok.Solid (t : Tok) : Prop := ∃ c u, t.text = c :: u ∧ isSpace c = false

theorem skip_text {t : Str} {w m : Str} (hw : w.all isSpace = true) (ht : ∃ c u, t = c :: u ∧ isSpace c = false) :
    skip (w ++ (t ++ m)) = t ++ m := by
  obtain ⟨c, u, rfl, hc⟩ := ht
  rw [skip_white hw]
  exact skip_cons hc

theorem reads_skip {t : Tok} {ts : List Tok} {s r : Str} (ht : t.Solid) (h : Reads (t :: ts) s r) :
    Reads (t :: ts) (skip s) r := by
  cases h with
  | cons _ _ w m _ h1 h2 h3 h4 =>
    rw [skip_text (all_space_of_white h1) ht]
    exact .cons t ts [] m r rfl (fun _ => rfl) h3 h4

end Verif.XPathParse
