import Verif.Model.XsltAvailable
import Verif.Spec.XsltAvailable
import Verif.Lemmas.Names
set_option autoImplicit false
set_option linter.unusedSimpArgs false
set_option linter.unusedVariables false
namespace Verif.XsltAvailable
open Verif.Spec.XsltAvailable (Expands instructions xpathFunctions xsltFunctions property Alphanumeric)
open Verif.XsltCompile (Ext El Attr openChild openKind)

theorem cut_none {q : Str} (h : ':' ∉ q) : Expat.cut q = none := by
  induction q with
  | nil => rfl
  | cons c s ih =>
    rw [List.mem_cons, not_or] at h
    rw [Expat.cut, if_neg (fun e => h.1 e.symm), ih h.2]
    rfl

theorem cut_some {p l : Str} (h : ':' ∉ p) : Expat.cut (p ++ ':' :: l) = some (p, l) := by
  induction p with
  | nil => simp [Expat.cut]
  | cons c s ih =>
    rw [List.mem_cons, not_or] at h
    rw [List.cons_append, Expat.cut, if_neg (fun e => h.1 e.symm), ih h.2]
    rfl

theorem isQName_iff (q : Str) : Expat.isQName q = true ↔ Spec.Xml.QName (q.map Char.toNat) := by
  have := Verif.Names.qname_iff (q.map Char.toNat)
  rw [← this]
  simp [Expat.isQName, Verif.Names.wide, List.map_map, Function.comp_def]

theorem parse_expands {sc : Scope} {q u l : Str} (h : Expands sc q u l) : parseQName sc q = some (u, l) := by
  obtain ⟨hq, h⟩ := h
  rw [parseQName, if_pos ((isQName_iff q).2 hq)]
  rcases h with ⟨h1, h2, h3⟩ | ⟨p, h1, h2, h3⟩
  · rw [cut_none h1, h2, h3]
  · subst h1
    rw [cut_some h2]
    show some ((sc.lookup p).getD [], l) = _
    rw [h3]
    rfl

theorem parse_bad {sc : Scope} {q : Str} (h : ¬ Spec.Xml.QName (q.map Char.toNat)) : parseQName sc q = none := by
  rw [parseQName, if_neg (fun e => h ((isQName_iff q).1 e))]

theorem contains_iff_of_subsets {a b : List Str} (h1 : ∀ x ∈ a, x ∈ b) (h2 : ∀ x ∈ b, x ∈ a) (l : Str) :
    a.contains l = decide (l ∈ b) := by
  rw [Bool.eq_iff_iff, List.contains_iff_mem, decide_eq_true_eq]
  exact ⟨h1 l, h2 l⟩

theorem elementNames_eq (l : Str) : elementNames.contains l = decide (l ∈ instructions) :=
  contains_iff_of_subsets (by decide +kernel) (by decide +kernel) l

def functionLocals : List Str := (XPathEval.functionTable.map (·.1)) ++ xsltNames

theorem functionNames_mem (u l : Str) : (u, l) ∈ functionNames ↔ u = [] ∧ l ∈ functionLocals := by
  rw [functionNames, functionLocals, List.mem_append, List.mem_append, List.mem_map, List.mem_map, List.mem_map]
  constructor
  · rintro (⟨f, h1, h2⟩ | ⟨n, h1, h2⟩)
    · cases h2; exact ⟨rfl, .inl ⟨f, h1, rfl⟩⟩
    · cases h2; exact ⟨rfl, .inr h1⟩
  · rintro ⟨h, ⟨f, h1, h2⟩ | h1⟩
    · exact .inl ⟨f, h1, by rw [h, h2]⟩
    · exact .inr ⟨l, h1, by rw [h]⟩

theorem functionLocals_mem (l : Str) :
    l ∈ functionLocals ↔ l ∈ xpathFunctions ++ xsltFunctions ∧
      ¬ (l = "id".toList ∨ l = "lang".toList ∨ l = "format-number".toList) := by
  have h1 : ∀ x ∈ functionLocals, x ∈ xpathFunctions ++ xsltFunctions ∧
      ¬ (x = "id".toList ∨ x = "lang".toList ∨ x = "format-number".toList) := by decide +kernel
  have h2 : ∀ x ∈ xpathFunctions ++ xsltFunctions,
      ¬ (x = "id".toList ∨ x = "lang".toList ∨ x = "format-number".toList) → x ∈ functionLocals := by decide +kernel
  exact ⟨h1 l, fun h => h2 l h.1 h.2⟩

theorem lookup_isSome {α : Type} (t : List (Str × α)) (l : Str) : (t.lookup l).isSome = true ↔ l ∈ t.map (·.1) := by
  induction t with
  | nil => simp
  | cons a t ih =>
    rw [List.lookup_cons, List.map_cons, List.mem_cons]
    by_cases h : l = a.1
    · simp [h]
    · rw [show (l == a.1) = false by simpa using h]
      simp only [h, false_or]
      exact ih

theorem made_iff (u l : Str) (h : l ≠ "unparsed-entity-uri".toList) :
    createFunction true u l = .function ↔ u = [] ∧ l ∈ functionLocals := by
  by_cases hu : u = []
  · subst hu
    simp only [true_and]
    rw [functionLocals, List.mem_append, ← lookup_isSome, createFunction]
    by_cases hs : (XPathEval.standardFunction l).isSome
    · rw [if_pos ⟨rfl, hs⟩]
      simp only [true_iff]
      exact .inl hs
    · rw [if_neg (fun e => hs e.2)]
      have : ¬ (List.lookup l XPathEval.functionTable).isSome = true := hs
      simp only [this, false_or, xsltNames, List.mem_cons, List.not_mem_nil, or_false, h, resolveFunction,
        ne_eq, not_true, if_false, false_or, and_true]
      repeat' split
      all_goals simp_all
  · rw [createFunction, if_neg (fun e => hu e.1), resolveFunction, if_pos hu]
    simp [hu]

/-! The instructions that can be used. -/

def att (n v : Str) : Attr := ⟨[], n, n, v⟩
def elem (l : Str) (as : List Attr) (sc : Scope) : El := ⟨XsltCompile.SC.xslt, l, l, as, sc⟩

/-! Pointers. -/

theorem hexDigit_inj {a b : Nat} (ha : a < 16) (hb : b < 16) (h : hexDigit a = hexDigit b) : a = b := by
  have : ∀ a : Fin 16, ∀ b : Fin 16, hexDigit a = hexDigit b → a = b := by decide +kernel
  have := this ⟨a, ha⟩ ⟨b, hb⟩ h
  exact Fin.mk.inj this

theorem hexDigit_alnum {a : Nat} (ha : a < 16) : Alphanumeric (hexDigit a) := by
  have : ∀ a : Fin 16, ('0' ≤ hexDigit a ∧ hexDigit a ≤ '9') ∨ ('a' ≤ hexDigit a ∧ hexDigit a ≤ 'z') ∨
    ('A' ≤ hexDigit a ∧ hexDigit a ≤ 'Z') := by decide +kernel
  exact this ⟨a, ha⟩

theorem hex_ne_nil (n : Nat) : hex n ≠ [] := by
  rw [hex]; split <;> simp

theorem hex_inj : ∀ a b : Nat, hex a = hex b → a = b := by
  intro a
  induction a using Nat.strongRecOn with
  | _ a ih =>
    intro b h
    rw [hex, hex.eq_def b] at h
    by_cases ha : a < 16 <;> by_cases hb : b < 16
    · rw [dif_pos ha, dif_pos hb] at h
      exact hexDigit_inj ha hb (List.cons.inj h).1
    · rw [dif_pos ha, dif_neg hb] at h
      have := congrArg List.length h
      have hne := List.length_pos_iff.2 (hex_ne_nil (b / 16))
      simp at this
      exact absurd this (hex_ne_nil _)
    · rw [dif_neg ha, dif_pos hb] at h
      have := congrArg List.length h
      simp at this
      exact absurd this (hex_ne_nil _)
    · rw [dif_neg ha, dif_neg hb] at h
      obtain ⟨h1, h2⟩ := List.append_inj' h rfl
      have e1 := ih (a / 16) (by omega) _ h1
      have e2 := hexDigit_inj (Nat.mod_lt _ (by omega)) (Nat.mod_lt _ (by omega)) (List.cons.inj h2).1
      omega

theorem hex_alnum : ∀ n : Nat, ∀ c ∈ hex n, Alphanumeric c := by
  intro n
  induction n using Nat.strongRecOn with
  | _ n ih =>
    rw [hex]
    split
    · intro c hc
      rw [List.mem_singleton] at hc
      exact hc ▸ hexDigit_alnum ‹_›
    · intro c hc
      rw [List.mem_append, List.mem_singleton] at hc
      rcases hc with hc | hc
      · exact ih (n / 16) (by omega) c hc
      · exact hc ▸ hexDigit_alnum (Nat.mod_lt _ (by omega))

theorem printPointer_inj {a b : Nat} (h : printPointer a = printPointer b) : a = b := by
  unfold printPointer at h
  split at h <;> split at h
  · omega
  · exact absurd (List.cons.inj h).2 (by simp)
  · exact absurd (List.cons.inj h).2 (by simp)
  · exact hex_inj a b (List.cons.inj (List.cons.inj h).2).2

theorem printPointer_alnum (a : Nat) : ∀ c ∈ printPointer a, Alphanumeric c := by
  have h0 : Alphanumeric '0' := .inl ⟨by decide, by decide⟩
  have hx : Alphanumeric 'x' := .inr (.inl ⟨by decide, by decide⟩)
  unfold printPointer
  split
  · intro c hc
    rw [List.mem_singleton] at hc
    exact hc ▸ h0
  · intro c hc
    rw [List.mem_cons, List.mem_cons] at hc
    rcases hc with hc | hc | hc
    · exact hc ▸ h0
    · exact hc ▸ hx
    · exact hex_alnum a c hc

theorem printPointer_zero (a : Nat) : (printPointer a).head? = some '0' := by
  unfold printPointer; split <;> rfl

section
variable {ε μ ν π : Type} (E : Ext ε μ ν π) (cur : Bool) (sc : Scope)
open XsltCompile

variable {E cur sc}

theorem open_select {l : Str} (hl : l ∈ ["copy-of".toList, "for-each".toList, "value-of".toList])
    {c : Char} {v : Str} {e : ε} (h : E.expr cur true sc (c :: v) = some e) :
    (openChild E cur (elem l [att "select".toList (c :: v)] sc)).isSome = true := by
  have h1 : openChild E cur (elem "copy-of".toList [att "select".toList (c :: v)] sc) =
      (E.expr cur true sc (c :: v)).bind fun e => some (.leaf (.copyOf e)) := rfl
  have h2 : openChild E cur (elem "for-each".toList [att "select".toList (c :: v)] sc) =
      (E.expr cur true sc (c :: v)).bind fun e => some (.box (.forEach e [] false) []) := rfl
  have h3 : openChild E cur (elem "value-of".toList [att "select".toList (c :: v)] sc) =
      (E.expr cur true sc (c :: v)).bind fun e => some (.leaf (.valueOf e false)) := rfl
  simp only [List.mem_cons, List.not_mem_nil, or_false] at hl
  rcases hl with hl | hl | hl <;> subst hl
  · rw [h1, h]; rfl
  · rw [h2, h]; rfl
  · rw [h3, h]; rfl

theorem open_if {c : Char} {v : Str} {e : ε} (h : E.expr cur true sc (c :: v) = some e) :
    (openChild E cur (elem "if".toList [att "test".toList (c :: v)] sc)).isSome = true := by
  have h1 : openChild E cur (elem "if".toList [att "test".toList (c :: v)] sc) =
      (E.expr cur true sc (c :: v)).bind fun e => some (.box (.ifThen e) []) := rfl
  rw [h1, h]; rfl

theorem open_named {l : Str} (hl : l ∈ ["attribute".toList, "element".toList, "processing-instruction".toList])
    {c : Char} {v : Str} {e : ε} (h : E.avt cur sc (c :: v) = some e) :
    (openChild E cur (elem l [att "name".toList (c :: v)] sc)).isSome = true := by
  have h1 : openChild E cur (elem "attribute".toList [att "name".toList (c :: v)] sc) =
      (E.avt cur sc (c :: v)).bind fun e => some (.box (.attribute e (.scope sc)) []) := rfl
  have h2 : openChild E cur (elem "element".toList [att "name".toList (c :: v)] sc) =
      (E.avt cur sc (c :: v)).bind fun e => some (.box (.element e (.scope sc)) []) := rfl
  have h3 : openChild E cur (elem "processing-instruction".toList [att "name".toList (c :: v)] sc) =
      (E.avt cur sc (c :: v)).bind fun e => some (.box (.procInst e) []) := rfl
  simp only [List.mem_cons, List.not_mem_nil, or_false] at hl
  rcases hl with hl | hl | hl <;> subst hl
  · rw [h1, h]; rfl
  · rw [h2, h]; rfl
  · rw [h3, h]; rfl

theorem open_qnamed {l : Str} (hl : l ∈ ["call-template".toList, "variable".toList])
    {c : Char} {v : Str} {e : ν} (h : E.name sc (c :: v) = some e) :
    (openChild E cur (elem l [att "name".toList (c :: v)] sc)).isSome = true := by
  have h1 : openChild E cur (elem "call-template".toList [att "name".toList (c :: v)] sc) =
      (E.name sc (c :: v)).bind fun e => some (.callTemplate e []) := rfl
  have h2 : openChild E cur (elem "variable".toList [att "name".toList (c :: v)] sc) =
      (E.name sc (c :: v)).bind fun e => some (.box (.variable e none) []) := rfl
  simp only [List.mem_cons, List.not_mem_nil, or_false] at hl
  rcases hl with hl | hl <;> subst hl
  · rw [h1, h]; rfl
  · rw [h2, h]; rfl

theorem open_bare {l : Str} (hl : l ∈ ["apply-imports".toList, "apply-templates".toList, "choose".toList,
      "comment".toList, "copy".toList, "message".toList, "text".toList]) :
    (openChild E cur (elem l [] sc)).isSome = true := by
  simp only [List.mem_cons, List.not_mem_nil, or_false] at hl
  rcases hl with hl | hl | hl | hl | hl | hl | hl <;> subst hl <;> rfl

/-- Every instruction but two can be opened. -/
theorem usable {c1 c2 c3 : Char} {v1 v2 v3 : Str} {e a : ε} {n : ν}
    (h1 : E.expr cur true sc (c1 :: v1) = some e) (h2 : E.avt cur sc (c2 :: v2) = some a)
    (h3 : E.name sc (c3 :: v3) = some n) {l : Str} (hl : l ∈ instructions)
    (hf : l ≠ "fallback".toList) (hn : l ≠ "number".toList) :
    ∃ as, (openChild E cur (elem l as sc)).isSome = true := by
  have hs : ∀ l ∈ instructions, l = "fallback".toList ∨ l = "number".toList ∨
      l ∈ ["copy-of".toList, "for-each".toList, "value-of".toList] ∨ l = "if".toList ∨
      l ∈ ["attribute".toList, "element".toList, "processing-instruction".toList] ∨
      l ∈ ["call-template".toList, "variable".toList] ∨
      l ∈ ["apply-imports".toList, "apply-templates".toList, "choose".toList,
      "comment".toList, "copy".toList, "message".toList, "text".toList] := by decide +kernel
  rcases hs l hl with h | h | h | h | h | h | h
  · exact absurd h hf
  · exact absurd h hn
  · exact ⟨_, open_select h h1⟩
  · subst h; exact ⟨_, open_if h1⟩
  · exact ⟨_, open_named h h2⟩
  · exact ⟨_, open_qnamed h h3⟩
  · exact ⟨_, open_bare h⟩

theorem allowed_names (l : Str) : (allowedChildren.lookup l).isSome = true ↔ l ∈ instructions := by
  rw [lookup_isSome]
  have h1 : ∀ x ∈ allowedChildren.map (·.1), x ∈ instructions := by decide +kernel
  have h2 : ∀ x ∈ instructions, x ∈ allowedChildren.map (·.1) := by decide +kernel
  exact ⟨h1 l, h2 l⟩

theorem unusable {el : El} (hu : el.uri = SC.xslt) (h : (openChild E cur el).isSome = true) :
    el.loc ∈ instructions ∧ el.loc ≠ "fallback".toList ∧ el.loc ≠ "number".toList := by
  rw [openChild, if_pos hu] at h
  have hi : el.loc ∈ instructions := by
    rw [← allowed_names]
    cases hk : allowedChildren.lookup el.loc with
    | none => rw [hk] at h; simp at h
    | some k => rfl
  refine ⟨hi, ?_, ?_⟩
  all_goals
    intro e
    rw [e] at h
    revert h
  · show ¬ ((openKind E cur el .notImplemented).isSome = true)
    simp [openKind]
  · show ¬ ((openKind E cur el .notImplemented).isSome = true)
    simp [openKind]
end
end Verif.XsltAvailable
