import Verif.Model.Dom
set_option autoImplicit false
/-!
# Specification: text in the tree
-/
namespace Verif.Dom

/-- What the children `l` say, in order: the characters of the text nodes, and the other nodes. -/
def content (s : St) (l : List Id) : List (Char ⊕ Id) :=
  l.flatMap fun c => if s.kind c = .text then (s.data c).map Sum.inl else [Sum.inr c]

/-- No empty text node and no two adjacent text nodes among the children `l`. -/
structure Normal (s : St) (l : List Id) : Prop where
  full : ∀ c ∈ l, s.kind c = .text → s.data c ≠ []
  apart : ∀ l1 a b l2, l = l1 ++ a :: b :: l2 → ¬ (s.kind a = .text ∧ s.kind b = .text)

/-- The string `d` cut at `off`, the middle part having `cnt` characters or as many as there are. -/
def Cut (d : Str) (off cnt : Int) (pre mid post : Str) : Prop :=
  d = pre ++ mid ++ post ∧ (pre.length : Int) = off ∧ (mid.length : Int) = min cnt (d.length - off)

end Verif.Dom
