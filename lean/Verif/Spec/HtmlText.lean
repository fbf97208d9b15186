import Verif.Model.Taggle
set_option autoImplicit false
/-!
# The text of an HTML document

Only the types of events and tokens are taken from the model.
-/
namespace Verif.Taggle.Spec

/-- The character data of a stream of events. -/
def text : List Ev → Str
  | [] => []
  | .characters s :: rest => s ++ text rest
  | _ :: rest => text rest

/-- White space. -/
def Blank (s : Str) : Prop := ∀ c ∈ s, c = ' ' ∨ c = '\t' ∨ c = '\n' ∨ c = '\r'

/-- What may be reported as text for a run of tokens: the text of all `pcdata` tokens in order,
without some that are blank, and the end tags that are not taken for tags in elements like
`script`. -/
inductive Kept : List Tok → Str → Prop
  | nil : Kept [] []
  | text (b : Str) (ts : List Tok) (r : Str) : Kept ts r → Kept (.pcdata b :: ts) (b ++ r)
  | blank (b : Str) (ts : List Tok) (r : Str) : Blank b → Kept ts r → Kept (.pcdata b :: ts) r
  | end' (b : Str) (ts : List Tok) (r : Str) : Kept ts r →
      Kept (.etag b :: ts) ("</".toList ++ b ++ ">".toList ++ r)
  | other (t : Tok) (ts : List Tok) (r : Str) : (∀ b, t ≠ .pcdata b) → Kept ts r → Kept (t :: ts) r

/-- The value of a decimal digit. -/
def Digit (c : Char) (d : Nat) : Prop := d < 10 ∧ c.toNat = 48 + d

/-- The value of a hexadecimal digit. -/
def HexDigit (c : Char) (d : Nat) : Prop :=
  (d < 10 ∧ c.toNat = 48 + d) ∨ (10 ≤ d ∧ d < 16 ∧ (c.toNat = 55 + d ∨ c.toNat = 87 + d))

/-- A numeral in a base: at least one digit, the value of all of them. -/
inductive Numeral (digit : Char → Nat → Prop) (base : Nat) : Str → Nat → Prop
  | one (c : Char) (d : Nat) : digit c d → Numeral digit base [c] d
  | more (s : Str) (v : Nat) (c : Char) (d : Nat) : Numeral digit base s v → digit c d →
      Numeral digit base (s ++ [c]) (v * base + d)

/-- What stands between `&` and `;` for a character that can be printed in ASCII. -/
inductive Means : Str → Char → Prop
  | dec (ds : Str) (n : Nat) (c : Char) : Numeral Digit 10 ds n → c.toNat = n → 32 ≤ n → n < 128 →
      Means ('#' :: ds) c
  | hex (x : Char) (ds : Str) (n : Nat) (c : Char) : x = 'x' ∨ x = 'X' → Numeral HexDigit 16 ds n →
      c.toNat = n → 32 ≤ n → n < 128 → Means ('#' :: x :: ds) c
  | lt : Means "lt".toList '<'
  | gt : Means "gt".toList '>'
  | amp : Means "amp".toList '&'
  | quot : Means "quot".toList '"'

/-- HTML text without markup, and the text it stands for. -/
inductive PlainText : Str → Str → Prop
  | nil : PlainText [] []
  | char (c : Char) (s t : Str) : c ≠ '<' → c ≠ '&' → (32 ≤ c.toNat ∨ c = '\t' ∨ c = '\n') →
      c.toNat < 256 → PlainText s t → PlainText (c :: s) (c :: t)
  | newline (s t : Str) : PlainText s t → PlainText ('\r' :: '\n' :: s) ('\n' :: t)
  | ref (b : Str) (c : Char) (s t : Str) : Means b c → PlainText s t →
      PlainText ('&' :: (b ++ ';' :: s)) (c :: t)

end Verif.Taggle.Spec
