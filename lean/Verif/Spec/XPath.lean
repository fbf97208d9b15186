import Verif.Model.XPathNum
import Verif.Model.XPathCompare
set_option autoImplicit false
/-!
# What XPath 1.0 says of numbers, strings and comparisons

Written from sections 3.4, 3.5, 4.2 and 4.4 of the recommendation. From the model only the types of
numbers and values and the IEEE comparisons are used.
-/
namespace Verif.Spec.XPath
open Verif.XPath

/-! ## Numbers -/

/-- `round`: the integer closest to the number; of two, the one closer to positive infinity. -/
def IsRound : Num → Num → Prop
  | .fin q, r => ∃ n : Int, r = .fin n ∧ (n : Rat) - 1/2 ≤ q ∧ q < (n : Rat) + 1/2
  | v, r => r = v

/-- `floor`: the largest integer that is not greater. -/
def IsFloor : Num → Num → Prop
  | .fin q, r => ∃ n : Int, r = .fin n ∧ (n : Rat) ≤ q ∧ ∀ m : Int, (m : Rat) ≤ q → m ≤ n
  | v, r => r = v

/-- `ceiling`: the smallest integer that is not less. -/
def IsCeiling : Num → Num → Prop
  | .fin q, r => ∃ n : Int, r = .fin n ∧ q ≤ (n : Rat) ∧ ∀ m : Int, q ≤ (m : Rat) → n ≤ m
  | v, r => r = v

/-- `mod`: the remainder of a truncating division. It has the sign of the dividend, is smaller than
the divisor, and differs from the dividend by an integral multiple of the divisor. There is none for
NaN, an infinite dividend or a zero divisor; an infinite divisor leaves the dividend. -/
def IsMod : Num → Num → Num → Prop
  | .fin a, .fin b, r =>
    if b = 0 then r = .nan
    else ∃ (s : Rat) (k : Int), r = .fin s ∧ a = b * k + s ∧ 0 ≤ a * s ∧ s * s < b * b
  | .fin a, .pinf, r => r = .fin a
  | .fin a, .ninf, r => r = .fin a
  | _, _, r => r = .nan

/-! ## Strings -/

/-- `t` occurs in `s`. -/
def Contains (s t : List Char) : Prop := ∃ a b, s = a ++ t ++ b

/-- The first occurrence of `t` in `s` is between `a` and `b`. -/
def FirstAt (s t a b : List Char) : Prop :=
  s = a ++ t ++ b ∧ ∀ a' b', s = a' ++ t ++ b' → a.length ≤ a'.length

/-- `substring-before(s, t)` is `r`. -/
def IsBefore (s t r : List Char) : Prop :=
  (∃ b, FirstAt s t r b) ∨ (¬ Contains s t ∧ r = [])

/-- `substring-after(s, t)` is `r`. -/
def IsAfter (s t r : List Char) : Prop :=
  (∃ a, FirstAt s t a r) ∨ (¬ Contains s t ∧ r = [])

/-- Position `p` (the first character has position 1) is selected by `substring(s, start, len)`:
`p >= round(start)` and `p < round(start) + round(len)`, compared as numbers. -/
def Selected (rstart : Num) (rlen : Option Num) (p : Nat) : Bool :=
  rstart.le (.fin p) &&
  match rlen with
  | none => true
  | some l => Num.lt (.fin p) (rstart.add l)

/-- The characters of `s` at the selected positions. -/
def pick (sel : Nat → Bool) : Nat → List Char → List Char
  | _, [] => []
  | p, c :: cs => if sel p then c :: pick sel (p + 1) cs else pick sel (p + 1) cs

/-- `substring(s, start, len)` for rounded `start` and `len`. -/
def substring (s : List Char) (rstart : Num) (rlen : Option Num) : List Char :=
  pick (Selected rstart rlen) 1 s

/-- What `translate` puts for one character: the character at the position of its first occurrence in
`src`, nothing if `dst` is too short, the character itself if it is not in `src`. -/
def translate1 (src dst : List Char) (c : Char) : List Char :=
  match src.idxOf? c with
  | none => [c]
  | some i => (dst[i]?).toList

/-- `translate(s, src, dst)`. -/
def translate (s src dst : List Char) : List Char := s.flatMap (translate1 src dst)

/-! ## Comparisons -/

/-- The comparison operators. -/
inductive Cmp where
  | eq | ne | lt | le | gt | ge
deriving DecidableEq, Repr

/-- A comparison of two numbers. -/
def cmpNum : Cmp → Num → Num → Prop
  | .eq, a, b => a.eq b = true
  | .ne, a, b => a.eq b = false
  | .lt, a, b => a.lt b = true
  | .le, a, b => a.le b = true
  | .gt, a, b => b.lt a = true
  | .ge, a, b => b.le a = true

/-- The conversion to a boolean: numbers that are neither zero nor NaN, non-empty strings and
node-sets. -/
def boolean : Value → Prop
  | .bool b => b = true
  | .num n => n ≠ .nan ∧ n ≠ .fin 0
  | .str s => s ≠ []
  | .nodes l => l ≠ []

/-- The conversion to a number, given that of strings. -/
def number (cv : Conv) : Value → Num
  | .bool true => .fin 1
  | .bool false => .fin 0
  | .num n => n
  | .str s => cv.number s
  | .nodes [] => cv.number []
  | .nodes (s :: _) => cv.number s

/-- A comparison of two values that are no node-sets. -/
def cmpSimple (cv : Conv) (op : Cmp) (l r : Value) : Prop :=
  match op with
  | .eq =>
    match l, r with
    | .bool _, _ => (boolean l ↔ boolean r)
    | _, .bool _ => (boolean l ↔ boolean r)
    | .str a, .str b => a = b
    | _, _ => cmpNum .eq (number cv l) (number cv r)
  | .ne =>
    match l, r with
    | .bool _, _ => ¬ (boolean l ↔ boolean r)
    | _, .bool _ => ¬ (boolean l ↔ boolean r)
    | .str a, .str b => a ≠ b
    | _, _ => cmpNum .ne (number cv l) (number cv r)
  | op => cmpNum op (number cv l) (number cv r)

/-- The truth value of a node-set, as a value. -/
def truth (l : List (List Char)) : Value := .bool (!l.isEmpty)

/-- XPath 1.0 section 3.4: `l op r` is true. -/
def Holds (cv : Conv) (op : Cmp) : Value → Value → Prop
  | .nodes l, .nodes r => ∃ a ∈ l, ∃ b ∈ r, cmpSimple cv op (.str a) (.str b)
  | .nodes l, .bool b => cmpSimple cv op (truth l) (.bool b)
  | .bool b, .nodes r => cmpSimple cv op (.bool b) (truth r)
  | .nodes l, v => ∃ a ∈ l, cmpSimple cv op (.str a) v
  | v, .nodes r => ∃ a ∈ r, cmpSimple cv op v (.str a)
  | l, r => cmpSimple cv op l r

end Verif.Spec.XPath
