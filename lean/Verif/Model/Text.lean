import Verif.Model.XmlChars
set_option autoImplicit false
/-!
# Escaping and white space: include/XML/escaper.hpp, include/text/normalize_whitespace.hpp
-/
namespace Verif.Text

/-- `text_escaper::operator()`, include/XML/escaper.hpp lines 21-50: what is written for one
character. -/
def textEscape1 (ch : Char) : List Char :=
  if ch = '<' then ['&', 'l', 't', ';']
  else if ch = '>' then ['&', 'g', 't', ';']
  else if ch = '&' then ['&', 'a', 'm', 'p', ';']
  else [ch]

/-- `attribute_escaper::operator()`, include/XML/escaper.hpp lines 67-108. -/
def attributeEscape1 (ch : Char) : List Char :=
  if ch = '"' then ['&', 'q', 'u', 'o', 't', ';']
  else if ch = '\t' then ['&', '#', 'x', '9', ';']
  else if ch = '\n' then ['&', '#', 'x', 'A', ';']
  else if ch = '\r' then ['&', '#', 'x', 'D', ';']
  else textEscape1 ch

/-- `std::for_each(text.begin(), text.end(), text_escaper(stream))`, the way the writers use it
(include/DOM/io/Stream.hpp lines 287-294, include/SAX/filter/Writer.hpp lines 342-351). -/
def textEscape : List Char → List Char
  | [] => []
  | c :: cs => textEscape1 c ++ textEscape cs

/-- The same with `attribute_escaper` (include/SAX/filter/Writer.hpp lines 278-290). -/
def attributeEscape : List Char → List Char
  | [] => []
  | c :: cs => attributeEscape1 c ++ attributeEscape cs

/-- `Arabica::XML::is_space` on a `char`, src/XML/XMLCharacterClasses.cpp lines 91-97. -/
def isSpace (c : Char) : Bool := XmlChars.isSpace c.toNat

/-- `while((i != ie) && is_space(*i)) ++i;`, include/text/normalize_whitespace.hpp lines 29-30 and
36-37. -/
def skipSpaces : List Char → List Char
  | [] => []
  | c :: cs => if isSpace c then skipSpaces cs else c :: cs

/-- `while((i != ie) && !is_space(*i)) *p++ = *i++;`, lines 34-35: the characters copied and the
rest of the input. -/
def copyWord : List Char → List Char × List Char
  | [] => ([], [])
  | c :: cs => if isSpace c then ([], c :: cs)
               else let (w, r) := copyWord cs; (c :: w, r)

theorem skipSpaces_length (l : List Char) : (skipSpaces l).length ≤ l.length := by
  induction l with
  | nil => simp [skipSpaces]
  | cons c cs ih => unfold skipSpaces; split <;> simp <;> omega

theorem copyWord_length (l : List Char) : (copyWord l).2.length ≤ l.length := by
  induction l with
  | nil => simp [copyWord]
  | cons c cs ih => unfold copyWord; split <;> simp <;> omega

theorem step_length (c : Char) (cs : List Char) :
    (skipSpaces (copyWord (c :: cs)).2).length < (c :: cs).length := by
  unfold copyWord
  split
  · rename_i h
    unfold skipSpaces
    simp only [h, if_true]
    have := skipSpaces_length cs
    simp; omega
  · have := skipSpaces_length (copyWord cs).2
    have := copyWord_length cs
    simp; omega

/-- The outer loop, include/text/normalize_whitespace.hpp lines 32-40.  The C++ writes over the
front of the string it is reading; this definition returns what is written.  `inPlace` below is the
program with its buffer and the two positions. -/
def normalizeLoop : List Char → List Char
  | [] => []
  | c :: cs =>
    let w := copyWord (c :: cs)
    let r := skipSpaces w.2
    w.1 ++ (if r.isEmpty then [] else ' ' :: normalizeLoop r)
termination_by l => l.length
decreasing_by exact step_length c cs

/-- `normalize_whitespace<std::string>`, include/text/normalize_whitespace.hpp lines 21-45. -/
def normalizeWhitespace (s : List Char) : List Char := normalizeLoop (skipSpaces s)

/-! ### The same program working in place -/

/-- `while((i != ie) && is_space(*i)) ++i;` on the buffer, include/text/normalize_whitespace.hpp
lines 29-30 and 36-37. -/
def ipSkip (buf : List Char) (i : Nat) : Nat :=
  if h : i < buf.length then
    if isSpace buf[i] then ipSkip buf (i + 1) else i
  else i
termination_by buf.length - i

/-- `while((i != ie) && !is_space(*i)) *p++ = *i++;`, lines 34-35. Gives the buffer, `i` and `p`
afterwards. -/
def ipCopy (buf : List Char) (i p : Nat) : List Char × Nat × Nat :=
  if h : i < buf.length then
    if isSpace buf[i] then (buf, i, p) else ipCopy (buf.set p buf[i]) (i + 1) (p + 1)
  else (buf, i, p)
termination_by buf.length - i
decreasing_by simp; omega

/-- The outer `while(i != ie)`, lines 32-40, for at most `fuel` rounds (`none` if that is not
enough). A write `*p++ = SPACE` outside the buffer would be `none` as well. -/
def ipLoop : Nat → List Char → Nat → Nat → Option (List Char × Nat)
  | 0, buf, i, p => if i < buf.length then none else some (buf, p)
  | fuel + 1, buf, i, p =>
    if i < buf.length then
      let r := ipCopy buf i p
      let i' := ipSkip r.1 r.2.1
      if i' < r.1.length then
        if r.2.2 < r.1.length then ipLoop fuel (r.1.set r.2.2 ' ') i' (r.2.2 + 1) else none
      else some (r.1, r.2.2)
    else some (buf, p)

/-- `normalize_whitespace` in place, lines 21-45: `value.erase(p, pe)` keeps the first `p`. -/
def inPlace (s : List Char) : Option (List Char) :=
  (ipLoop s.length s (ipSkip s 0) 0).map (fun r => r.1.take r.2)

end Verif.Text
