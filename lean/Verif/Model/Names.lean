import Verif.Model.XmlChars
set_option autoImplicit false
/-!
# Names: include/XML/strings.hpp and include/XML/QName.hpp

Strings are lists of characters as they reach the classification functions: for wide strings the
code points, for byte strings the bytes sign extended (`char` converts to `wchar_t`).
-/
namespace Verif.Names
open Verif.XmlChars

/-- `is_ncname`, include/XML/strings.hpp lines 23-46: the loop over the rest. -/
def ncnameRest : List Int → Bool
  | [] => true
  | c :: cs => if isNCNameChar c then ncnameRest cs else false

/-- `is_ncname`, include/XML/strings.hpp lines 23-53. -/
def isNCName : List Int → Bool
  | [] => false
  | c :: cs => if isLetter c || c == 0x5F then ncnameRest cs else false

/-- `string_adaptor::find(str, ':')`: index of the first colon, `none` for `npos`. -/
def findColon : List Int → Option Nat
  | [] => none
  | c :: cs => if c == 0x3A then some 0 else (findColon cs).map (· + 1)

/-- `is_qname`, include/XML/strings.hpp lines 55-71. -/
def isQName (s : List Int) : Bool :=
  match findColon s with
  | none => isNCName s
  | some i => isNCName (s.take i) && isNCName (s.drop (i + 1))

/-- `QualifiedName`, include/XML/QName.hpp lines 149-153 (data members). -/
structure QualifiedName where
  pfx : List Int
  localName : List Int
  uri : List Int
  raw : List Int
  deriving DecidableEq

/-- `QualifiedName::parseQName`, include/XML/QName.hpp lines 64-86.  `none` is the
`std::runtime_error("Bad qname")`. -/
def parseQName (rawname : List Int) (isAttribute : Bool) (mapper : List Int → List Int) :
    Option QualifiedName :=
  if isQName rawname then
    match findColon rawname with
    | none => some ⟨[], rawname, if isAttribute then [] else mapper [], rawname⟩
    | some i =>
      let p := rawname.take i
      some ⟨p, rawname.drop (i + 1), mapper p, rawname⟩
  else none

/-- `QualifiedName::operator==`, include/XML/QName.hpp lines 114-118. -/
def QualifiedName.eqv (a b : QualifiedName) : Bool :=
  decide (a.localName = b.localName) && decide (a.uri = b.uri)

/-- `QualifiedName::clarkName`, include/XML/QName.hpp lines 125-136. -/
def QualifiedName.clarkName (q : QualifiedName) : List Int :=
  if q.uri = [] then q.localName else 0x7B :: q.uri ++ 0x7D :: q.localName

end Verif.Names
