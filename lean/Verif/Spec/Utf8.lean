set_option autoImplicit false
/-!
# UTF-8 by RFC 3629, section 3, and UTF-16 byte pairs
-/
namespace Verif.Spec.Utf8

/-- The UTF-8 form of one code point. -/
def encodeChar (c : Nat) : List UInt8 :=
  if c < 0x80 then [UInt8.ofNat c]
  else if c < 0x800 then [UInt8.ofNat (0xC0 + c / 64), UInt8.ofNat (0x80 + c % 64)]
  else if c < 0x10000 then
    [UInt8.ofNat (0xE0 + c / 4096), UInt8.ofNat (0x80 + c / 64 % 64), UInt8.ofNat (0x80 + c % 64)]
  else
    [UInt8.ofNat (0xF0 + c / 262144), UInt8.ofNat (0x80 + c / 4096 % 64),
     UInt8.ofNat (0x80 + c / 64 % 64), UInt8.ofNat (0x80 + c % 64)]

/-- The UTF-8 form of a string. -/
def encode (s : List Nat) : List UInt8 := s.flatMap encodeChar

/-- Big endian bytes of a 16 bit character. -/
def be16 (c : Nat) : List UInt8 := [UInt8.ofNat (c / 256), UInt8.ofNat (c % 256)]

/-- Little endian bytes of a 16 bit character. -/
def le16 (c : Nat) : List UInt8 := [UInt8.ofNat (c % 256), UInt8.ofNat (c / 256)]

/-- One byte of rot13: letters move 13 places within their case. -/
def rot13 (b : UInt8) : UInt8 :=
  if 65 ≤ b.toNat ∧ b.toNat ≤ 90 then UInt8.ofNat ((b.toNat - 65 + 13) % 26 + 65)
  else if 97 ≤ b.toNat ∧ b.toNat ≤ 122 then UInt8.ofNat ((b.toNat - 97 + 13) % 26 + 97)
  else b

end Verif.Spec.Utf8
