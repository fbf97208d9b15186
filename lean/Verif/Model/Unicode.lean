import Verif.Model.Codecvt
set_option autoImplicit false
/-!
# rot13, UTF-8, UTF-16 and ISO-8859-1 conversions

`wchar_t` characters are natural numbers (the value after the cast to `unsigned long` that
`ucs2_2_utf8` makes), `char`s are bytes.  These facets have no conversion state.
A `none` result is undefined behaviour: a byte outside the input was read.
-/
namespace Verif.Unicode
open Verif.Codecvt

/-! ## rot13 -/

/-- The table of src/convert/rot13codecvt.cpp line 14, copied. -/
def rot13Table : List UInt8 :=
  [0,1,2,3,4,5,6,7,8,9,10,11,12,13,14,15,16,17,18,19,20,21,22,23,24,25,26,27,28,29,30,31,32,33,34,
   35,36,37,38,39,40,41,42,43,44,45,46,47,48,49,50,51,52,53,54,55,56,57,58,59,60,61,62,63,64,78,79,
   80,81,82,83,84,85,86,87,88,89,90,65,66,67,68,69,70,71,72,73,74,75,76,77,91,92,93,94,95,96,110,
   111,112,113,114,115,116,117,118,119,120,121,122,97,98,99,100,101,102,103,104,105,106,107,108,109,
   123,124,125,126,127,128,129,130,131,132,133,134,135,136,137,138,139,140,141,142,143,144,145,146,
   147,148,149,150,151,152,153,154,155,156,157,158,159,160,161,162,163,164,165,166,167,168,169,170,
   171,172,173,174,175,176,177,178,179,180,181,182,183,184,185,186,187,188,189,190,191,192,193,194,
   195,196,197,198,199,200,201,202,203,204,205,206,207,208,209,210,211,212,213,214,215,216,217,218,
   219,220,221,222,223,224,225,226,227,228,229,230,231,232,233,234,235,236,237,238,239,240,241,242,
   243,244,245,246,247,248,249,250,251,252,253,254,255]

/-- `rot13codecvt::rot13`, src/convert/rot13codecvt.cpp lines 16-30; both `do_in` and `do_out`
call it.  `none` would be an access outside the table. -/
def rot13 : Nat → List UInt8 → Option (CallRes Unit UInt8 UInt8)
  | _, [] => some ⟨.ok, (), [], []⟩
  | 0, b :: rest => some ⟨.incomplete, (), b :: rest, []⟩
  | cap + 1, b :: rest =>
    match rot13Table[b.toNat]? with
    | none => none
    | some x =>
      match rot13 cap rest with
      | none => none
      | some r => some { r with out := x :: r.out }

/-! ## The UTF-8 table -/

/-- `struct Tab`, src/convert/impl/ucs2_utf8.cpp lines 13-19 and
src/convert/impl/iso88591_utf8.cpp lines 10-16. -/
structure Tab where
  charMask : Nat
  charValue : Nat
  shift : Nat
  wideMask : Nat

/-- `tab`, src/convert/impl/ucs2_utf8.cpp lines 21-27 and iso88591_utf8.cpp lines 18-24.
The terminating all-zero entry is the end of the list. -/
def tab : List Tab :=
  [⟨0x80, 0x00, 0 * 6, 0x7F⟩, ⟨0xE0, 0xC0, 1 * 6, 0x7FF⟩, ⟨0xF0, 0xE0, 2 * 6, 0xFFFF⟩]

/-- The inner `while(c > 0)` loop writing continuation bytes: ucs2_utf8.cpp lines 53-57 and
iso88591_utf8.cpp lines 48-52.  The shift is always a multiple of six; the model counts sixes. -/
def contBytes (fn : Nat) : Nat → List UInt8
  | 0 => []
  | k + 1 => UInt8.ofNat (0x80 ||| ((fn >>> (6 * k)) &&& 0x3F)) :: contBytes fn k

/-- The `for` loop over the table for one character: ucs2_utf8.cpp lines 42-59,
iso88591_utf8.cpp lines 36-54.  `i` is `t - tab`, `room` is `to_limit - to_next`.
`none`: not enough room (`return partial`).  Falling off the table writes nothing. -/
def encodeOne (fn room : Nat) : List Tab → Nat → Option (List UInt8)
  | [], _ => some []
  | t :: ts, i =>
    if fn > t.wideMask then encodeOne fn room ts (i + 1)
    else if i + 1 ≥ room then none
    else some (UInt8.ofNat (t.charValue ||| (fn >>> t.shift)) :: contBytes fn (t.shift / 6))

/-- `ucs2_2_utf8`, src/convert/impl/ucs2_utf8.cpp lines 31-64
(`utf8ucs2codecvt::do_out`, `utf16utf8codecvt::do_in`, `ucs2utf8codecvt::do_in`). -/
def ucs2ToUtf8 : Unit → List Nat → Nat → CallRes Unit Nat UInt8
  | _, [], _ => ⟨.ok, (), [], []⟩
  | _, c :: cs, cap =>
    match encodeOne c cap tab 0 with
    | none => ⟨.incomplete, (), c :: cs, []⟩
    | some bs =>
      let r := ucs2ToUtf8 () cs (cap - bs.length)
      { r with out := bs ++ r.out }

/-- `iso88591_2_utf8`, src/convert/impl/iso88591_utf8.cpp lines 27-59
(`utf8iso88591codecvt::do_out`, `iso88591utf8codecvt::do_in`). -/
def isoToUtf8 : Unit → List UInt8 → Nat → CallRes Unit UInt8 UInt8
  | _, [], _ => ⟨.ok, (), [], []⟩
  | _, c :: cs, cap =>
    match encodeOne c.toNat cap tab 0 with
    | none => ⟨.incomplete, (), c :: cs, []⟩
    | some bs =>
      let r := isoToUtf8 () cs (cap - bs.length)
      { r with out := bs ++ r.out }

/-- The `for` loop finding the table entry of a lead byte, ucs2_utf8.cpp lines 77-82:
index `t - tab` and the entry's `wide_mask` (0 for the terminating entry). -/
def leadEntry (start : Nat) : List Tab → Nat → Nat × Nat
  | [], i => (i, 0)
  | t :: ts, i => if start &&& t.charMask = t.charValue then (i, t.wideMask)
                  else leadEntry start ts (i + 1)

/-- The loop folding in continuation bytes, ucs2_utf8.cpp lines 90-94.
`none`: reads past the end. -/
def foldCont : Nat → Nat → List UInt8 → Option (Nat × List UInt8)
  | 0, acc, rest => some (acc, rest)
  | _ + 1, _, [] => none
  | k + 1, acc, b :: rest => foldCont k ((acc <<< 6) ||| ((b.toNat ^^^ 0x80) &&& 0xff)) rest

/-- `utf8_2_ucs2`, src/convert/impl/ucs2_utf8.cpp lines 66-102
(`utf8ucs2codecvt::do_in`, `utf16utf8codecvt::do_out`, `ucs2utf8codecvt::do_out`). -/
def utf8ToUcs2 : Nat → List UInt8 → Option (CallRes Unit UInt8 Nat)
  | _, [] => some ⟨.ok, (), [], []⟩
  | 0, b :: rest => some ⟨.incomplete, (), b :: rest, []⟩
  | cap + 1, b :: rest =>
    let e := leadEntry b.toNat tab 0
    if e.1 ≥ (b :: rest).length then some ⟨.incomplete, (), b :: rest, []⟩
    else
      match foldCont e.1 b.toNat rest with
      | none => none
      | some (v, rest') =>
        match utf8ToUcs2 cap rest' with
        | none => none
        | some r => some { r with out := (v &&& e.2) :: r.out }

/-- The `for` loop of `utf8_2_iso88591`, iso88591_utf8.cpp lines 72-81.  `none`: reads `*from_end`
or beyond.  The result is the accumulated character and the input after the last byte read. -/
def isoLead (start : Nat) : List Tab → Nat → List UInt8 → Option (Nat × List UInt8)
  | [], next, rest => some (next, rest)
  | t :: ts, next, rest =>
    if start &&& t.charMask = t.charValue then some (next &&& t.wideMask, rest)
    else
      match rest with
      | [] => none
      | b :: rest' => isoLead start ts ((next <<< 6) ||| ((b.toNat ^^^ 0x80) &&& 0xff)) rest'

/-- `utf8_2_iso88591`, src/convert/impl/iso88591_utf8.cpp lines 61-93
(`utf8iso88591codecvt::do_in`, `iso88591utf8codecvt::do_out`). -/
def utf8ToIso : Nat → List UInt8 → Option (CallRes Unit UInt8 UInt8)
  | _, [] => some ⟨.ok, (), [], []⟩
  | 0, b :: rest => some ⟨.incomplete, (), b :: rest, []⟩
  | cap + 1, b :: rest =>
    match isoLead b.toNat tab b.toNat rest with
    | none => none
    | some (v, rest') =>
      match utf8ToIso cap rest' with
      | none => none
      | some r => some { r with out := (if v ≤ 0xFF then UInt8.ofNat v else 63) :: r.out }

/-! ## UTF-16 -/

/-- `utf16_2_ucs2`, src/convert/impl/ucs2_utf16.cpp lines 6-22. -/
def utf16ToUcs2 (be : Bool) : Nat → List UInt8 → Option (CallRes Unit UInt8 Nat)
  | _, [] => some ⟨.ok, (), [], []⟩
  | _, [b] => some ⟨.incomplete, (), [b], []⟩
  | 0, b1 :: b2 :: rest => some ⟨.incomplete, (), b1 :: b2 :: rest, []⟩
  | cap + 1, b1 :: b2 :: rest =>
    let ch := if be then (b1.toNat <<< 8) + b2.toNat else (b2.toNat <<< 8) + b1.toNat
    match utf16ToUcs2 be cap rest with
    | none => none
    | some r => some { r with out := ch :: r.out }

/-- `ucs2_2_utf16`, src/convert/impl/ucs2_utf16.cpp lines 24-55. -/
def ucs2ToUtf16 (be : Bool) : Unit → List Nat → Nat → CallRes Unit Nat UInt8
  | _, [], _ => ⟨.ok, (), [], []⟩
  | _, c :: cs, cap =>
    if 2 ≥ cap then ⟨.incomplete, (), c :: cs, []⟩
    else
      let lb := UInt8.ofNat (c &&& 0xFF)
      let hb := UInt8.ofNat ((c >>> 8) &&& 0xFF)
      let r := ucs2ToUtf16 be () cs (cap - 2)
      { r with out := (if be then [hb, lb] else [lb, hb]) ++ r.out }

/-! ## `do_length` -/

/-- `do_length` of the rot13 facet, src/convert/rot13codecvt.cpp lines 41-47. -/
def rot13Length (inp : List UInt8) (max : Nat) : Nat := Nat.max inp.length max

/-- `do_length` of both UTF-16 facets, src/convert/utf16beucs2codecvt.cpp lines 45-51 and
utf16leucs2codecvt.cpp lines 45-51. -/
def utf16Length (inp : List UInt8) (max : Nat) : Nat := Nat.max inp.length (max / 2)

/-- `utf16utf8codecvt::do_length`, src/convert/utf16utf8codecvt.cpp lines 43-62, and
`ucs2utf8codecvt::do_length`.  `count` is the loop's counter; the result is `from_next - from`. -/
def utf16utf8Length : List Nat → (count max : Nat) → Nat
  | [], _, _ => 0
  | c :: cs, count, max =>
    if count < max then
      1 + utf16utf8Length cs (count + (if c > 0x7FF then 1 else 0) + (if c > 0x7F then 1 else 0) + 1) max
    else 0

/-- `iso88591utf8codecvt::do_length`, src/convert/iso88591utf8codecvt.cpp lines 41-59. -/
def isoUtf8Length : List UInt8 → (count max : Nat) → Nat
  | [], _, _ => 0
  | c :: cs, count, max =>
    if count < max then
      1 + isoUtf8Length cs (count + (if c.toNat &&& 0x80 ≠ 0 then 1 else 0) + 1) max
    else 0

/-- `utf8ucs2codecvt::do_length` (src/convert/utf8ucs2codecvt.cpp lines 43-81) and
`utf8iso88591codecvt::do_length` (src/convert/utf8iso88591codecvt.cpp lines 42-80), which are the
same code.  One unit of fuel per loop iteration; `none` means the loop is still running.
The `0xe0` branch (lines 68-77) is unreachable after the `0xc0` test and is left out. -/
def utf8Length : (fuel : Nat) → List UInt8 → (count max : Nat) → Option Nat
  | _, [], _, _ => some 0
  | 0, _ :: _, _, _ => none
  | fuel + 1, b :: rest, count, max =>
    if count < max then
      if b.toNat &&& 0x80 = 0 then (utf8Length fuel rest (count + 1) max).map (· + 1)
      else if b.toNat &&& 0xc0 = 0xc0 then
        if 2 < (b :: rest).length then
          (utf8Length fuel (rest.drop 1) (count + 1) max).map (· + 2)
        else some 0
      else utf8Length fuel (b :: rest) count max
    else some 0

/-- The resumption loop (see `Codecvt.drive`) for conversions that may read outside their input. -/
def driveU {α β : Type} (call : Nat → List α → Option (CallRes Unit α β)) :
    List α → List Nat → Option (CallRes Unit α β)
  | inp, [] => some ⟨.incomplete, (), inp, []⟩
  | inp, c :: cs =>
    match call c inp with
    | none => none
    | some r =>
      match r.status with
      | .ok => some r
      | .incomplete =>
        match driveU call r.rest cs with
        | none => none
        | some r' => some { r' with out := r.out ++ r'.out }

end Verif.Unicode
