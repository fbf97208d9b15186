import Verif.Model.Codecvt
/-!
# src/convert/base64codecvt.cpp
-/
namespace Verif.Base64
open Verif.Codecvt

/-- `base64_charset`, base64codecvt.cpp line 9. -/
def charset : List Char :=
  "ABCDEFGHIJKLMNOPQRSTUVWXYZabcdefghijklmnopqrstuvwxyz0123456789+/".toList

/-- `base64_charset[i]`.  All uses mask the index below 64; `std::string::operator[]` at
`size()` would be NUL, which is the default here. -/
def cs (i : Nat) : Char := charset.getD i '\x00'

/-- The conversion state `*state_` (lines 161-206): low byte = position in the quad,
second byte = previous character.  Simplification: the position is kept as `Fin 4`
(a state word outside 0..3 is only possible if the caller passes a corrupt `mbstate_t`), and the
other bits of the word, which the code never touches, are dropped. -/
structure St where
  s : Fin 4
  prev : UInt8
  deriving DecidableEq, Repr

/-- A zero-initialised `mbstate_t`. -/
def St.init : St := ⟨0, 0⟩

/-- `nextState`, lines 174-183. -/
def nextState (st : St) : St := { st with s := st.s + 1 }

/-- `setPreviousChar`, lines 198-206. -/
def setPrev (st : St) (c : UInt8) : St := { st with prev := c }

/-- `getCurrentOutChar`, lines 185-191: `none` is `NO_MORE`. -/
def current (inp : List UInt8) : Option UInt8 := inp.head?

/-- `char c = getCurrentOutChar()`, line 34: `NO_MORE` (256) truncates to 0. -/
def currentByte (inp : List UInt8) : UInt8 :=
  match inp with
  | [] => 0
  | c :: _ => c

/-- `consumeOutChar`, lines 208-217. -/
def consume (st : St) (inp : List UInt8) : St × List UInt8 :=
  match inp with
  | [] => (setPrev st 0, [])
  | c :: t => (setPrev st c, t)

/-- `(getCurrentOutChar() == NO_MORE) && (getPreviousChar() == 0)`, lines 32, 58, 69. -/
def exhausted (st : St) (inp : List UInt8) : Bool := inp.isEmpty && st.prev == 0

/-- The body of the quad loop, lines 34-56: character written, new state, remaining input. -/
def quadStep (st : St) (inp : List UInt8) : Char × St × List UInt8 :=
  let c := (currentByte inp).toNat
  let p := st.prev.toNat
  match st.s with
  | 0 =>
    let (st', inp') := consume st inp
    (cs ((c >>> 2) &&& 63), nextState st', inp')
  | 1 =>
    let (st', inp') := consume st inp
    (cs (((p &&& 3) <<< 4) + ((c >>> 4) &&& 15)), nextState st', inp')
  | 2 =>
    (cs (((p &&& 15) <<< 2) + ((c >>> 6) &&& 3)), nextState (setPrev st 0), inp)
  | 3 =>
    let (st', inp') := consume st inp
    (cs (c &&& 63), nextState (setPrev st' 0), inp')

/-- The quad loop, lines 32-60, with `room = to_limit - to_next`; result: characters written,
state, remaining input, remaining room.  The `break` of line 58 is the second test. -/
def quadLoop : Nat → St → List UInt8 → List Char × St × List UInt8 × Nat
  | 0, st, inp => ([], st, inp, 0)
  | room + 1, st, inp =>
    if exhausted st inp then ([], st, inp, room + 1)
    else
      let (ch, st', inp') := quadStep st inp
      if st'.s = 0 ∧ exhausted st' inp' then ([ch], st', inp', room)
      else
        let (out, r) := quadLoop room st' inp'
        (ch :: out, r)

/-- The padding loop, lines 63-67 (also `do_unshift`, lines 127-131). -/
def padLoop : Nat → St → List Char × St
  | 0, st => ([], st)
  | room + 1, st =>
    if st.s = 0 then ([], st)
    else
      let (out, st') := padLoop room (nextState st)
      ('=' :: out, st')

/-- `do_out`, lines 14-70. -/
def doOut (st : St) (inp : List UInt8) (room : Nat) : CallRes St UInt8 Char :=
  let (o1, st1, inp1, room1) := quadLoop room st inp
  let (o2, st2) := padLoop room1 st1
  { status := if st2.s = 0 ∧ exhausted st2 inp1 then .ok else .incomplete
    st := st2, rest := inp1, out := o1 ++ o2 }

/-- `do_unshift`, lines 119-134: pads, and reports `ok` exactly when the buffer is full
(`to_next == to_limit`). -/
def doUnshift (st : St) (room : Nat) : CallRes St UInt8 Char :=
  let (o, st') := padLoop room st
  { status := if o.length = room then .ok else .incomplete, st := st', rest := [], out := o }

/-- The byte written for a decoded character, lines 98-111: `none` for position 0. -/
def decodeByte (s : Fin 4) (p c : Nat) : Option UInt8 :=
  match s with
  | 0 => none
  | 1 => some (UInt8.ofNat ((p <<< 2) ||| (c >>> 4)))
  | 2 => some (UInt8.ofNat ((p <<< 4) ||| (c >>> 2)))
  | 3 => some (UInt8.ofNat ((p <<< 6) ||| c))

/-- The decoding loop, lines 85-114, with `room = to_limit - to_next`: bytes written, state,
remaining input. -/
def inLoop : List Char → Nat → St → List UInt8 × St × List Char
  | [], _, st => ([], st, [])
  | b :: t, 0, st => ([], st, b :: t)
  | b :: t, room + 1, st =>
    match charset.findIdx? (· = b) with
    | none => inLoop t (room + 1) (if b = '=' then nextState st else st)
    | some c =>
      let st' := nextState (setPrev st (UInt8.ofNat c))
      match decodeByte st.s st.prev.toNat c with
      | none => inLoop t (room + 1) st'
      | some byte =>
        let (out, r) := inLoop t room st'
        (byte :: out, r)

/-- `do_in`, lines 72-117. -/
def doIn (st : St) (inp : List Char) (room : Nat) : CallRes St Char UInt8 :=
  let (out, st', rest) := inLoop inp room st
  { status := if rest.isEmpty then .ok else .incomplete, st := st', rest := rest, out := out }

end Verif.Base64
