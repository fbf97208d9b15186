import Verif.Model.HtmlSchema
set_option autoImplicit false
/-!
# include/Taggle/impl/html/HTMLScanner.hpp: the scanner that drives the HTML parser

The positions reported by the scanner as a locator (`mark`, `currentLine_` and so on) are left out.
-/
namespace Verif.Taggle

/-! The states and the actions, HTMLScanner.hpp lines 28-94. -/
def sAname : Nat := 1
def sApos : Nat := 2
def sAval : Nat := 3
def sBb : Nat := 4
def sBbc : Nat := 5
def sBbcd : Nat := 6
def sBbcda : Nat := 7
def sBbcdat : Nat := 8
def sBbcdata : Nat := 9
def sCdata : Nat := 10
def sCdata2 : Nat := 11
def sCdsect : Nat := 12
def sCdsect1 : Nat := 13
def sCdsect2 : Nat := 14
def sCom : Nat := 15
def sCom2 : Nat := 16
def sCom3 : Nat := 17
def sCom4 : Nat := 18
def sDecl : Nat := 19
def sDecl2 : Nat := 20
def sDone : Nat := 21
def sEmptytag : Nat := 22
def sEnt : Nat := 23
def sEq : Nat := 24
def sEtag : Nat := 25
def sGi : Nat := 26
def sNcr : Nat := 27
def sPcdata : Nat := 28
def sPi : Nat := 29
def sPitarget : Nat := 30
def sQuot : Nat := 31
def sStagc : Nat := 32
def sTag : Nat := 33
def sTagws : Nat := 34
def sXncr : Nat := 35
def aAdup : Nat := 1
def aAdupSave : Nat := 2
def aAdupStagc : Nat := 3
def aAname : Nat := 4
def aAnameAdup : Nat := 5
def aAnameAdupStagc : Nat := 6
def aAval : Nat := 7
def aAvalStagc : Nat := 8
def aCdata : Nat := 9
def aCmnt : Nat := 10
def aDecl : Nat := 11
def aEmptytag : Nat := 12
def aEntity : Nat := 13
def aEntityStart : Nat := 14
def aEtag : Nat := 15
def aGi : Nat := 16
def aGiStagc : Nat := 17
def aLt : Nat := 18
def aLtPcdata : Nat := 19
def aMinus : Nat := 20
def aMinus2 : Nat := 21
def aMinus3 : Nat := 22
def aPcdata : Nat := 23
def aPi : Nat := 24
def aPitarget : Nat := 25
def aPitargetPi : Nat := 26
def aSave : Nat := 27
def aSkip : Nat := 28
def aSp : Nat := 29
def aStagc : Nat := 30
def aUnget : Nat := 31
def aUnsavePcdata : Nat := 32

/-- `statetable`, HTMLScanner.hpp lines 538-687: state, character (0 any, -1 end of input), action,
next state. -/
def stateTable : List (Nat × Int × Nat × Nat) := [
  (sAname, 47, aAnameAdup, sEmptytag), (sAname, 61, aAname, sAval),
  (sAname, 62, aAnameAdupStagc, sPcdata), (sAname, 0, aSave, sAname),
  (sAname, (-1), aAnameAdupStagc, sDone), (sAname, 32, aAname, sEq), (sAname, 10, aAname, sEq),
  (sAname, 9, aAname, sEq), (sApos, 39, aAval, sTagws), (sApos, 0, aSave, sApos),
  (sApos, (-1), aAvalStagc, sDone), (sApos, 32, aSp, sApos), (sApos, 10, aSp, sApos),
  (sApos, 9, aSp, sApos), (sAval, 39, aSkip, sApos), (sAval, 34, aSkip, sQuot),
  (sAval, 62, aAvalStagc, sPcdata), (sAval, 0, aSave, sStagc), (sAval, (-1), aAvalStagc, sDone),
  (sAval, 32, aSkip, sAval), (sAval, 10, aSkip, sAval), (sAval, 9, aSkip, sAval),
  (sBb, 67, aSkip, sBbc), (sBb, 0, aSkip, sDecl), (sBb, (-1), aSkip, sDone),
  (sBbc, 68, aSkip, sBbcd), (sBbc, 0, aSkip, sDecl), (sBbc, (-1), aSkip, sDone),
  (sBbcd, 65, aSkip, sBbcda), (sBbcd, 0, aSkip, sDecl), (sBbcd, (-1), aSkip, sDone),
  (sBbcda, 84, aSkip, sBbcdat), (sBbcda, 0, aSkip, sDecl), (sBbcda, (-1), aSkip, sDone),
  (sBbcdat, 65, aSkip, sBbcdata), (sBbcdat, 0, aSkip, sDecl), (sBbcdat, (-1), aSkip, sDone),
  (sBbcdata, 91, aSkip, sCdsect), (sBbcdata, 0, aSkip, sDecl), (sBbcdata, (-1), aSkip, sDone),
  (sCdata, 60, aSave, sCdata2), (sCdata, 0, aSave, sCdata), (sCdata, (-1), aPcdata, sDone),
  (sCdata2, 47, aUnsavePcdata, sEtag), (sCdata2, 0, aSave, sCdata),
  (sCdata2, (-1), aUnsavePcdata, sDone), (sCdsect, 93, aSave, sCdsect1),
  (sCdsect, 0, aSave, sCdsect), (sCdsect, (-1), aSkip, sDone), (sCdsect1, 93, aSave, sCdsect2),
  (sCdsect1, 0, aSave, sCdsect), (sCdsect1, (-1), aSkip, sDone), (sCdsect2, 62, aCdata, sPcdata),
  (sCdsect2, 0, aSave, sCdsect), (sCdsect2, (-1), aSkip, sDone), (sCom, 45, aSkip, sCom2),
  (sCom, 0, aSave, sCom2), (sCom, (-1), aCmnt, sDone), (sCom2, 45, aSkip, sCom3),
  (sCom2, 0, aSave, sCom2), (sCom2, (-1), aCmnt, sDone), (sCom3, 45, aSkip, sCom4),
  (sCom3, 0, aMinus, sCom2), (sCom3, (-1), aCmnt, sDone), (sCom4, 45, aMinus3, sCom4),
  (sCom4, 62, aCmnt, sPcdata), (sCom4, 0, aMinus2, sCom2), (sCom4, (-1), aCmnt, sDone),
  (sDecl, 45, aSkip, sCom), (sDecl, 91, aSkip, sBb), (sDecl, 62, aSkip, sPcdata),
  (sDecl, 0, aSave, sDecl2), (sDecl, (-1), aSkip, sDone), (sDecl2, 62, aDecl, sPcdata),
  (sDecl2, 0, aSave, sDecl2), (sDecl2, (-1), aSkip, sDone), (sEmptytag, 62, aEmptytag, sPcdata),
  (sEmptytag, 0, aSave, sAname), (sEmptytag, 32, aSkip, sTagws), (sEmptytag, 10, aSkip, sTagws),
  (sEmptytag, 9, aSkip, sTagws), (sEnt, 0, aEntity, sEnt), (sEnt, (-1), aEntity, sDone),
  (sEq, 61, aSkip, sAval), (sEq, 62, aAdupStagc, sPcdata), (sEq, 0, aAdupSave, sAname),
  (sEq, (-1), aAdupStagc, sDone), (sEq, 32, aSkip, sEq), (sEq, 10, aSkip, sEq),
  (sEq, 9, aSkip, sEq), (sEtag, 62, aEtag, sPcdata), (sEtag, 0, aSave, sEtag),
  (sEtag, (-1), aEtag, sDone), (sEtag, 32, aSkip, sEtag), (sEtag, 10, aSkip, sEtag),
  (sEtag, 9, aSkip, sEtag), (sGi, 47, aSkip, sEmptytag), (sGi, 62, aGiStagc, sPcdata),
  (sGi, 0, aSave, sGi), (sGi, (-1), aSkip, sDone), (sGi, 32, aGi, sTagws), (sGi, 10, aGi, sTagws),
  (sGi, 9, aGi, sTagws), (sNcr, 0, aEntity, sNcr), (sNcr, (-1), aEntity, sDone),
  (sPcdata, 38, aEntityStart, sEnt), (sPcdata, 60, aPcdata, sTag), (sPcdata, 0, aSave, sPcdata),
  (sPcdata, (-1), aPcdata, sDone), (sPi, 62, aPi, sPcdata), (sPi, 0, aSave, sPi),
  (sPi, (-1), aPi, sDone), (sPitarget, 62, aPitargetPi, sPcdata), (sPitarget, 0, aSave, sPitarget),
  (sPitarget, (-1), aPitargetPi, sDone), (sPitarget, 32, aPitarget, sPi),
  (sPitarget, 10, aPitarget, sPi), (sPitarget, 9, aPitarget, sPi), (sQuot, 34, aAval, sTagws),
  (sQuot, 0, aSave, sQuot), (sQuot, (-1), aAvalStagc, sDone), (sQuot, 32, aSp, sQuot),
  (sQuot, 10, aSp, sQuot), (sQuot, 9, aSp, sQuot), (sStagc, 62, aAvalStagc, sPcdata),
  (sStagc, 0, aSave, sStagc), (sStagc, (-1), aAvalStagc, sDone), (sStagc, 32, aAval, sTagws),
  (sStagc, 10, aAval, sTagws), (sStagc, 9, aAval, sTagws), (sTag, 33, aSkip, sDecl),
  (sTag, 63, aSkip, sPitarget), (sTag, 47, aSkip, sEtag), (sTag, 60, aSave, sTag),
  (sTag, 0, aSave, sGi), (sTag, (-1), aLtPcdata, sDone), (sTag, 32, aLt, sPcdata),
  (sTag, 10, aLt, sPcdata), (sTag, 9, aLt, sPcdata), (sTagws, 47, aSkip, sEmptytag),
  (sTagws, 62, aStagc, sPcdata), (sTagws, 0, aSave, sAname), (sTagws, (-1), aStagc, sDone),
  (sTagws, 32, aSkip, sTagws), (sTagws, 10, aSkip, sTagws), (sTagws, 9, aSkip, sTagws),
  (sXncr, 0, aEntity, sXncr), (sXncr, (-1), aEntity, sDone)]

/-- The search of the state table, HTMLScanner.hpp lines 218-237, from a given row on. -/
def search (state : Nat) (ch : Int) : List (Nat × Int × Nat × Nat) → Nat → Nat → Nat × Nat
  | [], action, next => (action, next)
  | (st, c, a, n) :: rows, action, next =>
    if state ≠ st then
      if action ≠ 0 then (action, next) else search state ch rows action next
    else if c = 0 then search state ch rows a n
    else if c = ch then (a, n)
    else search state ch rows action next

/-- The input stream: what has been read, last character first, what has not, and whether reading
has failed.  `unget` of at least two characters is taken to work. -/
structure In where
  done : Str
  rest : Str
  failed : Bool
deriving DecidableEq, Repr

/-- `istream::get`: -1 at the end, where it sets `failbit`; from then on it always gives -1. -/
def In.next (i : In) : Int × In :=
  if i.failed then (-1, i)
  else
    match i.rest with
    | [] => (-1, { i with failed := true })
    | c :: cs => ((c.toNat : Int), { i with done := c :: i.done, rest := cs })

/-- `istream::unget`: it does nothing once reading has failed. -/
def In.unget (i : In) : In :=
  if i.failed then i
  else
    match i.done with
    | [] => i
    | c :: cs => { i with done := cs, rest := c :: i.rest }

/-- The scanner, HTMLScanner.hpp lines 107-109, with its input.  `saves` counts the calls of `save`. -/
structure Sc where
  input : In
  state : Nat
  next : Nat
  buf : Str
  saves : Nat
deriving DecidableEq, Repr

/-- A call of the handler.  If it calls `startCDATA`, HTMLScanner.hpp lines 483-486, the next state
is `S_CDATA`. -/
def call (cfg : Cfg) (fuel : Nat) (p : Sc × St) (t : Tok) : Out (Sc × St) :=
  match handle cfg fuel { p.2 with cdata := false } t with
  | .ok s => .ok (if s.cdata then { p.1 with next := sCdata } else p.1, s)
  | .throws => .throws
  | .ub => .ub
  | .diverges => .diverges

/-- What comes after a call that ended normally. -/
def Out.bind {α β : Type} (o : Out α) (f : α → Out β) : Out β :=
  match o with
  | .ok a => f a
  | .throws => .throws
  | .ub => .ub
  | .diverges => .diverges

/-- `outputBuffer_.clear()`. -/
def clear (p : Sc × St) : Out (Sc × St) := .ok ({ p.1 with buf := [] }, p.2)

/-- `save`, HTMLScanner.hpp lines 499-511.  When the buffer counts as full depends on how the
library's strings grow: `full n` is the answer at the `n`-th call. -/
def save (cfg : Cfg) (fuel : Nat) (full : Nat → Bool) (ch : Int) (p : Sc × St) : Out (Sc × St) :=
  let flushed : Out (Sc × St) :=
    if full p.1.saves ∧ (p.1.state = sPcdata ∨ p.1.state = sCdata) then
      (call cfg fuel p (.pcdata p.1.buf)).bind clear
    else .ok p
  flushed.bind fun p =>
    .ok ({ p.1 with buf := p.1.buf ++ [byte ch], saves := p.1.saves + 1 }, p.2)

/-- Call the handler with the buffer, then clear it. -/
def give (cfg : Cfg) (fuel : Nat) (t : Str → Tok) (p : Sc × St) : Out (Sc × St) :=
  (call cfg fuel p (t p.1.buf)).bind clear

/-- Call the handler with the buffer. -/
def tell (cfg : Cfg) (fuel : Nat) (t : Str → Tok) (p : Sc × St) : Out (Sc × St) :=
  call cfg fuel p (t p.1.buf)

/-- `hexLetters.find(ch1) != npos`, HTMLScanner.hpp line 702. -/
def hexLetter (c : Char) : Bool := "abcdefABCDEF".toList.contains c

/-- The characters that go on with a reference, HTMLScanner.hpp lines 308-340: the state they lead
to, `none` if the reference ends here. -/
def goesOn (state next : Nat) (c : Char) : Option Nat :=
  if state = sEnt ∧ c = '#' then some sNcr
  else if state = sNcr ∧ (c = 'x' ∨ c = 'X') then some sXncr
  else if state = sEnt ∧ XmlChars.isLetterOrDigit (schar c) = true then some next
  else if state = sNcr ∧ XmlChars.isDigit (schar c) = true then some next
  else if state = sXncr ∧ (XmlChars.isDigit (schar c) || hexLetter c) = true then some next
  else none

/-- `r.unget()`, on the pair. -/
def unget (p : Sc × St) : Out (Sc × St) := .ok ({ p.1 with input := p.1.input.unget }, p.2)

/-- `nextState_ = S_PCDATA`. -/
def toPcdata (p : Sc × St) : Out (Sc × St) := .ok ({ p.1 with next := sPcdata }, p.2)

/-- What is saved for the character a reference stands for, HTMLScanner.hpp lines 345-375.  A
control character is changed to a space which is then not saved. -/
def saveEntity (cfg : Cfg) (fuel : Nat) (full : Nat → Bool) (ent : Int) (p : Sc × St) :
    Out (Sc × St) :=
  if ent < 0x20 then .ok p
  else if 0xD800 ≤ ent ∧ ent ≤ 0xDFFF then .ok p
  else if ent ≤ 0xFFFF then save cfg fuel full ent p
  else
    (save cfg fuel full ((ent - 0x10000) / 1024 + 0xD800) p).bind
      (save cfg fuel full ((ent - 0x10000) % 1024 + 0xDC00))

/-- The action `A_ENTITY`, HTMLScanner.hpp lines 303-389.  `substr(1, ...)` of an empty buffer
throws. -/
def entityAction (cfg : Cfg) (fuel : Nat) (full : Nat → Bool) (ch : Int) (p : Sc × St) :
    Out (Sc × St) :=
  match goesOn p.1.state p.1.next (byte ch) with
  | some n => save cfg fuel full ch ({ p.1 with next := n }, p.2)
  | none =>
    match p.1.buf with
    | [] => .throws
    | _ :: name =>
      (call cfg fuel p (.entity name)).bind fun p =>
        let ent := p.2.entity
        let r : Out (Sc × St) :=
          if ent ≠ 0 then
            (clear p).bind fun p => (saveEntity cfg fuel full ent p).bind fun p =>
              if ch ≠ 59 then unget p else .ok p
          else unget p
        r.bind toPcdata

/-- The `switch`, HTMLScanner.hpp lines 239-475. -/
def act (cfg : Cfg) (fuel : Nat) (full : Nat → Bool) (action : Nat) (ch : Int) (p : Sc × St) :
    Out (Sc × St) :=
  let give := give cfg fuel
  let tell := tell cfg fuel
  let save := save cfg fuel full
  if action = aAdup then give .adup p
  else if action = aAdupSave then (give .adup p).bind (save ch)
  else if action = aAdupStagc then (give .adup p).bind (tell .stagc)
  else if action = aAname then give .aname p
  else if action = aAnameAdup then (give .aname p).bind (tell .adup)
  else if action = aAnameAdupStagc then ((give .aname p).bind (tell .adup)).bind (tell .stagc)
  else if action = aAval then give .aval p
  else if action = aAvalStagc then (give .aval p).bind (tell .stagc)
  else if action = aCdata then
    give .pcdata ({ p.1 with buf := if p.1.buf.length > 1 then p.1.buf.take (p.1.buf.length - 2)
                                    else p.1.buf }, p.2)
  else if action = aEntityStart then (give .pcdata p).bind (save ch)
  else if action = aEntity then entityAction cfg fuel full ch p
  else if action = aEtag then give .etag p
  else if action = aDecl then give .decl p
  else if action = aGi then give .gi p
  else if action = aGiStagc then (give .gi p).bind (tell .stagc)
  else if action = aLt then (save 60 p).bind (save ch)
  else if action = aLtPcdata then (save 60 p).bind (give .pcdata)
  else if action = aPcdata then give .pcdata p
  else if action = aCmnt then give .cmnt p
  else if action = aMinus3 then (save 45 p).bind (save 32)
  else if action = aMinus2 then
    (((save 45 p).bind (save 32)).bind (save 45)).bind (save ch)
  else if action = aMinus then (save 45 p).bind (save ch)
  else if action = aPi then give .pi p
  else if action = aPitarget then give .pitarget p
  else if action = aPitargetPi then (give .pitarget p).bind (tell .pi)
  else if action = aSave then save ch p
  else if action = aSkip then .ok p
  else if action = aSp then save 32 p
  else if action = aStagc then give .stagc p
  else if action = aEmptytag then
    ((if p.1.buf ≠ [] then tell .gi p else .ok p).bind clear).bind (tell .stage)
  else if action = aUnget then unget p
  else if action = aUnsavePcdata then give .pcdata ({ p.1 with buf := p.1.buf.dropLast }, p.2)
  else .throws

/-- Reading a character, with line ends made `\n`, HTMLScanner.hpp lines 192-206. -/
def readChar (i : In) : Int × In :=
  let r := i.next
  if r.1 = 13 then
    let r2 := r.2.next
    if r2.1 ≠ 10 then (10, r2.2.unget) else (10, r2.2)
  else r

/-- One turn of the loop, HTMLScanner.hpp lines 190-476. -/
def turn (cfg : Cfg) (fuel : Nat) (full : Nat → Bool) (p : Sc × St) : Out (Sc × St) :=
  let r := readChar p.1.input
  let ch := r.1
  let p : Sc × St := ({ p.1 with input := r.2 }, p.2)
  if ¬ (ch ≥ 32 ∨ ch = 10 ∨ ch = 9 ∨ ch = -1) then .ok p
  else
    let f := search p.1.state ch stateTable 0 p.1.next
    (act cfg fuel full f.1 ch ({ p.1 with next := f.2 }, p.2)).bind fun p =>
      .ok ({ p.1 with state := p.1.next }, p.2)

/-- The loop, HTMLScanner.hpp lines 190-477, for at most `n` turns. -/
def scanLoop (cfg : Cfg) (fuel : Nat) (full : Nat → Bool) : Nat → Sc × St → Out (Sc × St)
  | 0, p => if p.1.state = sDone then .ok p else .diverges
  | n + 1, p =>
    if p.1.state = sDone then .ok p
    else (turn cfg fuel full p).bind (scanLoop cfg fuel full n)

/-- A new scanner at the start of `scan`, HTMLScanner.hpp lines 118-129 and 176. -/
def newScanner (input : Str) : Sc :=
  { input := ⟨[], input, false⟩, state := sPcdata, next := 0, buf := [], saves := 0 }

/-- `Parser::parse` on a string of bytes, Parser.hpp lines 456-477, with a scanner of its own.  `n`
bounds the turns of the scanner, `fuel` those of `rectify`; running out of either is `diverges`. -/
def parseHtml (cfg : Cfg) (fuel n : Nat) (full : Nat → Bool) (S : Schema) (seen : Bool)
    (input : Str) : Out St :=
  (scanLoop cfg fuel full n (newScanner input, start cfg S seen)).bind fun p => eof cfg fuel p.2

end Verif.Taggle
