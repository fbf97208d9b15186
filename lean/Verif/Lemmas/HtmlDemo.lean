import Verif.Lemmas.HtmlText
set_option autoImplicit false
/-! # The results of some HTML documents, computed together because the schema has to be computed -/
namespace Verif.Taggle
open Spec

def textOf (s : String) : Option Str := (events (parseDefault s)).map text

def instructions (e : List Ev) : List Ev :=
  e.filter fun e => match e with
    | .startDTD _ _ _ => true
    | _ => false

def mappings (e : List Ev) : List Ev :=
  e.filter fun e => match e with
    | .startPrefix _ _ => true
    | _ => false

def starts (e : List Ev) : List (Str × List Str) :=
  e.filterMap fun e => match e with
    | .startElement _ _ q atts => some (q, atts.map (·.value))
    | _ => none

set_option maxRecDepth 100000 in
theorem demo_checked :
    (textOf "a&eacute;b" == some "ab".toList &&
     textOf "a&#10;b" == some "ab".toList &&
     textOf "a&#321;b" == some "aAb".toList &&
     textOf "a<![CDATA[b]]]>c" == some "a".toList &&
     textOf "1 &lt; 2" == some "1 < 2".toList &&
     (events (parseDefault "<!DOCTYPE html PUBLIC \"p\" \"s\">")).map instructions ==
       some [.startDTD "html PUBLIC ".toList [] []] &&
     (events (parseDefault "<p:x p:y=1>")).map mappings == some
       [.startPrefix "html".toList "http://www.w3.org/1999/xhtml".toList,
        .startPrefix "p".toList "urn:x-prefix:p".toList, .startPrefix "p".toList "urn:x-prefix:p".toList] &&
     (events (parseDefault "<i b='&#1;'>")).map starts == some
       [("html".toList, []), ("body".toList, []), ("i".toList, [[Char.ofNat 1]])] &&
     (events (parseDefault "<b><p>x</b>y</p")).map starts == some
       [("html".toList, []), ("body".toList, []), ("b".toList, []), ("p".toList, []), ("b".toList, [])])
     = true := by
  decide +kernel

end Verif.Taggle
