import Verif.Lemmas.XsltInclude3
set_option autoImplicit false
/-!
# C83: a stylesheet of several files
-/
namespace Verif.Props.XsltInclude
open Verif.XsltInclude
open Verif.Spec.XsltInclude (Inlines ITree ITrees Imports Sheet postorder Bare Only Compiled ImportsFirst under)

/-- C83 in full, for stylesheets that can be read: what is compiled is the import tree, with includes put in place;
a stylesheet in which a file includes or imports itself, or names a file that is not there or not well-formed,
or has an `xsl:import` after something else, is refused with an exception. -/
def Means (R : Str → Str → Str) (files : Str → Option File) (system : Str) (f : File) : Prop :=
  (∀ t, Sheet R files (under R system f.base) f.items t → ∃ n out, compile R files n system f = .done out ∧ Compiled t out) ∧
  ((ImportsFirst f.items → ¬ ∃ t, Sheet R files (under R system f.base) f.items t) →
    ∃ n, compile R files n system f = .error)

theorem compiled (t : ITree) : Compiled t (flat (groupsT Verif.Xslt.initialPrecedence t)) :=
  ⟨groupsT Verif.Xslt.initialPrecedence t, rfl, by rw [List.map_reverse, groups_postorder, List.reverse_reverse],
    by rw [List.pairwise_reverse]; exact groups_sorted _ t⟩

/-- C83, partial: if the first file has no `xml:base` on its outermost element and there is none on any
`xsl:include` and `xsl:import`, what is compiled is the import tree.
Missing: `xml:base` there (`C83_violated_base`), and that imports must come first (`C83_violated_order`). -/
theorem C83_partial (R : Str → Str → Str) (files : Str → Option File) (system : Str) (f : File) (t : ITree)
    (hb : ∀ u g, files u = some g → Bare g.items) (h1 : f.base = none) (h2 : Bare f.items)
    (h : Sheet R files system f.items t) : ∃ n out, compile R files n system f = .done out ∧ Compiled t out := by
  obtain ⟨n, hn⟩ := compile_complete hb system f h1 h2 t h
  exact ⟨n, _, hn, compiled t⟩

/-- C83, partial, the other direction: whatever is compiled is the import tree of the files. -/
theorem C83_only_partial (R : Str → Str → Str) (files : Str → Option File) (system : Str) (f : File) (n : Nat)
    (out : List (Nat × List Int × Str)) (hb : ∀ u g, files u = some g → Bare g.items) (h1 : f.base = none)
    (h2 : Bare f.items) (h : compile R files n system f = .done out) :
    ∃ t, Sheet R files system f.items t ∧ Compiled t out := by
  obtain ⟨t, h3, rfl⟩ := compile_sound hb n system f h1 h2 out h
  exact ⟨t, h3, compiled t⟩

/-- C83: however the files name each other, if there are finitely many, compiling them comes to an end. -/
theorem C83_ends (R : Str → Str → Str) (files : Str → Option File) (l : List (List Char)) (h : Only files l)
    (system : Str) (f : File) : ∃ n, compile R files n system f ≠ .more := compile_ends h system f

/-- C83, partial: files that include or import themselves, or name a file that is not there, are refused with an
exception.
Missing: files that are not well-formed (`C83_violated_dangling`). -/
theorem C83_refused_partial (R : Str → Str → Str) (files : Str → Option File) (l : List (List Char)) (ho : Only files l)
    (system : Str) (f : File) (hb : ∀ u g, files u = some g → Bare g.items) (h1 : f.base = none) (h2 : Bare f.items)
    (hw : ∀ u g, files u = some g → g.broken = false) (h : ¬ ∃ t, Sheet R files system f.items t) :
    ∃ n, compile R files n system f = .error := by
  obtain ⟨n, hn⟩ := compile_ends (R := R) ho system f
  refine ⟨n, ?_⟩
  cases hc : compile R files n system f with
  | done out =>
    obtain ⟨t, h3, _⟩ := C83_only_partial R files system f n out hb h1 h2 hc
    exact absurd ⟨t, h3⟩ h
  | error => rfl
  | undefined => exact absurd hc (compile_defined hw n system f)
  | more => exact absurd hc hn

/-- A reference that does not begin with `/` replaces what is behind the last `/`. -/
def rel (base h : Str) : Str := if h.head? = some '/' then h else (base.reverse.dropWhile (· ≠ '/')).reverse ++ h

def m : Str := "/m".toList

/-- `/m` imports `d/a` and includes `b`, both of which import `c`; `d/a` includes `b`, that of its directory. -/
def exFiles (u : Str) : Option File :=
  if u = "/d/a".toList then some { items := [.decl 1, .incl ['b'] none, .decl 2] }
  else if u = "/d/b".toList then some { items := [.decl 3, .impt ['c'] none], base := some "/e/".toList }
  else if u = "/b".toList then some { items := [.decl 4, .impt "e/c".toList none, .decl 5] }
  else if u = "/e/c".toList then some { items := [.decl 6] }
  else none

def exFirst : File := { items := [.impt "d/a".toList none, .decl 0, .incl ['b'] none, .decl 7] }

theorem exFiles_only : Only exFiles ["/d/a".toList, "/d/b".toList, "/b".toList, "/e/c".toList] := by
  intro u h
  simp only [exFiles] at h
  split at h
  · simp_all
  · split at h
    · simp_all
    · split at h
      · simp_all
      · split at h
        · simp_all
        · exact absurd rfl h

theorem exFiles_bare : ∀ u g, exFiles u = some g → Bare g.items ∧ g.broken = false := by
  intro u g h
  simp only [exFiles] at h
  repeat' split at h
  all_goals first | cases h | skip
  all_goals simp [Bare]

theorem exFirst_bare : Bare exFirst.items := by simp [Bare, exFirst]

/-- What it comes to. -/
def exOut : List (Nat × List Int × Str) :=
  [(0, [0], m), (4, [0], "/b".toList), (5, [0], "/b".toList), (7, [0], m), (6, [0, 2], "/e/c".toList),
   (1, [0, 1], "/d/a".toList), (3, [0, 1], "/e/".toList), (2, [0, 1], "/d/a".toList), (6, [0, 1, 1], "/e/c".toList)]

theorem ex_compile : compile rel exFiles 20 m exFirst = .done exOut := by decide +kernel

/-- The hypotheses of `C83_partial` and `C83_only_partial` are met. -/
example : ∃ t, Sheet rel exFiles m exFirst.items t ∧ Compiled t exOut ∧
    ∃ n out, compile rel exFiles n m exFirst = .done out ∧ Compiled t out := by
  obtain ⟨t, h1, h2⟩ := C83_only_partial rel exFiles m exFirst 20 exOut (fun u g h => (exFiles_bare u g h).1) rfl
    exFirst_bare ex_compile
  exact ⟨t, h1, h2, C83_partial rel exFiles m exFirst t (fun u g h => (exFiles_bare u g h).1) rfl exFirst_bare h1⟩

/-- A file that includes itself has no import tree. -/
def exLoop (u : Str) : Option File := if u = m then some { items := [.decl 0, .incl ['m'] none] } else none

theorem exLoop_no : ¬ ∃ t, Sheet rel exLoop m [.decl 0, .incl ['m'] none] t := by
  rintro ⟨t, ps, ts, h, _⟩
  cases h with
  | decl _ _ _ _ _ h =>
    cases h with
    | incl _ _ _ _ _ _ _ f _ hf _ h1 _ =>
      have e : rel (under rel m none) ['m'] = m := by decide
      rw [e] at hf h1
      simp only [exLoop, if_true, Option.some.injEq] at hf
      subst hf
      cases h1 with
      | decl _ _ _ _ _ h1 =>
        cases h1 with
        | incl _ _ _ _ _ _ _ f hu _ _ _ _ => exact hu (by decide)

/-- The hypotheses of `C83_refused_partial` and `C83_ends` are met: `/m` includes itself. -/
example : ∃ n, compile rel exLoop n m { items := [.decl 0, .incl ['m'] none] } = .error := by
  refine C83_refused_partial rel exLoop [m] ?_ m _ ?_ rfl (by simp [Bare]) ?_ exLoop_no
  · intro u h
    simp only [exLoop] at h
    split at h
    · simp_all
    · exact absurd rfl h
  · intro u g h
    simp only [exLoop] at h
    split at h
    · cases h; simp [Bare]
    · cases h
  · intro u g h
    simp only [exLoop] at h
    split at h
    · cases h; rfl
    · cases h

example : ∃ n, compile rel exFiles n m exFirst ≠ .more := C83_ends rel exFiles _ exFiles_only m exFirst

/-- What is compiled, without precedences. -/
theorem compiled_decls {t : ITree} {out : List (Nat × List Int × Str)} (h : Compiled t out) :
    out.map (fun d => (d.1, d.2.2)) = (postorder t).reverse.flatten := by
  obtain ⟨g, rfl, h2, _⟩ := h
  rw [← h2, ← List.map_reverse, List.reverse_reverse]
  simp [List.map_flatMap, List.flatMap, List.map_map, Function.comp_def]

/-- The files `/a`, which includes `b`, that is `/s/b`, and `/b` and `/s/b`. -/
def baseFiles (u : Str) : Option File :=
  if u = "/a".toList then some { items := [.incl ['b'] (some "s/".toList)] }
  else if u = "/b".toList then some { items := [.decl 1] }
  else if u = "/s/b".toList then some { items := [.decl 2] }
  else none

theorem base_b (path : List Str) (h : "/b".toList ∉ path) : Inlines rel baseFiles path m [.incl ['b'] none] [.decl 1 "/b".toList] :=
  .incl path m ['b'] none [] [.decl 1 "/b".toList] [] { items := [.decl 1] } (fun hm => h hm) (by decide +kernel) rfl
    (.decl _ _ _ _ _ (.nil _ _)) (.nil _ _)

/-- C83 is violated by `xml:base`: that of the outermost element of the first file is not used for what it
includes; that of an `xsl:include` of an included file neither; that of an `xsl:include` of the first file is
used for all that follows it. -/
theorem C83_violated_base :
    (compile rel baseFiles 9 m { base := some "/s/".toList, items := [.incl ['b'] none] } = .done [(1, [0], "/b".toList)] ∧
      Sheet rel baseFiles (under rel m (some "/s/".toList)) [.incl ['b'] none] (.mk [(2, "/s/b".toList)] .nil)) ∧
    (compile rel baseFiles 9 m { items := [.incl ['a'] none] } = .done [(1, [0], "/b".toList)] ∧
      Sheet rel baseFiles m [.incl ['a'] none] (.mk [(2, "/s/b".toList)] .nil)) ∧
    (compile rel baseFiles 9 m { items := [.incl ['b'] none, .incl ['b'] (some "s/".toList), .incl ['b'] none] } =
        .done [(1, [0], "/b".toList), (2, [0], "/s/b".toList), (2, [0], "/s/b".toList)] ∧
      Sheet rel baseFiles m [.incl ['b'] none, .incl ['b'] (some "s/".toList), .incl ['b'] none]
        (.mk [(1, "/b".toList), (2, "/s/b".toList), (1, "/b".toList)] .nil)) := by
  refine ⟨⟨by decide +kernel, [.decl 2 "/s/b".toList], .nil, ?_, .nil, rfl⟩,
    ⟨by decide +kernel, [.decl 2 "/s/b".toList], .nil, ?_, .nil, rfl⟩,
    ⟨by decide +kernel, [.decl 1 "/b".toList, .decl 2 "/s/b".toList, .decl 1 "/b".toList], .nil, ?_, .nil, rfl⟩⟩
  · exact .incl _ _ _ _ _ [.decl 2 "/s/b".toList] [] { items := [.decl 2] } (by simp) (by decide +kernel) rfl
      (.decl _ _ _ _ _ (.nil _ _)) (.nil _ _)
  · exact .incl _ _ _ _ _ [.decl 2 "/s/b".toList] [] { items := [.incl ['b'] (some "s/".toList)] } (by simp)
      (by decide +kernel) rfl
      (.incl _ _ _ _ _ [.decl 2 "/s/b".toList] [] { items := [.decl 2] } (by decide) (by decide +kernel) rfl
        (.decl _ _ _ _ _ (.nil _ _)) (.nil _ _)) (.nil _ _)
  · exact .incl _ _ _ _ _ [.decl 1 "/b".toList] [.decl 2 "/s/b".toList, .decl 1 "/b".toList] { items := [.decl 1] } (by simp)
      (by decide +kernel) rfl (.decl _ _ _ _ _ (.nil _ _))
      (.incl _ _ _ _ _ [.decl 2 "/s/b".toList] [.decl 1 "/b".toList] { items := [.decl 2] } (by simp) (by decide +kernel) rfl
        (.decl _ _ _ _ _ (.nil _ _)) (base_b [] (by simp)))

/-- Hence what is compiled is not the import tree. -/
example : ¬ Compiled (.mk [(2, "/s/b".toList)] .nil) [(1, [0], "/b".toList)] ∧
    ¬ Compiled (.mk [(1, "/b".toList), (2, "/s/b".toList), (1, "/b".toList)] .nil)
      [(1, [0], "/b".toList), (2, [0], "/s/b".toList), (2, [0], "/s/b".toList)] := by
  refine ⟨fun h => ?_, fun h => ?_⟩ <;> exact absurd (compiled_decls h) (by decide +kernel)

/-- C83 is violated by an `xsl:import` after something else: it is not refused. -/
theorem C83_violated_order : ¬ ImportsFirst [.decl 0, .impt ['b'] none] ∧
    compile rel baseFiles 9 m { items := [.decl 0, .impt ['b'] none] } = .done [(0, [0], m), (1, [0, 1], "/b".toList)] := by
  refine ⟨?_, by decide +kernel⟩
  intro h
  exact h ['b'] none (by simp)

/-- `/a` includes, or imports, `/b`, and is not well-formed. -/
def brokenFiles (i : Item) (u : Str) : Option File :=
  if u = "/a".toList then some { items := [i], broken := true }
  else if u = "/b".toList then some { items := [] }
  else none

/-- C83 is violated by a file that is not well-formed: for the message of the exception the name of the file is read
from memory that has been freed, if it is included and includes a file, or is imported and imports one.  In both cases here the vector grows from one
element to two, which moves it. -/
theorem C83_violated_dangling :
    compile rel (brokenFiles (.incl ['b'] none)) 9 m { items := [.incl ['a'] none] } = .undefined ∧
    compile rel (brokenFiles (.impt ['b'] none)) 9 m { items := [.impt ['a'] none] } = .undefined ∧
    compile rel (brokenFiles (.decl 0)) 9 m { items := [.incl ['a'] none] } = .error := by
  exact ⟨by decide +kernel, by decide +kernel, by decide +kernel⟩

end Verif.Props.XsltInclude
