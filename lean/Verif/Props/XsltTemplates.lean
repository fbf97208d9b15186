import Verif.Lemmas.XsltTemplates2
set_option autoImplicit false
/-!
# C45, C57, C58: template rules, apply-imports, named templates
-/
namespace Verif.Props.XsltTemplates
open Verif.Xslt Verif.Spec.XsltTemplates
variable {ν : Type}

/-- C45: the rule run for a node in a mode (with `from_` empty: for `xsl:apply-templates`) is the one the
specification chooses; the built-in rule is used exactly if there is none. -/
theorem C45_select (ds : List (Decl ν)) (c : Compiled ν) (h : addTemplates {} (ds.map compile) = some c)
    (from_ : List Int) (mode : List Char) (node : ν) :
    (∀ t, select (prepare c) from_ mode node = some t →
      ∃ r, t = toMatch r ∧ Chosen (rules ds) from_ mode node r) ∧
    (select (prepare c) from_ mode node = none ↔ ∀ r ∈ rules ds, ¬ Usable from_ mode node r) := by
  refine ⟨fun t ht => ?_, fun hn => search_unusable ds c h from_ mode node [] hn, fun hn => ?_⟩
  · obtain ⟨r, h1, h2, _⟩ := search_chosen ds c h from_ mode node [] t ht
    exact ⟨r, h1, h2⟩
  · cases hs : select (prepare c) from_ mode node with
    | none => rfl
    | some t =>
      obtain ⟨r, _, ⟨l1, l2, e, hu, _⟩, _⟩ := search_chosen ds c h from_ mode node [] t hs
      exact absurd hu (hn r (by rw [e]; simp))

/-- C45: there is never more than one rule to choose. -/
theorem C45_unique (rs : List (Rule ν)) (from_ : List Int) (mode : List Char) (node : ν) (r r' : Rule ν)
    (h : Chosen rs from_ mode node r) (h' : Chosen rs from_ mode node r') : r = r' :=
  chosen_unique rs from_ mode node r r' h h'

/-- Four templates: two of one priority in the main stylesheet, one of higher priority but lower
precedence, one for another mode. -/
def exRules : List (Decl Nat) :=
  [⟨[(fun n => n < 5, 0), (fun n => n = 9, 0)], none, ['a'], [], [0], [.out ['A']]⟩,
   ⟨[(fun n => n < 3, 0)], none, [], [], [0], [.out ['B']]⟩,
   ⟨[(fun n => n < 7, 0)], some 4, ['a'], [], [0, 1], [.out ['C']]⟩,
   ⟨[(fun _ => true, 0)], none, [], ['m'], [0, 1], [.out ['D']]⟩]

/-- The body of the rule chosen. -/
def chosenBody (ds : List (Decl Nat)) (from_ : List Int) (mode : List Char) (node : Nat) : Option (List (List Char)) :=
  (addTemplates {} (ds.map compile)).bind fun c => (select (prepare c) from_ mode node).map fun t =>
    t.action.body.filterMap fun
      | .out s => some s
      | _ => none

example : [1, 4, 6, 8, 9].map (chosenBody exRules [] []) =
    [some [['B']], some [['A']], some [['C']], none, some [['A']]] := by decide +kernel
example : chosenBody exRules [0] [] 1 = some [['C']] ∧ chosenBody exRules [] ['m'] 1 = some [['D']] := by
  decide +kernel

/-- C57, for stylesheets whose template bodies use `xsl:apply-imports` at most once and before any
`xsl:apply-templates`: running gives what the specification says, where `xsl:apply-imports` uses the
current template rule. -/
theorem C57_partial (ds : List (Decl ν)) (c : Compiled ν) (h : addTemplates {} (ds.map compile) = some c)
    (hb : ∀ d ∈ ds, importsFirst d.body) (src : Source ν)
    (choose : List Int → List Char → ν → Option (List (Act ν) × List Int)) (hc : Chooses (rules ds) choose)
    (depth : Nat) (cur : Current) (node : ν) (mode : List Char) :
    (doApply (prepare c) src depth cur node mode []).map Prod.fst = run choose src depth [] mode node := by
  rw [chooses_unique _ _ _ hc (choice_chooses ds c h)]
  refine run_agrees (prepare c) src ?_ depth cur node mode []
  intro g m n t ht
  obtain ⟨r, hr, hch, _⟩ := search_chosen ds c h g m n [] t ht
  rw [hr]
  exact hb _ (chosen_mem ds g m n r hch)

/-- There is always a choosing function, so that the hypothesis of `C57_partial` can be met. -/
theorem C57_chooses (ds : List (Decl ν)) (c : Compiled ν) (h : addTemplates {} (ds.map compile) = some c) :
    ∃ choose, Chooses (rules ds) choose := ⟨_, choice_chooses ds c h⟩

/-- The source: 0 has the child 1. -/
def exSource : Source Nat := ⟨fun n => if n = 0 then some [1] else none, fun n => if n = 1 then ['t'] else []⟩

/-- The main stylesheet writes, applies imports and then the templates for the children. -/
def exImports : List (Decl Nat) :=
  [⟨[(fun n => n = 0, 0)], none, [], [], [0],
    [.out ['<'], .applyImports, .applyTemplates (fun _ => [1]) [], .out ['>']]⟩,
   ⟨[(fun n => n = 0, 0)], none, [], [], [0, 1], [.out ['i']]⟩]

example : (addTemplates {} (exImports.map compile)).bind (fun c =>
    (doApply (prepare c) exSource 5 ⟨[], []⟩ 0 [] []).map Prod.fst) =
    some [['<'], ['i'], ['t'], ['>']] := by decide +kernel
example : ∀ d ∈ exImports, importsFirst d.body := by simp [exImports, importsFirst, noImports]

/-- The other way round: the templates for the children first, then the imports. -/
def badImports : List (Decl Nat) :=
  [⟨[(fun n => n = 0, 0)], none, [], [], [0], [.applyTemplates (fun _ => [1]) [], .applyImports]⟩,
   ⟨[(fun n => n = 0, 0)], none, [], [], [0, 1], [.out ['i']]⟩,
   ⟨[(fun n => n = 1, 0)], none, [], [], [0, 1], [.out ['k']]⟩]

/-- C57 is false of the code: after an `xsl:apply-templates` whose last node was handled by an imported
rule, `xsl:apply-imports` looks among the imports of that rule's stylesheet, and the imported rule for the
node is not found. -/
theorem C57_violated : ∃ c, addTemplates {} (badImports.map compile) = some c ∧
    (∀ choose, Chooses (rules badImports) choose → run choose exSource 3 [] [] 0 = some [['k'], ['i']]) ∧
    (doApply (prepare c) exSource 3 ⟨[], []⟩ 0 [] []).map Prod.fst = some [['k'], ['k']] := by
  cases h : addTemplates {} (badImports.map compile) with
  | none => exact absurd (congrArg Option.isSome h) (by decide +kernel)
  | some c =>
    have hd : ∀ x : Compiled Nat → Option (List (List Char)), (addTemplates {} (badImports.map compile)).bind (fun c => x c) = x c := by
      intro x; rw [h]; rfl
    refine ⟨c, rfl, fun choose hc => ?_, ?_⟩
    · rw [chooses_unique _ _ _ hc (choice_chooses _ _ h), ← hd fun c => run (choice (prepare c)) exSource 3 [] [] 0]
      decide +kernel
    · rw [← hd fun c => (doApply (prepare c) exSource 3 ⟨[], []⟩ 0 [] []).map Prod.fst]
      decide +kernel

/-- C58: `xsl:call-template` runs the template of that name, and one of higher import precedence than all
others of the name; it fails only if there is none. -/
theorem C58_call (ds : List (Decl ν)) (c : Compiled ν) (h : addTemplates {} (ds.map compile) = some c)
    (name : List Char) (hn : name ≠ []) :
    (called (prepare c) name = none ↔ ∀ d ∈ ds, d.name ≠ name) ∧
    ∀ t, called (prepare c) name = some t →
      ∃ d ∈ ds, t = compile d ∧ d.name = name ∧
        ∀ d' ∈ ds, d'.name = name → compile d' = t ∨ Lower d'.prec d.prec := by
  have hk : NamedOk ([] : List (Templ ν)) (({} : Compiled ν)).named := by intro n hn x hx; cases hx
  have := addTemplates_named _ _ _ _ hk h name hn
  have hc : called (prepare c) name = Verif.Xslt.get name c.named := rfl
  rw [hc]
  simp only [List.nil_append] at this
  cases hg : Verif.Xslt.get name c.named with
  | none =>
    rw [hg] at this
    refine ⟨⟨fun _ d hd => this (compile d) (List.mem_map.mpr ⟨d, hd, rfl⟩), fun _ => rfl⟩, fun t ht => by cases ht⟩
  | some e =>
    rw [hg] at this
    obtain ⟨he, hen, hl⟩ := this
    obtain ⟨d, hd, rfl⟩ := List.mem_map.mp he
    refine ⟨⟨fun h => (by cases h), fun h => absurd hen (h d hd)⟩, fun t ht => ?_⟩
    cases ht
    exact ⟨d, hd, rfl, hen, fun d' hd' hn' => hl (compile d') (List.mem_map.mpr ⟨d', hd', rfl⟩) hn'⟩

/-- C58: a stylesheet is refused only for two templates of one name and one import precedence. -/
theorem C58_refused (ds : List (Decl ν)) (h : addTemplates ({} : Compiled ν) (ds.map compile) = none) :
    ¬ ds.Pairwise (fun d d' => d.name ≠ [] → d'.name = d.name → d'.prec ≠ d.prec) := by
  have hk : NamedOk ([] : List (Templ ν)) (({} : Compiled ν)).named := by intro n hn x hx; cases hx
  obtain ⟨l1, t, l2, t', e, hm, hn, hnn, hp⟩ := addTemplates_refused _ _ _ hk h
  intro hpw
  have hpw' : (ds.map compile).Pairwise
      (fun d d' => d.name ≠ [] → d'.name = d.name → d'.prec ≠ d.prec) := by
    rw [List.pairwise_map]; exact hpw
  rw [← List.nil_append (ds.map compile), e, List.pairwise_append] at hpw'
  exact hpw'.2.2 t' hm t (by simp) (by rw [hnn]; exact hn) hnn.symm hp.symm

example : (addTemplates {} (exRules.map compile)).bind (fun c => (called (prepare c) ['a']).map fun t => t.prec) =
    some [0] := by decide +kernel
example : (addTemplates {} ((exRules ++ exRules).map compile)).isNone := by decide +kernel

/-- C58 is false of the code in one respect: duplicates are not refused if a template of that name and of
higher precedence was read before. -/
theorem C58_violated : ∃ ds : List (Decl Nat), (addTemplates {} (ds.map compile)).isSome ∧
    ¬ ds.Pairwise (fun d d' => d.name ≠ [] → d'.name = d.name → d'.prec ≠ d.prec) :=
  ⟨[⟨[], none, ['a'], [], [0], []⟩, ⟨[], none, ['a'], [], [0, 1], []⟩, ⟨[], none, ['a'], [], [0, 1], []⟩],
    by decide +kernel, by simp⟩

end Verif.Props.XsltTemplates
