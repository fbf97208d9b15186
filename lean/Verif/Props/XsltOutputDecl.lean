import Verif.Lemmas.XsltOutputDecl2
set_option autoImplicit false
set_option linter.unusedSimpArgs false
/-!
# C101: what several `xsl:output` declare together
-/
namespace Verif.Props.XsltOutputDecl
open Verif.XsltOutputDecl
open Verif.Spec.XsltOutputDecl

/-- C101, the values: right if the last `xsl:output` compiled has no lower precedence than the others and gives all
that they give.  Otherwise it is false: `C101_violated_missing`, `C101_violated_import`, `C101_violated_foreign`. -/
theorem C101_partial (pre : List Out) (o : Out) (st : St) (hc : compile (pre ++ [o]) = some st)
    (hw : WellFormed o) (hf : NoForeign o)
    (hp : ∀ o' ∈ pre, Xslt.precLt o.prec o'.prec = false)
    (hg : ∀ o' ∈ pre, ∀ n v, Parameter n → Gives o' n v → ∃ v', Gives o n v') :
    Merged (pre ++ [o]) st.settings := by
  have hs := declareAll_last pre o _ st hc
  refine ⟨?_, ?_⟩
  · rintro n v hn - ⟨pre', o', post, e, h1, h2, h3⟩
    rcases List.eq_nil_or_concat post with rfl | ⟨post, x, rfl⟩
    · have := List.append_inj' (s₁ := pre) (t₁ := [o]) (s₂ := pre') (t₂ := [o']) e rfl
      cases this.2
      exact gather_gives hs hw hf hn h1
    · rw [List.concat_eq_append, ← List.cons_append, ← List.append_assoc] at e
      have := List.append_inj' e rfl
      obtain ⟨ha, hb⟩ := this
      cases hb
      have hm : o' ∈ pre := by rw [ha]; simp
      obtain ⟨v', hv'⟩ := hg o' hm n v hn h1
      have := h3 o (by simp) v' hv'
      rw [hp o' hm] at this
      cases this
  · intro d hd hn
    exact Or.inr (gather_default hs hf hd (hn o (by simp)))

/-- So it is for one `xsl:output`, whatever its precedence and its attributes. -/
theorem C101_one_partial (o : Out) (st : St) (hc : compile [o] = some st) (hw : WellFormed o) (hf : NoForeign o) :
    Merged [o] st.settings :=
  C101_partial [] o st hc hw hf (fun _ h => by cases h) (fun _ h => by cases h)

/-- C101, the elements listed: always their union.  Nothing is no name of an element. -/
theorem C101_cdata_partial (outs : List Out) (st : St) (hc : compile outs = some st)
    (h : ∀ o ∈ outs, WellFormed o ∧ NoForeign o ∧ o.names [] = none) (e : EName) : e ∈ st.cdata ↔ Listed outs e := by
  rw [declareAll_cdata outs h _ _ hc e]
  simp

/-- C101, errors: exactly the declarations with an error are refused.  Missing: lists that are blank
(`C101_violated_blank`). -/
theorem C101_errors_partial (outs : List Out) (h : ∀ o ∈ outs, WellFormed o ∧ NoForeign o ∧ NotBlank o) :
    compile outs = none ↔ ∃ o ∈ outs, ¬ Valid o := declareAll_none outs h _

/-- Names without prefixes. -/
def plain (w : Str) : Option EName := if w = [] ∨ ':' ∈ w then none else some ([], w)

def att (n v : String) : Attr := ⟨[], n.toList, v.toList⟩

def first : Out := ⟨[0, 1], [att "method" "html", att "cdata-section-elements" "a b"], plain⟩
def second : Out := ⟨[0], [att "method" "text", att "cdata-section-elements" " c\na ", att "indent" "yes"], plain⟩

theorem wellFormed_of (p : List Int) (as : List Attr) (q : Str → Option EName) (h : ∀ a ∈ as, a.uri = [] ∧ a.name ≠ [])
    (hn : ∀ a ∈ as, ∀ b ∈ as, a.name = b.name → a = b) : WellFormed ⟨p, as, q⟩ ∧ NoForeign ⟨p, as, q⟩ :=
  ⟨⟨fun a ha => (h a ha).2, fun a ha b hb _ e => hn a ha b hb e⟩, fun a ha hu => absurd (h a ha).1 hu⟩

/-- The hypotheses are met, by two declarations of which the first is imported, were it compiled first. -/
example : (∃ st, compile [first, second] = some st ∧ st.settings "method".toList = some "text".toList ∧
      st.settings "indent".toList = some "yes".toList ∧ st.settings "encoding".toList = some "UTF-8".toList ∧
      st.cdata = [([], ['a']), ([], ['b']), ([], ['c']), ([], ['a'])]) ∧
    WellFormed second ∧ NoForeign second ∧ (WellFormed first ∧ NoForeign first) ∧ plain [] = none ∧
    Xslt.precLt second.prec first.prec = false ∧
    (∀ n v, Parameter n → Gives first n v → ∃ v', Gives second n v') ∧ NotBlank first ∧ NotBlank second := by
  have h2 := wellFormed_of [0] second.atts plain (by decide +kernel) (by decide +kernel)
  have h1 := wellFormed_of [0, 1] first.atts plain (by decide +kernel) (by decide +kernel)
  have key : (compile [first, second]).map (fun st => [st.settings "method".toList, st.settings "indent".toList,
      st.settings "encoding".toList]) = some [some "text".toList, some "yes".toList, some "UTF-8".toList] := by
    decide +kernel
  have key' : (compile [first, second]).map (fun st => st.cdata) =
      some [([], ['a']), ([], ['b']), ([], ['c']), ([], ['a'])] := by decide +kernel
  have hb : ∀ o : Out, (∀ a ∈ o.atts, a.name = "cdata-section-elements".toList → Spec.Text.words a.value ≠ []) →
      NotBlank o := by
    rintro o h v ⟨a, ha, _, hn, rfl⟩
    exact Or.inr (h a ha hn)
  refine ⟨?_, h2.1, h2.2, h1, by decide, by decide +kernel, ?_, hb _ (by decide +kernel), hb _ (by decide +kernel)⟩
  · cases hc : compile [first, second] with
    | none => rw [hc] at key; cases key
    | some st =>
      rw [hc] at key key'
      simp only [Option.map_some, Option.some.injEq, List.cons.injEq] at key
      exact ⟨st, rfl, key.1, key.2.1, key.2.2.1, Option.some.inj key'⟩
  · rintro n v - ⟨a, ha, hu, rfl, rfl⟩
    have : ∀ a ∈ first.atts, ∃ b ∈ second.atts, b.uri = [] ∧ b.name = a.name := by decide +kernel
    obtain ⟨b, hb, hb1, hb2⟩ := this a ha
    exact ⟨b.value, b, hb, hb1, hb2, rfl⟩

/-- An error is refused. -/
example : compile [first, ⟨[0], [att "indent" "maybe"], plain⟩] = none ∧
    ¬ Valid ⟨[0], [att "indent" "maybe"], plain⟩ := by
  have hc : compile [⟨[0], [att "indent" "maybe"], plain⟩] = none := by
    have : (compile [⟨[0], [att "indent" "maybe"], plain⟩]).isNone = true := by decide +kernel
    simpa using this
  refine ⟨?_, ?_⟩
  · have : (compile [first, ⟨[0], [att "indent" "maybe"], plain⟩]).isNone = true := by decide +kernel
    simpa using this
  · have hw := wellFormed_of [0] [att "indent" "maybe"] plain (by decide +kernel) (by decide +kernel)
    have := (C101_errors_partial [⟨[0], [att "indent" "maybe"], plain⟩] (by
      intro o ho
      simp only [List.mem_cons, List.not_mem_nil, or_false] at ho
      subst ho
      refine ⟨hw.1, hw.2, ?_⟩
      rintro v ⟨a, ha, _, hn, rfl⟩
      revert hn
      revert ha a
      decide +kernel)).1 hc
    obtain ⟨o, ho, hv⟩ := this
    simp only [List.mem_cons, List.not_mem_nil, or_false] at ho
    exact ho ▸ hv

/-- They are not merged: what the last does not give is the default, whatever the others give. -/
theorem C101_violated_missing (pre : List Out) (o : Out) (st : St) (hc : compile (pre ++ [o]) = some st)
    (hf : NoForeign o) (d : String × String) (hd : d ∈ default') (hn : ∀ v, ¬ Gives o d.1.toList v)
    (hne : d.1.toList ≠ "cdata-section-elements".toList) (v : Str) (hv : InEffect (pre ++ [o]) d.1.toList v)
    (hdv : v ≠ d.2.toList) :
    st.settings d.1.toList = some d.2.toList ∧ ¬ Merged (pre ++ [o]) st.settings := by
  have hs := gather_default (declareAll_last pre o _ st hc) hf hd hn
  refine ⟨hs, fun hm => hdv ?_⟩
  have := hm.1 d.1.toList v ⟨d, hd, rfl⟩ hne hv
  rw [hs] at this
  exact (Option.some.inj this).symm

def indent : Out := ⟨[0], [att "indent" "yes"], plain⟩

example : ∃ st, compile ([second] ++ [indent]) = some st ∧ NoForeign indent ∧ (∀ v, ¬ Gives indent "method".toList v) ∧
    InEffect ([second] ++ [indent]) "method".toList "text".toList ∧ st.settings "method".toList = some "xml".toList := by
  have hw := wellFormed_of [0] indent.atts plain (by decide +kernel) (by decide +kernel)
  have hn : ∀ v, ¬ Gives indent "method".toList v := by
    rintro v ⟨a, ha, _, hn, _⟩
    have : ∀ a ∈ indent.atts, a.name ≠ "method".toList := by decide +kernel
    exact this a ha hn
  have he : InEffect ([second] ++ [indent]) "method".toList "text".toList := by
    refine ⟨[], second, [indent], rfl, ⟨att "method" "text", by decide +kernel, rfl, rfl, rfl⟩, (fun _ h => by cases h), ?_⟩
    intro o ho v hv
    simp only [List.mem_cons, List.not_mem_nil, or_false] at ho
    exact absurd (ho ▸ hv) (hn v)
  cases hc : compile ([second] ++ [indent]) with
  | none =>
    have : (compile ([second] ++ [indent])).isSome = true := by decide +kernel
    rw [hc] at this
    cases this
  | some st =>
    exact ⟨st, rfl, hw.2, hn, he, (C101_violated_missing [second] indent st hc hw.2 ("method", "xml") (by simp [default']) hn
      (by decide +kernel) _ he (by decide +kernel)).1⟩

/-- Names of files are used as they are. -/
def rel (_ h : Str) : Str := h

/-- `b` has declaration 1. -/
def filesB (u : Str) : Option XsltInclude.File := if u = ['b'] then some { items := [.decl 1] } else none

/-- The stylesheet says `text`, what it imports says `html`. -/
def decls (n : Nat) : List Attr × (Str → Option EName) :=
  if n = 0 then ([att "method" "text"], plain) else ([att "method" "html"], plain)

/-- What is imported overrides what imports it, as it is compiled after it. -/
theorem C101_violated_import : ∃ outs st,
    compileFiles rel filesB 9 ['m'] { items := [.impt ['b'] none, .decl 0] } decls = .done (some (outs, st)) ∧
    InEffect outs "method".toList "text".toList ∧ st.settings "method".toList = some "html".toList ∧
    ¬ Merged outs st.settings := by
  have h1 : XsltInclude.compile rel filesB 9 ['m'] { items := [.impt ['b'] none, .decl 0] } =
      .done [(0, [0], ['m']), (1, [0, 1], ['b'])] := by decide +kernel
  have h2 : (compile [⟨[0], [att "method" "text"], plain⟩, ⟨[0, 1], [att "method" "html"], plain⟩]).map
      (fun st => st.settings "method".toList) = some (some "html".toList) := by decide +kernel
  have he : InEffect [⟨[0], [att "method" "text"], plain⟩, ⟨[0, 1], [att "method" "html"], plain⟩]
      "method".toList "text".toList := by
    refine ⟨[], _, [⟨[0, 1], [att "method" "html"], plain⟩], rfl, ⟨att "method" "text", by simp, rfl, rfl, rfl⟩, (fun _ h => by cases h), ?_⟩
    intro o ho v hv
    simp only [List.mem_cons, List.not_mem_nil, or_false] at ho
    subst ho
    decide +kernel
  cases hc : compile [⟨[0], [att "method" "text"], plain⟩, ⟨[0, 1], [att "method" "html"], plain⟩] with
  | none => rw [hc] at h2; cases h2
  | some st =>
    rw [hc] at h2
    simp only [Option.map_some, Option.some.injEq] at h2
    refine ⟨_, st, ?_, he, h2, ?_⟩
    · unfold compileFiles
      rw [h1]
      dsimp only
      show XsltInclude.Res.done (Option.map _ (compile [⟨[0], [att "method" "text"], plain⟩,
        ⟨[0, 1], [att "method" "html"], plain⟩])) = _
      rw [hc]
      rfl
    · intro hm
      have := hm.1 _ _ ⟨("method", "xml"), by simp [default'], rfl⟩ (by decide +kernel) he
      rw [h2] at this
      revert this
      decide +kernel

/-- So it is always: of a stylesheet of any files the values are those of one declaration alone, the one with the lowest
precedence there is. -/
theorem C101_violated_lowest (R : Str → Str → Str) (files : Str → Option XsltInclude.File) (system : Str)
    (f : XsltInclude.File) (decl : Nat → List Attr × (Str → Option EName))
    (hb : ∀ u g, files u = some g → Spec.XsltInclude.Bare g.items) (h1 : f.base = none)
    (h2 : Spec.XsltInclude.Bare f.items) (n : Nat) (pre : List Out) (o : Out) (st : St)
    (hc : compileFiles R files n system f decl = .done (some (pre ++ [o], st))) (hw : WellFormed o) (hf : NoForeign o) :
    Merged [o] st.settings ∧ ∀ o' ∈ pre, Xslt.precLt o'.prec o.prec = false := by
  obtain ⟨out, ho, hc', e⟩ := compileFiles_done hc
  obtain ⟨t, _, ht⟩ := Props.XsltInclude.C83_only_partial R files system f n out hb h1 h2 ho
  refine ⟨?_, outs_falls ht e.symm⟩
  have hs := declareAll_last pre o _ st hc'
  refine ⟨?_, fun d hd hn => Or.inr (gather_default hs hf hd (hn o (by simp)))⟩
  rintro m v hm - ⟨pre', o', post, e', h3, _⟩
  have ho' : o' = o := by
    have : o' ∈ [o] := by rw [e']; simp
    simpa using this
  exact gather_gives hs hw hf hm (ho' ▸ h3)

example : ∃ pre o st, compileFiles rel filesB 9 ['m'] { items := [.impt ['b'] none, .decl 0] } decls =
      .done (some (pre ++ [o], st)) ∧ WellFormed o ∧ NoForeign o ∧ pre ≠ [] ∧
    (∀ u g, filesB u = some g → Spec.XsltInclude.Bare g.items) ∧
    Spec.XsltInclude.Bare [.impt ['b'] none, .decl 0] := by
  have h1 : XsltInclude.compile rel filesB 9 ['m'] { items := [.impt ['b'] none, .decl 0] } =
      .done [(0, [0], ['m']), (1, [0, 1], ['b'])] := by decide +kernel
  have h2 : (compile ([⟨[0], [att "method" "text"], plain⟩] ++ [⟨[0, 1], [att "method" "html"], plain⟩])).isSome = true := by
    decide +kernel
  obtain ⟨st, hst⟩ := Option.isSome_iff_exists.1 h2
  have hw := wellFormed_of [0, 1] [att "method" "html"] plain (by decide +kernel) (by decide +kernel)
  refine ⟨[⟨[0], [att "method" "text"], plain⟩], ⟨[0, 1], [att "method" "html"], plain⟩, st, ?_, hw.1, hw.2, by simp, ?_, ?_⟩
  · unfold compileFiles
    rw [h1]
    dsimp only
    show XsltInclude.Res.done (Option.map _ (compile ([⟨[0], [att "method" "text"], plain⟩] ++
      [⟨[0, 1], [att "method" "html"], plain⟩]))) = _
    rw [hst]
    rfl
  · intro u g h
    simp only [filesB] at h
    split at h
    · cases h; simp [Spec.XsltInclude.Bare]
    · cases h
  · simp [Spec.XsltInclude.Bare]

/-- C101, for stylesheets of any number of files without `xsl:import`, however they include each other: right if the last
`xsl:output` gives all that the others give. -/
theorem C101_files_partial (R : Str → Str → Str) (files : Str → Option XsltInclude.File) (system : Str)
    (f : XsltInclude.File) (decl : Nat → List Attr × (Str → Option EName))
    (hb : ∀ u g, files u = some g → Spec.XsltInclude.Bare g.items) (h1 : f.base = none)
    (h2 : Spec.XsltInclude.Bare f.items)
    (hi : ∀ u g, files u = some g → ∀ h b, XsltInclude.Item.impt h b ∉ g.items)
    (hi' : ∀ h b, XsltInclude.Item.impt h b ∉ f.items) (n : Nat) (pre : List Out) (o : Out) (st : St)
    (hc : compileFiles R files n system f decl = .done (some (pre ++ [o], st))) (hw : WellFormed o) (hf : NoForeign o)
    (hg : ∀ o' ∈ pre, ∀ n v, Parameter n → Gives o' n v → ∃ v', Gives o n v') :
    Merged (pre ++ [o]) st.settings := by
  obtain ⟨out, ho, hc', e⟩ := compileFiles_done hc
  obtain ⟨t, hs, ht⟩ := Props.XsltInclude.C83_only_partial R files system f n out hb h1 h2 ho
  obtain ⟨ds, rfl⟩ := sheet_none hi hi' hs
  exact C101_partial pre o st hc' hw hf (outs_one ht e.symm) hg

example : ∃ pre o st, compileFiles rel filesB 9 ['m'] { items := [.incl ['b'] none, .decl 0] } decls =
      .done (some (pre ++ [o], st)) ∧ pre ≠ [] ∧ (∀ o' ∈ pre, ∀ n v, Parameter n → Gives o' n v → ∃ v', Gives o n v') ∧
    (∀ u g, filesB u = some g → ∀ h b, XsltInclude.Item.impt h b ∉ g.items) ∧
    st.settings "method".toList = some "text".toList := by
  have h1 : XsltInclude.compile rel filesB 9 ['m'] { items := [.incl ['b'] none, .decl 0] } =
      .done [(1, [0], ['b']), (0, [0], ['m'])] := by decide +kernel
  have h2 : (compile ([⟨[0], [att "method" "html"], plain⟩] ++ [⟨[0], [att "method" "text"], plain⟩])).map
      (fun st => st.settings "method".toList) = some (some "text".toList) := by
    decide +kernel
  obtain ⟨st, hst, hm⟩ := Option.map_eq_some_iff.1 h2
  refine ⟨[⟨[0], [att "method" "html"], plain⟩], ⟨[0], [att "method" "text"], plain⟩, st, ?_, by simp, ?_, ?_, hm⟩
  · unfold compileFiles
    rw [h1]
    dsimp only
    show XsltInclude.Res.done (Option.map _ (compile ([⟨[0], [att "method" "html"], plain⟩] ++
      [⟨[0], [att "method" "text"], plain⟩]))) = _
    rw [hst]
    rfl
  · intro o' ho' n v _ hv
    simp only [List.mem_cons, List.not_mem_nil, or_false] at ho'
    subst ho'
    obtain ⟨a, ha, _, hn, _⟩ := hv
    simp only [List.mem_cons, List.not_mem_nil, or_false] at ha
    subst ha
    exact ⟨"text".toList, att "method" "text", by simp, rfl, hn, rfl⟩
  · intro u g h
    simp only [filesB] at h
    split at h
    · cases h; simp
    · cases h

/-- An attribute of another namespace is taken for that of `xsl:output`, with any value. -/
theorem C101_violated_foreign (u v : Str) (hu : u ≠ []) (hv : v ≠ "xml".toList) (p : List Int) (q : Str → Option EName) :
    ∃ st, compile [⟨p, [⟨u, "method".toList, v⟩], q⟩] = some st ∧ st.settings "method".toList = some v ∧
      ¬ Merged [⟨p, [⟨u, "method".toList, v⟩], q⟩] st.settings := by
  have hval : validate ⟨u, "method".toList, v⟩ = true :=
    (validate_foreign _ hu).2 fun _ h => by
      have h' : "method".toList = "space".toList := h
      exact absurd h' (by decide +kernel)
  have hg : ∃ s, gather [⟨u, "method".toList, v⟩] = some s ∧ s "method".toList = some v ∧ s cdataElements = some [] := by
    refine ⟨fun n => if n = "method".toList then some v else (rules.find? fun r => r.1 = n).map fun r => r.2.1, ?_, ?_, ?_⟩
    · unfold gather
      rw [gatherLoop, if_neg (by simp)]
      dsimp only
      rw [if_pos hval]
      rfl
    · exact if_pos rfl
    · show (if cdataElements = "method".toList then some v else _) = _
      rw [if_neg (by decide +kernel)]
      decide +kernel
  obtain ⟨s, h1, h2, h3⟩ := hg
  refine ⟨⟨s, []⟩, ?_, h2, ?_⟩
  · unfold compile declareAll declare
    rw [h1]
    dsimp only
    rw [h3]
    rfl
  · intro hm
    have := hm.2 ("method", "xml") (by simp [default']) (by
      intro o ho w
      simp only [List.mem_cons, List.not_mem_nil, or_false] at ho
      subst ho
      rintro ⟨a, ha, hau, _⟩
      simp only [List.mem_cons, List.not_mem_nil, or_false] at ha
      subst ha
      exact hu hau)
    rcases this with h | h
    · exact absurd (h2.symm.trans h) (by simp)
    · exact hv (Option.some.inj (h2.symm.trans h))

example : ∃ st, compile [⟨[0], [⟨"urn:x".toList, "method".toList, "nonsense".toList⟩], plain⟩] = some st ∧
    st.settings "method".toList = some "nonsense".toList := by
  obtain ⟨st, h1, h2, _⟩ := C101_violated_foreign "urn:x".toList "nonsense".toList (by decide +kernel) (by decide +kernel) [0] plain
  exact ⟨st, h1, h2⟩

/-- A list of elements that is blank is refused, though it lists nothing. -/
theorem C101_violated_blank :
    compile [⟨[0], [att "cdata-section-elements" " "], plain⟩] = none ∧
    Valid ⟨[0], [att "cdata-section-elements" " "], plain⟩ := by
  refine ⟨?_, ?_, ?_, ?_⟩
  · have : (compile [⟨[0], [att "cdata-section-elements" " "], plain⟩]).isNone = true := by decide +kernel
    simpa using this
  · rintro n v ⟨a, ha, _, rfl, rfl⟩
    simp only [List.mem_cons, List.not_mem_nil, or_false] at ha
    subst ha
    exact .any "cdata-section-elements" _ (by simp)
  · intro a ha hu
    simp only [List.mem_cons, List.not_mem_nil, or_false] at ha
    subst ha
    revert hu
    decide +kernel
  · rintro v ⟨a, ha, _, _, rfl⟩ w hw
    simp only [List.mem_cons, List.not_mem_nil, or_false] at ha
    subst ha
    revert hw
    have : Spec.Text.words (att "cdata-section-elements" " ").value = [] := by decide +kernel
    rw [this]
    intro hw
    cases hw

end Verif.Props.XsltOutputDecl
