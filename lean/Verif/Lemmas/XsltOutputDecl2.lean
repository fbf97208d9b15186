import Verif.Lemmas.XsltOutputDecl
import Verif.Lemmas.XsltPrecedence
import Verif.Props.XsltInclude
set_option autoImplicit false
set_option linter.unusedSimpArgs false
set_option linter.unusedVariables false
namespace Verif.XsltOutputDecl
open Verif.Spec.XsltOutputDecl
open Verif.Spec.XsltInclude (ITree Compiled postorder postorders)

theorem precLt_asymm {a b : List Int} (h : Xslt.precLt a b = true) : Xslt.precLt b a = false := by
  cases hb : Xslt.precLt b a with
  | false => rfl
  | true => have := Xslt.precLt_trans a b a h hb; rw [Xslt.precLt_irrefl] at this; cases this

/-- What is compiled later has no higher precedence. -/
theorem compiled_falls {t : ITree} {out : List (Nat × List Int × List Char)} (h : Compiled t out) :
    out.Pairwise fun a b => Xslt.precLt a.2.1 b.2.1 = false := by
  obtain ⟨g, rfl, -, hp⟩ := h
  rw [List.pairwise_reverse] at hp
  induction g with
  | nil => simp
  | cons x g ih =>
    rw [List.pairwise_cons] at hp
    rw [List.flatMap_cons, List.pairwise_append]
    refine ⟨?_, ih hp.2, ?_⟩
    · rw [List.pairwise_map]
      exact List.pairwise_of_forall fun a b => Xslt.precLt_irrefl _
    · intro a ha b hb
      simp only [List.mem_map, List.mem_flatMap] at ha hb
      obtain ⟨d, _, rfl⟩ := ha
      obtain ⟨y, hy, d', _, rfl⟩ := hb
      exact precLt_asymm (hp.1 y hy)

/-- Without imports there is one precedence. -/
theorem compiled_one {ds : List (Nat × List Char)} {out : List (Nat × List Int × List Char)}
    (h : Compiled (.mk ds .nil) out) : ∀ a ∈ out, ∀ b ∈ out, a.2.1 = b.2.1 := by
  obtain ⟨g, rfl, hm, -⟩ := h
  have hl : g.length = 1 := by
    have := congrArg List.length hm
    simpa [postorder, postorders] using this
  obtain ⟨x, rfl⟩ := List.length_eq_one_iff.1 hl
  intro a ha b hb
  simp only [List.flatMap_cons, List.flatMap_nil, List.append_nil, List.mem_map] at ha hb
  obtain ⟨d, _, rfl⟩ := ha
  obtain ⟨d', _, rfl⟩ := hb
  rfl

open Verif.Spec.XsltInclude (Inlines importsOf Imports Sheet declsOf)

theorem importsOf_append : ∀ (ps qs : List Spec.XsltInclude.Piece), importsOf (ps ++ qs) = importsOf ps ++ importsOf qs
  | [], qs => rfl
  | .decl n b :: ps, qs => by simp [importsOf, importsOf_append ps qs]
  | .impt u p :: ps, qs => by simp [importsOf, importsOf_append ps qs]

theorem inlines_none {R : Str → Str → Str} {files : Str → Option XsltInclude.File}
    (hn : ∀ u g, files u = some g → ∀ h b, .impt h b ∉ g.items) {path base items ps} (hi : Inlines R files path base items ps) :
    (∀ h b, .impt h b ∉ items) → importsOf ps = [] := by
  induction hi with
  | nil => intro _; rfl
  | decl path base n rest ps _ ih => exact fun h => ih fun x b hm => h x b (by simp [hm])
  | impt path base x b => exact fun h => absurd (by simp) (h x b)
  | incl path base x b rest qs ps f _ hf _ _ _ ih1 ih2 =>
    intro h
    rw [importsOf_append, ih1 (hn _ f hf), ih2 fun x b hm => h x b (by simp [hm])]
    rfl

theorem sheet_none {R : Str → Str → Str} {files : Str → Option XsltInclude.File}
    (hn : ∀ u g, files u = some g → ∀ h b, .impt h b ∉ g.items) {base : Str} {items : List XsltInclude.Item} {t : ITree}
    (hi : ∀ h b, .impt h b ∉ items) (h : Sheet R files base items t) : ∃ ds, t = .mk ds .nil := by
  obtain ⟨ps, ts, h1, h2, rfl⟩ := h
  rw [inlines_none hn h1 hi] at h2
  cases h2
  exact ⟨_, rfl⟩

/-- The declarations of a stylesheet of files come as they are compiled. -/
theorem compileFiles_done {R : Str → Str → Str} {files : Str → Option XsltInclude.File} {n : Nat} {system : Str}
    {f : XsltInclude.File} {decl : Nat → List Attr × (Str → Option EName)} {outs : List Out} {st : St}
    (h : compileFiles R files n system f decl = .done (some (outs, st))) :
    ∃ out, XsltInclude.compile R files n system f = .done out ∧ compile outs = some st ∧
      outs = out.map fun d => ⟨d.2.1, (decl d.1).1, (decl d.1).2⟩ := by
  unfold compileFiles at h
  split at h
  · rename_i out ho
    simp only [XsltInclude.Res.done.injEq, Option.map_eq_some_iff, Prod.mk.injEq] at h
    obtain ⟨st', h1, rfl, rfl⟩ := h
    exact ⟨out, ho, h1, rfl⟩
  · cases h
  · cases h
  · cases h

theorem outs_falls {t : ITree} {out : List (Nat × List Int × List Char)} (h : Compiled t out)
    {decl : Nat → List Attr × (Str → Option EName)} {pre : List Out} {o : Out}
    (e : (out.map fun d => (⟨d.2.1, (decl d.1).1, (decl d.1).2⟩ : Out)) = pre ++ [o]) :
    ∀ o' ∈ pre, Xslt.precLt o'.prec o.prec = false := by
  have := compiled_falls h
  have h2 : (out.map fun d => (⟨d.2.1, (decl d.1).1, (decl d.1).2⟩ : Out)).Pairwise
      fun a b => Xslt.precLt a.prec b.prec = false := by
    rw [List.pairwise_map]
    exact this
  rw [e, List.pairwise_append] at h2
  exact fun o' ho' => h2.2.2 o' ho' o (by simp)

theorem outs_one {ds : List (Nat × List Char)} {out : List (Nat × List Int × List Char)} (h : Compiled (.mk ds .nil) out)
    {decl : Nat → List Attr × (Str → Option EName)} {pre : List Out} {o : Out}
    (e : (out.map fun d => (⟨d.2.1, (decl d.1).1, (decl d.1).2⟩ : Out)) = pre ++ [o]) :
    ∀ o' ∈ pre, Xslt.precLt o.prec o'.prec = false := by
  intro o' ho'
  have h1 : o' ∈ out.map fun d => (⟨d.2.1, (decl d.1).1, (decl d.1).2⟩ : Out) := by rw [e]; simp [ho']
  have h2 : o ∈ out.map fun d => (⟨d.2.1, (decl d.1).1, (decl d.1).2⟩ : Out) := by rw [e]; simp
  rw [List.mem_map] at h1 h2
  obtain ⟨a, ha, rfl⟩ := h1
  obtain ⟨b, hb, rfl⟩ := h2
  show Xslt.precLt b.2.1 a.2.1 = false
  rw [compiled_one h a ha b hb, Xslt.precLt_irrefl]

end Verif.XsltOutputDecl
