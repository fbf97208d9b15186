import Verif.Spec.XsltAlias
import Verif.Lemmas.XsltAvailable
set_option autoImplicit false
set_option linter.unusedSimpArgs false
set_option linter.unusedVariables false
namespace Verif.XsltAlias
open Verif.Spec.XsltAlias hiding Str xslt
open Verif.XsltAvailable (cut_none cut_some isQName_iff)

theorem ncname_colon {l : Str} (h : Spec.Xml.NCName (l.map Char.toNat)) : ':' ∉ l ∧ l ≠ [] := by
  obtain ⟨c, t, e, hc, ht⟩ := h
  constructor
  · intro hm
    have hm' : ':'.toNat ∈ l.map Char.toNat := List.mem_map.2 ⟨':', hm, rfl⟩
    rw [e, List.mem_cons] at hm'
    rcases hm' with rfl | hm'
    · rcases hc with hc | hc
      · revert hc
        simp only [Spec.Xml.Letter, Spec.Xml.In]
        decide +kernel
      · exact absurd hc (by decide)
    · exact (ht _ hm').2 rfl
  · rintro rfl
    cases e

theorem create_prefixed {p l : Str} (hp : Spec.Xml.NCName (p.map Char.toNat)) (hl : Spec.Xml.NCName (l.map Char.toNat)) :
    create (p ++ ':' :: l) = some (p, l) := by
  rw [create, if_pos, cut_some (ncname_colon hp).1]
  rw [isQName_iff]
  refine .inr ⟨p.map Char.toNat, l.map Char.toNat, ?_, hp, hl⟩
  simp

theorem create_plain {l : Str} (hl : Spec.Xml.NCName (l.map Char.toNat)) : create l = some ([], l) := by
  rw [create, if_pos, cut_none (ncname_colon hl).1]
  rw [isQName_iff]
  exact .inl hl

theorem create_named {q l : Str} (h : Named q l) : ∃ p, create q = some (p, l) := by
  obtain ⟨hl, h | ⟨p, hp, h⟩⟩ := h
  · subst h; exact ⟨[], create_plain hl⟩
  · subst h; exact ⟨p, create_prefixed hp hl⟩

theorem auto_chars (i : Nat) (c : Char) (h : c ∈ Xslt.autoPrefix i) : c ∈ "auto-ns0123456789".toList := by
  unfold Xslt.autoPrefix at h
  rcases List.mem_append.mp h with h | h
  · have : ∀ c ∈ ['a', 'u', 't', 'o', '-', 'n', 's'], c ∈ "auto-ns0123456789".toList := by decide
    exact this c h
  · have := Nat.isDigit_of_mem_toDigits (by omega) (by omega) h
    simp only [Char.isDigit, Bool.and_eq_true, decide_eq_true_eq] at this
    obtain ⟨h1, h2⟩ := this
    have h1 : 48 ≤ c.toNat := h1
    have h2 : c.toNat ≤ 57 := h2
    have hc : c = Char.ofNat c.toNat := (Char.ofNat_toNat c).symm
    generalize c.toNat = n at *
    have : n = 48 ∨ n = 49 ∨ n = 50 ∨ n = 51 ∨ n = 52 ∨ n = 53 ∨ n = 54 ∨ n = 55 ∨ n = 56 ∨ n = 57 := by omega
    rw [hc]
    rcases this with h | h | h | h | h | h | h | h | h | h <;> rw [h] <;> decide

theorem auto_ncname (i : Nat) : Spec.Xml.NCName ((Xslt.autoPrefix i).map Char.toNat) := by
  refine ⟨'a'.toNat, (("uto-ns".toList ++ Nat.toDigits 10 i).map Char.toNat), rfl, .inl (.inl ?_), ?_⟩
  · simp only [Spec.Xml.In]; decide +kernel
  · intro x hx
    obtain ⟨c, hc, rfl⟩ := List.mem_map.1 hx
    have hm : c ∈ Xslt.autoPrefix i := List.mem_cons_of_mem 'a' hc
    have := auto_chars i c hm
    revert c
    have key : ∀ c ∈ "auto-ns0123456789".toList, Spec.Xml.NCNameChar c.toNat := by
      simp only [Spec.Xml.NCNameChar, Spec.Xml.NameChar, Spec.Xml.Letter, Spec.Xml.In]
      decide +kernel
    intro c _ _ _ hk
    exact key c hk

/-- What the map of the compiler knows of the aliases so far. -/
def Knows (m : List (Str × Str × Str)) (as : List Alias) : Prop :=
  ∀ u, match m.lookup u, lastFor as u with
    | none, none => True
    | some (p, v), some a => a.result = v ∧
        ((a.named = true ∧ Spec.Xml.NCName (p.map Char.toNat)) ∨ (a.named = false ∧ p = []))
    | _, _ => False

theorem knows_nil : Knows [] [] := fun _ => trivial

theorem lastFor_snoc (as : List Alias) (a : Alias) (u : Str) :
    lastFor (as ++ [a]) u = if a.stylesheet = u then some a else lastFor as u := by
  simp only [lastFor, List.reverse_append, List.reverse_cons, List.reverse_nil, List.nil_append,
    List.singleton_append, List.find?_cons]
  by_cases h : a.stylesheet = u <;> simp [h]

theorem knows_snoc {m : List (Str × Str × Str)} {as : List Alias} (h : Knows m as) {a : Alias} {p : Str}
    (hp : (a.named = true ∧ Spec.Xml.NCName (p.map Char.toNat)) ∨ (a.named = false ∧ p = [])) :
    Knows ((a.stylesheet, p, a.result) :: m) (as ++ [a]) := by
  intro u
  rw [lastFor_snoc, List.lookup_cons]
  by_cases e : a.stylesheet = u
  · simp only [e, beq_self_eq_true, if_true]
    exact ⟨trivial, hp⟩
  · rw [show (u == a.stylesheet) = false by simpa using fun e' => e e'.symm, if_neg e]
    exact h u

theorem means_lookup {sc : Scope} {p u : Str} (h : means sc p u) :
    p ≠ [] ∧ ¬ ((sc.lookup (orDefault p)).isNone = true ∧ orDefault p ≠ []) ∧ (sc.lookup (orDefault p)).getD [] = u := by
  unfold means at h
  unfold orDefault
  split at h
  · rename_i e
    refine ⟨by rw [e]; decide, ?_, ?_⟩
    · rw [if_pos e]; exact fun c => c.2 rfl
    · rw [if_pos e]; exact h
  · rename_i e
    rw [if_neg e]
    refine ⟨h.1, ?_, ?_⟩
    · rw [h.2]; simp
    · rw [h.2]; rfl

theorem declare_alias {sc : Scope} {sp rp : Str} {a : Alias} (h : Declares (.alias sc sp rp) a) (c : Ctx) :
    declare sc sp rp c = some { c with remap := (a.stylesheet, orDefault rp, a.result) :: c.remap } := by
  obtain ⟨h1, h2, _⟩ := h
  obtain ⟨a1, b1, c1⟩ := means_lookup h1
  obtain ⟨a2, b2, c2⟩ := means_lookup h2
  rw [declare, if_neg (fun e => e.elim a1 a2), if_neg b1, if_neg b2, c1, c2]

theorem makeAtts_inline {as : List Alias} : ∀ (ats : List Attr) (c : Ctx), Knows c.remap as →
    (∀ t ∈ ats, Named t.qn t.loc ∧ ∀ a, lastFor as t.uri = some a → a.named = true ∨ a.result ≠ []) →
    (inlineAtts c ats).1.remap = c.remap ∧
    ∃ r, makeAtts (inlineAtts c ats).2 = some r ∧
      r.map (fun x => (x.1.uri, x.1.loc, x.2)) =
        (ats.filter fun a => !isXmlns a && decide (a.uri ≠ Spec.XsltAlias.xslt)).map
          fun a => (renamed as a.uri, a.loc, a.value) := by
  intro ats
  induction ats with
  | nil => intro c _ _; exact ⟨rfl, [], rfl, rfl⟩
  | cons a ats ih =>
    intro c hk hf
    have hf' := fun t ht => hf t (List.mem_cons_of_mem _ ht)
    obtain ⟨hn, ha⟩ := hf a List.mem_cons_self
    by_cases hx : isXmlns a = true
    · rw [inlineAtts, if_pos (show XsltCompile.SC.xmlns.isPrefixOf a.qn = true from hx)]
      rw [List.filter_cons_of_neg (by simp [hx])]
      exact ih c hk hf'
    · have hx' : ¬ XsltCompile.SC.xmlns.isPrefixOf a.qn = true := hx
      by_cases hu : a.uri = XsltCompile.SC.xslt
      · rw [inlineAtts, if_neg hx', if_pos hu]
        rw [List.filter_cons_of_neg (by
          simp only [Bool.and_eq_true, decide_eq_true_eq, not_and, Classical.not_not]
          exact fun _ => hu)]
        exact ih c hk hf'
      · rw [List.filter_cons_of_pos (by
          have h2 : a.uri ≠ Spec.XsltAlias.xslt := hu
          simp [hx, h2])]
        have hka := hk a.uri
        rw [inlineAtts, if_neg hx', if_neg hu]
        cases hm : c.remap.lookup a.uri with
        | none =>
          rw [hm] at hka
          cases hl : lastFor as a.uri with
          | some b => rw [hl] at hka; exact hka.elim
          | none =>
            obtain ⟨i1, r, i2, i3⟩ := ih c hk hf'
            obtain ⟨p, hp⟩ := create_named hn
            refine ⟨i1, (⟨p, a.loc, a.uri⟩, a.value) :: r, ?_, ?_⟩
            · simp only [makeAtts, hp, Option.bind_some, i2, Option.map_some]
            · simp only [List.map_cons, i3, renamed, hl, Option.map_none, Option.getD_none]
        | some pv =>
          obtain ⟨p, v⟩ := pv
          rw [hm] at hka
          cases hl : lastFor as a.uri with
          | none => rw [hl] at hka; exact hka.elim
          | some b =>
            rw [hl] at hka
            obtain ⟨hr, hpn⟩ := hka
            have hren : renamed as a.uri = v := by
              simp only [renamed, hl, Option.map_some, Option.getD_some, hr]
            by_cases hd : p = [] ∧ v ≠ []
            · simp only [if_pos hd]
              obtain ⟨i1, r, i2, i3⟩ := ih { c with auto := c.auto + 1 } hk hf'
              refine ⟨i1, (⟨Xslt.autoPrefix c.auto, a.loc, v⟩, a.value) :: r, ?_, ?_⟩
              · simp only [makeAtts, makeName, create_prefixed (auto_ncname c.auto) hn.1, Option.bind_some, i2,
                  Option.map_some]
              · simp only [List.map_cons, i3, hren]
            · simp only [if_neg hd]
              have hp : Spec.Xml.NCName (p.map Char.toNat) := by
                rcases hpn with h | h
                · exact h.2
                · rcases ha b hl with h' | h'
                  · rw [h.1] at h'; cases h'
                  · exact absurd ⟨h.2, hr ▸ h'⟩ hd
              obtain ⟨i1, r, i2, i3⟩ := ih c hk hf'
              refine ⟨i1, (⟨p, a.loc, v⟩, a.value) :: r, ?_, ?_⟩
              · simp only [makeAtts, makeName, create_prefixed hp hn.1, Option.bind_some, i2, Option.map_some]
              · simp only [List.map_cons, i3, hren]

theorem make_inline {as : List Alias} {c : Ctx} (hk : Knows c.remap as) {u l q : Str} {ats : List Attr}
    (hf : Fine as (.literal u l q ats)) :
    (inlineElement c u l q ats).1.remap = c.remap ∧
    ∃ e r, make (inlineElement c u l q ats).2 = some (e, r) ∧
      (⟨e.uri, e.loc, r.map fun x => (x.1.uri, x.1.loc, x.2)⟩ : Result) = result as u l ats := by
  obtain ⟨hn, he, ha⟩ := hf
  obtain ⟨h1, r, h2, h3⟩ := makeAtts_inline ats c hk ha
  have hku := hk u
  rw [inlineElement]
  simp only [h1]
  cases hm : c.remap.lookup u with
  | none =>
    rw [hm] at hku
    cases hl : lastFor as u with
    | some b => rw [hl] at hku; exact hku.elim
    | none =>
      obtain ⟨p, hp⟩ := create_named hn
      refine ⟨h1, ⟨p, l, u⟩, r, ?_, ?_⟩
      · simp only [make, hp, Option.bind_some, h2, Option.map_some]
      · simp only [result, renamed, hl, Option.map_none, Option.getD_none, h3]
  | some pv =>
    obtain ⟨p, v⟩ := pv
    rw [hm] at hku
    cases hl : lastFor as u with
    | none => rw [hl] at hku; exact hku.elim
    | some b =>
      rw [hl] at hku
      obtain ⟨hr, hpn⟩ := hku
      have hp : Spec.Xml.NCName (p.map Char.toNat) := by
        rcases hpn with h | h
        · exact h.2
        · have := he b hl
          rw [h.1] at this; cases this
      refine ⟨h1, ⟨p, l, v⟩, r, ?_, ?_⟩
      · simp only [make, makeName, create_prefixed hp hn.1, Option.bind_some, h2, Option.map_some]
      · simp only [result, renamed, hl, Option.map_some, Option.getD_some, h3, hr]

theorem knows_declared {c : Ctx} {as : List Alias} (hk : Knows c.remap as) {sc : Scope} {sp rp : Str} {a : Alias}
    (h : Declares (.alias sc sp rp) a) (hp : PrefixNamed (.alias sc sp rp)) :
    Knows ((a.stylesheet, orDefault rp, a.result) :: c.remap) (as ++ [a]) := by
  refine knows_snoc hk ?_
  by_cases e : rp = "#default".toList
  · right
    refine ⟨?_, by rw [orDefault, if_pos e]⟩
    cases hn : a.named with
    | false => rfl
    | true => exact absurd e (h.2.2.1 hn)
  · left
    refine ⟨h.2.2.2 e, ?_⟩
    rw [orDefault, if_neg e]
    exact hp.resolve_left e

end Verif.XsltAlias
