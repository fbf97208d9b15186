import Verif.Lemmas.Sax2Dom4
set_option autoImplicit false
set_option linter.unusedSimpArgs false
set_option linter.unusedVariables false
namespace Verif.Sax2Dom
open Verif.Dom (Str Kind Err upd upd_ne upd_same)
open Verif.DomNames (NsName plain)
open Verif.Clone
open Verif.SaxFilter (Ev run coalesce flush)

/-- The document type, if there is one. -/
theorem dtd_or_none {C : Chars} {fuel d : Nat} {s0 s : St} {o : Option Dtd} (ho : ∀ t, o = some t → DtdOk t) {b : Parser} (h : D C s0 d s)
    (hb : At d d b) (hl : b.declared = []) (hs : AllSpec d s) (hdt : s.base.dtype d = none) {us : List Tree}
    (hu : ShowsAll s us (s.base.kids d)) :
    ∃ s' b', Feeds C fuel [] s b (dtdEvents o) [] s' b' ∧ At d d b' ∧ D C s0 d s' ∧ AllSpec d s' ∧ s'.base.root d = s.base.root d ∧
      ShowsAll s' (us ++ dtdTree o) (s'.base.kids d) ∧ EnvD d (entities o) (valueIn (entities o)) b'.declared s' := by
  cases o with
  | none => exact ⟨s, b, .nil, hb, h, hs, rfl, by simpa [dtdTree] using hu, by intro n v hn; cases hn⟩
  | some t => exact dtd_handled (ho t rfl) h hb hl hs hdt hu

/-- A whole document. -/
theorem parsed {C : Chars} {fuel : Nat} (hf : 3 ≤ fuel) {s : St} (hg : Good C s) {b : Parser} (hl : b.declared = []) {doc : Doc}
    (ho : DocOk C doc) :
    ∃ s' b', parse C fuel s b (docEvents doc) = .ok s' b' ∧ b'.document = some s.base.size ∧ D C s s.base.size s' ∧
      AllSpec s.base.size s' ∧ Shows s' (docTree doc) s.base.size := by
  obtain ⟨o1, o2, o3, o4, o5⟩ := ho
  obtain ⟨s1, e1⟩ : ∃ s1, s1 = Clone.new s .document (some s.base.size) (plain []) false [] [] false := ⟨_, rfl⟩
  obtain ⟨d1, hk1, hsz, hrt, hdt⟩ := doc_begun hg s1 e1
  have hs1 : AllSpec s.base.size s1 := by
    intro i h1 h2
    have : i = s.base.size := by omega
    subst this
    rw [e1]
    exact upd_same _ _ _
  obtain ⟨b1, eb⟩ : ∃ b1 : Parser, b1 =
      { b with document := some s.base.size, current := some s.base.size, inCDATA := false, inDTD := false, inEntity := 0 } := ⟨_, rfl⟩
  have hb1 : At s.base.size s.base.size b1 := by subst eb; exact ⟨rfl, rfl, rfl, rfl⟩
  have hl1 : b1.declared = [] := by subst eb; exact hl
  rw [List.filter_append, List.length_append] at o5
  obtain ⟨s2, c2, a1, a2, a3, a4, a5, a6, a7⟩ := doc_items (fuel := fuel) (V := doc.value) hf doc.before s1 b1 []
    (fun i hi => o4 i (List.mem_append_left _ hi)) o1 d1 hb1 (by intro n v hn; cases hn) hs1 (by omega) (fun t => absurd hrt t)
    (by rw [hk1]; simp only [ShowsAll])
  rw [List.nil_append] at a7
  obtain ⟨s3, b3, p1, p2, p3, p4, p5, p6, p7⟩ := dtd_or_none (fuel := fuel) o3 a2 (hb1.cached c2) hl1 a4 (a6.trans hdt) a7
  obtain ⟨s4, c4, q1, q2, q3, q4, q5, q6, q7⟩ := doc_items (fuel := fuel) (V := doc.value) hf doc.content s3 b3 _
    (fun i hi => o4 i (List.mem_append_right _ hi)) o2 p3 p2 p7 p4 (by omega)
    (fun t => by
      cases hx : doc.before.filter Item.isElement with
      | nil => rw [p5, a5 hx] at t; exact absurd hrt t
      | cons y l =>
        rw [hx, List.length_cons] at o5
        exact List.length_eq_zero_iff.mp (by omega)) p6
  have f0 : Feeds C fuel [] s1 b1 [.startDocument] [] s1 b1 := Feeds.straight rfl rfl
  have f9 : Feeds C fuel [] s4 { b3 with cached := c4 } [.endDocument] [] s4 { b3 with cached := c4, current := none } :=
    Feeds.straight rfl rfl
  refine ⟨s4, { b3 with cached := c4, current := none }, ?_, p2.document, q2, q4, ?_⟩
  · unfold parse
    simp only []
    rw [← e1, ← eb]
    have := (((f0.trans a1).trans p1).trans q1).trans f9
    exact this.2
  · unfold docTree
    rw [Shows]
    refine ⟨q2.kind, ?_, ?_, ?_, ?_, q7⟩
    · unfold Clone.nameOf; rw [q2.kind]
    · unfold Clone.valueOf; rw [q2.kind]
    · unfold Clone.idsOf; rw [q2.kind]
    · unfold Clone.attrsOf; rw [q2.good.attrs_nil (by rw [q2.kind]; nofun)]; simp only [List.filter_nil, ShowsAll]

end Verif.Sax2Dom
