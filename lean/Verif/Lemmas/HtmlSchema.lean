import Verif.Model.HtmlSchema
import Verif.Lemmas.TaggleNames
import Verif.Lemmas.Taggle3
set_option autoImplicit false
set_option linter.unusedSimpArgs false
set_option linter.unusedVariables false
/-! # Lemmas: the schema of the HTML parser keeps the conditions of Spec/Taggle -/
namespace Verif.Taggle
open Spec

/-- A name made of lower case letters, digits and `-`, beginning with a letter. -/
def plainName : Str → Bool
  | [] => false
  | c :: cs => decide (97 ≤ c.toNat ∧ c.toNat ≤ 122) &&
      cs.all fun c => decide (97 ≤ c.toNat ∧ c.toNat ≤ 122) || decide (48 ≤ c.toNat ∧ c.toNat ≤ 57) ||
        decide (c = '-')

theorem plain_ncname {s : Str} (h : plainName s = true) : NCName s := by
  cases s with
  | nil => simp [plainName] at h
  | cons c t =>
    simp only [plainName, Bool.and_eq_true, decide_eq_true_eq, List.all_eq_true, Bool.or_eq_true] at h
    refine ncname_mk (.inl (ascii_letter h.1.1 h.1.2)) ?_
    intro x hx
    rcases h.2 x hx with (h | h) | h
    · exact later_letter (ascii_letter h.1 h.2)
    · exact later_digit ⟨(48, 57), by decide +kernel, h.1, h.2⟩
    · rw [h]; exact later_minus

theorem plain_xmlns {s : Str} (h : plainName s = true) (hn : s ≠ "xmlns".toList) :
    s ≠ "xmlns".toList ∧ ∀ r, s ≠ "xmlns:".toList ++ r := by
  refine ⟨hn, fun r he => ?_⟩
  obtain ⟨c, t, he2, h1, h2⟩ := ncname_inv (plain_ncname h)
  have hm : ':' ∈ s := by rw [he]; simp
  rw [he2] at hm
  rcases List.mem_cons.1 hm with hm | hm
  · exact later_not_colon (first_later h1) hm.symm
  · exact later_not_colon (h2 _ hm) rfl

def distinct : List Str → Bool
  | [] => true
  | a :: l => !l.contains a && distinct l

theorem distinct_nodup : ∀ l : List Str, distinct l = true → l.Nodup
  | [], _ => by simp
  | a :: l, h => by
    simp only [distinct, Bool.and_eq_true, Bool.not_eq_true', List.contains_eq_mem,
      decide_eq_false_iff_not] at h
    exact List.nodup_cons.2 ⟨h.1, distinct_nodup l h.2⟩

def attsOk (l : List Att) : Bool :=
  (l.all fun a => plainName a.qName && a.qName != "xmlns".toList) && distinct (l.map (·.qName))

theorem attsOk_good {l : List Att} (h : attsOk l = true) : GoodAtts l := by
  simp only [attsOk, Bool.and_eq_true, List.all_eq_true, bne_iff_ne] at h
  exact ⟨fun a ha => qname_nc (plain_ncname (h.1 a ha).1),
    fun a ha => plain_xmlns (h.1 a ha).1 (h.1 a ha).2, distinct_nodup _ h.2⟩

def placeOk (S : Schema) (r : EType) : Nat → EType → Bool
  | 0, t => r.model &&& t.memberOf != 0
  | n + 1, t => r.model &&& t.memberOf != 0 ||
    match t.parent with
    | none => false
    | some p =>
      match S.types[p]? with
      | none => false
      | some q => placeOk S r n q.2

theorem placeOk_placeable {S : Schema} {r : EType} : ∀ (n : Nat) (t : EType), placeOk S r n t = true →
    Placeable S r n t
  | 0, t, h => .here 0 t (by simpa [placeOk] using h)
  | n + 1, t, h => by
    rw [placeOk, Bool.or_eq_true] at h
    rcases h with h | h
    · exact .here _ t (by simpa using h)
    · cases hp : t.parent with
      | none => rw [hp] at h; simp at h
      | some p =>
        rw [hp] at h
        simp only [] at h
        cases hq : S.types[p]? with
        | none => rw [hq] at h; simp at h
        | some q =>
          rw [hq] at h
          exact .up n p t q.1 q.2 hp hq (placeOk_placeable n q.2 h)

def typeOk (S : Schema) (r : EType) (n : Nat) (k : Str) (t : EType) : Bool :=
  (t.name != "<pcdata>".toList || r.model &&& t.memberOf == 0) &&
  (k == "<root>".toList || placeOk S r n t) &&
  (plainName t.name && attsOk t.atts || t.name == "<pcdata>".toList ||
    t.memberOf == 0 && t.parent.isNone)

/-- What is computed about a schema. -/
def schemaOk (S : Schema) (n : Nat) : Bool :=
  match S.getType "<root>".toList, S.getType "<pcdata>".toList with
  | some r, some pc =>
    pc.name == "<pcdata>".toList && (r.memberOf == 0 && r.parent.isNone) && r.flags &&& 2 == 0 &&
    r.model &&& 0xFFFFFFFF != 0 &&
    (match S.types[S.root]? with
     | some q => q.1 != "<root>".toList
     | none => false) &&
    S.types.all fun p => typeOk S r n p.1 p.2
  | _, _ => false

/-- What follows from it. -/
structure SchemaFacts (S : Schema) (n : Nat) (r pc : EType) : Prop where
  roots : Roots S r pc
  unplaced : r.memberOf = 0 ∧ r.parent = none
  notext : NoTextOutside S r
  sound : Sound S r
  bounded : Bounded S r n
  names : GoodNames S

theorem schema_facts {S : Schema} {n : Nat} (h : schemaOk S n = true) : ∃ r pc, SchemaFacts S n r pc := by
  unfold schemaOk at h
  cases hr : S.getType "<root>".toList with
  | none => rw [hr] at h; simp at h
  | some r =>
    cases hp : S.getType "<pcdata>".toList with
    | none => rw [hr, hp] at h; simp at h
    | some pc =>
      rw [hr, hp] at h
      simp only [Bool.and_eq_true, beq_iff_eq, bne_iff_ne, List.all_eq_true, Option.isNone_iff_eq_none] at h
      obtain ⟨⟨⟨⟨⟨h1, h2⟩, h3⟩, h4⟩, h5⟩, h6⟩ := h
      have hty : ∀ k t, (k, t) ∈ S.types → typeOk S r n k t = true := fun k t hm => h6 (k, t) hm
      have hpl : ∀ k t, (k, t) ∈ S.types → k ≠ "<root>".toList → Placeable S r n t := by
        intro k t hm hk
        have := hty k t hm
        simp only [typeOk, Bool.and_eq_true, Bool.or_eq_true, beq_iff_eq, bne_iff_ne] at this
        exact placeOk_placeable n t (this.1.2.resolve_left hk)
      have hrt : ∃ k t, S.types[S.root]? = some (k, t) ∧ k ≠ "<root>".toList := by
        cases hq : S.types[S.root]? with
        | none => rw [hq] at h5; simp at h5
        | some q => rw [hq] at h5; exact ⟨q.1, q.2, rfl, by simpa using h5⟩
      have hbd : Bounded S r n := by
        obtain ⟨k, t, h, hk⟩ := hrt
        exact ⟨fun k t hm hk => placeable_mono (fun _ _ h => h) (hpl k t hm hk) _ (by omega),
          k, t, h, hk, hpl k t (List.mem_of_getElem? h) hk⟩
      refine ⟨r, pc, ⟨hr, hp, h1⟩, h2, ⟨?_, h3⟩, ⟨fun k t hm hk => ⟨n, hpl k t hm hk⟩, h4, hrt⟩, hbd, ?_⟩
      · intro k t hm hn
        have := hty k t hm
        simp only [typeOk, Bool.and_eq_true, Bool.or_eq_true, beq_iff_eq, bne_iff_ne] at this
        exact this.1.1.resolve_left (fun hh => hh hn)
      · intro k t hm
        have := hty k t hm
        simp only [typeOk, Bool.and_eq_true, Bool.or_eq_true, beq_iff_eq, bne_iff_ne,
          Option.isNone_iff_eq_none] at this
        rcases this.2 with (⟨ha, hb⟩ | h) | h
        · exact .inl ⟨qname_nc (plain_ncname ha), attsOk_good hb⟩
        · exact .inr (.inl h)
        · exact .inr (.inr h)

/-- Whether text goes into a type that goes into another that the root contains. -/
def textOk (S : Schema) : Bool :=
  match S.getType "<root>".toList, S.getType "<pcdata>".toList with
  | some r, some pc =>
    match pc.parent.bind (S.types[·]?) with
    | some b =>
      match b.2.parent.bind (S.types[·]?) with
      | some h =>
        pc.name == "<pcdata>".toList && !canContain r pc && !canContain r b.2 && canContain r h.2 &&
        canContain h.2 b.2 && canContain b.2 pc && b.2.name != "<pcdata>".toList &&
        h.2.name != "<pcdata>".toList && !b.2.has fCdata && !h.2.has fCdata
      | none => false
    | none => false
  | _, _ => false

/-- The events of a run that ended normally. -/
def events : Out St → Option (List Ev)
  | .ok t => some t.out
  | _ => none

/-- A parse with the default features. -/
def parseDefault (s : String) : Out St :=
  parseHtml defaults 9 (2 * s.toList.length + 4) (fun _ => false) htmlSchema false s.toList

set_option maxRecDepth 100000 in
theorem html_checked :
    (schemaOk htmlSchema 6 && textOk htmlSchema &&
     (elementRows.map (·.1.toList)).all (fun n => (htmlSchema.getType n).isSome) &&
     distinct (elementRows.map fun r => lower r.1.toList) &&
     parentRows.all (fun p => (typeIndex htmlSchema.types p.1.toList).isSome &&
      (typeIndex htmlSchema.types p.2.toList).isSome) &&
     attributeRows.all (fun p => (typeIndex htmlSchema.types p.1.toList).isSome) &&
     (htmlSchema.uri == "http://www.w3.org/1999/xhtml".toList)) = true := by
  decide +kernel

end Verif.Taggle
