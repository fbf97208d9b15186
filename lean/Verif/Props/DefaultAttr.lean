import Verif.Lemmas.DefaultAttr
set_option autoImplicit false
set_option linter.unusedSimpArgs false
set_option linter.unusedVariables false
/-!
# C96: attributes with declared values
-/
namespace Verif.Props.DefaultAttr
open Verif.DefaultAttr
open Verif.DomNames
open Verif.Dom (Err)
open Verif.Spec.DefaultAttr (declared value fallback put ByName Shows Atts)

theorem shows_of_R {l : List A} {s : Atts} (h : R l s) : Shows l s := by
  refine ⟨h.2.1, fun n => ?_⟩
  rw [← h.2.2 n]
  unfold hasAttribute getAttribute getSpecified
  cases getNamedItem l n <;> exact ⟨rfl, rfl, rfl⟩

/-- After every history of calls by name on a new element whose declarations name at most one attribute with a
value, the element has the attributes it was given, and for the name with a declared value, if it was not given
one, the attribute declared, not specified.  The same of every clone.  What the calls throw is as specified. -/
theorem C96_partial (nameCh : Char → Bool) (decls : List Decl) (e : Str) (h1 : (declared e decls).length ≤ 1)
    (hn : ∀ x ∈ declared e decls, x.1 ≠ []) (ops : List Op) (ho : ∀ op ∈ ops, ByName op) :
    Shows (run nameCh (docType decls) e (create (docType decls) e) ops).1
      (Spec.DefaultAttr.run nameCh (declared e decls) (fallback (declared e decls)) (fallback (declared e decls)) ops).1 ∧
    (run nameCh (docType decls) e (create (docType decls) e) ops).2 =
      (Spec.DefaultAttr.run nameCh (declared e decls) (fallback (declared e decls)) (fallback (declared e decls)) ops).2 := by
  have hl : (declared e decls).getLast?.toList = declared e decls := by
    match declared e decls, h1 with
    | [], _ => rfl
    | [x], _ => rfl
    | x :: y :: l, h => exact absurd h (by simp)
  have hd : ((declared e decls).map Prod.fst).Nodup := by
    match declared e decls, h1 with
    | [], _ => simp
    | [x], _ => simp
    | x :: y :: l, h => exact absurd h (by simp)
  have hc := R_create decls e hd hn
  obtain ⟨i1, i2⟩ := R_run nameCh decls e hd hn ops hc ho
  rw [hl] at i1 i2
  exact ⟨shows_of_R i1, i2⟩

/-- With any number of declarations: the same, but new elements, and with them clones, have only the last one. -/
theorem C96_last_partial (nameCh : Char → Bool) (decls : List Decl) (e : Str)
    (hd : ((declared e decls).map Prod.fst).Nodup) (hn : ∀ x ∈ declared e decls, x.1 ≠ []) (ops : List Op)
    (ho : ∀ op ∈ ops, ByName op) :
    Shows (run nameCh (docType decls) e (create (docType decls) e) ops).1
      (Spec.DefaultAttr.run nameCh (declared e decls) (fallback (declared e decls).getLast?.toList)
        (fallback (declared e decls).getLast?.toList) ops).1 ∧
    (run nameCh (docType decls) e (create (docType decls) e) ops).2 =
      (Spec.DefaultAttr.run nameCh (declared e decls) (fallback (declared e decls).getLast?.toList)
        (fallback (declared e decls).getLast?.toList) ops).2 := by
  obtain ⟨i1, i2⟩ := R_run nameCh decls e hd hn ops (R_create decls e hd hn) ho
  exact ⟨shows_of_R i1, i2⟩

/-- Whatever attributes an element has, and however many are declared: when an attribute with a declared value
is removed by its name, it is back with that value, and not specified. -/
theorem C96_removed (nameCh : Char → Bool) (decls : List Decl) (e : Str) (hd : ((declared e decls).map Prod.fst).Nodup)
    (l : List A) (n v : Str) (hv : value (declared e decls) n = some v) (hh : hasAttribute l n = true) :
    (step nameCh (docType decls) e l (.removeAttribute n)).2 = none ∧
    getAttribute (step nameCh (docType decls) e l (.removeAttribute n)).1 n = v ∧
    getSpecified (step nameCh (docType decls) e l (.removeAttribute n)).1 n = some false := by
  unfold step
  dsimp only
  cases hr : removeBy (AttrMap.nameIs n) l with
  | none =>
    have := removeBy_none.1 hr
    unfold hasAttribute at hh
    rw [this] at hh; cases hh
  | some l' =>
    dsimp only
    rw [createDefault_eq decls e n l' hd, hv]
    unfold getAttribute getSpecified
    dsimp only
    rw [get_setNamedItem, show (dflt (n, v)).nm.name = n from rfl, if_pos rfl]
    exact ⟨rfl, rfl, rfl⟩

def decls : List Decl :=
  [.element ['e'], .attr ['e'] ['a'] ['1'], .attr ['f'] ['a'] ['9'], .attr ['e'] ['c'] []]

/-- An element whose declared attribute is removed, set, changed, cloned and removed again. -/
def story : List Op :=
  [.setAttribute ['b'] ['x'], .removeAttribute ['a'], .setValue ['a'] ['2'], .clone, .setAttributeNS [] ['a'] ['3'],
   .removeAttribute ['a'], .removeAttribute ['c'], .clone]

example : (declared ['e'] decls).length ≤ 1 ∧ (∀ x ∈ declared ['e'] decls, x.1 ≠ []) ∧
    (run wideNameChar (docType decls) ['e'] (create (docType decls) ['e']) story).2 =
      [none, none, none, none, none, none, some .notFound, none] ∧
    (run wideNameChar (docType decls) ['e'] (create (docType decls) ['e']) story).1 =
      [⟨plain ['a'], ['1'], false⟩, ⟨plain ['b'], ['x'], true⟩] := by decide +kernel

example : ∀ op ∈ story, ByName op := by
  intro op hop
  simp only [story, List.mem_cons, List.not_mem_nil, or_false] at hop
  rcases hop with rfl | rfl | rfl | rfl | rfl | rfl | rfl | rfl <;> simp [ByName]

/-! ### Where the code does otherwise -/

/-- If two attributes or more have declared values, a new element has the last of them only. -/
theorem C96_violated_two (decls : List Decl) (e : Str) (hd : ((declared e decls).map Prod.fst).Nodup)
    (hn : ∀ x ∈ declared e decls, x.1 ≠ []) (x : Str × Str) (rest : List (Str × Str))
    (hr : rest ≠ []) (h : declared e decls = x :: rest) :
    hasAttribute (create (docType decls) e) x.1 = false ∧ (create (docType decls) e).length = 1 := by
  rw [create_eq decls e hd hn, h, List.getLast?_eq_some_getLast (by simp), List.getLast_cons hr]
  refine ⟨?_, rfl⟩
  have hm := List.getLast_mem hr
  rw [h] at hd
  have hc := List.nodup_cons.1 (show (x.1 :: rest.map Prod.fst).Nodup from hd)
  have hne : (rest.getLast hr).1 ≠ x.1 := fun hh => hc.1 (List.mem_map.2 ⟨_, hm, hh⟩)
  show (getNamedItem [dflt (rest.getLast hr)] x.1).isSome = false
  rw [get_cons, if_neg (show ¬ (dflt (rest.getLast hr)).nm.name = x.1 from hne)]; rfl

example : declared ['e'] [.attr ['e'] ['a'] ['1'], .attr ['e'] ['b'] ['2']] = [(['a'], ['1']), (['b'], ['2'])] ∧
    create (docType [.attr ['e'] ['a'] ['1'], .attr ['e'] ['b'] ['2']]) ['e'] = [⟨plain ['b'], ['2'], false⟩] := by decide

/-- An attribute with a prefix and a declared value, given another value in the document: the parsed element has
two attributes of that name, and `getAttribute` gives the value declared. -/
theorem C96_violated_prefixed (nameCh : Char → Bool) (decls : List Decl) (e q d : Str) (h : declared e decls = [(q, d)])
    (hq : q ≠ []) (u v : Str) (r : NsName) (hr : createAttributeNS nameCh u q = .ok r) (hu : r.uri ≠ []) :
    (parsed nameCh (docType decls) e [(u, q, v)]).map (fun a => (a.nm.name, a.value)) = [(q, d), (q, v)] ∧
    getAttribute (parsed nameCh (docType decls) e [(u, q, v)]) q = d := by
  have hrn : r.name = q := by
    unfold createAttributeNS at hr
    by_cases hc : checkName nameCh q = true
    · rw [if_pos hc] at hr
      unfold attrNS at hr
      cases hcut : cut q with
      | none =>
        rw [hcut] at hr
        dsimp only at hr
        generalize checkPrefixAndNamespace _ _ _ _ _ = y at hr
        cases y with
        | error _ => cases hr
        | ok z => cases hr; rfl
      | some pl =>
        rw [hcut] at hr
        obtain ⟨p, l⟩ := pl
        dsimp only at hr
        generalize checkPrefixAndNamespace _ _ _ _ _ = y at hr
        cases y with
        | error _ => cases hr
        | ok z => cases hr; rfl
    · rw [if_neg hc] at hr; cases hr
  have hc : create (docType decls) e = [dflt (q, d)] := by
    rw [create_eq decls e (by rw [h]; simp) (by rw [h]; intro x hx; cases List.mem_singleton.1 hx; exact hq), h]; rfl
  have hp : parsed nameCh (docType decls) e [(u, q, v)] = [dflt (q, d), ⟨r, v, true⟩] := by
    unfold parsed
    rw [hc]
    show (step nameCh (docType decls) e [dflt (q, d)] (.setAttributeNS u q v)).1 = _
    unfold step
    dsimp only
    rw [hr]
    dsimp only
    unfold setNamedItemNS
    refine (setBy_new fun b hb => ?_).trans rfl
    cases List.mem_singleton.1 hb
    show AttrMap.namespaceAndNameIs r.uri r.localName (plain q) = false
    unfold AttrMap.namespaceAndNameIs plain
    have h1 : r.uri.isEmpty = false := by
      cases hh : r.uri with
      | nil => exact absurd hh hu
      | cons _ _ => rfl
    have h2 : (([] : Str) == r.uri) = false := by
      cases hh : r.uri with
      | nil => exact absurd hh hu
      | cons _ _ => rfl
    simp only [h1, h2, Bool.false_and, Bool.or_false]
  rw [hp]
  refine ⟨?_, ?_⟩
  · show [(q, d), (r.name, v)] = _
    rw [hrn]
  · unfold getAttribute; rw [get_cons, if_pos (show (dflt (q, d)).nm.name = q from rfl)]; rfl

/-- With `<!ATTLIST e xml:lang CDATA "en">` and `<e xml:lang="de"/>`. -/
example : declared ['e'] [.attr ['e'] "xml:lang".toList "en".toList] = [("xml:lang".toList, "en".toList)] ∧
    parsed wideNameChar (docType [.attr ['e'] "xml:lang".toList "en".toList]) ['e'] [(xmlURI, "xml:lang".toList, "de".toList)] =
      [⟨plain "xml:lang".toList, "en".toList, false⟩,
       ⟨⟨"xml:lang".toList, true, xmlURI, xml, "lang".toList⟩, "de".toList, true⟩] := by decide +kernel

/-- An attribute the document does not give, which the parser reports with its declared value, counts as
specified. -/
theorem C96_violated_parsed (nameCh : Char → Bool) (decls : List Decl) (e n d : Str) (h : declared e decls = [(n, d)])
    (hc : checkName nameCh n = true) (h1 : ':' ∉ n) (h2 : n ≠ "xmlns".toList) :
    getSpecified (parsed nameCh (docType decls) e [([], n, d)]) n = some true := by
  have hp := (C96_partial nameCh decls e (by rw [h]; exact Nat.le_refl 1)
    (by rw [h]; intro x hx; cases List.mem_singleton.1 hx; exact checkName_ne hc)
    [.setAttributeNS [] n d] (by intro op ho; cases List.mem_singleton.1 ho; exact ⟨rfl, h1, h2⟩)).1.2 n
  unfold parsed
  refine hp.2.2.trans ?_
  show ((Spec.DefaultAttr.step nameCh (declared e decls) (fallback (declared e decls)) (fallback (declared e decls))
    (.setAttributeNS [] n d)).1 n).map Prod.snd = _
  unfold Spec.DefaultAttr.step
  dsimp only
  rw [if_pos hc]
  unfold put
  dsimp only
  rw [if_pos rfl]; rfl

example : declared ['e'] decls = [(['a'], ['1'])] ∧ checkName wideNameChar ['a'] = true := by decide +kernel

/-- When the attribute is removed by namespace and name, the declared one takes the place of another attribute. -/
theorem C96_violated_namespace :
    run wideNameChar (docType decls) ['e'] (create (docType decls) ['e'])
      [.setAttribute ['b'] ['x'], .removeAttributeNS [] ['a']] = ([⟨plain ['a'], ['1'], false⟩], [none, none]) := by
  decide +kernel

end Verif.Props.DefaultAttr
