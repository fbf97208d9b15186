import Verif.Lemmas.AttrMap
set_option autoImplicit false
set_option linter.unusedSimpArgs false
/-!
# C20: attribute maps behave as maps
-/
namespace Verif.Props.AttrMap
open Verif.DomNames Verif.Spec.AttrMap
open Verif.AttrMap (Op Res Attr Elem Doc getLength item getOwnerElement Good)
open Verif.Dom (Err)

/-- C20 for histories that name attributes by their node names only: every call returns what it would on
finite maps from names to attributes, and the items are those of the map. -/
theorem C20_names_partial (nameCh : Char → Bool) (edoc : Elem → Doc) (ops : List Op)
    (h : ∀ op ∈ ops, byPair op = false) (hp : AllProper nameKeys nameCh (init edoc) ops) :
    (AttrMap.run nameCh (AttrMap.init edoc) ops).2 = (run nameKeys nameCh (init edoc) ops).2 ∧
    ∀ e, ItemsAre ((run nameKeys nameCh (init edoc) ops).1.cur e)
      (getLength (AttrMap.run nameCh (AttrMap.init edoc) ops).1 e)
      (item (AttrMap.run nameCh (AttrMap.init edoc) ops).1 e) := by
  have hr := AttrMap.run_R nameKeys nameCh true false ops (fun _ _ _ => rfl)
    (fun op ho hb => by rw [h op ho] at hb; exact hb)
    (fun op ho r _ => ⟨fun _ n => by simp [AttrMap.nameIs, nameKeys], fun hc => nomatch hc⟩)
    (fun op ho hb => by rw [h op ho] at hb; cases hb) (AttrMap.init_R nameKeys _ edoc) hp
  exact ⟨hr.2, fun e => AttrMap.items_R hr.1 e⟩

theorem attrNS_hasUri {u q : Str} {r : NsName} (h : attrNS u q = .ok r) : r.hasUri = !r.uri.isEmpty := by
  have key : ∀ (b : Bool) (p : Str) x, checkPrefixAndNamespace b p (!u.isEmpty) u true = .ok x → x.1 = !x.2.isEmpty := by
    intro b p x hx
    unfold checkPrefixAndNamespace at hx
    by_cases h1 : (!b) = true
    · rw [if_pos h1] at hx; cases hx; rfl
    rw [if_neg h1] at hx
    by_cases h2 : ':' ∈ p
    · rw [if_pos h2] at hx; cases hx
    rw [if_neg h2] at hx
    by_cases h3 : p = xml
    · rw [if_pos h3] at hx
      by_cases h4 : u = xmlURI
      · rw [if_pos h4] at hx; cases hx; rw [h4]; decide +kernel
      · rw [if_neg h4] at hx; cases hx
    rw [if_neg h3] at hx
    by_cases h5 : (true && decide (p = xmlns)) = true
    · rw [if_pos h5] at hx
      by_cases h6 : u = xmlnsURI ∨ u = []
      · rw [if_pos h6] at hx; cases hx; decide +kernel
      · rw [if_neg h6] at hx; cases hx
    rw [if_neg h5] at hx
    by_cases h7 : (!(!u.isEmpty) || u.isEmpty) = true
    · rw [if_pos h7] at hx; cases hx
    · rw [if_neg h7] at hx; cases hx
      cases u with
      | nil => simp at h7
      | cons c u => rfl
  unfold attrNS at h
  cases hc : cut q with
  | none =>
    rw [hc] at h
    simp only [] at h
    cases hk : checkPrefixAndNamespace (decide (q = xmlns)) (if q = xmlns then q else []) (!u.isEmpty) u true with
    | error e => rw [hk] at h; cases h
    | ok x => rw [hk] at h; cases h; exact key _ _ _ hk
  | some pl =>
    obtain ⟨p, l⟩ := pl
    rw [hc] at h
    simp only [] at h
    cases hk : checkPrefixAndNamespace true p (!u.isEmpty) u true with
    | error e => rw [hk] at h; cases h
    | ok x => rw [hk] at h; cases h; exact key _ _ _ hk

/-- What a call makes: a name without namespace data, or one with a local name. -/
theorem made_cases {nameCh : Char → Bool} {op : Op} (hl : HasLocal nameCh op) {r : NsName}
    (h : made nameCh op = some r) :
    (∃ n, r = plain n) ∨ (r.localName ≠ [] ∧ r.hasUri = !r.uri.isEmpty) := by
  have h1 : ∀ n, (createElement nameCh n).toOption = some r → ∃ n, r = plain n := by
    intro n hn
    unfold createElement at hn
    by_cases hc : checkName nameCh n = true
    · rw [if_pos hc] at hn; cases hn; exact ⟨_, rfl⟩
    · rw [if_neg hc] at hn; cases hn
  have h2 : ∀ u q, (createAttributeNS nameCh u q).toOption = some r → r.hasUri = !r.uri.isEmpty := by
    intro u q hn
    unfold createAttributeNS at hn
    by_cases hc : checkName nameCh q = true
    · rw [if_pos hc] at hn
      cases hk : attrNS u q with
      | error e => rw [hk] at hn; cases hn
      | ok x => rw [hk] at hn; cases hn; exact attrNS_hasUri hk
    · rw [if_neg hc] at hn; cases hn
  cases op with
  | createAttribute d n => exact .inl (h1 n h)
  | setAttribute e n v => exact .inl (h1 n h)
  | createAttributeNS d u q => exact .inr ⟨hl r h, h2 u q h⟩
  | setAttributeNS e u q v => exact .inr ⟨hl r h, h2 u q h⟩
  | _ => cases h

theorem pair_iff {r : NsName} (hr : (∃ n, r = plain n) ∨ (r.localName ≠ [] ∧ r.hasUri = !r.uri.isEmpty)) (u l : Str)
    (hl : l ≠ []) : AttrMap.namespaceAndNameIs u l r = true ↔ expanded r = (u, l) := by
  unfold AttrMap.namespaceAndNameIs expanded
  rcases hr with ⟨n, rfl⟩ | ⟨h1, h2⟩
  · rw [if_pos (show (plain n).localName = [] from rfl)]
    simp only [plain, List.isEmpty_nil, Bool.not_false, Bool.true_and, Bool.or_eq_true, Bool.and_eq_true,
      beq_iff_eq, Prod.mk.injEq, List.isEmpty_iff]
    constructor
    · rintro (⟨hu, hc | hc⟩ | ⟨_, hc⟩)
      · exact absurd hc.symm hl
      · exact ⟨hu.symm, hc⟩
      · exact absurd hc.symm hl
    · rintro ⟨hu, hc⟩
      exact .inl ⟨hu.symm, .inr hc⟩
  · rw [if_neg h1, h2]
    simp only [Bool.not_not, Bool.or_eq_true, Bool.and_eq_true, beq_iff_eq, Prod.mk.injEq, List.isEmpty_iff]
    constructor
    · rintro (⟨hu, hr, hc | hc⟩ | hc)
      · exact ⟨by rw [hu, hr], hc⟩
      · exact absurd hc.1 h1
      · exact hc
    · exact fun hc => .inr hc

/-- C20 for histories that name attributes by namespace and local name only. -/
theorem C20_namespaces_partial (nameCh : Char → Bool) (edoc : Elem → Doc) (ops : List Op)
    (h : ∀ op ∈ ops, byName op = false) (hl : ∀ op ∈ ops, HasLocal nameCh op)
    (hp : AllProper pairKeys nameCh (init edoc) ops) :
    (AttrMap.run nameCh (AttrMap.init edoc) ops).2 = (run pairKeys nameCh (init edoc) ops).2 ∧
    ∀ e, ItemsAre ((run pairKeys nameCh (init edoc) ops).1.cur e)
      (getLength (AttrMap.run nameCh (AttrMap.init edoc) ops).1 e)
      (item (AttrMap.run nameCh (AttrMap.init edoc) ops).1 e) := by
  have hr := AttrMap.run_R pairKeys nameCh false true ops (fun op ho hb => by rw [h op ho] at hb; exact hb)
    (fun _ _ _ => rfl)
    (fun op ho r hm => ⟨fun hc => (nomatch hc), fun _ u l hne => pair_iff (made_cases (hl op ho) hm) u l hne⟩)
    (fun op ho hb r hm => by
      have := hl op ho
      cases op <;> first | (cases hm; done) | exact this r hm | (cases hb; done))
    (AttrMap.init_R pairKeys _ edoc) hp
  exact ⟨hr.2, fun e => AttrMap.items_R hr.1 e⟩

/-- C20 for histories with both kinds of calls, if different node names stand for different expanded names
and an attribute's expanded name is what its node name stands for. -/
theorem C20_mixed_partial (nameCh : Char → Bool) (edoc : Elem → Doc) (ops : List Op) (ns : Str → Str × Str)
    (hinj : ∀ n n', ns n = ns n' → n = n')
    (hns : ∀ op ∈ ops, ∀ r, made nameCh op = some r → expanded r = ns r.name)
    (hl : ∀ op ∈ ops, HasLocal nameCh op) (hp : AllProper (mixedKeys ns) nameCh (init edoc) ops) :
    (AttrMap.run nameCh (AttrMap.init edoc) ops).2 = (run (mixedKeys ns) nameCh (init edoc) ops).2 ∧
    ∀ e, ItemsAre ((run (mixedKeys ns) nameCh (init edoc) ops).1.cur e)
      (getLength (AttrMap.run nameCh (AttrMap.init edoc) ops).1 e)
      (item (AttrMap.run nameCh (AttrMap.init edoc) ops).1 e) := by
  have hr := AttrMap.run_R (mixedKeys ns) nameCh true true ops (fun _ _ _ => rfl) (fun _ _ _ => rfl)
    (fun op ho r hm => ⟨fun _ n => by
      show (r.name == n) = true ↔ expanded r = ns n
      rw [hns op ho r hm, beq_iff_eq]
      exact ⟨fun e => by rw [e], hinj _ _⟩, fun _ u l hne => pair_iff (made_cases (hl op ho) hm) u l hne⟩)
    (fun op ho hb r hm => by
      have := hl op ho
      cases op <;> first | (cases hm; done) | exact this r hm | (cases hb; done))
    (AttrMap.init_R (mixedKeys ns) _ edoc) hp
  exact ⟨hr.2, fun e => AttrMap.items_R hr.1 e⟩

/-! ### Histories the theorems speak of -/

/-- An attribute set, replaced, removed, and set again. -/
def story : List Op :=
  [.createAttribute 0 ['a'], .setNamedItem 7 0, .setAttribute 7 ['a'] ['v'], .setNamedItem 7 0, .removeAttributeNode 7 0,
   .setReadOnly 7 true, .removeNamedItem 7 ['a'], .setReadOnly 7 false, .removeNamedItem 7 ['a']]

example : (∀ op ∈ story, byPair op = false) ∧ AllProper nameKeys wideNameChar (init fun _ => 0) story ∧
    (AttrMap.run wideNameChar (AttrMap.init fun _ => 0) story).2 =
      [.node (some 0), .node none, .unit, .node (some 1), .node (some 0), .unit, .err .readOnly, .unit, .err .notFound] := by
  refine ⟨by decide, ?_, by decide +kernel⟩
  refine ⟨trivial, ⟨?_, ?_⟩, trivial, ⟨?_, ?_⟩, ⟨?_, ?_⟩, trivial, trivial, trivial, trivial, trivial⟩ <;> decide +kernel

/-- The same local name in two namespaces. -/
def storyNS : List Op :=
  [.createAttributeNS 0 ['u'] "p:a".toList, .setNamedItemNS 7 0, .setAttributeNS 7 ['v'] "q:a".toList ['1'],
   .setAttributeNS 7 ['u'] "r:a".toList ['2'], .getAttributeNS 7 ['u'] ['a'], .removeNamedItemNS 7 ['v'] ['a'],
   .hasAttributeNS 7 ['v'] ['a']]

theorem storyNS_local : ∀ op ∈ storyNS, HasLocal wideNameChar op := by
  intro op hop
  simp only [storyNS, List.mem_cons, List.not_mem_nil, or_false] at hop
  rcases hop with rfl | rfl | rfl | rfl | rfl | rfl | rfl
  · intro r hr
    have : r = ⟨"p:a".toList, true, ['u'], ['p'], ['a']⟩ := (Option.some.inj ((show _ = some _ by decide +kernel).symm.trans hr)).symm
    rw [this]; decide
  · exact trivial
  · intro r hr
    have : r = ⟨"q:a".toList, true, ['v'], ['q'], ['a']⟩ := (Option.some.inj ((show _ = some _ by decide +kernel).symm.trans hr)).symm
    rw [this]; decide
  · intro r hr
    have : r = ⟨"r:a".toList, true, ['u'], ['r'], ['a']⟩ := (Option.some.inj ((show _ = some _ by decide +kernel).symm.trans hr)).symm
    rw [this]; decide
  all_goals exact trivial

example : (∀ op ∈ storyNS, byName op = false) ∧ (∀ op ∈ storyNS, HasLocal wideNameChar op) ∧
    AllProper pairKeys wideNameChar (init fun _ => 0) storyNS ∧
    (AttrMap.run wideNameChar (AttrMap.init fun _ => 0) storyNS).2 =
      [.node (some 0), .node none, .unit, .unit, .str ['2'], .node (some 1), .bool false] := by
  refine ⟨by decide +kernel, storyNS_local, ?_, by decide +kernel⟩
  refine ⟨trivial, ⟨?_, ?_, ?_⟩, trivial, trivial, ?_, ?_, ?_, trivial⟩
  · decide +kernel
  · decide +kernel
  · intro r hr
    have : r = ⟨"p:a".toList, true, ['u'], ['p'], ['a']⟩ := (Option.some.inj ((show _ = some _ by decide +kernel).symm.trans hr)).symm
    rw [this]; decide
  all_goals simp [Proper]

/-- A prefix stands for the namespace of the same name. -/
def sameNs (q : Str) : Str × Str :=
  match cut q with
  | none => ([], q)
  | some (p, l) => (':' :: p, l)

theorem cut_inv (q p l : Str) (h : cut q = some (p, l)) : q = p ++ ':' :: l := by
  induction q generalizing p with
  | nil => cases h
  | cons c q ih =>
    rw [cut] at h
    by_cases hc : c = ':'
    · rw [if_pos hc] at h; cases h; rw [hc]; rfl
    · rw [if_neg hc] at h
      cases hq : cut q with
      | none => rw [hq] at h; cases h
      | some x =>
        rw [hq] at h; cases h
        rw [ih x.1 hq]; rfl

theorem sameNs_inj (n n' : Str) (h : sameNs n = sameNs n') : n = n' := by
  unfold sameNs at h
  cases h1 : cut n with
  | none =>
    rw [h1] at h
    cases h2 : cut n' with
    | none => rw [h2] at h; exact (Prod.mk.inj h).2
    | some x => rw [h2] at h; exact absurd (Prod.mk.inj h).1 (by simp)
  | some x =>
    rw [h1] at h
    cases h2 : cut n' with
    | none => rw [h2] at h; exact absurd (Prod.mk.inj h).1 (by simp)
    | some y =>
      rw [h2] at h
      obtain ⟨a, b⟩ := Prod.mk.inj h
      rw [cut_inv n _ _ h1, cut_inv n' _ _ h2, (List.cons.inj a).2, b]

/-- Set by namespace, read and removed by node name, and the other way round. -/
def storyMixed : List Op :=
  [.setAttribute 7 ['a'] ['0'], .setAttributeNS 7 [':', 'p'] "p:a".toList ['1'], .getAttribute 7 "p:a".toList,
   .getAttributeNS 7 [] ['a'], .removeAttributeNode 7 1, .hasAttributeNS 7 [':', 'p'] ['a']]

example : (∀ n n', sameNs n = sameNs n' → n = n') ∧
    (∀ op ∈ storyMixed, ∀ r, made wideNameChar op = some r → expanded r = sameNs r.name) ∧
    (∀ op ∈ storyMixed, HasLocal wideNameChar op) ∧
    AllProper (mixedKeys sameNs) wideNameChar (init fun _ => 0) storyMixed ∧
    (AttrMap.run wideNameChar (AttrMap.init fun _ => 0) storyMixed).2 =
      [.unit, .unit, .str ['1'], .str ['0'], .node (some 1), .bool false] := by
  refine ⟨sameNs_inj, ?_, ?_, ?_, by decide +kernel⟩
  · intro op hop
    simp only [storyMixed, List.mem_cons, List.not_mem_nil, or_false] at hop
    rcases hop with rfl | rfl | rfl | rfl | rfl | rfl
    · intro r hr
      have : r = plain ['a'] := (Option.some.inj ((show _ = some _ by decide +kernel).symm.trans hr)).symm
      rw [this]; decide
    · intro r hr
      have : r = ⟨"p:a".toList, true, [':', 'p'], ['p'], ['a']⟩ := (Option.some.inj ((show _ = some _ by decide +kernel).symm.trans hr)).symm
      rw [this]; decide +kernel
    all_goals exact fun r hr => nomatch hr
  · intro op hop
    simp only [storyMixed, List.mem_cons, List.not_mem_nil, or_false] at hop
    rcases hop with rfl | rfl | rfl | rfl | rfl | rfl
    · exact trivial
    · intro r hr
      have : r = ⟨"p:a".toList, true, [':', 'p'], ['p'], ['a']⟩ := (Option.some.inj ((show _ = some _ by decide +kernel).symm.trans hr)).symm
      rw [this]; decide
    all_goals exact trivial
  · refine ⟨trivial, trivial, trivial, ?_, ⟨?_, ?_⟩, ?_, trivial⟩
    · simp [Proper]
    · decide +kernel
    · decide +kernel
    · simp [Proper]

/-! ### Where the code is no map -/

/-- Two attributes with one node name: `getNamedItem` finds the first, not the last set, and
`removeAttributeNode` of the second removes the first. -/
theorem C20_violated_names :
    (AttrMap.run wideNameChar (AttrMap.init fun _ => 0)
      [.setAttributeNS 7 ['u'] "p:a".toList ['1'], .setAttributeNS 7 ['v'] "p:a".toList ['2'],
       .getAttribute 7 "p:a".toList, .removeAttributeNode 7 1, .hasAttributeNS 7 ['u'] ['a'], .hasAttributeNS 7 ['v'] ['a']]).2 =
      [.unit, .unit, .str ['1'], .node (some 1), .bool false, .bool true] := by decide +kernel

/-- An attribute that has been removed still names the element as its owner, and removing it again removes
another attribute of the same name. -/
theorem C20_violated_owner :
    (AttrMap.run wideNameChar (AttrMap.init fun _ => 0)
      [.createAttribute 0 ['a'], .setNamedItem 7 0, .removeAttributeNode 7 0, .setAttribute 7 ['a'] ['v'],
       .removeAttributeNode 7 0, .hasAttribute 7 ['a']]).2 =
      [.node (some 0), .node none, .node (some 0), .unit, .node (some 0), .bool false] ∧
    getOwnerElement (AttrMap.run wideNameChar (AttrMap.init fun _ => 0)
      [.createAttribute 0 ['a'], .setNamedItem 7 0, .removeAttributeNode 7 0]).1 0 = some 7 := by
  refine ⟨?_, ?_⟩ <;> decide +kernel

/-- An attribute from another document is refused, but is from then on in use: the second attempt seems to
succeed, the attribute is not in the map, and its own document's elements refuse it. -/
theorem C20_violated_document :
    (AttrMap.run wideNameChar (AttrMap.init fun e => e)
      [.createAttribute 1 ['a'], .setNamedItem 0 0, .setNamedItem 0 0, .hasAttribute 0 ['a'], .setNamedItem 1 0]).2 =
      [.node (some 0), .err .wrongDoc, .node (some 0), .bool false, .err .inUse] := by decide +kernel

/-- An attribute made without namespace and set with `setAttributeNodeNS` replaces one of another name. -/
theorem C20_violated_local :
    (AttrMap.run wideNameChar (AttrMap.init fun _ => 0)
      [.setAttribute 7 ['a'] ['1'], .createAttribute 0 ['b'], .setNamedItemNS 7 1, .hasAttribute 7 ['a']]).2 =
      [.unit, .node (some 1), .node (some 0), .bool false] := by decide +kernel

end Verif.Props.AttrMap
