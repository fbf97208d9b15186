import Verif.Lemmas.XsltProcess
set_option autoImplicit false
set_option linter.unusedSimpArgs false
set_option linter.unusedVariables false
/-!
# From instructions with text in them to those the library runs
-/
namespace Verif.XsltProcess
open Verif.XPathParse (Expr flat)
open Verif.XPathMatch (MatchExpr)
open Verif.XsltCompile (Str Scope Ext Ns SortBy Code)
open Verif.XsltRun (VName Params Attribute SortKey Item Items Whens Template like_flat like_refl LikeSorts LikeParams LikeAttributes LikeItem LikeItems
  LikeWhens LikeTemplate)
open Verif.Spec.XsltProcess

section
variable (fnNum : Str → Str → Bool) (num : Str → Option Rat)

/-- The library makes this of the text of an expression. -/
def TrExpr (t : Text) (e : Expr) : Prop := (library fnNum num).expr true true t.scope t.text = some e

/-- The library makes this of the text of a template. -/
def TrAvt (t : Text) (e : Expr) : Prop := (library fnNum num).avt true t.scope t.text = some e

inductive TrValue : Option Text → List (Code Text VName) → Option Expr → List (Code Expr VName) → Prop where
  | select (t : Text) (e : Expr) (h : TrExpr fnNum num t e) : TrValue (some t) [] (some e) []
  | empty : TrValue none [] none []

inductive TrParams : List (VName × Option Text × List (Code Text VName)) →
    List (VName × Option Expr × List (Code Expr VName)) → Prop where
  | nil : TrParams [] []
  | cons (n : VName) {v : Option Text} {b : List (Code Text VName)} {v' : Option Expr} {b' : List (Code Expr VName)}
      {ps : List (VName × Option Text × List (Code Text VName))} {ps' : List (VName × Option Expr × List (Code Expr VName))}
      (h : TrValue fnNum num v b v' b') (hs : TrParams ps ps') : TrParams ((n, v, b) :: ps) ((n, v', b') :: ps')

inductive TrAttributes : List (Str × Str × Text) → List (Str × Str × Expr) → Prop where
  | nil : TrAttributes [] []
  | cons (qn u : Str) {t : Text} {e : Expr} {as : List (Str × Str × Text)} {as' : List (Str × Str × Expr)}
      (h : TrAvt fnNum num t e) (hs : TrAttributes as as') : TrAttributes ((qn, u, t) :: as) ((qn, u, e) :: as')

inductive TrNs : Ns Text → Ns Expr → Prop where
  | scope (sc : Scope) : TrNs (.scope sc) (.scope sc)
  | avt {t : Text} {e : Expr} (h : TrAvt fnNum num t e) : TrNs (.avt t) (.avt e)

inductive TrSorts : List (SortBy Text) → List (SortBy Expr) → Prop where
  | nil : TrSorts [] []
  | cons {s : SortBy Text} {s' : SortBy Expr} {ss : List (SortBy Text)} {ss' : List (SortBy Expr)} (lang : s.lang = none)
      (lang' : s'.lang = none) (select : TrExpr fnNum num s.select s'.select) (dataType : TrAvt fnNum num s.dataType s'.dataType)
      (order : TrAvt fnNum num s.order s'.order) (caseOrder : TrAvt fnNum num s.caseOrder s'.caseOrder)
      (hs : TrSorts ss ss') : TrSorts (s :: ss) (s' :: ss')

mutual

inductive Tr : Code Text VName → Code Expr VName → Prop where
  | text (s : Str) : Tr (.text s false) (.text s false)
  | valueOf {t : Text} {e : Expr} (h : TrExpr fnNum num t e) : Tr (.valueOf t false) (.valueOf e false)
  | copyOf {t : Text} {e : Expr} (h : TrExpr fnNum num t e) : Tr (.copyOf t) (.copyOf e)
  | applySelect {t : Text} {e : Expr} (m : Option VName) {ss : List (SortBy Text)} {ss' : List (SortBy Expr)}
      {ps : List (VName × Option Text × List (Code Text VName))} {ps' : List (VName × Option Expr × List (Code Expr VName))}
      (h : TrExpr fnNum num t e) (hs : TrSorts fnNum num ss ss') (hp : TrParams fnNum num ps ps') :
      Tr (.applyTemplates (some t) m ss ps) (.applyTemplates (some e) m ss' ps')
  | applyChildren (m : Option VName) {ss : List (SortBy Text)} {ss' : List (SortBy Expr)}
      {ps : List (VName × Option Text × List (Code Text VName))} {ps' : List (VName × Option Expr × List (Code Expr VName))}
      (hs : TrSorts fnNum num ss ss') (hp : TrParams fnNum num ps ps') :
      Tr (.applyTemplates none m ss ps) (.applyTemplates none m ss' ps')
  | call (n : VName) {ps : List (VName × Option Text × List (Code Text VName))}
      {ps' : List (VName × Option Expr × List (Code Expr VName))} (hp : TrParams fnNum num ps ps') :
      Tr (.callTemplate n ps) (.callTemplate n ps')
  | choose {ws : List (Text × List (Code Text VName))} {ws' : List (Expr × List (Code Expr VName))}
      {o : Option (List (Code Text VName))} {o' : Option (List (Code Expr VName))} (hw : TrWhens ws o ws' o') :
      Tr (.choose ws o) (.choose ws' o')
  | ifThen {t : Text} {e : Expr} {b : List (Code Text VName)} {b' : List (Code Expr VName)} (h : TrExpr fnNum num t e)
      (hb : TrAll b b') : Tr (.ifThen t b) (.ifThen e b')
  | forEach {t : Text} {e : Expr} {ss : List (SortBy Text)} {ss' : List (SortBy Expr)} {b : List (Code Text VName)}
      {b' : List (Code Expr VName)} (h : TrExpr fnNum num t e) (hs : TrSorts fnNum num ss ss') (hb : TrAll b b') :
      Tr (.forEach t ss b) (.forEach e ss' b')
  | comment {b : List (Code Text VName)} {b' : List (Code Expr VName)} (hb : TrAll b b') : Tr (.comment b) (.comment b')
  | procInst {t : Text} {e : Expr} {b : List (Code Text VName)} {b' : List (Code Expr VName)} (h : TrAvt fnNum num t e)
      (hb : TrAll b b') : Tr (.procInst t b) (.procInst e b')
  | copy {b : List (Code Text VName)} {b' : List (Code Expr VName)} (hb : TrAll b b') : Tr (.copy b) (.copy b')
  | variable (n : VName) {v : Option Text} {b : List (Code Text VName)} {v' : Option Expr} {b' : List (Code Expr VName)}
      (h : TrValue fnNum num v b v' b') : Tr (.variable n v b) (.variable n v' b')
  | element {t : Text} {e : Expr} {ns : Ns Text} {ns' : Ns Expr} {b : List (Code Text VName)} {b' : List (Code Expr VName)}
      (h : TrAvt fnNum num t e) (hn : TrNs fnNum num ns ns') (hb : TrAll b b') : Tr (.element t ns b) (.element e ns' b')
  | attribute {t : Text} {e : Expr} {ns : Ns Text} {ns' : Ns Expr} {b : List (Code Text VName)} {b' : List (Code Expr VName)}
      (h : TrAvt fnNum num t e) (hn : TrNs fnNum num ns ns') (hb : TrAll b b') : Tr (.attribute t ns b) (.attribute e ns' b')
  | literal (qn u : Str) {as : List (Str × Str × Text)} {as' : List (Str × Str × Expr)} {b : List (Code Text VName)}
      {b' : List (Code Expr VName)} (ha : TrAttributes fnNum num as as') (hb : TrAll b b') :
      Tr (.literal qn u as b) (.literal qn u as' b')

inductive TrAll : List (Code Text VName) → List (Code Expr VName) → Prop where
  | nil : TrAll [] []
  | cons {c : Code Text VName} {c' : Code Expr VName} {cs : List (Code Text VName)} {cs' : List (Code Expr VName)}
      (h : Tr c c') (hs : TrAll cs cs') : TrAll (c :: cs) (c' :: cs')

inductive TrWhens : List (Text × List (Code Text VName)) → Option (List (Code Text VName)) →
    List (Expr × List (Code Expr VName)) → Option (List (Code Expr VName)) → Prop where
  | none : TrWhens [] none [] none
  | otherwise {b : List (Code Text VName)} {b' : List (Code Expr VName)} (hb : TrAll b b') : TrWhens [] (some b) [] (some b')
  | when {t : Text} {e : Expr} {b : List (Code Text VName)} {b' : List (Code Expr VName)}
      {ws : List (Text × List (Code Text VName))} {ws' : List (Expr × List (Code Expr VName))}
      {o : Option (List (Code Text VName))} {o' : Option (List (Code Expr VName))} (h : TrExpr fnNum num t e)
      (hb : TrAll b b') (hw : TrWhens ws o ws' o') : TrWhens ((t, b) :: ws) o ((e, b') :: ws') o'

end

/-- A template: parameters first. -/
inductive TrTemplate : List (Code Text VName) → List (Code Expr VName) → Prop where
  | body {cs : List (Code Text VName)} {cs' : List (Code Expr VName)} (h : TrAll fnNum num cs cs') : TrTemplate cs cs'
  | param (n : VName) {v : Option Text} {b : List (Code Text VName)} {v' : Option Expr} {b' : List (Code Expr VName)}
      {cs : List (Code Text VName)} {cs' : List (Code Expr VName)} (h : TrValue fnNum num v b v' b') (hs : TrTemplate cs cs') :
      TrTemplate (.param n v b :: cs) (.param n v' b' :: cs')

/-! ## Loading -/

variable {fnNum num}

theorem value_tr {v : Option Text} {b : List (Code Text VName)} {x : Expr} (h : ValueIs v b x) :
    ∃ v' b' y, TrValue fnNum num v b v' b' ∧ loadValue v' b' = some y ∧ flat y = flat x := by
  cases h with
  | select t x h =>
    obtain ⟨e, h1, h2, _⟩ := library_expr fnNum num h
    exact ⟨some e, [], e, .select t e h1, rfl, h2⟩
  | empty => exact ⟨none, [], _, .empty, rfl, rfl⟩

theorem params_tr {ps : List (VName × Option Text × List (Code Text VName))} {qs : Params} (h : ParamsAre ps qs) :
    ∃ ps' qs', TrParams fnNum num ps ps' ∧ loadParams ps' = some qs' ∧ LikeParams qs qs' := by
  induction h with
  | nil => exact ⟨[], [], .nil, rfl, .nil⟩
  | cons n v b x ps qs h rest ih =>
    obtain ⟨v', b', y, h1, h2, h3⟩ := value_tr h
    obtain ⟨ps', qs', h4, h5, h6⟩ := ih
    exact ⟨_, _, .cons n h1 h4, by rw [loadParams, h2, h5]; rfl, .cons n (like_flat h3) h6⟩

theorem attributes_tr {as : List (Str × Str × Text)} {bs : List Attribute} (h : AttributesAre as bs) :
    ∃ as', TrAttributes fnNum num as as' ∧ LikeAttributes bs (loadAttributes as') := by
  induction h with
  | nil => exact ⟨[], .nil, .nil⟩
  | cons qn p l u t x as bs name h rest ih =>
    obtain ⟨e, h1, h2⟩ := library_avt fnNum num h
    obtain ⟨as', h3, h4⟩ := ih
    refine ⟨(qn, u, e) :: as', .cons qn u h1 h3, ?_⟩
    rw [loadAttributes, List.map_cons, splitName_qn name]
    exact .cons p l u (like_flat h2) h4

theorem element_ns {p u : Str} {ns : Ns Text} (h : NamespaceIs true p ns u) :
    ∃ ns', TrNs fnNum num ns ns' ∧ elementUri p ns' = some u := by
  cases h with
  | given t _ h =>
    obtain ⟨rfl, h1, h2⟩ := h
    exact ⟨.avt _, .avt (library_constant fnNum num h1 h2), rfl⟩
  | pfx sc _ hp h =>
    refine ⟨.scope sc, .scope sc, ?_⟩
    rw [elementUri, if_neg hp]
    unfold bound at h
    split at h
    · cases h; assumption
    · cases h
  | default sc _ hp he h =>
    subst hp h
    exact ⟨.scope sc, .scope sc, by rw [elementUri, if_pos rfl]⟩
  | none sc hp he => cases he

theorem attribute_ns {p u : Str} {ns : Ns Text} (h : NamespaceIs false p ns u) :
    ∃ ns', TrNs fnNum num ns ns' ∧ attributeUri p ns' = some u := by
  cases h with
  | given t _ h =>
    obtain ⟨rfl, h1, h2⟩ := h
    exact ⟨.avt _, .avt (library_constant fnNum num h1 h2), rfl⟩
  | pfx sc _ hp h =>
    refine ⟨.scope sc, .scope sc, ?_⟩
    rw [attributeUri, if_neg hp]
    unfold bound at h
    split at h
    · cases h; assumption
    · cases h
  | default sc _ hp he h => cases he
  | none sc hp he =>
    subst hp
    exact ⟨.scope sc, .scope sc, by rw [attributeUri, if_pos rfl]⟩

theorem modeName_text (m : Option VName) : modeName m = modeText m := by
  cases m with
  | none => rfl
  | some p => rfl

theorem xml_lower {a b c : Char}
    (h : ((a = 'X' || a = 'x') && (b = 'M' || b = 'm') && (c = 'L' || c = 'l')) = true) :
    a.toLower = 'x' ∧ b.toLower = 'm' ∧ c.toLower = 'l' := by
  simp only [Bool.and_eq_true, Bool.or_eq_true, decide_eq_true_eq] at h
  obtain ⟨⟨ha, hb⟩, hc⟩ := h
  rcases ha with rfl | rfl <;> rcases hb with rfl | rfl <;> rcases hc with rfl | rfl <;> decide

theorem target_valid {t : Text} {s : Str} (h : TargetIs t s) : validTarget s = true := by
  obtain ⟨_, h1, h2⟩ := h
  have h3 : ∀ a b c, s = [a, b, c] →
      ((a = 'X' || a = 'x') && (b = 'M' || b = 'm') && (c = 'L' || c = 'l')) = false := by
    intro a b c e
    have := h2 a b c e
    cases hx : ((a = 'X' || a = 'x') && (b = 'M' || b = 'm') && (c = 'L' || c = 'l')) with
    | false => rfl
    | true => exact absurd (xml_lower hx) this
  unfold validTarget
  rw [ncName_codes h1, Bool.true_and]
  match s, h3 with
  | [], _ => rfl
  | [_], _ => rfl
  | [_, _], _ => rfl
  | [a, b, c], h3 =>
    show (!((a = 'X' || a = 'x') && (b = 'M' || b = 'm') && (c = 'L' || c = 'l'))) = true
    rw [h3 a b c rfl]; rfl
  | _ :: _ :: _ :: _ :: _, _ => rfl

theorem sorts_tr {ss : List (SortBy Text)} {ks : List SortKey} (h : SortsAre ss ks) :
    ∃ ss', TrSorts fnNum num ss ss' ∧ LikeSorts ks (loadSorts ss') := by
  induction h with
  | nil => exact ⟨[], .nil, .nil⟩
  | cons s k ss ks h1 h2 h3 h4 h5 _ ih =>
    obtain ⟨e, a1, a2, _⟩ := library_expr fnNum num h2
    obtain ⟨d, b1, b2⟩ := library_avt fnNum num h3
    obtain ⟨o, c1, c2⟩ := library_avt fnNum num h4
    obtain ⟨c, d1, d2⟩ := library_avt fnNum num h5
    obtain ⟨ss', i1, i2⟩ := ih
    exact ⟨⟨e, none, d, o, c⟩ :: ss', .cons h1 rfl a1 b1 c1 d1 i1,
      .cons (like_flat a2) (like_flat b2) (like_flat c2) (like_flat d2) i2⟩

mutual

theorem stands_tr : ∀ {c : Code Text VName} {i : Item}, Stands c i →
    ∃ c' i', Tr fnNum num c c' ∧ load c' = some i' ∧ LikeItem i i'
  | _, _, .text s => ⟨_, _, .text s, by rw [load]; rfl, .text s⟩
  | _, _, .valueOf t x h => by
    obtain ⟨e, h1, h2, h3⟩ := library_expr fnNum num h
    exact ⟨_, _, .valueOf h1, by rw [load]; simp only [h3]; rfl, .valueOf (like_flat h2)⟩
  | _, _, .current t h => by
    obtain ⟨e, h1, h3⟩ := library_current fnNum num h
    exact ⟨_, _, .valueOf h1, by rw [load]; simp only [h3]; rfl, .current⟩
  | _, _, .copyOf t x h => by
    obtain ⟨e, h1, h2, h3⟩ := library_expr fnNum num h
    exact ⟨_, _, .copyOf h1, by rw [load], .copyOf (like_flat h2)⟩
  | _, _, .applySelect t x m ss ks ps qs h hs hp => by
    obtain ⟨e, h1, h2, h3⟩ := library_expr fnNum num h
    obtain ⟨ss', s1, s2⟩ := sorts_tr hs
    obtain ⟨ps', qs', h4, h5, h6⟩ := params_tr hp
    exact ⟨_, _, .applySelect m h1 s1 h4, by rw [load, h5]; rfl,
      by rw [modeName_text]; exact .applySelect _ (like_flat h2) s2 h6⟩
  | _, _, .applyChildren m ss ks ps qs hs hp => by
    obtain ⟨ss', s1, s2⟩ := sorts_tr hs
    obtain ⟨ps', qs', h4, h5, h6⟩ := params_tr hp
    exact ⟨_, _, .applyChildren m s1 h4, by rw [load, h5]; rfl, by rw [modeName_text]; exact .applyChildren _ s2 h6⟩
  | _, _, .call n ps qs hp => by
    obtain ⟨ps', qs', h4, h5, h6⟩ := params_tr hp
    exact ⟨_, _, .call n h4, by rw [load, h5]; rfl, .call n h6⟩
  | _, _, .choose ws o is h => by
    obtain ⟨ws', o', b, is', h1, h2, h3, h4⟩ := whens_tr h
    refine ⟨_, .choose is', .choose h1, ?_, .choose h4⟩
    rcases h2 with ⟨rfl, rfl⟩ | ⟨ob, rfl, h2⟩
    · rw [load, h3]; rfl
    · rw [load, h2]
      show (loadWhens b ws' >>= _) = _
      rw [h3]; rfl
  | _, _, .ifThen t x b is h hb => by
    obtain ⟨e, h1, h2, h3⟩ := library_expr fnNum num h
    obtain ⟨b', is', h4, h5, h6⟩ := all_tr hb
    exact ⟨_, _, .ifThen h1 h4, by rw [load, h5]; rfl, .ifThen (like_flat h2) h6⟩
  | _, _, .forEach t x ss ks b is h hs hb => by
    obtain ⟨e, h1, h2, h3⟩ := library_expr fnNum num h
    obtain ⟨ss', s1, s2⟩ := sorts_tr hs
    obtain ⟨b', is', h4, h5, h6⟩ := all_tr hb
    exact ⟨_, _, .forEach h1 s1 h4, by rw [load, h5]; rfl, .forEach (like_flat h2) s2 h6⟩
  | _, _, .comment b is hb => by
    obtain ⟨b', is', h4, h5, h6⟩ := all_tr hb
    exact ⟨_, _, .comment h4, by rw [load, h5]; rfl, .comment h6⟩
  | _, _, .pi t s b is h hb => by
    obtain ⟨b', is', h4, h5, h6⟩ := all_tr hb
    have hv := target_valid h
    obtain ⟨rfl, h1, h2⟩ := h
    refine ⟨_, _, .procInst (library_constant fnNum num (ncName_ne h1) (ncName_brace h1)) h4, ?_, .pi _ h6⟩
    rw [load, h5]
    show (if validTarget t.text = true then _ else _) = _
    rw [if_pos hv]
  | _, _, .copy b is hb => by
    obtain ⟨b', is', h4, h5, h6⟩ := all_tr hb
    exact ⟨_, _, .copy h4, by rw [load, h5]; rfl, .copy h6⟩
  | _, _, .variable n v b x h => by
    obtain ⟨v', b', y, h1, h2, h3⟩ := value_tr h
    exact ⟨_, _, .variable n h1, by rw [load, h2]; rfl, .variable n (like_flat h3)⟩
  | _, _, .element t ns p l u b is h hn hb => by
    obtain ⟨b', is', h4, h5, h6⟩ := all_tr hb
    obtain ⟨g1, g2, g3, g4⟩ := computed_qname h
    obtain ⟨ns', g5, g6⟩ := element_ns hn
    refine ⟨_, _, .element (library_constant fnNum num g3 g4) g5 h4, ?_, .element p l u .nil h6⟩
    rw [load, h5]
    show (elementUri (splitName t.text).1 ns' >>= _) = _
    rw [g2, g6]
    show (if Verif.Names.isQName (codes t.text) = true then _ else _) = _
    rw [if_pos g1]
  | _, _, .attribute t ns p l u b is h hn hb => by
    obtain ⟨b', is', h4, h5, h6⟩ := all_tr hb
    obtain ⟨g1, g2, g3, g4⟩ := computed_qname h
    obtain ⟨ns', g5, g6⟩ := attribute_ns hn
    refine ⟨_, _, .attribute (library_constant fnNum num g3 g4) g5 h4, ?_, .attribute p l u h6⟩
    rw [load, h5]
    show (attributeUri (splitName t.text).1 ns' >>= _) = _
    rw [g2, g6]
    show (if t.text = [] then _ else _) = _
    rw [if_neg g3]
  | _, _, .literal qn u p l as bs b is h ha hb => by
    obtain ⟨b', is', h4, h5, h6⟩ := all_tr hb
    obtain ⟨as', h7, h8⟩ := attributes_tr ha
    refine ⟨_, _, .literal qn u h7 h4, by rw [load, h5]; rfl, ?_⟩
    rw [splitName_qn h]
    exact .element p l u h8 h6

theorem all_tr : ∀ {cs : List (Code Text VName)} {is : Items}, StandsAll cs is →
    ∃ cs' is', TrAll fnNum num cs cs' ∧ loadAll cs' = some is' ∧ LikeItems is is'
  | _, _, .nil => ⟨_, _, .nil, by rw [loadAll], .nil⟩
  | _, _, .cons c cs i is h rest => by
    obtain ⟨c', i', h1, h2, h3⟩ := stands_tr h
    obtain ⟨cs', is', h4, h5, h6⟩ := all_tr rest
    exact ⟨_, _, .cons h1 h4, by rw [loadAll, h2, h5]; rfl, .cons h3 h6⟩

theorem whens_tr : ∀ {ws : List (Text × List (Code Text VName))} {o : Option (List (Code Text VName))} {is : Whens},
    StandsWhens ws o is → ∃ ws' o' b is', TrWhens fnNum num ws o ws' o' ∧
      ((o' = none ∧ b = .nil) ∨ ∃ ob, o' = some ob ∧ loadAll ob = some b) ∧ loadWhens b ws' = some is' ∧ LikeWhens is is'
  | _, _, _, .none => ⟨_, _, .nil, _, .none, .inl ⟨rfl, rfl⟩, by rw [loadWhens], .otherwise .nil⟩
  | _, _, _, .otherwise b is hb => by
    obtain ⟨b', is', h4, h5, h6⟩ := all_tr hb
    exact ⟨_, _, is', _, .otherwise h4, .inr ⟨b', rfl, h5⟩, by rw [loadWhens], .otherwise h6⟩
  | _, _, _, .when t x b is ws o rs h hb rest => by
    obtain ⟨e, h1, h2, h3⟩ := library_expr fnNum num h
    obtain ⟨b', is', h4, h5, h6⟩ := all_tr hb
    obtain ⟨ws', o', ob, rs', g1, g2, g3, g4⟩ := whens_tr rest
    exact ⟨_, _, ob, _, .when h1 h4 g1, g2, by rw [loadWhens, h5, g3]; rfl, .when (like_flat h2) h6 g4⟩

end

theorem tr_not_param {cs : List (Code Text VName)} {cs' : List (Code Expr VName)} (h : TrAll fnNum num cs cs') :
    ∀ n v b r, cs' ≠ .param n v b :: r := by
  rintro n v b r rfl
  cases h with
  | cons h _ => cases h

theorem template_tr {cs : List (Code Text VName)} {a : Template} (h : StandsTemplate cs a) :
    ∃ cs' a', TrTemplate fnNum num cs cs' ∧ loadTemplate cs' = some a' ∧ LikeTemplate a a' := by
  induction h with
  | body cs is h =>
    obtain ⟨cs', is', h1, h2, h3⟩ := all_tr h
    refine ⟨cs', ⟨[], is'⟩, .body h1, ?_, ⟨.nil, h3⟩⟩
    unfold loadTemplate
    split
    · exact absurd rfl (tr_not_param h1 _ _ _ _)
    · rw [h2]; rfl
  | param n v b x cs ps is h rest ih =>
    obtain ⟨v', b', y, h1, h2, h3⟩ := value_tr h
    obtain ⟨cs', a', h4, h5, h6⟩ := ih
    exact ⟨_, ⟨(n, y) :: a'.params, a'.body⟩, .param n h1 h4, by rw [loadTemplate, h2, h5]; rfl,
      ⟨.cons n (like_flat h3) h6.params, h6.body⟩⟩

end

end Verif.XsltProcess
