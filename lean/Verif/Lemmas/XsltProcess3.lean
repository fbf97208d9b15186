import Verif.Lemmas.XsltProcess2
set_option autoImplicit false
set_option linter.unusedSimpArgs false
set_option linter.unusedVariables false
/-!
# A stylesheet as it is written, and as the library compiles it
-/
namespace Verif.XsltProcess
open Verif.XPathParse (Expr flat)
open Verif.XPathMatch (MatchExpr)
open Verif.XsltCompile (Str Scope Ext Ns Code El Attr SortBy Sheet)
open Verif.XsltRun (VName)
open Verif.Spec.XsltProcess
open Verif.Spec.XsltCompile

section
variable {fnNum : Str → Str → Bool} {num : Str → Option Rat}

theorem trAll_append : ∀ {as bs : List (Code Text VName)} {cs : List (Code Expr VName)},
    TrAll fnNum num (as ++ bs) cs → ∃ as' bs', cs = as' ++ bs' ∧ TrAll fnNum num as as' ∧ TrAll fnNum num bs bs'
  | [], _, cs, h => ⟨[], cs, rfl, .nil, h⟩
  | a :: as, _, _, h => by
    cases h with
    | cons h hs =>
      obtain ⟨as', bs', rfl, h1, h2⟩ := trAll_append hs
      exact ⟨_ :: as', bs', rfl, .cons h h1, h2⟩

theorem trAll_texts : ∀ {ps : List Str} {cs : List (Code Expr VName)},
    TrAll fnNum num (ps.map fun p => .text p false) cs → cs = ps.map fun p => .text p false
  | [], _, h => by cases h; rfl
  | p :: ps, _, h => by
    cases h with
    | cons h hs =>
      cases h
      rw [trAll_texts hs]; rfl

theorem trAll_nil {cs : List (Code Expr VName)} (h : TrAll fnNum num [] cs) : cs = [] := by cases h; rfl

theorem name_same {sc : Scope} {s : Str} {n : VName} (h : (written num).name sc s = some n) :
    (library fnNum num).name sc s = some n := qualified_name h

theorem name?_same {el : El} {a : Att} {n : Option VName} (h : name? (written num) el a = some n) :
    name? (library fnNum num) el a = some n := by
  unfold name? at h ⊢
  split at h
  · exact h
  · cases h
  · rw [Option.map_eq_some_iff] at h ⊢
    obtain ⟨v, h1, h2⟩ := h
    exact ⟨v, name_same h1, h2⟩

theorem select_none {el : El} (h : select? (written num) el = some none) : select? (library fnNum num) el = some none := by
  unfold select? at h ⊢
  split at h
  · rfl
  · cases h
  · cases h

theorem select_some {el : El} {t : Text} {e : Expr} (h : select? (written num) el = some (some t))
    (he : TrExpr fnNum num t e) : select? (library fnNum num) el = some (some e) := by
  unfold select? at h ⊢
  split at h
  · cases h
  · cases h
  · rename_i c cs _
    simp only [written, Option.map_some, Option.some.injEq] at h
    subst h
    rw [show (library fnNum num).expr true true el.scope (c :: cs) = some e from he]; rfl

theorem nsOf_same {el : El} {ns : Ns Text} {ns' : Ns Expr} (h : nsOf (written num) el = some ns) (hn : TrNs fnNum num ns ns') :
    nsOf (library fnNum num) el = some ns' := by
  unfold nsOf at h ⊢
  split at h
  · cases h; cases hn; rfl
  · rename_i v _
    simp only [written, Option.map_some, Option.some.injEq] at h
    subst h
    cases hn with
    | avt h =>
      rw [show (library fnNum num).avt true el.scope v = some _ from h]; rfl

theorem literalAtts_same {sc : Scope} : ∀ {as : List Attr} {bs : List (Str × Str × Text)} {bs' : List (Str × Str × Expr)},
    literalAtts (written num) sc as = some bs → TrAttributes fnNum num bs bs' →
      literalAtts (library fnNum num) sc as = some bs'
  | [], _, _, h, hb => by
    cases h; cases hb; rfl
  | a :: as, bs, bs', h, hb => by
    rw [literalAtts] at h ⊢
    split at h
    · rename_i hx
      rw [if_pos hx]
      exact literalAtts_same h hb
    · rename_i hx
      rw [if_neg hx]
      simp only [written, bind, Option.bind_some] at h
      rw [show (Ext.mk _ _ _ _ _ : Ext Text Text VName Rat) = written num from rfl] at h
      cases hr : literalAtts (written num) sc as with
      | none => rw [hr] at h; cases h
      | some r =>
        rw [hr] at h
        simp only [Option.bind_some, Option.some.injEq] at h
        subst h
        cases hb with
        | cons _ _ h hs =>
          rw [show (library fnNum num).avt true sc a.value = some _ from h, literalAtts_same hr hs]; rfl

theorem binding_value {el : El} {n : VName} {v : Option Text} {b : List (Code Text VName)} {v' : Option Expr}
    {b' : List (Code Expr VName)} (h : binding (written num) el = some (n, v)) (hv : TrValue fnNum num v b v' b') :
    binding (library fnNum num) el = some (n, v') := by
  unfold binding at h ⊢
  simp only [bind, Option.bind_eq_some_iff, Option.some.injEq, Prod.mk.injEq] at h ⊢
  obtain ⟨u, h1, s, h2, m, h3, e, h4, rfl, rfl⟩ := h
  refine ⟨u, h1, s, h2, m, name_same h3, v', ?_, rfl, rfl⟩
  cases hv with
  | select t e h => exact select_some h4 h
  | empty => exact select_none h4

theorem sortOf_same {el : El} {kids : List Src} {s : SortBy Text} {s' : SortBy Expr} {ss : List (SortBy Text)}
    {ss' : List (SortBy Expr)} (h : sortOf (written num) el kids = some s)
    (ht : TrSorts fnNum num (s :: ss) (s' :: ss')) :
    sortOf (library fnNum num) el kids = some s' ∧ TrSorts fnNum num ss ss' := by
  unfold sortOf at h ⊢
  simp only [bind, Option.bind_eq_some_iff] at h ⊢
  obtain ⟨u, h1, e, h2, l, h3, d, h4, o, h5, c, h6, h⟩ := h
  split at h
  · rename_i hn
    cases h
    cases ht with
    | cons a1 a2 a3 a4 a5 a6 a7 =>
      cases h2
      cases h4
      cases h5
      cases h6
      simp only at a1 a3 a4 a5 a6
      refine ⟨⟨u, h1, _, a3, none, ?_, _, a4, _, a5, _, a6, ?_⟩, a7⟩
      · subst a1
        unfold lang? at h3 ⊢
        split at h3
        · rfl
        · cases h3
      · rw [if_pos hn, ← a2]
  · cases h

/-- No `xsl:fallback`, all through. -/
def NoFallback (k : Src) : Prop := ∀ x ∈ nodes k, tag x.1 ≠ some .fallback
def NoFallbacks (ks : List Src) : Prop := ∀ x ∈ nodesAll ks, tag x.1 ≠ some .fallback

theorem NoFallback.kids {el : El} {kids : List Src} (h : NoFallback (.elem el kids)) : NoFallbacks kids := fun x hx =>
  h x (by rw [nodes]; exact List.mem_cons_of_mem _ hx)
theorem NoFallback.self {el : El} {kids : List Src} (h : NoFallback (.elem el kids)) : tag el ≠ some .fallback :=
  h (el, kids) (by rw [nodes]; exact List.mem_cons_self)
theorem NoFallbacks.head {k : Src} {ks : List Src} (h : NoFallbacks (k :: ks)) : NoFallback k := fun x hx =>
  h x (by rw [nodesAll]; exact List.mem_append_left _ hx)
theorem NoFallbacks.tail {k : Src} {ks : List Src} (h : NoFallbacks (k :: ks)) : NoFallbacks ks := fun x hx =>
  h x (by rw [nodesAll]; exact List.mem_append_right _ hx)

theorem whens_nil {ws : List (Text × List (Code Text VName))} {o : Option (List (Code Text VName))}
    {ws' : List (Expr × List (Code Expr VName))} {o' : Option (List (Code Expr VName))} (h : TrWhens fnNum num ws o ws' o')
    (hn : ws ≠ []) : ws' ≠ [] := by
  cases h with
  | none => exact absurd rfl hn
  | otherwise _ => exact absurd rfl hn
  | when _ _ _ => exact (fun h => by cases h)

theorem bind_ifs {α β : Type} {p q : Prop} [Decidable p] [Decidable q] {a b c : Option α} {f : α → Option β} :
    (if p then a.bind f else if q then b.bind f else c.bind f) = (if p then a else if q then b else c).bind f := by
  split
  · rfl
  · split <;> rfl

set_option maxHeartbeats 800000 in
mutual

theorem item_same : ∀ (k : Src) {cs : List (Code Text VName)} {cs' : List (Code Expr VName)}, NoFallback k →
    item (written num) k = some cs → TrAll fnNum num cs cs' → item (library fnNum num) k = some cs'
  | .text ps, cs, cs', _, h, ht => by
    rw [item] at h ⊢
    split at h
    · rename_i hw
      rw [if_pos hw]
      cases h
      rw [trAll_nil ht]
    · rename_i hw
      rw [if_neg hw]
      cases h
      rw [trAll_texts ht]
  | .elem el kids, cs, cs', hf, h, ht => by
    have hself := hf.self
    have hk := hf.kids
    rw [item] at h ⊢
    by_cases hx : el.uri = xsltNs
    · rw [if_pos hx] at h ⊢
      cases hg : tag el with
      | none => rw [hg] at h; cases h
      | some g =>
        rw [hg] at h
        cases g with
        | applyImports =>
          simp only [bind, Option.bind_eq_some_iff] at h
          obtain ⟨u, h1, h⟩ := h
          split at h
          · cases h
            cases ht with
            | cons h _ => cases h
          · cases h
        | applyTemplates =>
          simp only [bind, Option.bind_eq_some_iff, Option.some.injEq] at h ⊢
          obtain ⟨u, h1, e, h2, m, h3, sp, h4, rfl⟩ := h
          cases ht with
          | cons h hs =>
            cases hs
            obtain ⟨ss, ps⟩ := sp
            cases h with
            | applySelect m h hs hp =>
              exact ⟨u, h1, _, select_some h2 h, _, name?_same h3, _, arguments_same kids true hk h4 hs hp, rfl⟩
            | applyChildren m hs hp =>
              exact ⟨u, h1, _, select_none h2, _, name?_same h3, _, arguments_same kids true hk h4 hs hp, rfl⟩
        | «attribute» =>
          simp only [bind, Option.bind_eq_some_iff, Option.some.injEq] at h ⊢
          obtain ⟨u, h1, s, h2, e, h3, ns, h4, b, h5, rfl⟩ := h
          cases ht with
          | cons h hs =>
            cases hs
            cases h with
            | «attribute» h hn hb =>
              cases h3
              exact ⟨u, h1, s, h2, _, h, _, nsOf_same h4 hn, _, content_same kids hk h5 hb, rfl⟩
        | callTemplate =>
          simp only [bind, Option.bind_eq_some_iff, Option.some.injEq] at h ⊢
          obtain ⟨u, h1, s, h2, n, h3, sp, h4, rfl⟩ := h
          cases ht with
          | cons h hs =>
            cases hs
            obtain ⟨ss, ps⟩ := sp
            cases h with
            | call n hp =>
              have hss : ss = [] := arguments_false kids h4
              subst hss
              exact ⟨u, h1, s, h2, n, name_same h3, _, arguments_same kids false hk h4 .nil hp, rfl⟩
        | choose =>
          simp only [bind, Option.bind_eq_some_iff] at h ⊢
          obtain ⟨u, h1, wo, h2, h⟩ := h
          split at h
          · cases h
          · rename_i hw
            cases h
            cases ht with
            | cons h hs =>
              cases hs
              cases h with
              | choose h =>
                exact ⟨u, h1, _, branches_same kids hk h2 h, if_neg (whens_nil h hw)⟩
        | comment =>
          simp only [bind, Option.bind_eq_some_iff, Option.some.injEq] at h ⊢
          obtain ⟨u, h1, b, h5, rfl⟩ := h
          cases ht with
          | cons h hs =>
            cases hs
            cases h with
            | comment hb => exact ⟨u, h1, _, content_same kids hk h5 hb, rfl⟩
        | copy =>
          simp only [bind, Option.bind_eq_some_iff, Option.some.injEq] at h ⊢
          obtain ⟨u, h1, b, h5, rfl⟩ := h
          cases ht with
          | cons h hs =>
            cases hs
            cases h with
            | copy hb => exact ⟨u, h1, _, content_same kids hk h5 hb, rfl⟩
        | copyOf =>
          simp only [bind, Option.bind_eq_some_iff] at h ⊢
          obtain ⟨u, h1, s, h2, e, h3, h⟩ := h
          split at h
          · rename_i hn
            cases h
            cases h3
            cases ht with
            | cons h hs =>
              cases hs
              cases h with
              | copyOf h => exact ⟨u, h1, s, h2, _, h, if_pos hn⟩
          · cases h
        | element =>
          simp only [bind, Option.bind_eq_some_iff, Option.some.injEq] at h ⊢
          obtain ⟨u, h1, s, h2, e, h3, ns, h4, b, h5, rfl⟩ := h
          cases ht with
          | cons h hs =>
            cases hs
            cases h with
            | element h hn hb =>
              cases h3
              exact ⟨u, h1, s, h2, _, h, _, nsOf_same h4 hn, _, content_same kids hk h5 hb, rfl⟩
        | fallback => exact absurd hg hself
        | forEach =>
          simp only [bind, Option.bind_eq_some_iff, Option.some.injEq] at h ⊢
          obtain ⟨u, h1, s, h2, e, h3, sb, h4, rfl⟩ := h
          cases ht with
          | cons h hs =>
            cases hs
            obtain ⟨ss, b⟩ := sb
            cases h with
            | forEach h hs hb =>
              cases h3
              exact ⟨u, h1, s, h2, _, h, _, sorted_same kids hk h4 hs hb, rfl⟩
        | ifThen =>
          simp only [bind, Option.bind_eq_some_iff, Option.some.injEq] at h ⊢
          obtain ⟨u, h1, s, h2, e, h3, b, h5, rfl⟩ := h
          cases ht with
          | cons h hs =>
            cases hs
            cases h with
            | ifThen h hb =>
              cases h3
              exact ⟨u, h1, s, h2, _, h, _, content_same kids hk h5 hb, rfl⟩
        | message =>
          simp only [bind, Option.bind_eq_some_iff, Option.some.injEq] at h
          obtain ⟨u, h1, s, h2, b, h5, rfl⟩ := h
          cases ht with
          | cons h hs => cases h
        | procInst =>
          simp only [bind, Option.bind_eq_some_iff, Option.some.injEq] at h ⊢
          obtain ⟨u, h1, s, h2, e, h3, b, h5, rfl⟩ := h
          cases ht with
          | cons h hs =>
            cases hs
            cases h with
            | procInst h hb =>
              cases h3
              exact ⟨u, h1, s, h2, _, h, _, content_same kids hk h5 hb, rfl⟩
        | text =>
          simp only [bind, Option.bind_eq_some_iff, Option.some.injEq] at h ⊢
          obtain ⟨u, h1, b, h2, s, h3, rfl⟩ := h
          cases ht with
          | cons h hs =>
            cases hs
            cases h with
            | text s => exact ⟨u, h1, _, h2, _, h3, rfl⟩
        | valueOf =>
          simp only [bind, Option.bind_eq_some_iff] at h ⊢
          obtain ⟨u, h1, s, h2, e, h3, b, h4, h⟩ := h
          split at h
          · rename_i hn
            cases h
            cases h3
            cases ht with
            | cons h hs =>
              cases hs
              cases h with
              | valueOf h => exact ⟨u, h1, s, h2, _, h, _, h4, if_pos hn⟩
          · cases h
        | «variable» =>
          simp only [bind, bind_ifs, Option.bind_eq_some_iff, Option.some.injEq] at h ⊢
          obtain ⟨⟨n, v⟩, h1, b, h2, rfl⟩ := h
          cases ht with
          | cons h hs =>
            cases hs
            cases h with
            | «variable» n hv => exact ⟨(n, _), binding_value h1 hv, _, value_same kids hk h2 hv, rfl⟩
        | number => cases h
        | otherwise => cases h
        | param => cases h
        | sort => cases h
        | when => cases h
        | withParam => cases h
        | attributeSet => cases h
        | decimalFormat => cases h
        | «import» => cases h
        | «include» => cases h
        | key => cases h
        | namespaceAlias => cases h
        | output => cases h
        | preserveSpace => cases h
        | stripSpace => cases h
        | stylesheet => cases h
        | template => cases h
        | transform => cases h
    · rw [if_neg hx] at h ⊢
      simp only [bind, Option.bind_eq_some_iff, Option.some.injEq] at h ⊢
      obtain ⟨as, h1, b, h2, rfl⟩ := h
      cases ht with
      | cons h hs =>
        cases hs
        cases h with
        | literal qn u ha hb => exact ⟨_, literalAtts_same h1 ha, _, content_same kids hk h2 hb, rfl⟩

theorem content_same : ∀ (ks : List Src) {cs : List (Code Text VName)} {cs' : List (Code Expr VName)}, NoFallbacks ks →
    content (written num) ks = some cs → TrAll fnNum num cs cs' → content (library fnNum num) ks = some cs'
  | [], cs, cs', _, h, ht => by
    rw [content] at h ⊢
    cases h
    rw [trAll_nil ht]
  | k :: ks, cs, cs', hf, h, ht => by
    rw [content] at h ⊢
    simp only [bind, Option.bind_eq_some_iff, Option.some.injEq] at h ⊢
    obtain ⟨a, h1, b, h2, rfl⟩ := h
    obtain ⟨a', b', rfl, h3, h4⟩ := trAll_append ht
    exact ⟨_, item_same k hf.head h1 h3, _, content_same ks hf.tail h2 h4, rfl⟩

theorem value_same : ∀ (kids : List Src) {v : Option Text} {b : List (Code Text VName)} {v' : Option Expr}
    {b' : List (Code Expr VName)}, NoFallbacks kids →
    (if v.isNone then content (written num) kids else if nothing kids then some [] else none) = some b →
    TrValue fnNum num v b v' b' →
    (if v'.isNone then content (library fnNum num) kids else if nothing kids then some [] else none) = some b'
  | kids, v, b, v', b', hf, h, hv => by
    cases hv with
    | select t e he =>
      have h : (if nothing kids then some ([] : List (Code Text VName)) else none) = some [] := h
      show (if nothing kids then some ([] : List (Code Expr VName)) else none) = some []
      split at h
      · rename_i hn; rw [if_pos hn]
      · cases h
    | empty =>
      have h : content (written num) kids = some [] := h
      show content (library fnNum num) kids = some []
      exact content_same kids hf h .nil

theorem arguments_same : ∀ (ks : List Src) (sorts : Bool)
    {sp : List (SortBy Text) × List (VName × Option Text × List (Code Text VName))}
    {ss' : List (SortBy Expr)} {ps' : List (VName × Option Expr × List (Code Expr VName))}, NoFallbacks ks →
    arguments (written num) sorts ks = some sp → TrSorts fnNum num sp.1 ss' → TrParams fnNum num sp.2 ps' →
      arguments (library fnNum num) sorts ks = some (ss', ps')
  | [], sorts, sp, ss', ps', _, h, hs, ht => by
    rw [arguments] at h ⊢
    cases h
    cases ht
    cases hs
    rfl
  | .text ps :: ks, sorts, sp, ss', ps', hf, h, hs, ht => by
    rw [arguments] at h ⊢
    split at h
    · rename_i hw
      rw [if_pos hw]
      exact arguments_same ks sorts hf.tail h hs ht
    · cases h
  | .elem el kids :: ks, sorts, sp, ss', ps', hf, h, hs, ht => by
    rw [arguments] at h ⊢
    split at h
    · split at h
      · rename_i hw
        rw [if_pos hw]
        simp only [bind, Option.bind_eq_some_iff, Option.some.injEq] at h ⊢
        obtain ⟨s, h1, r, h2, rfl⟩ := h
        cases ss' with
        | nil => cases hs
        | cons s' ss' =>
          obtain ⟨g1, g2⟩ := sortOf_same h1 hs
          exact ⟨_, g1, _, arguments_same ks sorts hf.tail h2 g2 ht, rfl⟩
      · cases h
    · simp only [bind, bind_ifs, Option.bind_eq_some_iff, Option.some.injEq] at h ⊢
      obtain ⟨⟨n, v⟩, h1, b, h2, r, h3, rfl⟩ := h
      cases ht with
      | cons n hv hps =>
        have key := arguments_same (sp := r) (ss' := ss') ks sorts hf.tail h3 hs hps
        have g1 := binding_value h1 hv
        have g2 := value_same kids hf.head.kids h2 hv
        refine ⟨_, g1, _, g2, _, key, rfl⟩
    · cases h

theorem arguments_false : ∀ (ks : List Src)
    {sp : List (SortBy Text) × List (VName × Option Text × List (Code Text VName))},
    arguments (written num) false ks = some sp → sp.1 = []
  | [], sp, h => by
    rw [arguments] at h
    cases h
    rfl
  | .text ps :: ks, sp, h => by
    rw [arguments] at h
    split at h
    · exact arguments_false ks h
    · cases h
  | .elem el kids :: ks, sp, h => by
    rw [arguments] at h
    split at h
    · cases h
    · simp only [bind, bind_ifs, Option.bind_eq_some_iff, Option.some.injEq] at h
      obtain ⟨⟨n, v⟩, h1, b, h2, r, h3, rfl⟩ := h
      exact (arguments_false ks h3 :)
    · cases h

theorem branches_same : ∀ (ks : List Src) {wo : List (Text × List (Code Text VName)) × Option (List (Code Text VName))}
    {ws' : List (Expr × List (Code Expr VName))} {o' : Option (List (Code Expr VName))}, NoFallbacks ks →
    branches (written num) ks = some wo → TrWhens fnNum num wo.1 wo.2 ws' o' →
      branches (library fnNum num) ks = some (ws', o')
  | [], wo, ws', o', _, h, ht => by
    rw [branches] at h ⊢
    cases h
    cases ht
    rfl
  | .text ps :: ks, wo, ws', o', hf, h, ht => by
    rw [branches] at h ⊢
    split at h
    · rename_i hw
      rw [if_pos hw]
      exact branches_same ks hf.tail h ht
    · cases h
  | .elem el kids :: ks, wo, ws', o', hf, h, ht => by
    rw [branches] at h ⊢
    split at h
    · simp only [bind, Option.bind_eq_some_iff, Option.some.injEq] at h ⊢
      obtain ⟨u, h1, s, h2, e, h3, b, h4, r, h5, rfl⟩ := h
      cases ht with
      | when h hb hw =>
        cases h3
        exact ⟨u, h1, s, h2, _, h, _, content_same kids hf.head.kids h4 hb, _, branches_same ks hf.tail h5 hw, rfl⟩
    · simp only [bind, Option.bind_eq_some_iff] at h ⊢
      obtain ⟨u, h1, b, h2, h⟩ := h
      split at h
      · rename_i hn
        cases h
        cases ht with
        | otherwise hb => exact ⟨u, h1, _, content_same kids hf.head.kids h2 hb, if_pos hn⟩
      · cases h
    · cases h

theorem sorted_same : ∀ (ks : List Src) {sb : List (SortBy Text) × List (Code Text VName)} {ss' : List (SortBy Expr)}
    {b' : List (Code Expr VName)}, NoFallbacks ks → sorted (written num) ks = some sb → TrSorts fnNum num sb.1 ss' →
      TrAll fnNum num sb.2 b' → sorted (library fnNum num) ks = some (ss', b')
  | [], sb, ss', b', _, h, hs, ht => by
    rw [sorted] at h ⊢
    cases h
    cases hs
    rw [trAll_nil ht]
  | .text ps :: ks, sb, ss', b', hf, h, hs, ht => by
    rw [sorted] at h ⊢
    split at h
    · rename_i hw
      rw [if_pos hw]
      exact sorted_same ks hf.tail h hs ht
    · rename_i hw
      rw [if_neg hw]
      simp only [bind, Option.bind_eq_some_iff, Option.some.injEq] at h ⊢
      obtain ⟨b, h1, rfl⟩ := h
      cases hs
      obtain ⟨a', c', rfl, h3, h4⟩ := trAll_append ht
      exact ⟨_, content_same ks hf.tail h1 h4, by rw [trAll_texts h3]⟩
  | .elem el kids :: ks, sb, ss', b', hf, h, hs, ht => by
    rw [sorted] at h ⊢
    split at h
    · rename_i hw
      rw [if_pos hw]
      simp only [bind, Option.bind_eq_some_iff, Option.some.injEq] at h ⊢
      obtain ⟨s, h1, r, h2, rfl⟩ := h
      cases ss' with
      | nil => cases hs
      | cons s' ss' =>
        obtain ⟨g1, g2⟩ := sortOf_same h1 hs
        exact ⟨_, g1, _, sorted_same ks hf.tail h2 g2 ht, rfl⟩
    · rename_i hw
      rw [if_neg hw]
      simp only [bind, Option.bind_eq_some_iff, Option.some.injEq] at h ⊢
      obtain ⟨a, h1, b, h2, rfl⟩ := h
      cases hs
      obtain ⟨a', c', rfl, h3, h4⟩ := trAll_append ht
      exact ⟨_, item_same (.elem el kids) hf.head h1 h3, _, content_same ks hf.tail h2 h4, rfl⟩

end

/-- Not a parameter. -/
def NotParam {ε ν : Type} (c : Code ε ν) : Prop := ∀ n v b, c ≠ .param n v b

theorem item_params (k : Src) {cs : List (Code Text VName)} (h : item (written num) k = some cs) : ∀ c ∈ cs, NotParam c := by
  cases k with
  | text ps =>
    rw [item] at h
    split at h
    · cases h; exact (fun c hc => by cases hc)
    · cases h
      intro c hc n v b e
      subst e
      simp at hc
  | elem el kids =>
    have one : ∀ {d : Code Text VName}, NotParam d → [d] = cs → ∀ c ∈ cs, NotParam c := by
      rintro d hd rfl c hc
      rw [List.mem_singleton] at hc
      subst hc
      exact hd
    have ifs : ∀ {q : Bool} {d : Code Text VName}, NotParam d → (if q = true then some [d] else none) = some cs →
        ∀ c ∈ cs, NotParam c := by
      intro q d hd h
      split at h
      · exact one hd (Option.some.inj h)
      · cases h
    rw [item] at h
    split at h
    · split at h
      all_goals first
        | (cases h; done)
        | (simp only [bind, bind_ifs, Option.bind_eq_some_iff, Option.some.injEq] at h
           first
             | (obtain ⟨_, _, h⟩ := h; exact ifs (fun _ _ _ h => by cases h) h)
             | (obtain ⟨_, _, h⟩ := h; exact one (fun _ _ _ h => by cases h) h)
             | (obtain ⟨_, _, _, _, h⟩ := h; exact ifs (fun _ _ _ h => by cases h) h)
             | (obtain ⟨_, _, _, _, h⟩ := h; exact one (fun _ _ _ h => by cases h) h)
             | (obtain ⟨_, _, _, _, h⟩ := h; subst h; exact (fun c hc => by cases hc))
             | (obtain ⟨_, _, _, _, _, _, h⟩ := h; exact one (fun _ _ _ h => by cases h) h)
             | (obtain ⟨_, _, _, _, _, _, h⟩ := h; exact ifs (fun _ _ _ h => by cases h) h)
             | (obtain ⟨_, _, _, _, _, _, _, _, h⟩ := h; exact one (fun _ _ _ h => by cases h) h)
             | (obtain ⟨_, _, _, _, _, _, _, _, h⟩ := h; exact ifs (fun _ _ _ h => by cases h) h)
             | (obtain ⟨_, _, _, _, _, _, _, _, _, _, h⟩ := h; exact one (fun _ _ _ h => by cases h) h)
             | (obtain ⟨_, _, _, _, h⟩ := h
                split at h
                · cases h
                · exact one (fun _ _ _ h => by cases h) (Option.some.inj h)))
    · simp only [bind, Option.bind_eq_some_iff, Option.some.injEq] at h
      obtain ⟨_, _, _, _, h⟩ := h
      exact one (fun _ _ _ h => by cases h) h

theorem content_params : ∀ (ks : List Src) {cs : List (Code Text VName)}, content (written num) ks = some cs →
    ∀ c ∈ cs, NotParam c
  | [], cs, h => by
    rw [content] at h
    cases h
    exact (fun c hc => by cases hc)
  | k :: ks, cs, h => by
    rw [content] at h
    simp only [bind, Option.bind_eq_some_iff, Option.some.injEq] at h
    obtain ⟨a, h1, b, h2, rfl⟩ := h
    intro c hc
    rw [List.mem_append] at hc
    rcases hc with hc | hc
    · exact item_params k h1 c hc
    · exact content_params ks h2 c hc

theorem content_template (ks : List Src) {cs : List (Code Text VName)} {cs' : List (Code Expr VName)} (hf : NoFallbacks ks)
    (h : content (written num) ks = some cs) (ht : TrTemplate fnNum num cs cs') : content (library fnNum num) ks = some cs' := by
  cases ht with
  | body ht => exact content_same ks hf h ht
  | param n hv hs => exact absurd rfl (content_params ks h _ List.mem_cons_self _ _ _)

theorem parametrised_same : ∀ (ks : List Src) {cs : List (Code Text VName)} {cs' : List (Code Expr VName)}, NoFallbacks ks →
    parametrised (written num) ks = some cs → TrTemplate fnNum num cs cs' → parametrised (library fnNum num) ks = some cs'
  | [], cs, cs', _, h, ht => by
    rw [parametrised] at h ⊢
    cases h
    cases ht with
    | body ht => rw [trAll_nil ht]
  | .text ps :: ks, cs, cs', hf, h, ht => by
    rw [parametrised] at h ⊢
    split at h
    · rename_i hw
      rw [if_pos hw]
      exact parametrised_same ks hf.tail h ht
    · rename_i hw
      rw [if_neg hw]
      exact content_template _ hf h ht
  | .elem el kids :: ks, cs, cs', hf, h, ht => by
    rw [parametrised] at h ⊢
    split at h
    · rename_i hw
      rw [if_pos hw]
      simp only [bind, Option.bind_eq_some_iff, Option.some.injEq] at h ⊢
      obtain ⟨⟨n, v⟩, h1, b, h2, r, h3, rfl⟩ := h
      cases ht with
      | body ht =>
        cases ht with
        | cons h _ => cases h
      | param n hv hs =>
        exact ⟨(n, _), binding_value h1 hv, _, value_same kids hf.head.kids h2 hv, _, parametrised_same ks hf.tail h3 hs, rfl⟩
    · rename_i hw
      rw [if_neg hw]
      exact content_template _ hf h ht

variable (fnNum num) in
/-- A template as it is written, and as it is compiled. -/
structure TrRule (t : Verif.XsltCompile.Template Text Text VName Rat)
    (t' : Verif.XsltCompile.Template Expr (List MatchExpr) VName Rat) : Prop where
  pat : (t.pat = none ∧ t'.pat = none) ∨ ∃ p ms, t.pat = some p ∧ t'.pat = some ms ∧
    Verif.XPathMatch.compileMatch (prefixes p.scope) fnNum p.text = .ok ms
  name : t'.name = t.name
  mode : t'.mode = t.mode
  priority : t'.priority = t.priority
  body : TrTemplate fnNum num t.body t'.body

variable (fnNum num) in
inductive TrRules : List (Verif.XsltCompile.Template Text Text VName Rat) →
    List (Verif.XsltCompile.Template Expr (List MatchExpr) VName Rat) → Prop where
  | nil : TrRules [] []
  | cons {t : Verif.XsltCompile.Template Text Text VName Rat} {t' : Verif.XsltCompile.Template Expr (List MatchExpr) VName Rat}
      {ts : List (Verif.XsltCompile.Template Text Text VName Rat)}
      {ts' : List (Verif.XsltCompile.Template Expr (List MatchExpr) VName Rat)} (h : TrRule fnNum num t t')
      (hs : TrRules ts ts') : TrRules (t :: ts) (t' :: ts')

theorem pattern_same {sc : Scope} {s : Str} {ms : List MatchExpr}
    (h : Verif.XPathMatch.compileMatch (prefixes sc) fnNum s = .ok ms) : (library fnNum num).pattern true sc s = some ms := by
  show (match Verif.XPathMatch.compileMatch (prefixes sc) fnNum s with
    | .ok ms => some ms
    | .error _ => none) = _
  rw [h]

theorem priority_same {el : El} {q : Option Rat} (h : priority? (written num) el = some q) :
    priority? (library fnNum num) el = some q := h

theorem templateOf_same {el : El} {kids : List Src} {t : Verif.XsltCompile.Template Text Text VName Rat}
    {t' : Verif.XsltCompile.Template Expr (List MatchExpr) VName Rat} (hf : NoFallbacks kids)
    (h : templateOf (written num) el kids = some t) (ht : TrRule fnNum num t t') :
    templateOf (library fnNum num) el kids = some t' := by
  obtain ⟨p', n', m', q', b'⟩ := t'
  obtain ⟨hp, hn, hm, hq, hb⟩ := ht
  simp only at hp hn hm hq hb
  unfold templateOf at h ⊢
  simp only [bind, Option.bind_eq_some_iff] at h ⊢
  obtain ⟨u, h1, n, h2, m, h3, b, h4, h⟩ := h
  refine ⟨u, h1, n, name?_same h2, m, name?_same h3, b', ?_, ?_⟩
  · refine parametrised_same kids hf h4 ?_
    split at h
    · cases h
    · split at h
      · split at h
        · cases h
        · cases h; exact hb
      · cases h
      · simp only [Option.bind_eq_some_iff, Option.some.injEq] at h
        obtain ⟨_, _, _, _, rfl⟩ := h
        exact hb
  · split at h
    · cases h
    · rename_i hpr
      rw [if_neg hpr]
      split at h
      · split at h
        · cases h
        · rename_i hnm
          rw [if_neg hnm]
          cases h
          rcases hp with ⟨_, rfl⟩ | ⟨p, ms, h, _⟩
          · simp only at hn hm hq
            subst hn hm hq
            rfl
          · cases h
      · cases h
      · simp only [Option.bind_eq_some_iff, Option.some.injEq] at h ⊢
        obtain ⟨p, h5, q, h6, rfl⟩ := h
        rcases hp with ⟨h, _⟩ | ⟨p, ms, h, rfl, hms⟩
        · cases h
        · cases h
          cases h5
          simp only at hn hm hq
          subst hn hm hq
          exact ⟨ms, pattern_same hms, _, priority_same h6, rfl⟩

theorem names_same {ts : List (Verif.XsltCompile.Template Text Text VName Rat)}
    {ts' : List (Verif.XsltCompile.Template Expr (List MatchExpr) VName Rat)} (h : TrRules fnNum num ts ts') :
    ts'.filterMap (·.name) = ts.filterMap (·.name) := by
  induction h with
  | nil => rfl
  | cons h _ ih =>
    rw [List.filterMap_cons, List.filterMap_cons, h.name, ih]

variable (fnNum num) in
/-- Global variables as they are written, and as they are compiled. -/
inductive TrGlobals : List (Code Text VName) → List (Code Expr VName) → Prop where
  | nil : TrGlobals [] []
  | «variable» (n : VName) {v : Option Text} {b : List (Code Text VName)} {v' : Option Expr} {b' : List (Code Expr VName)}
      {cs : List (Code Text VName)} {cs' : List (Code Expr VName)} (h : TrValue fnNum num v b v' b') (hs : TrGlobals cs cs') :
      TrGlobals (.variable n v b :: cs) (.variable n v' b' :: cs')
  | param (n : VName) {v : Option Text} {b : List (Code Text VName)} {v' : Option Expr} {b' : List (Code Expr VName)}
      {cs : List (Code Text VName)} {cs' : List (Code Expr VName)} (h : TrValue fnNum num v b v' b') (hs : TrGlobals cs cs') :
      TrGlobals (.param n v b :: cs) (.param n v' b' :: cs')

theorem topLevel_same : ∀ (ks : List Src) {sh : Sheet Text Text VName Rat}
    {ts' : List (Verif.XsltCompile.Template Expr (List MatchExpr) VName Rat)} {cs' : List (Code Expr VName)},
    (∀ e k, Src.elem e k ∈ ks → e.uri = xsltNs → NoFallback (.elem e k)) →
    topLevel (written num) ks = some sh → TrGlobals fnNum num sh.globals cs' → sh.keys = [] →
    TrRules fnNum num sh.templates ts' → topLevel (library fnNum num) ks = some ⟨ts', cs', []⟩
  | [], sh, ts', cs', _, h, hg, _, ht => by
    rw [topLevel] at h ⊢
    cases h
    cases ht
    cases hg
    rfl
  | .text ps :: ks, sh, ts', cs', hf, h, hg, hk, ht => by
    rw [topLevel] at h ⊢
    split at h
    · rename_i hw
      rw [if_pos hw]
      exact topLevel_same ks (fun e k hm => hf e k (List.mem_cons_of_mem _ hm)) h hg hk ht
    · cases h
  | .elem el kids :: ks, sh, ts', cs', hf, h, hg, hk, ht => by
    have hf' : ∀ e k, Src.elem e k ∈ ks → e.uri = xsltNs → NoFallback (.elem e k) :=
      fun e k hm => hf e k (List.mem_cons_of_mem _ hm)
    rw [topLevel] at h ⊢
    split at h
    · rename_i hx
      have hfk := (hf el kids List.mem_cons_self hx).kids
      rw [if_pos hx]
      split at h
      · simp only [bind, Option.bind_eq_some_iff, Option.some.injEq] at h ⊢
        obtain ⟨t, h1, r, h2, rfl⟩ := h
        cases ht with
        | cons h hs => exact ⟨_, templateOf_same hfk h1 h, _, topLevel_same ks hf' h2 hg hk hs, rfl⟩
      · simp only [bind, Option.bind_eq_some_iff, Option.some.injEq] at h
        obtain ⟨t, h1, r, h2, rfl⟩ := h
        cases hk
      · simp only [bind, Option.bind_eq_some_iff, Option.some.injEq] at h ⊢
        obtain ⟨⟨n, v⟩, h1, b, h3, r, h2, rfl⟩ := h
        cases hg with
        | «variable» n hv hs =>
          exact ⟨(n, _), binding_value h1 hv, _, value_same kids hfk h3 hv, _, topLevel_same ks hf' h2 hs hk ht, rfl⟩
      · simp only [bind, Option.bind_eq_some_iff, Option.some.injEq] at h ⊢
        obtain ⟨⟨n, v⟩, h1, b, h3, r, h2, rfl⟩ := h
        cases hg with
        | param n hv hs =>
          exact ⟨(n, _), binding_value h1 hv, _, value_same kids hfk h3 hv, _, topLevel_same ks hf' h2 hs hk ht, rfl⟩
      · cases h
    · rename_i hx
      rw [if_neg hx]
      split at h
      · cases h
      · rename_i hu
        rw [if_neg hu]
        exact topLevel_same ks hf' h hg hk ht

/-- No `xsl:fallback` in a stylesheet. -/
def Fallbackless : Src → Prop
  | .text _ => True
  | .elem el kids => (el.uri = xsltNs → ∀ e k, Src.elem e k ∈ kids → e.uri = xsltNs → NoFallback (.elem e k)) ∧
    (el.uri ≠ xsltNs → NoFallbacks kids)

theorem plain_fallback {doc : Src} (h : PlainDocument doc) : Fallbackless doc := by
  cases h with
  | stylesheet el kids hx _ _ _ h =>
    exact ⟨fun _ e k hm hu x hx => ((h e k hm hu).1 x hx).supported.1, fun hn => absurd hx hn⟩
  | literal el kids hx h _ =>
    exact ⟨fun hn => absurd hn hx, fun _ => NoFallback.kids (el := el) (fun x hx => (h x hx).supported.1)⟩

theorem stylesheet_same {doc : Src} {sh : Sheet Text Text VName Rat}
    {ts' : List (Verif.XsltCompile.Template Expr (List MatchExpr) VName Rat)} {cs' : List (Code Expr VName)}
    (hf : Fallbackless doc) (h : stylesheet (written num) doc = some sh) (hg : TrGlobals fnNum num sh.globals cs')
    (hk : sh.keys = []) (ht : TrRules fnNum num sh.templates ts') :
    stylesheet (library fnNum num) doc = some ⟨ts', cs', []⟩ := by
  cases doc with
  | text ps => cases h
  | elem el kids =>
    rw [stylesheet] at h ⊢
    split at h
    · rename_i hx
      rw [if_pos hx]
      split at h
      · rename_i hy
        rw [if_pos hy]
        simp only [bind, Option.bind_eq_some_iff] at h ⊢
        obtain ⟨u, h1, v, h2, s, h3, h⟩ := h
        split at h
        · rename_i hn
          cases h
          refine ⟨u, h1, v, h2, _, topLevel_same kids (hf.1 hx) h3 hg hk ht, if_pos ?_⟩
          unfold NamesDistinct at hn ⊢
          rw [names_same ht]
          exact hn
        · cases h
      · cases h
    · rename_i hx
      rw [if_neg hx]
      split at h
      · rename_i hy
        rw [if_pos hy]
        simp only [bind, Option.bind_eq_some_iff, Option.some.injEq] at h ⊢
        obtain ⟨p, h1, as, h2, b, h3, rfl⟩ := h
        cases hg
        cases ht with
        | cons h hs =>
          cases hs
          rename_i t'
          obtain ⟨p', n', m', q', b'⟩ := t'
          obtain ⟨hp, hn, hm, hq, hb⟩ := h
          simp only at hp hn hm hq hb
          subst hn hm hq
          rcases hp with ⟨h, _⟩ | ⟨p, ms, h, rfl, hms⟩
          · cases h
          · cases h
            cases h1
            cases hb with
            | body hb =>
              cases hb with
              | cons hb hs =>
                cases hs
                cases hb with
                | literal qn u ha hb =>
                  exact ⟨ms, pattern_same hms, _, literalAtts_same h2 ha, _, content_same kids (hf.2 hx) h3 hb, rfl⟩
      · cases h

theorem stylesheet_distinct {doc : Src} {sh : Sheet Text Text VName Rat} (h : stylesheet (written num) doc = some sh) :
    (sh.templates.filterMap (·.name)).Nodup := by
  cases doc with
  | text ps => cases h
  | elem el kids =>
    rw [stylesheet] at h
    split at h
    · split at h
      · simp only [bind, Option.bind_eq_some_iff] at h
        obtain ⟨u, h1, v, h2, s, h3, h⟩ := h
        split at h
        · rename_i hn
          cases h
          exact hn
        · cases h
      · cases h
    · split at h
      · simp only [bind, Option.bind_eq_some_iff, Option.some.injEq] at h
        obtain ⟨p, h1, as, h2, b, h3, rfl⟩ := h
        exact List.nodup_nil
      · cases h

end

end Verif.XsltProcess
