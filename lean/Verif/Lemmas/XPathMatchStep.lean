import Verif.Lemmas.XPathMatchChain
import Verif.Lemmas.XPathParse
set_option autoImplicit false
set_option linter.unusedSimpArgs false
set_option linter.unusedVariables false
namespace Verif.XPathMatch
open Verif.XPathParse Verif.Spec.XPathMatch

variable {ns : Str → Option Str}

/-! ## tests -/

theorem testTree_group2 {ts : List Tree} {f : Bool → Test} (h : InnerTest ns ts f) (a r : Str) :
    ∃ T, group .nodeTest (sT a ++ (ts ++ sT r)) = [T] ∧ TestTree ns T f ∧
      (T.id = .processingInstruction → ∃ t₀, ts = [t₀] ∧ T = t₀) := by
  rcases sT_cases a with e | ⟨w, e⟩
  · obtain ⟨T, h1, h2, h3⟩ := testTree_group h r
    refine ⟨T, by rw [e]; exact h1, h2, fun hp => ?_⟩
    obtain ⟨t₀, rfl⟩ := h3 hp
    refine ⟨t₀, rfl, ?_⟩
    rcases sT_cases r with e | ⟨w, e⟩
    · rw [e] at h1
      cases h1
      rfl
    · rw [e] at h1
      cases h1
      cases hp
  · obtain ⟨t₀, us, rfl, hid, hne, _, ht⟩ := h
    have hs : t₀.id ≠ .s := by intro e; rw [e] at hid; cases hid
    rw [e]
    refine ⟨.node .nodeTest [] (.node .s w [] :: (t₀ :: (us ++ sT r))), rfl, ⟨rfl, fun attr rest hl => ?_⟩,
      by intro e; simp [Tree.id] at e⟩
    have hl2 : NoLit (sT r) := by
      rcases sT_cases r with e | ⟨w, e⟩ <;> rw [e]
      · intro t us e; cases e
      · exact noLit_cons (by simp [Tree.id])
    obtain ⟨ws, e1, e2⟩ := ht attr (sT r) (fun _ _ => hl2)
    rw [getTest, skipS_cons (by simp [Tree.id])]
    simp only [Tree.id, if_true, Tree.kids, List.cons_append]
    rw [skipS_s rfl, skipS_cons hs, e1]
    rfl

theorem nodeTest_any {t : NodeTest} (hok : t.Ok ns) {s r : Str} (h : Reads (testTokens t) s r)
    (hst : Stop 11 r) : ∃ T, nodeTest s = some ([T], skip r) ∧ TestTree ns T (fun a => testMeaning ns a t) ∧
      (T.id = .processingInstruction → t = .type .pi) := by
  have h' := reads_skip_test hok h
  obtain ⟨ts, e1, h1, h2⟩ := innerTest_reads hok h' (skip_skip s) hst
  obtain ⟨T, e2, h3, h4⟩ := testTree_group2 h1 s r
  refine ⟨T, ?_, h3, fun hp => ?_⟩
  · have e3 := seq_some (space_eq s) (seq_some (a := innerTest) e1 (space_eq r))
    have := rule_some (id := .nodeTest) e3
    rw [e2] at this
    exact this
  · obtain ⟨t₀, rfl, rfl⟩ := h4 hp
    exact h2 ⟨T, rfl, hp⟩

/-! ## what a test does not begin with -/

theorem word_noBracket {k n v u : Str} (hk : k.all nameChar = true) (hn : n.all nameChar = true) (hv : Ends v)
    (h : n ++ v = k ++ '(' :: u) : n = k ∧ v = '(' :: u := by
  obtain ⟨m, rfl, e⟩ := prefix_of_name hk hv h
  cases m with
  | nil => exact ⟨by simp, by simpa using e.symm⟩
  | cons c m =>
    cases e
    rw [List.all_append, List.all_cons] at hn
    simp [show nameChar '(' = false from rfl] at hn

/-- No test but those of types begins with a name and a bracket. -/
theorem test_noCall {t : NodeTest} (hok : t.Ok ns) {s r : Str} (h : Reads (testTokens t) s r)
    (hst : Stop 11 r) {k u : Str} (hk : NcName k) (e : s = k ++ '(' :: u) :
    ∃ ty : NodeType, k = (typeText ty).toList ∧ (t = .type ty ∨ ∃ q x, t = .target q x ∧ ty = .pi) := by
  have hs : skip s = s := by
    rw [e]
    obtain ⟨c, w, rfl, hc⟩ := solid_name hk
    exact skip_cons hc
  cases t with
  | any =>
    obtain ⟨m, rfl, _, h2⟩ := reads_first (solid_sym (c := '*') (u := []) rfl (by decide)) h hs
    exfalso
    have := hk.first e.symm
    revert this
    decide
  | anyIn p =>
    have hsol : Tok.Solid { text := p ++ ":*".toList } := by
      obtain ⟨c, u, rfl, hc⟩ := solid_name hok.1
      exact ⟨c, u ++ ":*".toList, rfl, hc⟩
    obtain ⟨m, rfl, _, h2⟩ := reads_first hsol h hs
    exfalso
    have e0 : p ++ (':' :: '*' :: m) = k ++ '(' :: u := by
      rw [← e]; simp
    have := (word_noBracket hk.all hok.1.all (ends_colon _) e0).2
    cases this
  | name q =>
    obtain ⟨m, rfl, hE, h2⟩ := reads_first (solid_nameTok hok) h hs
    cases h2
    obtain ⟨n, v, e', hn, hv, hnb, _⟩ := qText_word hok (hE rfl) (fun c u e => hst.noBracket e)
      (fun c u e => hst.noColon' e)
    exfalso
    have e0 : n ++ v = k ++ '(' :: u := e' ▸ e
    have := (word_noBracket hk.all hn.all hv e0).2
    exact hnb '(' u (by rw [this, skip_cons (by decide)]) rfl
  | type ty =>
    have hsol : (sym (typeText ty)).Solid := by
      obtain ⟨c, u, e, hc⟩ := solid_name (typeText_name ty)
      exact ⟨c, u, e, hc⟩
    obtain ⟨m, rfl, _, h2⟩ := reads_first hsol h hs
    obtain ⟨m2, e2, _, _, h3⟩ := reads_next (solid_sym (c := '(') (u := []) rfl (by decide)) h2
    have hE : Ends m := ends_space_or (c := '(') e2 (by decide)
    exact ⟨ty, (word_noBracket hk.all (typeText_name ty).all hE e).1.symm, .inl rfl⟩
  | target q x =>
    have hsol : (sym "processing-instruction").Solid := by
      obtain ⟨c, u, e, hc⟩ := solid_name (typeText_name .pi)
      exact ⟨c, u, e, hc⟩
    obtain ⟨m, rfl, _, h2⟩ := reads_first hsol h hs
    obtain ⟨m2, e2, _, _, h3⟩ := reads_next (solid_sym (c := '(') (u := []) rfl (by decide)) h2
    have hE : Ends m := ends_space_or (c := '(') e2 (by decide)
    exact ⟨.pi, (word_noBracket hk.all (typeText_name .pi).all hE e).1.symm, .inr ⟨q, x, rfl, rfl⟩⟩

theorem nodeMatch_none {t : NodeTest} (hok : t.Ok ns) (hne : t ≠ .type .node) {s r : Str}
    (h : Reads (testTokens t) s r) (hst : Stop 11 r) : nodeMatchPattern s = none := by
  refine lit_none ?_
  rintro ⟨u, e⟩
  have hn : NcName "node".toList := typeText_name .node
  obtain ⟨ty, h1, h2⟩ := test_noCall hok h hst (k := "node".toList) (u := ')' :: u) hn (by rw [e]; rfl)
  rcases h2 with rfl | ⟨q, x, rfl, rfl⟩
  · cases ty
    · exact absurd h1 (by decide)
    · exact absurd h1 (by decide)
    · exact absurd h1 (by decide)
    · exact hne rfl
  · exact absurd h1 (by decide)

theorem idKey_of {s : Str} (h1 : ∀ u, s ≠ "id".toList ++ '(' :: u) (h2 : ∀ u, s ≠ "key".toList ++ '(' :: u) :
    idKeyPattern s = none := by
  refine rule_none (alt_none ?_ ?_)
  · by_cases h : ∃ r, s = "id".toList ++ r
    · obtain ⟨r, rfl⟩ := h
      refine seq_none_right (lit_append .idKeyPattern "id".toList r) (seq_none_left (lit_none_head ?_))
      rintro c u rfl rfl
      exact h1 u rfl
    · exact seq_none_left (lit_none h)
  · by_cases h : ∃ r, s = "key".toList ++ r
    · obtain ⟨r, rfl⟩ := h
      refine seq_none_right (lit_append .idKeyPattern "key".toList r) (seq_none_left (lit_none_head ?_))
      rintro c u rfl rfl
      exact h2 u rfl
    · exact seq_none_left (lit_none h)

theorem idKey_test {t : NodeTest} (hok : t.Ok ns) {s r : Str} (h : Reads (testTokens t) s r) (hst : Stop 11 r) :
    idKeyPattern s = none := by
  have key : ∀ ty : NodeType, (typeText ty).toList ≠ "id".toList ∧ (typeText ty).toList ≠ "key".toList := by
    intro ty; cases ty <;> decide
  refine idKey_of (fun u e => ?_) (fun u e => ?_)
  · obtain ⟨ty, h1, _⟩ := test_noCall hok h hst (k := "id".toList) (u := u) ⟨by decide, by decide⟩ e
    exact (key ty).1 h1.symm
  · obtain ⟨ty, h1, _⟩ := test_noCall hok h hst (k := "key".toList) (u := u) ⟨by decide, by decide⟩ e
    exact (key ty).2 h1.symm

theorem idKey_char {s : Str} (h : ∀ c u, s = c :: u → c ≠ 'i' ∧ c ≠ 'k') : idKeyPattern s = none := by
  refine idKey_of (fun u e => ?_) (fun u e => ?_)
  · exact (h _ _ e).1 rfl
  · exact (h _ _ e).2 rfl

/-! ## axes -/

theorem patternAxis_none {s : Str} (h1 : ∀ u, s ≠ "child".toList ++ (':' :: ':' :: u))
    (h2 : ∀ u, s ≠ "attribute".toList ++ (':' :: ':' :: u)) (h3 : ∀ c u, s = c :: u → c ≠ '@') :
    patternAxis s = some ([], s) := by
  have key : ∀ (id : Id) (k : Str), (∀ u, s ≠ k ++ (':' :: ':' :: u)) →
      seq (lit id k) (discard (lit .axisSpecifier "::".toList)) s = none := by
    intro id k hk
    by_cases h : ∃ r, s = k ++ r
    · obtain ⟨r, rfl⟩ := h
      refine seq_none_right (lit_append id k r) (discard_none (lit_none ?_))
      rintro ⟨u, rfl⟩
      exact hk u rfl
    · exact seq_none_left (lit_none h)
  refine (alt_right ?_).trans (opt_none (lit_none_head fun c u e => (h3 c u e).symm))
  have e : seq (alt (lit .child "child".toList) (lit .attribute "attribute".toList))
      (discard (lit .axisSpecifier "::".toList)) s =
      (alt (seq (lit .child "child".toList) (discard (lit .axisSpecifier "::".toList)))
        (seq (lit .attribute "attribute".toList) (discard (lit .axisSpecifier "::".toList)))) s := by
    cases hc : lit .child "child".toList s with
    | none => simp only [seq, alt, hc]
    | some x =>
      obtain ⟨ts, r⟩ := x
      have hat : lit .attribute "attribute".toList s = none := by
        obtain ⟨rfl, _⟩ := lit_some hc
        exact lit_none_head (by rintro c u e; cases e; decide)
      have := key .child _ h1
      simp only [seq, hc] at this
      simp only [seq, alt, hc, hat]
      revert this
      cases discard (lit .axisSpecifier "::".toList) r with
      | none => simp
      | some y => obtain ⟨us, r'⟩ := y; simp
  rw [e]
  exact alt_none (key _ _ h1) (key _ _ h2)

theorem patternAxis_inner {s : Str} (h : axisInner s = some ([], s)) : patternAxis s = some ([], s) := by
  have key : ∀ (a : Axis) u, s ≠ (axisText a).toList ++ (':' :: ':' :: u) := by
    rintro a u rfl
    have h1 := axisName_append a (s := ':' :: ':' :: u) (ends_colon _)
    have h2 : seq space (lit .axisSpecifier "::".toList) (':' :: ':' :: u) =
        some ([.node .axisSpecifier "::".toList []], u) := by
      have := seq_some (space_eq (':' :: ':' :: u)) (b := lit .axisSpecifier "::".toList)
        (by rw [skip_cons (by decide)]; exact lit_append .axisSpecifier "::".toList u)
      rw [sT_cons (by decide), List.nil_append] at this
      exact this
    have h3 := alt_left (b := opt (lit .abbreviatedAxisSpecifier "@".toList)) (seq_some h1 h2)
    rw [show alt _ _ _ = axisInner _ from rfl, h] at h3
    simp at h3
  refine patternAxis_none (key .child) (key .attribute) ?_
  rintro c u rfl rfl
  have h1 : axisName ('@' :: u) = none := axisName_none (by rintro c u e; cases e; decide)
  have h2 : axisInner ('@' :: u) = some ([.node .abbreviatedAxisSpecifier "@".toList []], u) :=
    (alt_right (seq_none_left h1)).trans (opt_some (lit_append .abbreviatedAxisSpecifier ['@'] u))
  rw [h] at h2
  simp at h2

theorem patternAxis_test {t : NodeTest} (hok : t.Ok ns) {s r : Str} (h : Reads (testTokens t) s r) (hst : Stop 11 r) :
    patternAxis s = some ([], s) := by
  by_cases hs : skip s = s
  · exact patternAxis_inner (axisInner_test hok h hs hst)
  · have hsp : ∀ c u, s = c :: u → isSpace c = true := by
      rintro c u rfl
      by_cases hc : isSpace c = true
      · exact hc
      · exact absurd (skip_cons (by simpa using hc)) hs
    refine patternAxis_none (fun u e => ?_) (fun u e => ?_) (fun c u e => ?_)
    · exact absurd (hsp _ _ e) (by decide)
    · exact absurd (hsp _ _ e) (by decide)
    · rintro rfl
      exact absurd (hsp _ _ e) (by decide)

end Verif.XPathMatch
