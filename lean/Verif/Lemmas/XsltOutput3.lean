import Verif.Lemmas.XsltOutput2
set_option autoImplicit false
set_option linter.unusedSimpArgs false
set_option linter.unusedVariables false
/-! Lemmas about the output: elements with pending attributes. -/
namespace Verif.Xslt
open Verif.Spec.XsltOutput

/-- Nothing is pending but text. -/
structure Idle (s : Out) : Prop where
  buf : s.buffering = 0
  pe : s.pendingElement = false
  pa : s.pendingAttribute = none
  tm : s.textMode = false

/-- A start tag is pending. -/
structure Pend (s : Out) : Prop where
  buf : s.buffering = 0
  pe : s.pendingElement = true
  pa : s.pendingAttribute = none
  tm : s.textMode = false
  pt : s.pendingText = false

/-- The declarations a pending element will carry. -/
def decls (a e : Scope × Scope) : List (Str × Str) := (a.1 ++ e.1).filter fun x => decide (x.1 ≠ strXml)

/-- Invariant of a pending element. -/
structure PInv (ns : Str → Str) (n : NsStack) (atts : List OAttr) (a e : Scope × Scope) (q : QN) (u : Str)
    (o : Open) : Prop where
  inv : Inv ns n ((q, decls a e) :: o)
  keys : ((a.1 ++ e.1).map Prod.fst).Nodup
  xmlok : ∀ x ∈ a.1 ++ e.1, x.1 = xml → x.2 = xmlUri
  c1 : ∀ x ∈ a.1, ∃ p, p ≠ [] ∧ mapFind x.2 a.2 = some p
  c2 : ∀ x ∈ a.2, x.2 ≠ []
  c3 : ∀ x ∈ e.1, mapFind x.2 e.2 = some x.1
  attsOk : ∀ x ∈ atts, x.qName = (findPrefix x.uri n.scopes, x.localName) ∧
    (if x.uri = [] then x.localName ≠ xmlns else findPrefix x.uri n.scopes ≠ [])
  nodup : (atts.map fun a => (a.uri, a.localName)).Nodup
  el : if u = [] then q.1 = [] ∧ ns [] = [] else (q.1, u) ∈ all ((q, decls a e) :: o)

theorem mapFind_some_of_mem (k v : Str) (m : Scope) (h : (k, v) ∈ m) :
    ∃ y, mapFind k m = some y ∧ (k, y) ∈ m := by
  induction m with
  | nil => simp at h
  | cons d ds ih =>
    rw [mapFind]
    by_cases hd : d.1 = k
    · subst hd; exact ⟨d.2, by simp, by simp⟩
    · rw [if_neg hd]
      rcases List.mem_cons.mp h with rfl | h
      · exact absurd rfl hd
      · obtain ⟨y, h1, h2⟩ := ih h
        exact ⟨y, h1, List.mem_cons_of_mem _ h2⟩

theorem findPrefix_bind (p u v : Str) (a : Scope × Scope) (rest : List (Scope × Scope)) (m : Scope) :
    findPrefix v ((m, (u, p) :: a.2) :: rest) = if u = v then p else findPrefix v (a :: rest) := by
  rw [findPrefix, findPrefix, mapFind]
  by_cases h : u = v
  · simp [h]
  · simp [h]

theorem bind_pinv (ns : Str → Str) (n : NsStack) (atts : List OAttr) (a e : Scope × Scope)
    (rest : List (Scope × Scope)) (q : QN) (u₀ : Str) (o : Open) (hsc : n.scopes = a :: e :: rest)
    (h : PInv ns n atts a e q u₀ o) (p u : Str) (k : Nat) (hu : u ≠ []) (hf : findPrefix u n.scopes = [])
    (hp : p ≠ []) (hx : p ≠ xmlns) (hxml : p = xml ↔ u = xmlUri)
    (hk : (p = autoPrefix n.autoNs ∧ k = n.autoNs + 1) ∨ (¬ IsAuto p ∧ ns p = u ∧ k = n.autoNs)) :
    PInv ns ⟨(mapSet p u a.1, mapSet u p a.2) :: e :: rest, k⟩ atts (mapSet p u a.1, mapSet u p a.2) e q u₀ o ∧
      findPrefix u ((mapSet p u a.1, mapSet u p a.2) :: e :: rest) = p := by
  have hkle : n.autoNs ≤ k := by rcases hk with ⟨_, rfl⟩ | ⟨_, _, rfl⟩ <;> omega
  have ent_eq : ∀ x, EntOk ns n.autoNs (p, x) → x = u := by
    intro x hx'
    obtain ⟨_, _, _, _, ⟨i, hi, he⟩ | ⟨hna, hns⟩⟩ := hx'
    · rcases hk with ⟨hp', _⟩ | ⟨hna, _⟩
      · rw [hp'] at he
        have := autoPrefix_inj _ _ he
        omega
      · exact absurd ⟨i, he⟩ hna
    · rcases hk with ⟨hp', _⟩ | ⟨_, hns', _⟩
      · exact absurd ⟨_, hp'⟩ hna
      · exact hns.symm.trans hns'
  have hfa : mapFind u a.2 = none := by
    cases hm : mapFind u a.2 with
    | none => rfl
    | some y =>
      have := h.c2 _ (mapFind_mem _ _ _ hm)
      rw [hsc, findPrefix, hm] at hf
      exact absurd hf this
  have freshP : ∀ x, (p, x) ∉ a.1 ++ e.1 := by
    intro x hm
    have hxu : x = u := by
      by_cases hpx : p = xml
      · exact (h.xmlok _ hm hpx).trans (hxml.mp hpx).symm
      · refine ent_eq x (h.inv.ent _ (List.mem_cons_self) _ ?_)
        exact List.mem_filter.mpr ⟨hm, by simp only [decide_eq_true_eq]; exact hpx⟩
    subst hxu
    rcases List.mem_append.mp hm with hm | hm
    · obtain ⟨p', _, h2⟩ := h.c1 _ hm
      rw [hfa] at h2; cases h2
    · have := h.c3 _ hm
      rw [hsc, findPrefix, hfa, findPrefix] at hf
      simp only at hf this
      rw [this] at hf
      exact hp hf
  have freshU : ∀ x, (u, x) ∉ a.2 := by
    intro x hm
    obtain ⟨y, hy, _⟩ := mapFind_some_of_mem _ _ _ hm
    rw [hfa] at hy; cases hy
  rw [mapSet_new p u a.1 fun x hm => freshP x (List.mem_append_left _ hm), mapSet_new u p a.2 freshU]
  have hfp : ∀ v, findPrefix v (((p, u) :: a.1, (u, p) :: a.2) :: e :: rest) =
      if u = v then p else findPrefix v n.scopes := by
    intro v; rw [findPrefix_bind, hsc]
  refine ⟨?_, by rw [hfp, if_pos rfl]⟩
  have hall : ∀ x, x ∈ all ((q, decls ((p, u) :: a.1, (u, p) :: a.2) e) :: o) ↔
      (x = (p, u)) ∨ x ∈ all ((q, decls a e) :: o) := by
    intro x
    rw [mem_all_cons, mem_all_cons]
    unfold decls
    simp only [List.cons_append, List.filter_cons]
    by_cases hpx : p = xml
    · have e1 : decide (p ≠ strXml) = false := by simp only [decide_eq_false_iff_not, Decidable.not_not]; exact hpx
      simp only [e1, Bool.false_eq_true, if_false]
      constructor
      · exact Or.inr
      · rintro (rfl | h')
        · rw [hpx, hxml.mp hpx]
          exact Or.inr (by simp [all])
        · exact h'
    · have e1 : decide (p ≠ strXml) = true := by simp only [decide_eq_true_eq]; exact hpx
      simp only [e1, if_true, List.mem_cons, or_assoc]
  constructor
  · constructor
    · intro x hx' y hy
      rcases List.mem_cons.mp hx' with rfl | hx'
      · unfold decls at hy
        obtain ⟨hy1, hy2⟩ := List.mem_filter.mp hy
        rw [List.cons_append] at hy1
        rcases List.mem_cons.mp hy1 with rfl | hy1
        · have hpx : p ≠ xml := of_decide_eq_true hy2
          refine ⟨hu, hx, hpx, fun he => hpx (hxml.mpr he), ?_⟩
          rcases hk with ⟨h1, h2⟩ | ⟨h1, h2, _⟩
          · exact Or.inl ⟨n.autoNs, by simp only; omega, h1⟩
          · exact Or.inr ⟨h1, h2⟩
        · exact (h.inv.ent _ (List.mem_cons_self) _ (List.mem_filter.mpr ⟨hy1, hy2⟩)).mono hkle
      · exact (h.inv.ent _ (List.mem_cons_of_mem _ hx') _ hy).mono hkle
    · have one : ∀ x, (p, x) ∈ all ((q, decls a e) :: o) → x = u := by
        intro x hm
        rcases mem_all _ _ hm with ⟨y, hy, hye⟩ | he
        · exact ent_eq x (h.inv.ent y hy _ hye)
        · simp only [Prod.mk.injEq] at he
          rw [he.2, hxml.mp he.1]
      intro r v v' h1 h2
      rw [hall] at h1 h2
      rcases h1 with h1 | h1
      · simp only [Prod.mk.injEq] at h1
        obtain ⟨rfl, rfl⟩ := h1
        rcases h2 with h2 | h2
        · simp only [Prod.mk.injEq] at h2; exact h2.2.symm
        · exact (one _ h2).symm
      · rcases h2 with h2 | h2
        · simp only [Prod.mk.injEq] at h2
          obtain ⟨rfl, rfl⟩ := h2
          exact one _ h1
        · exact h.inv.fn r v v' h1 h2
    · intro s hs x hx'
      rw [hall]
      rcases List.mem_cons.mp hs with rfl | hs
      · rcases List.mem_cons.mp hx' with rfl | hx'
        · exact Or.inl rfl
        · exact Or.inr (h.inv.uris a (by rw [hsc]; simp) x hx')
      · exact Or.inr (h.inv.uris s (by rw [hsc]; exact List.mem_cons_of_mem _ hs) x hx')
  · rw [List.cons_append, List.map_cons, List.nodup_cons]
    refine ⟨?_, h.keys⟩
    intro hm
    obtain ⟨⟨r, x⟩, h1, h2⟩ := List.mem_map.mp hm
    simp only at h2
    subst h2
    exact freshP x h1
  · intro x hm hxx
    rw [List.cons_append] at hm
    rcases List.mem_cons.mp hm with rfl | hm
    · exact hxml.mp hxx
    · exact h.xmlok x hm hxx
  · intro x hm
    rcases List.mem_cons.mp hm with rfl | hm
    · exact ⟨p, hp, by simp [mapFind]⟩
    · obtain ⟨p', h1, h2⟩ := h.c1 x hm
      by_cases hux : u = x.2
      · exact ⟨p, hp, by simp [mapFind, hux]⟩
      · exact ⟨p', h1, by rw [mapFind, if_neg hux]; exact h2⟩
  · intro x hm
    rcases List.mem_cons.mp hm with rfl | hm
    · exact hp
    · exact h.c2 x hm
  · exact h.c3
  · intro x hm
    obtain ⟨h1, h2⟩ := h.attsOk x hm
    simp only [hfp]
    by_cases hux : u = x.uri
    · rw [if_neg (by rw [← hux]; exact hu), ← hux] at h2
      exact absurd hf h2
    · simp only [hux, if_false]
      exact ⟨h1, h2⟩
  · exact h.nodup
  · have := h.el
    split
    · rename_i h0; rw [if_pos h0] at this; exact this
    · rename_i h0; rw [if_neg h0] at this
      rw [hall]; exact Or.inr this

theorem start_pinv (ns : Str → Str) (n : NsStack) (p l u : Str) (o : Open) (h : Inv ns n o)
    (hc : if u = [] then ns [] = [] else Bound ns p u) (n2 : NsStack)
    (hn2 : n2 = if u ≠ [] then declareNamespace p u false (nsPush n) else nsPush n) (e : Scope × Scope)
    (he : n2.scopes = e :: n.scopes) :
    PInv ns (nsPush n2) [] ([], []) e (findPrefix u n2.scopes, l) u o := by
  have hx : ∀ v, findPrefix v (([], []) :: n.scopes) = findPrefix v n.scopes := by
    intro v; simp [findPrefix, mapFind]
  have plain : ∀ q : QN, n2 = nsPush n → (if u = [] then q.1 = [] ∧ ns [] = [] else (q.1, u) ∈ all o) →
      PInv ns (nsPush n2) [] ([], []) e q u o := by
    intro q hn hel
    have he' : e = ([], []) := by
      rw [hn, nsPush] at he; simp only [List.cons.injEq, and_true] at he; exact he.symm
    subst he'
    have hall : ∀ x, x ∈ all ((q, decls ([], []) ([], [])) :: o) ↔ x ∈ all o := by
      intro x; rw [mem_all_cons]; simp [decls]
    refine ⟨⟨?_, ?_, ?_⟩, by simp, by simp, by simp, by simp, by simp, by simp, by simp, ?_⟩
    · intro x hx' y hy
      rcases List.mem_cons.mp hx' with rfl | hx'
      · simp [decls] at hy
      · rw [hn]; exact h.ent x hx' y hy
    · intro r v v' h1 h2
      rw [hall] at h1 h2
      exact h.fn r v v' h1 h2
    · intro s hs x hx'
      rw [hall]
      rw [hn] at hs
      simp only [nsPush, List.mem_cons] at hs
      rcases hs with rfl | rfl | hs
      · simp at hx'
      · simp at hx'
      · exact h.uris s hs x hx'
    · split
      · rename_i h0; rw [if_pos h0] at hel; exact hel
      · rename_i h0; rw [if_neg h0] at hel; rw [hall]; exact hel
  by_cases hu : u = []
  · rw [if_neg (by simpa using hu)] at hn2
    refine plain _ hn2 ?_
    rw [if_pos hu] at hc ⊢
    refine ⟨?_, hc⟩
    simp only [hn2, hu, nsPush, hx]
    exact h.prefix_nil
  · rw [if_pos hu] at hn2
    rw [if_neg hu] at hc
    obtain ⟨hns, hxns, hna, hxml⟩ := hc
    rw [declareNamespace] at hn2
    by_cases hf : findPrefix u (nsPush n).scopes = []
    · rw [if_neg (by simpa using hf)] at hn2
      have e0 : ((false && p.isEmpty) || decide (p = strXmlns)) = false := by
        simp only [Bool.false_and, Bool.false_or, decide_eq_false_iff_not]; exact hxns
      rw [e0, if_neg (by simp), nsBind] at hn2
      simp only [nsPush] at hn2
      have he' : e = ([(p, u)], [(u, p)]) := by
        rw [hn2] at he; simp only [List.cons.injEq, and_true] at he; rw [← he]; simp [mapSet]
      subst he'
      have hfp : findPrefix u n2.scopes = p := by rw [he]; simp [findPrefix, mapFind]
      rw [hfp]
      have hauto : n2.autoNs = n.autoNs := by rw [hn2]
      have ent_eq : ∀ x, EntOk ns n.autoNs (p, x) → x = u := by
        rintro x ⟨_, _, _, _, ⟨i, hi, he'⟩ | ⟨_, hns'⟩⟩
        · exact absurd ⟨i, he'⟩ hna
        · exact hns'.symm.trans hns
      have hall : ∀ x, x ∈ all (((p, l), decls ([], []) ([(p, u)], [(u, p)])) :: o) ↔
          x = (p, u) ∨ x ∈ all o := by
        intro x
        rw [mem_all_cons]
        unfold decls
        by_cases hpx : p = xml
        · have e1 : decide (p ≠ strXml) = false := by simp only [decide_eq_false_iff_not, Decidable.not_not]; exact hpx
          simp only [List.nil_append, List.filter_cons, e1, Bool.false_eq_true, if_false, List.filter_nil,
            List.not_mem_nil, false_or]
          constructor
          · exact Or.inr
          · rintro (rfl | h')
            · rw [hpx, hxml.mp hpx]; simp [all]
            · exact h'
        · have e1 : decide (p ≠ strXml) = true := by simp only [decide_eq_true_eq]; exact hpx
          simp only [List.nil_append, List.filter_cons, e1, if_true, List.filter_nil, List.mem_singleton]
      refine ⟨⟨?_, ?_, ?_⟩, by simp, ?_, by simp, by simp, by simp [mapFind], by simp, by simp, ?_⟩
      · intro x hx' y hy
        rcases List.mem_cons.mp hx' with rfl | hx'
        · obtain ⟨hy1, hy2⟩ := List.mem_filter.mp hy
          simp only [List.nil_append, List.mem_singleton] at hy1
          subst hy1
          have hpx : p ≠ xml := of_decide_eq_true hy2
          exact ⟨hu, hxns, hpx, fun he => hpx (hxml.mpr he), Or.inr ⟨hna, hns⟩⟩
        · simp only [nsPush, hauto]; exact h.ent x hx' y hy
      · have one : ∀ x, (p, x) ∈ all o → x = u := by
          intro x hm
          rcases mem_all _ _ hm with ⟨y, hy, hye⟩ | he'
          · exact ent_eq x (h.ent y hy _ hye)
          · simp only [Prod.mk.injEq] at he'
            rw [he'.2, hxml.mp he'.1]
        intro r v v' h1 h2
        rw [hall] at h1 h2
        rcases h1 with h1 | h1
        · simp only [Prod.mk.injEq] at h1
          obtain ⟨rfl, rfl⟩ := h1
          rcases h2 with h2 | h2
          · simp only [Prod.mk.injEq] at h2; exact h2.2.symm
          · exact (one _ h2).symm
        · rcases h2 with h2 | h2
          · simp only [Prod.mk.injEq] at h2
            obtain ⟨rfl, rfl⟩ := h2
            exact one _ h1
          · exact h.fn r v v' h1 h2
      · intro s hs x hx'
        rw [hall]
        simp only [nsPush, he, List.mem_cons] at hs
        rcases hs with rfl | rfl | hs
        · simp at hx'
        · simp at hx'; subst hx'; exact Or.inl rfl
        · exact Or.inr (h.uris s hs x hx')
      · intro x hm hxx
        simp only [List.nil_append, List.mem_singleton] at hm
        subst hm
        exact hxml.mp hxx
      · rw [if_neg hu, hall]; exact Or.inl rfl
    · rw [if_pos hf] at hn2
      have hfe : findPrefix u n2.scopes = findPrefix u n.scopes := by rw [hn2]; simp only [nsPush, hx]
      refine plain _ hn2 ?_
      rw [if_neg hu]
      simp only [hfe]
      refine h.prefix_mem u ?_
      simpa only [nsPush, hx] using hf

end Verif.Xslt
