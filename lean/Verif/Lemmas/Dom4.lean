import Verif.Lemmas.Dom3
set_option autoImplicit false
set_option linter.unusedSimpArgs false
set_option linter.unusedVariables false
namespace Verif.Dom
open Verif.Spec.Dom (Anc)

/-! ## what the elementary changes do, member by member -/

theorem docInserted_root (s : St) (p c : Id) (x : Id) : (docInserted s p c).root x =
    if x = p ∧ s.kind p = .document ∧ s.kind c = .element ∧ s.root p = none then some c else s.root x := by
  unfold docInserted
  by_cases h1 : s.kind p = .document
  · rw [if_pos h1]
    by_cases h2 : s.kind c = .element ∧ s.root p = none
    · rw [if_pos h2]
      simp only []
      by_cases h3 : s.kind c = .doctype ∧ s.dtype p = none
      · rw [if_pos h3]; simp [upd, h1, h2.1, h2.2]
      · rw [if_neg h3]; simp [upd, h1, h2.1, h2.2]
    · rw [if_neg h2]
      simp only []
      rw [if_neg (c := x = p ∧ _) (fun t => h2 t.2.2)]
      split <;> rfl
  · rw [if_neg h1, if_neg (fun t => h1 t.2.1)]

theorem docInserted_orphan (s : St) (p c : Id) : (docInserted s p c).orphan = s.orphan := by
  unfold docInserted
  by_cases h1 : s.kind p = .document
  · rw [if_pos h1]
    by_cases h2 : s.kind c = .element ∧ s.root p = none
    · rw [if_pos h2]
      simp only []
      split <;> rfl
    · rw [if_neg h2]
      simp only []
      split <;> rfl
  · rw [if_neg h1]

theorem docInserted_doc (s : St) (p c : Id) : (docInserted s p c).doc = s.doc := by
  unfold docInserted
  by_cases h1 : s.kind p = .document
  · rw [if_pos h1]
    by_cases h2 : s.kind c = .element ∧ s.root p = none
    · rw [if_pos h2]
      simp only []
      split <;> rfl
    · rw [if_neg h2]
      simp only []
      split <;> rfl
  · rw [if_neg h1]

theorem link_orphan {s s' : St} {p c : Id} {ref : Option Id} (h : link s p c ref = .ok s' ())
    (hp : s.parent c = none) (hd : s.doc c ≠ none) : s'.orphan = upd s.orphan c false := by
  unfold link at h
  cases ref with
  | none =>
    simp only [] at h
    cases h
    rw [mc_orphan]
    unfold setParent
    simp only []
    by_cases hl : (s.kids p).getLast? = none
    · simp only [hl, if_true]
      rw [if_pos ⟨hp, hd⟩]
    · simp only [hl, if_false]
      rw [if_pos ⟨hp, hd⟩]
  | some r =>
    simp only [] at h
    cases hi : insertChild c r (s.kids p) with
    | none => rw [hi] at h; cases h
    | some l =>
      rw [hi] at h
      cases h
      rw [mc_orphan]
      unfold setParent
      simp only []
      rw [if_pos ⟨hp, hd⟩]

theorem unlink_orphan {s : St} {p c : Id} {l : List Id} (hp : s.parent c ≠ none) (hd : s.doc c ≠ none) :
    (unlink s p c l).orphan = upd s.orphan c true := by
  unfold unlink
  rw [mc_orphan]
  unfold clearParent
  simp only []
  rw [if_pos ⟨hp, hd⟩]

theorem sub_orphan {s : St} {p c o : Id} {l : List Id} (hc : s.parent c = none) (hd : s.doc c ≠ none)
    (ho : s.parent o ≠ none) (hdo : s.doc o ≠ none) (hco : o ≠ c) :
    (substitute s p c o l).orphan = upd (upd s.orphan c false) o true := by
  unfold substitute
  rw [mc_orphan]
  unfold clearParent setParent
  simp only []
  rw [if_pos ⟨by rw [upd_ne _ _ hco]; exact ho, hdo⟩, if_pos ⟨hc, hd⟩]

/-- What an insertion changes. -/
theorem E_insert_desc {s s1 : St} (h : Inv s) {p c : Id} {ref : Option Id}
    (h1 : p < s.size) (h2 : c < s.size) (h3 : s.freed p = false) (h4 : s.freed c = false)
    (h6 : hasKids (s.kind p) = true) (h7 : childKind (s.kind c) = true) (h8 : s.doc c = s.doc p)
    (h11 : s.parent c = none) (h12 : ¬ AncEq s.parent c p) (h13 : link s p c ref = .ok s1 ()) :
    Inv s1 ∧ Frame s s1 ∧ s1.doc = s.doc ∧ s1.root = s.root ∧ s1.dtype = s.dtype ∧
    s1.parent = upd s.parent c (some p) ∧ (∀ q x, x ∈ s1.kids q ↔ x ∈ s.kids q ∨ (q = p ∧ x = c)) := by
  rcases link_cases h ref h1 h2 h6 h7 h8 h11 h12 (by rw [h3, h4]) with
    ⟨r, _, _, hl⟩ | ⟨s', hl, i, f, hd, hr, ht, hpa, _, _, ⟨l1, l2, hk, hk'⟩, _⟩
  · rw [hl] at h13; cases h13
  · rw [hl] at h13
    cases h13
    refine ⟨i, f, hd, hr, ht, hpa, ?_⟩
    intro q x
    rw [hk']
    unfold upd
    by_cases e : q = p
    · subst e
      rw [if_pos rfl, hk]
      simp only [List.mem_append, List.mem_cons, true_and]
      constructor
      · rintro (t | t | t)
        · exact Or.inl (Or.inl t)
        · exact Or.inr t
        · exact Or.inl (Or.inr t)
      · rintro ((t | t) | t)
        · exact Or.inl t
        · exact Or.inr (Or.inr t)
        · exact Or.inr (Or.inl t)
    · rw [if_neg e]; simp [e]

/-! ## the root element -/

/-- Every element child of a document is its recorded root. -/
def RootOne (s : St) : Prop :=
  ∀ d x, s.kind d = .document → x ∈ s.kids d → s.kind x = .element → s.root d = some x

/-- The recorded root of a document is an element child of it. -/
def RootIn (s : St) : Prop :=
  ∀ d e, s.root d = some e → d < s.size ∧ s.kind d = .document ∧ e ∈ s.kids d ∧ s.kind e = .element

theorem unlink_mem {s : St} (h : Inv s) {p c : Id} {l : List Id} (he : eraseChild c (s.kids p) = some l) (q x : Id) :
    x ∈ (unlink s p c l).kids q ↔ x ∈ s.kids q ∧ x ≠ c := by
  rw [unlink_kids]
  obtain ⟨l1, l2, hk, _, rfl⟩ := eraseChild_some c _ _ he
  obtain ⟨w1, _, _, w4, w5⟩ := h.wf.link _ _ _ _ hk
  unfold upd
  by_cases e : q = p
  · subst e
    rw [if_pos rfl, hk]
    simp only [List.mem_append, List.mem_cons]
    constructor
    · rintro (t | t)
      · exact ⟨Or.inl t, fun e => w4 (e ▸ t)⟩
      · exact ⟨Or.inr (Or.inr t), fun e => w5 (e ▸ t)⟩
    · rintro ⟨t | t | t, ne⟩
      · exact Or.inl t
      · exact absurd t ne
      · exact Or.inr t
  · rw [if_neg e]
    constructor
    · intro t
      refine ⟨t, ?_⟩
      intro e2; subst e2
      have := h.child_parent t
      rw [w1] at this; cases this; exact e rfl
    · exact fun t => t.1

theorem sub_mem {s : St} (h : Inv s) {p c o : Id} {l1 l2 : List Id} (hk : s.kids p = l1 ++ o :: l2)
    (hc : s.parent c = none) (q x : Id) :
    x ∈ (substitute s p c o (l1 ++ c :: l2)).kids q ↔ (x ∈ s.kids q ∧ x ≠ o) ∨ (q = p ∧ x = c) := by
  rw [sub_kids]
  obtain ⟨w1, _, _, w4, w5⟩ := h.wf.link _ _ _ _ hk
  have hoc : o ≠ c := by
    intro e; subst e; rw [hc] at w1; cases w1
  unfold upd
  by_cases e : q = p
  · subst e
    rw [if_pos rfl, hk]
    simp only [List.mem_append, List.mem_cons, true_and]
    constructor
    · rintro (t | t | t)
      · exact Or.inl ⟨Or.inl t, fun e => w4 (e ▸ t)⟩
      · exact Or.inr t
      · exact Or.inl ⟨Or.inr (Or.inr t), fun e => w5 (e ▸ t)⟩
    · rintro (⟨t | t | t, ne⟩ | t)
      · exact Or.inl t
      · exact absurd t ne
      · exact Or.inr (Or.inr t)
      · exact Or.inr (Or.inl t)
  · rw [if_neg e]
    constructor
    · intro t
      refine Or.inl ⟨t, ?_⟩
      intro e2; subst e2
      have := h.child_parent t
      rw [w1] at this; cases this; exact e rfl
    · rintro (t | t)
      · exact t.1
      · exact absurd t.1 e

theorem E_rootOne {b : Bool} {s t : St} (h : Inv s) (he : E b s t) (hr : RootOne s) : RootOne t := by
  cases he with
  | adopt c d _ _ _ _ _ _ => exact hr
  | remove p c l r h1 _ _ _ h5 =>
    have fr := unlink_frame s p c l
    intro d x hd hx hk
    have hd' : s.kind d = .document := by rw [← fr.kind]; exact hd
    have hk' : s.kind x = .element := by rw [← fr.kind]; exact hk
    obtain ⟨hx', hxc⟩ := (unlink_mem h h1 d x).mp hx
    have := hr d x hd' hx' hk'
    show r d = some x
    rw [h5]
    by_cases hc : d = p ∧ s.kind p = .document ∧ s.root p = some c
    · obtain ⟨rfl, _, e⟩ := hc
      rw [this] at e; cases e; exact absurd rfl hxc
    · rw [if_neg hc]; exact this
  | insert s1 p c ref h1 h2 h3 h4 h5 h6 h7 h8 h9 h10 h11 h12 h13 =>
    obtain ⟨i1, f1, d1, r1, t1, pa1, k1⟩ := E_insert_desc h h1 h2 h3 h4 h6 h7.1 h8 h11 h12 h13
    obtain ⟨i2, f2, k2, p2⟩ := docInserted_inv i1 p c
    intro d x hd hx hk
    rw [f2.kind, f1.kind] at hd hk
    rw [k2] at hx
    rw [docInserted_root, f1.kind, r1]
    rcases (k1 d x).mp hx with hx | ⟨rfl, rfl⟩
    · have := hr d x hd hx hk
      by_cases hc : d = p ∧ s.kind p = .document ∧ s.kind c = .element ∧ s.root p = none
      · obtain ⟨rfl, _, _, e⟩ := hc
        rw [this] at e; cases e
      · rw [if_neg hc]; exact this
    · have : s.root d = none := by
        cases hc : s.root d with
        | none => rfl
        | some y => exact absurd ⟨hd, hk, by rw [hc]; simp⟩ h9
      rw [if_pos ⟨rfl, hd, hk, this⟩]
  | replace p c o l1 l2 r h1 h2 h3 h4 h5 h6 h7 h8 h9 h10 h11 h12 h13 _ =>
    have fr := sub_frame s p c o (l1 ++ c :: l2)
    intro d x hd hx hk
    have hd' : s.kind d = .document := by rw [← fr.kind]; exact hd
    have hk' : s.kind x = .element := by rw [← fr.kind]; exact hk
    show r d = some x
    rw [h13]
    rcases (sub_mem h h12 h10 d x).mp hx with ⟨hx, hxo⟩ | ⟨rfl, rfl⟩
    · have := hr d x hd' hx hk'
      by_cases hc : d = p ∧ s.kind p = .document ∧ s.kind c = .element
      · obtain ⟨rfl, _, e⟩ := hc
        refine absurd ⟨hd', e, ?_, ?_⟩ h9
        · rw [this]; simp
        · rw [this]; intro t; cases t; exact hxo rfl
      · rw [if_neg hc]; exact this
    · rw [if_pos ⟨rfl, hd', hk'⟩]

theorem E_rootIn {s t : St} (h : Inv s) (he : E true s t) (hr : RootIn s) : RootIn t := by
  cases he with
  | adopt c d _ _ _ _ _ _ => exact hr
  | remove p c l r h1 _ _ _ h5 =>
    have fr := unlink_frame s p c l
    intro d x hd0
    have hd : r d = some x := hd0
    clear hd0
    show d < (unlink s p c l).size ∧ (unlink s p c l).kind d = _ ∧ x ∈ (unlink s p c l).kids d ∧ (unlink s p c l).kind x = _
    rw [fr.size, fr.kind, unlink_mem h h1]
    rw [h5] at hd
    by_cases hc : d = p ∧ s.kind p = .document ∧ s.root p = some c
    · rw [if_pos hc] at hd; cases hd
    · rw [if_neg hc] at hd
      obtain ⟨q1, q2, q3, q4⟩ := hr d x hd
      refine ⟨q1, q2, ⟨q3, ?_⟩, q4⟩
      rintro rfl
      obtain ⟨l1, l2, hk, _, _⟩ := eraseChild_some x _ _ h1
      have e1 := h.child_parent q3
      have e2 := h.child_parent (p := p) (c := x) (by rw [hk]; simp)
      rw [e1] at e2; cases e2
      exact hc ⟨rfl, q2, hd⟩
  | insert s1 p c ref h1 h2 h3 h4 h5 h6 h7 h8 h9 h10 h11 h12 h13 =>
    obtain ⟨i1, f1, d1, r1, t1, pa1, k1⟩ := E_insert_desc h h1 h2 h3 h4 h6 h7.1 h8 h11 h12 h13
    obtain ⟨i2, f2, k2, p2⟩ := docInserted_inv i1 p c
    intro d x hd
    rw [docInserted_root, f1.kind, r1] at hd
    rw [f2.size, f2.kind, f1.size, f1.kind, k2, k1]
    by_cases hc : d = p ∧ s.kind p = .document ∧ s.kind c = .element ∧ s.root p = none
    · rw [if_pos hc] at hd
      cases hd
      obtain ⟨rfl, e1, e2, e3⟩ := hc
      exact ⟨h1, e1, Or.inr ⟨rfl, rfl⟩, e2⟩
    · rw [if_neg hc] at hd
      obtain ⟨q1, q2, q3, q4⟩ := hr d x hd
      exact ⟨q1, q2, Or.inl q3, q4⟩
  | replace p c o l1 l2 r h1 h2 h3 h4 h5 h6 h7 h8 h9 h10 h11 h12 h13 h14 =>
    have fr := sub_frame s p c o (l1 ++ c :: l2)
    intro d x hd0
    have hd : r d = some x := hd0
    clear hd0
    show d < (substitute s p c o _).size ∧ (substitute s p c o _).kind d = _ ∧ x ∈ (substitute s p c o (l1 ++ c :: l2)).kids d ∧ (substitute s p c o _).kind x = _
    rw [fr.size, fr.kind, sub_mem h h12 h10]
    rw [h13] at hd
    by_cases hc : d = p ∧ s.kind p = .document ∧ s.kind c = .element
    · rw [if_pos hc] at hd
      cases hd
      obtain ⟨rfl, e1, e2⟩ := hc
      exact ⟨h1, e1, Or.inr ⟨rfl, rfl⟩, e2⟩
    · rw [if_neg hc] at hd
      obtain ⟨q1, q2, q3, q4⟩ := hr d x hd
      refine ⟨q1, q2, Or.inl ⟨q3, ?_⟩, q4⟩
      rintro rfl
      have e1 := h.child_parent q3
      have e2 := h.child_parent (p := p) (c := x) (by rw [h12]; simp)
      rw [e1] at e2; cases e2
      refine h14 rfl ⟨q2, hd, ?_⟩
      intro t
      exact hc ⟨rfl, q2, t⟩

/-! ## orphans -/

structure Orph (X : Id → Prop) (s : St) : Prop where
  out : ∀ n, s.orphan n = true → n < s.size ∧ s.freed n = false ∧ s.parent n = none ∧ s.kind n ≠ .document ∧
    s.doc n ≠ none
  into : ∀ n, n < s.size → s.freed n = false → s.kind n ≠ .document → s.kind n ≠ .doctype → s.parent n = none →
    ¬ X n → s.orphan n = true
  fresh : ∀ n, s.size ≤ n → s.freed n = false

theorem childKind_not_doc {k : Kind} (h : childKind k = true) : k ≠ .document := by
  rintro rfl; cases h

theorem Inv.has_doc {s : St} (h : Inv s) {p : Id} (hp : p < s.size) (hk : hasKids (s.kind p) = true) :
    s.doc p ≠ none := by
  intro e
  have := h.nodoc p hp e
  rw [this] at hk; cases hk

theorem unlink_orph {X : Id → Prop} {s : St} (h : Inv s) (ho : Orph X s) {p c : Id} {l : List Id} (he : eraseChild c (s.kids p) = some l)
    (hf : s.freed p = false) : Orph X (unlink s p c l) := by
  have fr := unlink_frame s p c l
  obtain ⟨l1, l2, hk, _, _⟩ := eraseChild_some c _ _ he
  have hm : c ∈ s.kids p := by rw [hk]; simp
  have hpa := h.child_parent hm
  have hlt := h.lt p c hm
  have hkk := h.kinds p c hm
  have hdc : s.doc c ≠ none := by rw [h.owner p c hm]; exact h.has_doc hlt.2 hkk.1
  have hor : (unlink s p c l).orphan = upd s.orphan c true := unlink_orphan (by rw [hpa]; simp) hdc
  constructor
  · intro n hn
    rw [hor] at hn
    rw [fr.size, fr.freed, fr.kind, unlink_parent, unlink_doc]
    by_cases e : n = c
    · subst e
      exact ⟨hlt.1, by rw [h.closed p n hm]; exact hf, upd_same _ _ _, childKind_not_doc hkk.2, hdc⟩
    · rw [upd_ne _ _ e] at hn ⊢; exact ho.out n hn
  · intro n
    rw [fr.size, fr.freed, fr.kind, unlink_parent, hor]
    by_cases e : n = c
    · subst e; intros; exact upd_same _ _ _
    · rw [upd_ne _ _ e, upd_ne _ _ e]; exact ho.into n
  · rw [fr.size, fr.freed]; exact ho.fresh

theorem E_orph {X : Id → Prop} {b : Bool} {s t : St} (h : Inv s) (he : E b s t) (ho : Orph X s) : Orph X t := by
  cases he with
  | adopt c d hc _ hd hk _ _ =>
    constructor
    · intro n hn
      obtain ⟨q1, q2, q3, q4, q5⟩ := ho.out n hn
      refine ⟨q1, q2, q3, q4, ?_⟩
      show upd s.doc c (some d) n ≠ none
      unfold upd; split
      · simp
      · exact q5
    · exact ho.into
    · exact ho.fresh
  | remove p c l r h1 _ hf _ _ =>
    have := unlink_orph h ho h1 hf
    exact ⟨this.out, this.into, this.fresh⟩
  | insert s1 p c ref h1 h2 h3 h4 h5 h6 h7 h8 h9 h10 h11 h12 h13 =>
    obtain ⟨i1, f1, d1, r1, t1, pa1, k1⟩ := E_insert_desc h h1 h2 h3 h4 h6 h7.1 h8 h11 h12 h13
    obtain ⟨i2, f2, k2, p2⟩ := docInserted_inv i1 p c
    have hor := link_orphan h13 h11 (by rw [h8]; exact h.has_doc h1 h6)
    constructor
    · intro n hn
      rw [docInserted_orphan, hor] at hn
      rw [f2.size, f2.kind, f2.freed, p2, docInserted_doc, f1.size, f1.kind, f1.freed, pa1, d1]
      by_cases e : n = c
      · subst e; rw [upd_same] at hn; cases hn
      · rw [upd_ne _ _ e] at hn ⊢; exact ho.out n hn
    · intro n
      rw [f2.size, f2.kind, f2.freed, p2, docInserted_orphan, hor, f1.size, f1.kind, f1.freed, pa1]
      by_cases e : n = c
      · subst e; rw [upd_same]; intro _ _ _ _ t _; cases t
      · rw [upd_ne _ _ e, upd_ne _ _ e]; exact ho.into n
    · rw [f2.size, f1.size, f2.freed, f1.freed]; exact ho.fresh
  | replace p c o l1 l2 r h1 h2 h3 h4 h5 h6 h7 h8 h9 h10 h11 h12 h13 h14 =>
    have fr := sub_frame s p c o (l1 ++ c :: l2)
    have hm : o ∈ s.kids p := by rw [h12]; simp
    have hpo := h.child_parent hm
    have hoc : o ≠ c := by
      rintro rfl; rw [h10] at hpo; cases hpo
    have hdp := h.has_doc h1 h6
    have hor : (substitute s p c o (l1 ++ c :: l2)).orphan = upd (upd s.orphan c false) o true :=
      sub_orphan h10 (by rw [h8]; exact hdp) (by rw [hpo]; simp) (by rw [h.owner p o hm]; exact hdp) hoc
    constructor
    · intro n hn
      have hn : (substitute s p c o (l1 ++ c :: l2)).orphan n = true := hn
      show n < (substitute s p c o (l1 ++ c :: l2)).size ∧ (substitute s p c o (l1 ++ c :: l2)).freed n = false ∧
        (substitute s p c o (l1 ++ c :: l2)).parent n = none ∧ (substitute s p c o (l1 ++ c :: l2)).kind n ≠ .document ∧
        (substitute s p c o (l1 ++ c :: l2)).doc n ≠ none
      rw [hor] at hn
      rw [fr.size, fr.freed, fr.kind, sub_parent, sub_doc]
      by_cases e : n = o
      · subst e
        exact ⟨(h.lt p n hm).1, by rw [h.closed p n hm]; exact h3, upd_same _ _ _,
          childKind_not_doc (h.kinds p n hm).2, by rw [h.owner p n hm]; exact hdp⟩
      · rw [upd_ne _ _ e] at hn ⊢
        by_cases e2 : n = c
        · subst e2; rw [upd_same] at hn; cases hn
        · rw [upd_ne _ _ e2] at hn ⊢; exact ho.out n hn
    · intro n
      show n < (substitute s p c o (l1 ++ c :: l2)).size → (substitute s p c o (l1 ++ c :: l2)).freed n = false →
        (substitute s p c o (l1 ++ c :: l2)).kind n ≠ .document → (substitute s p c o (l1 ++ c :: l2)).kind n ≠ .doctype →
        (substitute s p c o (l1 ++ c :: l2)).parent n = none → ¬ X n → (substitute s p c o (l1 ++ c :: l2)).orphan n = true
      rw [fr.size, fr.freed, fr.kind, sub_parent, hor]
      by_cases e : n = o
      · subst e; intros; exact upd_same _ _ _
      · rw [upd_ne _ _ e, upd_ne _ _ e]
        by_cases e2 : n = c
        · subst e2; rw [upd_same]; intro _ _ _ _ t _; cases t
        · rw [upd_ne _ _ e2, upd_ne _ _ e2]; exact ho.into n
    · intro n hn
      show (substitute s p c o (l1 ++ c :: l2)).freed n = false
      rw [fr.freed]
      refine ho.fresh n ?_
      rw [← fr.size]; exact hn

end Verif.Dom
