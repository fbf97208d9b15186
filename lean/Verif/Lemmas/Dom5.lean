import Verif.Lemmas.Dom4
set_option autoImplicit false
set_option linter.unusedSimpArgs false
set_option linter.unusedVariables false
namespace Verif.Dom
open Verif.Spec.Dom (Anc)

/-! ## deletion -/

theorem anc_comparable {par : Id → Option Id} {a b x : Id} (ha : AncEq par a x) (hb : AncEq par b x) :
    AncEq par a b ∨ AncEq par b a := by
  rcases ha with rfl | ha
  · exact Or.inr hb
  · induction ha with
    | parent x hx =>
      rcases hb with rfl | hb
      · exact Or.inl (Or.inr (.parent _ _ hx))
      · cases hb with
        | parent _ h => rw [hx] at h; cases h; exact Or.inl (Or.inl rfl)
        | above q _ h1 h2 => rw [hx] at h1; cases h1; exact Or.inr (Or.inr h2)
    | above q x hx h ih =>
      rcases hb with rfl | hb
      · exact Or.inl (Or.inr (.above _ _ _ hx h))
      · cases hb with
        | parent _ h1 => rw [hx] at h1; cases h1; exact Or.inl (Or.inr h)
        | above q' _ h1 h2 => rw [hx] at h1; cases h1; exact ih (Or.inr h2)

theorem Inv.nodup {s : St} (h : Inv s) (p : Id) : (s.kids p).Nodup := h.forest.nodup p

theorem subtree_nodup {s : St} (h : Inv s) : ∀ (fuel : Nat) (c : Id), (subtree s fuel c).Nodup
  | 0, _ => by simp [subtree]
  | fuel + 1, c => by
    unfold subtree
    rw [List.nodup_cons]
    constructor
    · intro hm
      obtain ⟨y, hy, hx⟩ := List.mem_flatMap.mp hm
      exact h.wf.acyc c (anc_anceq (.parent _ _ (h.child_parent hy)) (subtree_anc h fuel y c hx))
    · show List.Pairwise _ _
      rw [List.pairwise_flatMap]
      refine ⟨fun a _ => subtree_nodup h fuel a, ?_⟩
      refine List.Pairwise.imp_of_mem ?_ (h.nodup c)
      intro a b ha hb hne x hx y hy e
      subst e
      have sib : ∀ u v : Id, u ∈ s.kids c → v ∈ s.kids c → Anc s.parent u v → False := by
        intro u v hu hv hanc
        have hpv := h.child_parent hv
        have hpu := h.child_parent hu
        cases hanc with
        | parent _ t => rw [hpv] at t; cases t; exact h.wf.acyc c (.parent _ _ hpu)
        | above q _ t1 t2 => rw [hpv] at t1; cases t1; exact h.wf.acyc c (anc_trans (.parent _ _ hpu) t2)
      rcases anc_comparable (subtree_anc h fuel a x hx) (subtree_anc h fuel b x hy) with t | t
      · rcases t with t | t
        · exact hne t
        · exact sib a b ha hb t
      · rcases t with t | t
        · exact hne t.symm
        · exact sib b a hb ha t

theorem anceq_root {par : Id → Option Id} {a b : Id} (h : AncEq par a b) (hb : par b = none) : a = b := by
  rcases h with e | h
  · exact e
  · cases h with
    | parent _ t => rw [hb] at t; cases t
    | above _ _ t _ => rw [hb] at t; cases t

theorem Inv.doc_parent {s : St} (h : Inv s) {d : Id} (hd : s.kind d = .document) : s.parent d = none := by
  cases hp : s.parent d with
  | none => rfl
  | some q =>
    have := (h.kinds q d (h.wf.par d q hp)).2
    rw [hd] at this; cases this

theorem destroyed_nodup {X : Id → Prop} {s : St} (h : Inv s) (ho : Orph X s) {d : Id} (hd : s.kind d = .document) :
    (destroyed s d).Nodup := by
  unfold destroyed
  rw [List.nodup_append]
  refine ⟨?_, subtree_nodup h _ d, ?_⟩
  · show List.Pairwise _ _
    rw [List.pairwise_flatMap]
    refine ⟨fun a _ => subtree_nodup h _ a, ?_⟩
    refine List.Pairwise.imp_of_mem ?_ ((List.nodup_range (n := s.size)).filter _)
    intro a b ha hb hne x hx y hy e
    subst e
    simp only [List.mem_filter, List.mem_range, Bool.and_eq_true, decide_eq_true_eq] at ha hb
    rcases anc_comparable (subtree_anc h _ a x hx) (subtree_anc h _ b x hy) with t | t
    · exact hne (anceq_root t (ho.out b hb.2.1).2.2.1)
    · exact hne (anceq_root t (ho.out a ha.2.1).2.2.1).symm
  · intro x hx y hy e
    subst e
    obtain ⟨a, ha, hxa⟩ := List.mem_flatMap.mp hx
    simp only [List.mem_filter, List.mem_range, Bool.and_eq_true, decide_eq_true_eq] at ha
    have oa := ho.out a ha.2.1
    have key : a = d := by
      rcases anc_comparable (subtree_anc h _ a x hxa) (subtree_anc h _ d x hy) with t | t
      · exact anceq_root t (h.doc_parent hd)
      · exact (anceq_root t oa.2.2.1).symm
    subst key
    exact oa.2.2.2.1 hd

/-- Following parents from `n` one arrives at a node without parent, of the same document. -/
theorem top_exists {s : St} (h : Inv s) : ∀ (fuel : Nat) (seen : List Id) (n : Id), seen.Nodup →
    (∀ x ∈ seen, x < s.size ∧ Anc s.parent n x) → n < s.size → s.size + 1 ≤ fuel + seen.length →
    ∃ a, a < s.size ∧ AncEq s.parent a n ∧ s.parent a = none ∧ s.doc a = s.doc n ∧ s.freed a = s.freed n ∧
      (a = n ∨ hasKids (s.kind a) = true) := by
  intro fuel
  induction fuel with
  | zero =>
    intro seen n hn hs hlt hf
    have := nodup_length_le s.size seen hn (fun x hx => (hs x hx).1)
    omega
  | succ fuel ih =>
    intro seen n hn hs hlt hf
    cases hp : s.parent n with
    | none => exact ⟨n, hlt, Or.inl rfl, hp, rfl, rfl, Or.inl rfl⟩
    | some q =>
      have hm := h.wf.par n q hp
      obtain ⟨a, a1, a2, a3, a4, a5, a6⟩ := ih (n :: seen) q (by
          rw [List.nodup_cons]
          exact ⟨fun hin => h.wf.acyc n (hs n hin).2, hn⟩) (by
          intro x hx
          cases List.mem_cons.mp hx with
          | inl e => subst e; exact ⟨hlt, .parent _ _ hp⟩
          | inr e => exact ⟨(hs x e).1, anc_trans (.parent _ _ hp) (hs x e).2⟩)
        (h.lt q n hm).2 (by simp; omega)
      refine ⟨a, a1, Or.inr (anceq_anc a2 (.parent _ _ hp)), a3, by rw [a4, h.owner q n hm], by rw [a5, h.closed q n hm], ?_⟩
      right
      rcases a6 with rfl | a6
      · exact (h.kinds a n hm).1
      · exact a6

theorem destroyed_mem {s : St} (h : Inv s) (ho : Orph (fun _ => False) s) {d n : Id} (hn : n < s.size)
    (hf : s.freed n = false) (hdoc : s.doc n = some d) (hk : s.kind n ≠ .doctype) : n ∈ destroyed s d := by
  have hd := h.docok n d hn hdoc
  obtain ⟨a, a1, a2, a3, a4, a5, a6⟩ := top_exists h (s.size + 1) [] n List.nodup_nil (by simp) hn (by simp)
  unfold destroyed
  rw [List.mem_append]
  by_cases hda : s.kind a = .document
  · right
    have := h.selfdoc a a1 hda
    rw [a4, hdoc] at this
    cases this
    exact (mem_subtree h hd.1).mpr a2
  · left
    refine List.mem_flatMap.mpr ⟨a, ?_, (mem_subtree h a1).mpr a2⟩
    simp only [List.mem_filter, List.mem_range, Bool.and_eq_true, decide_eq_true_eq]
    refine ⟨a1, ho.into a a1 (by rw [a5]; exact hf) hda ?_ a3 not_false, by rw [a4]; exact hdoc⟩
    rcases a6 with rfl | a6
    · exact hk
    · intro e; rw [e] at a6; cases a6

theorem anc_same {s : St} (h : Inv s) {a n : Id} (ha : AncEq s.parent a n) :
    s.doc n = s.doc a ∧ s.freed n = s.freed a := by
  rcases ha with rfl | ha
  · exact ⟨rfl, rfl⟩
  · induction ha with
    | parent x hx => have := h.wf.par x _ hx; exact ⟨h.owner _ x this, h.closed _ x this⟩
    | above q x hx _ ih =>
      have := h.wf.par x _ hx
      exact ⟨(h.owner _ x this).trans ih.1, (h.closed _ x this).trans ih.2⟩

theorem destroyed_own {X : Id → Prop} {s : St} (h : Inv s) (ho : Orph X s) {d n : Id} (hd : s.kind d = .document) (hlt : d < s.size)
    (hf : s.freed d = false) (hn : n ∈ destroyed s d) : s.doc n = some d ∧ s.freed n = false := by
  unfold destroyed at hn
  rw [List.mem_append] at hn
  rcases hn with hn | hn
  · obtain ⟨a, ha, hx⟩ := List.mem_flatMap.mp hn
    simp only [List.mem_filter, List.mem_range, Bool.and_eq_true, decide_eq_true_eq] at ha
    have := anc_same h (subtree_anc h _ a n hx)
    rw [this.1, this.2]
    exact ⟨ha.2.2, (ho.out a ha.2.1).2.1⟩
  · have := anc_same h (subtree_anc h _ d n hn)
    rw [this.1, this.2]
    exact ⟨h.selfdoc d hlt hd, hf⟩

/-! ## insertion of a node that is no fragment -/

/-- The tests at the start of `insertBefore`. -/
def insertOk (s : St) (p c : Id) : Prop :=
  hasKids (s.kind p) = true ∧ ¬ (s.kind p = .document ∧ s.kind c = .element ∧ s.root p ≠ none) ∧
  ¬ (s.kind p = .document ∧ s.kind c = .doctype ∧ s.dtype p ≠ none) ∧ s.ro p = false

theorem insertV_fail {fuel : Nat} {s : St} {p c : Id} {ref : Option Id} (h : ¬ insertOk s p c) :
    ∃ e, insertV (fuel + 1) s p c ref = .err e s := by
  rw [insertV]
  by_cases h1 : hasKids (s.kind p) = false
  · rw [if_pos h1]; exact ⟨_, rfl⟩
  rw [if_neg h1]
  by_cases h2 : s.kind p = .document ∧ s.kind c = .element ∧ s.root p ≠ none
  · rw [if_pos h2]; exact ⟨_, rfl⟩
  rw [if_neg h2]
  by_cases h3 : s.kind p = .document ∧ s.kind c = .doctype ∧ s.dtype p ≠ none
  · rw [if_pos h3]; exact ⟨_, rfl⟩
  rw [if_neg h3]
  by_cases h4 : s.ro p = true
  · rw [if_pos h4]; exact ⟨_, rfl⟩
  exact absurd ⟨by simpa using h1, h2, h3, by simpa using h4⟩ h

theorem insertV_go {fuel : Nat} {s : St} {p c : Id} {ref : Option Id} (h : insertOk s p c) :
    insertV (fuel + 1) s p c ref =
      if s.kind c = .fragment then
        match s.kids c with
        | [] => .ok s ()
        | x :: _ =>
          (removeChild s c (some x)).bind fun s _ =>
          (insertV fuel s p x ref).bind fun s _ =>
          insertV fuel s p c ref
      else (insertPlain s p c ref).bind fun s _ => .ok (docInserted s p c) () := by
  obtain ⟨h1, h2, h3, h4⟩ := h
  rw [insertV, if_neg (by simp [h1]), if_neg h2, if_neg h3, if_neg (by simp [h4])]
  rfl

theorem insertV_plain_cases {s : St} (h : Inv s) {p c : Id} (ref : Option Id) (fuel : Nat)
    (hp : p < s.size) (hc : c < s.size) (fp : s.freed p = false) (fc : s.freed c = false)
    (hself : ¬ (p = c ∧ s.kind c = .document)) (hfrag : s.kind c ≠ .fragment) :
    (∃ e s', insertV (fuel + 1) s p c ref = .err e s' ∧ Inv s' ∧ Frame s s' ∧
      (SameTree s s' ∨ (s.parent c ≠ none ∧ ∃ r, ref = some r ∧ r ∉ (s.kids p).erase c)) ∧
      (s.doc c ≠ none → (∀ r, ref = some r → r ∈ (s.kids p).erase c) → s' = s)) ∨
    (∃ s', insertV (fuel + 1) s p c ref = .ok s' () ∧ Inv s' ∧ Frame s s' ∧ insertOk s p c ∧
      s'.kids = Spec.Dom.inserted s.kids p c ref ∧ s'.parent = upd s.parent c (some p) ∧
      (∀ r, ref = some r → r ∈ (s.kids p).erase c) ∧ ¬ AncEq s.parent c p ∧
      (s.doc c ≠ none → s.doc c = s.doc p ∧ childAllowed (s.kind p) (s.kind c) = true) ∧
      (∀ q, s.parent c = some q → s.ro q = false ∧ ¬ (s.kind q = .document ∧ s.dtype q = some c))) := by
  by_cases hok : insertOk s p c
  · rw [insertV_go hok, if_neg hfrag]
    rcases insertPlain_cases (b := false) h ref ⟨hp, hc, fp, fc, hok.2.2.2, hok.1, hself, hfrag⟩ hok.2.1 hok.2.2.1 with
      ⟨e, s', he, i, f, _, t⟩ | ⟨s', he, i, f, _, t⟩
    · left; exact ⟨e, s', he, i, f, t⟩
    · right; exact ⟨s', he, i, f, hok, t⟩
  · obtain ⟨e, he⟩ := insertV_fail (fuel := fuel) (ref := ref) hok
    left; exact ⟨e, s, he, h, Frame.refl s, Or.inl (SameTree.refl s), fun _ _ => rfl⟩

theorem checkCanAdd_ok {s : St} (h : Inv s) {p c d : Id} (hp : p < s.size)
    (hd : s.doc c = some d) (hpd : s.doc p = some d) (hdoc : s.kind c ≠ .document)
    (hanc : ¬ AncEq s.parent c p) (hro : s.ro p = false) (hall : childAllowed (s.kind p) (s.kind c) = true) :
    checkCanAdd s p c = .ok s () := by
  unfold checkCanAdd
  rw [hd]
  simp only []
  rw [if_neg hdoc, if_neg (by rw [hpd]; simp)]
  have htot := onPath_total h c (s.size + 1) [] p List.nodup_nil (by simp) hp (by simp)
  cases hon : onPath s c (s.size + 1) (some p) with
  | none => exact absurd hon htot
  | some b =>
    cases b with
    | true =>
      have := onPath_true _ _ hon p rfl
      have hg : getParent s = s.parent := funext (h.getParent_eq)
      rw [hg] at this
      exact absurd this hanc
    | false =>
      simp only []
      rw [if_neg (by simp [hro]), if_pos hall]

theorem removeChild_ok' {s : St} {q c : Id} (hm : c ∈ s.kids q) (hk : hasKids (s.kind q) = true)
    (hro : s.ro q = false) (hdt : ¬ (s.kind q = .document ∧ s.dtype q = some c)) :
    ∃ s', removeChild s q (some c) = .ok s' () := by
  have hd : ∃ l, doRemove s q (some c) = .ok (unlink s q c l) () := by
    unfold doRemove
    cases he : eraseChild c (s.kids q) with
    | none => exact absurd hm ((eraseChild_none c _).mp he)
    | some l => exact ⟨l, by simp [hro, he]⟩
  obtain ⟨l, hl⟩ := hd
  unfold removeChild
  rw [if_neg (by simp [hk])]
  by_cases hdoc : s.kind q = .document
  · rw [if_pos hdoc, if_neg (fun t => hdt ⟨hdoc, t⟩), hl]
    exact ⟨_, rfl⟩
  · rw [if_neg hdoc, hl]; exact ⟨_, rfl⟩

theorem removeIf_ok {s : St} (h : Inv s) {c : Id}
    (hpar : ∀ q, s.parent c = some q → s.ro q = false ∧ ¬ (s.kind q = .document ∧ s.dtype q = some c)) :
    ∃ s', removeIfRequired s c = .ok s' () := by
  unfold removeIfRequired
  rw [h.getParent_eq]
  cases hp : s.parent c with
  | none => exact ⟨s, rfl⟩
  | some q =>
    have hm := h.wf.par c q hp
    exact removeChild_ok' hm (h.kinds q c hm).1 (hpar q hp).1 (hpar q hp).2

theorem insertV_succeeds {s : St} (h : Inv s) {p c : Id} (ref : Option Id) (fuel : Nat)
    (hp : p < s.size) (hc : c < s.size) (fp : s.freed p = false) (fc : s.freed c = false)
    (hok : insertOk s p c) (hd : s.doc c ≠ none) (hdoc : s.doc c = s.doc p)
    (hall : childAllowed (s.kind p) (s.kind c) = true) (hanc : ¬ AncEq s.parent c p)
    (hpar : ∀ q, s.parent c = some q → s.ro q = false ∧ ¬ (s.kind q = .document ∧ s.dtype q = some c))
    (href : ∀ r, ref = some r → r ∈ (s.kids p).erase c) : ∃ s', insertV (fuel + 1) s p c ref = .ok s' () := by
  have hck := (childAllowed_kind hall).1
  have hself : ¬ (p = c ∧ s.kind c = .document) := fun t => childKind_not_doc hck t.2
  have hfrag : s.kind c ≠ .fragment := by intro e; rw [e] at hck; cases hck
  obtain ⟨d, hd'⟩ : ∃ d, s.doc c = some d := by
    cases hx : s.doc c with
    | none => exact absurd hx hd
    | some d => exact ⟨d, rfl⟩
  rcases insertV_plain_cases h ref fuel hp hc fp fc hself hfrag with ⟨e, s', he, _⟩ | ⟨s', he, _⟩
  · exfalso
    rw [insertV_go hok, if_neg hfrag] at he
    unfold insertPlain at he
    rw [checkCanAdd_ok h hp hd' (by rw [← hdoc]; exact hd') (childKind_not_doc hck) hanc hok.2.2.2 hall] at he
    simp only [Out.bind] at he
    obtain ⟨s2, h2⟩ := removeIf_ok h hpar
    rcases removeIf_cases (b := false) h c fc with ⟨e2, he2⟩ | ⟨s2', he2, i2, r2, _, _, _⟩
    · rw [h2] at he2; cases he2
    · rw [he2] at he
      simp only [] at he
      have hpar2 : s2'.parent c = none := by rw [r2.parent]; exact upd_same _ _ _
      have f2 := r2.frame
      rcases link_cases i2 ref (by rw [f2.size]; exact hp) (by rw [f2.size]; exact hc)
        (by rw [f2.kind]; exact hok.1) (by rw [f2.kind]; exact hck) (by rw [r2.doc]; exact hdoc) hpar2
        (by
          rw [r2.parent]
          rintro (t | t)
          · exact hanc (Or.inl t)
          · exact hanc (Or.inr (anc_unlink t)))
        (by rw [f2.freed, fp, fc]) with ⟨r, hr, hrn, hl⟩ | ⟨s3, hl, _⟩
      · rw [r2.kids] at hrn
        exact hrn (href r hr)
      · rw [hl] at he; cases he
  · exact ⟨s', he⟩

/-! ## fragments -/

theorem beforeAll_step (c : Id) (fs : List Id) (r : Id) (hcr : c ≠ r) : ∀ l,
    Spec.Dom.beforeAll fs r (Spec.Dom.before c r l) = Spec.Dom.beforeAll (c :: fs) r l
  | [] => rfl
  | a :: l => by
    unfold Spec.Dom.before
    by_cases e : a = r
    · rw [if_pos e]
      conv => rhs; unfold Spec.Dom.beforeAll
      rw [if_pos e]
      conv => lhs; unfold Spec.Dom.beforeAll
      rw [if_neg hcr]
      conv => lhs; unfold Spec.Dom.beforeAll
      rw [if_pos e]; rfl
    · rw [if_neg e]
      conv => rhs; unfold Spec.Dom.beforeAll
      rw [if_neg e]
      conv => lhs; unfold Spec.Dom.beforeAll
      rw [if_neg e, beforeAll_step c fs r hcr l]

theorem placeAll_step (c : Id) (fs : List Id) (ref : Option Id) (hcr : ∀ r, ref = some r → c ≠ r) (l : List Id) :
    Spec.Dom.placeAll fs ref (Spec.Dom.place c ref l) = Spec.Dom.placeAll (c :: fs) ref l := by
  cases ref with
  | none => simp [Spec.Dom.placeAll, Spec.Dom.place]
  | some r => exact beforeAll_step c fs r (hcr r rfl) l

theorem beforeAll_nil (r : Id) : ∀ l, Spec.Dom.beforeAll [] r l = l
  | [] => rfl
  | a :: l => by
    unfold Spec.Dom.beforeAll
    rw [beforeAll_nil r l]; split <;> rfl

theorem placeAll_nil (ref : Option Id) (l : List Id) : Spec.Dom.placeAll [] ref l = l := by
  cases ref with
  | none => simp [Spec.Dom.placeAll]
  | some r => exact beforeAll_nil r l

theorem place_ne_nil (c : Id) (ref : Option Id) (l : List Id) (h : ∀ r, ref = some r → r ∈ l) :
    Spec.Dom.place c ref l ≠ [] := by
  cases ref with
  | none => simp [Spec.Dom.place]
  | some r =>
    have := h r rfl
    cases l with
    | nil => cases this
    | cons a l =>
      show Spec.Dom.before c r (a :: l) ≠ []
      unfold Spec.Dom.before
      by_cases e : a = r
      · rw [if_pos e]; simp
      · rw [if_neg e]; simp

theorem Inv.other {s : St} (h : Inv s) {f c q : Id} (hc : c ∈ s.kids f) (hq : q ≠ f) : c ∉ s.kids q := by
  intro t
  have h1 := h.child_parent hc
  rw [h.child_parent t] at h1
  cases h1; exact hq rfl

/-- Inserting a fragment, if it succeeds. -/
theorem insertV_fragment : ∀ (fuel : Nat) (s s' : St) (p f : Id) (ref : Option Id), Inv s → p < s.size → f < s.size →
    s.freed p = false → s.freed f = false → s.kind f = .fragment → insertV fuel s p f ref = .ok s' () →
    s'.kids = Spec.Dom.spliced s.kids p f ref ∧ (s.kids f ≠ [] → p ≠ f)
  | 0, _, _, _, _, _, _, _, _, _, _, _, he => by cases he
  | fuel + 1, s, s', p, f, ref, h, hp, hf, fp, ff, hk, he => by
    by_cases hok : insertOk s p f
    · rw [insertV_go hok, if_pos hk] at he
      cases hkf : s.kids f with
      | nil =>
        rw [hkf] at he
        cases he
        refine ⟨?_, by simp⟩
        funext q
        unfold Spec.Dom.spliced
        by_cases e : q = f
        · rw [if_pos e, e]; exact hkf
        · rw [if_neg e, hkf, placeAll_nil]; split <;> rfl
      | cons x l =>
        rw [hkf] at he
        simp only [] at he
        have hxm : x ∈ s.kids f := by rw [hkf]; simp
        obtain ⟨s1, _, e1, he⟩ := Out.bind_ok he
        obtain ⟨s2, _, e2, he⟩ := Out.bind_ok he
        rcases removeChild_cases' (b := false) h f (some x) ff with ⟨e, t⟩ | ⟨c, s1', hc, _, t, i1, r1, _⟩
        · rw [t] at e1; cases e1
        rw [t] at e1; cases e1; cases hc
        have f1 := r1.frame
        have hx := h.lt f x hxm
        have hxk := (h.kinds f x hxm).2
        rcases insertV_plain_cases i1 (p := p) (c := x) ref (fuel - 1)
          (by rw [f1.size]; exact hp) (by rw [f1.size]; exact hx.1)
          (by rw [f1.freed]; exact fp) (by rw [f1.freed, h.closed f x hxm]; exact ff)
          (by rw [f1.kind]; rintro ⟨_, e⟩; rw [e] at hxk; cases hxk)
          (by rw [f1.kind]; intro e; rw [e] at hxk; cases hxk) with t | t
        · obtain ⟨e, u, t, _⟩ := t
          cases fuel with
          | zero => cases e2
          | succ n => rw [show n + 1 - 1 + 1 = n + 1 from rfl] at t; rw [t] at e2; cases e2
        · obtain ⟨u, t, i2, f2, _, k2, p2, hr2, _⟩ := t
          have hfuel : fuel = fuel - 1 + 1 := by
            cases fuel with
            | zero => cases e2
            | succ n => rfl
          rw [← hfuel] at t
          rw [t] at e2; cases e2
          have f12 := f1.trans f2
          have ih := insertV_fragment fuel _ s' p f ref i2 (by rw [f12.size]; exact hp) (by rw [f12.size]; exact hf)
            (by rw [f12.freed]; exact fp) (by rw [f12.freed]; exact ff) (by rw [f12.kind]; exact hk) he
          have hxl : x ∉ l := by
            have := h.nodup f
            rw [hkf, List.nodup_cons] at this
            exact this.1
          have k1f : s1.kids f = l := by rw [r1.kids, hkf]; simp
          have hpf : p ≠ f := by
            intro e
            subst e
            refine ih.2 ?_ rfl
            rw [k2]
            unfold Spec.Dom.inserted
            rw [if_pos rfl]
            exact place_ne_nil _ _ _ hr2
          refine ⟨?_, fun _ => hpf⟩
          rw [ih.1]
          funext q
          unfold Spec.Dom.spliced
          by_cases eq1 : q = f
          · rw [if_pos eq1, if_pos eq1]
          · rw [if_neg eq1, if_neg eq1]
            have hq : s1.kids q = s.kids q := by
              rw [r1.kids, List.erase_of_not_mem (h.other hxm eq1)]
            by_cases eq2 : q = p
            · rw [if_pos eq2, if_pos eq2]
              have kf : s2.kids f = l := by
                rw [k2]; unfold Spec.Dom.inserted
                rw [if_neg (Ne.symm hpf), k1f, List.erase_of_not_mem hxl]
              have kq : s2.kids q = Spec.Dom.place x ref (s.kids q) := by
                rw [k2]; unfold Spec.Dom.inserted
                rw [if_pos eq2, hq, List.erase_of_not_mem (h.other hxm eq1)]
              rw [kf, kq, hkf]
              refine placeAll_step x l ref ?_ _
              intro r hr e
              have := hr2 r hr
              rw [← e] at this
              exact absurd this (List.Nodup.not_mem_erase (i1.nodup p))
            · rw [if_neg eq2, if_neg eq2, k2]
              unfold Spec.Dom.inserted
              rw [if_neg eq2, hq, List.erase_of_not_mem (h.other hxm eq1)]
    · obtain ⟨e, t⟩ := insertV_fail (fuel := fuel) (ref := ref) hok
      rw [t] at he; cases he

/-- A fragment appended to itself: the loop never ends. -/
theorem insertV_fragment_self : ∀ (fuel : Nat) (s : St) (f : Id), Inv s → f < s.size → s.freed f = false →
    s.kind f = .fragment → s.ro f = false → s.kids f ≠ [] →
    (∀ x ∈ s.kids f, childAllowed .fragment (s.kind x) = true) → insertV fuel s f f none = .diverges
  | 0, _, _, _, _, _, _, _, _, _ => rfl
  | fuel + 1, s, f, h, hf, ff, hk, hro, hne, hall => by
    have hok : insertOk s f f := by
      refine ⟨by rw [hk]; rfl, ?_, ?_, hro⟩
      · rw [hk]; rintro ⟨e, _⟩; cases e
      · rw [hk]; rintro ⟨e, _⟩; cases e
    rw [insertV_go hok, if_pos hk]
    cases hkf : s.kids f with
    | nil => exact absurd hkf hne
    | cons x l =>
      simp only []
      have hxm : x ∈ s.kids f := by rw [hkf]; simp
      have hx := h.lt f x hxm
      have hxk := (h.kinds f x hxm).2
      obtain ⟨s1, e1⟩ := removeChild_ok' hxm (by rw [hk]; rfl) hro (by rw [hk]; rintro ⟨e, _⟩; cases e)
      rcases removeChild_cases' (b := false) h f (some x) ff with ⟨e, t⟩ | ⟨c, s1', hc, _, t, i1, r1, _⟩
      · rw [t] at e1; cases e1
      cases hc
      rw [t]
      simp only [Out.bind]
      have f1 := r1.frame
      cases fuel with
      | zero => rfl
      | succ n =>
        have hpx : s1'.parent x = none := by rw [r1.parent]; exact upd_same _ _ _
        obtain ⟨s2, e2⟩ := insertV_succeeds i1 (p := f) (c := x) none n (by rw [f1.size]; exact hf)
          (by rw [f1.size]; exact hx.1) (by rw [f1.freed]; exact ff) (by rw [f1.freed, h.closed f x hxm]; exact ff)
          (by
            refine ⟨by rw [f1.kind, hk]; rfl, ?_, ?_, by rw [f1.ro]; exact hro⟩
            · rw [f1.kind, hk]; rintro ⟨e, _⟩; cases e
            · rw [f1.kind, hk]; rintro ⟨e, _⟩; cases e)
          (by rw [r1.doc, h.owner f x hxm]; exact h.has_doc hf (by rw [hk]; rfl))
          (by rw [r1.doc]; exact h.owner f x hxm)
          (by rw [f1.kind, hk]; exact hall x hxm)
          (by
            rw [r1.parent]
            intro t
            have t : AncEq s.parent x f := by
              rcases t with t | t
              · exact Or.inl t
              · exact Or.inr (anc_unlink t)
            exact h.wf.acyc x (anceq_anc t (.parent _ _ (h.child_parent hxm))))
          (by rw [hpx]; simp)
          (by simp)
        rcases insertV_plain_cases i1 (p := f) (c := x) none n
          (by rw [f1.size]; exact hf) (by rw [f1.size]; exact hx.1)
          (by rw [f1.freed]; exact ff) (by rw [f1.freed, h.closed f x hxm]; exact ff)
          (by rw [f1.kind]; rintro ⟨_, e⟩; rw [e] at hxk; cases hxk)
          (by rw [f1.kind]; intro e; rw [e] at hxk; cases hxk) with ⟨e, u, t, _⟩ | ⟨u, t, i2, f2, _, k2, _, _⟩
        · rw [t] at e2; cases e2
        rw [t]
        simp only []
        have f12 := f1.trans f2
        refine insertV_fragment_self (n + 1) u f i2 (by rw [f12.size]; exact hf) (by rw [f12.freed]; exact ff)
          (by rw [f12.kind]; exact hk) (by rw [f12.ro]; exact hro) ?_ ?_
        · rw [k2]; unfold Spec.Dom.inserted
          rw [if_pos rfl]; simp [Spec.Dom.place]
        · intro y hy
          rw [f12.kind]
          rw [k2] at hy
          unfold Spec.Dom.inserted at hy
          rw [if_pos rfl] at hy
          simp only [Spec.Dom.place, List.mem_append, List.mem_singleton] at hy
          rcases hy with hy | hy
          · have := List.mem_of_mem_erase hy
            rw [r1.kids] at this
            exact hall y (List.mem_of_mem_erase this)
          · rw [hy]; exact hall x hxm

end Verif.Dom
