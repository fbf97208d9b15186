import Verif.Lemmas.Dom2
set_option autoImplicit false
set_option linter.unusedSimpArgs false
set_option linter.unusedVariables false
namespace Verif.Dom
open Verif.Spec.Dom (Anc)

/-! ## replacement -/

theorem sub_frame (s : St) (p n o : Id) (l : List Id) : Frame s (substitute s p n o l) := by
  unfold substitute
  simp only []
  refine Frame.trans ?_ (mc_frame _ _)
  exact ⟨rfl, rfl, rfl, rfl, rfl, fun _ _ h => h⟩
theorem sub_kids (s : St) (p n o : Id) (l : List Id) : (substitute s p n o l).kids = upd s.kids p l := by
  unfold substitute; rw [mc_kids]; rfl
theorem sub_parent (s : St) (p n o : Id) (l : List Id) :
    (substitute s p n o l).parent = upd (upd s.parent n (some p)) o none := by
  unfold substitute; rw [mc_parent]; rfl
theorem sub_prev (s : St) (p n o : Id) (l : List Id) : (substitute s p n o l).prev =
    upd (updOpt (upd s.prev n (s.prev o)) (s.next o) (some n)) o none := by
  unfold substitute; rw [mc_prev]; rfl
theorem sub_next (s : St) (p n o : Id) (l : List Id) : (substitute s p n o l).next =
    upd (updOpt (upd s.next n (s.next o)) (s.prev o) (some n)) o none := by
  unfold substitute; rw [mc_next]; rfl
theorem sub_doc (s : St) (p n o : Id) (l : List Id) : (substitute s p n o l).doc = s.doc := by
  unfold substitute; rw [mc_doc]; rfl
theorem sub_root (s : St) (p n o : Id) (l : List Id) : (substitute s p n o l).root = s.root := by
  unfold substitute; rw [mc_root]; rfl
theorem sub_dtype (s : St) (p n o : Id) (l : List Id) : (substitute s p n o l).dtype = s.dtype := by
  unfold substitute; rw [mc_dtype]; rfl

theorem substitute_inv {s : St} (h : Inv s) {p n o : Id} {l1 l2 : List Id} (hp : p < s.size) (hn : n < s.size)
    (hk : hasKids (s.kind p) = true) (hck : childKind (s.kind n) = true) (hdoc : s.doc n = s.doc p)
    (hpar : s.parent n = none) (hanc : ¬ AncEq s.parent n p) (hfre : s.freed n = s.freed p)
    (hkp : s.kids p = l1 ++ o :: l2) : Inv (substitute s p n o (l1 ++ n :: l2)) := by
  obtain ⟨d1, d2, d3, d4, d5⟩ := h.wf.link _ _ _ _ hkp
  have hnn := h.not_child hpar p
  have hno : n ≠ o := by
    intro e; subst e; rw [hpar] at d1; cases d1
  have fr := sub_frame s p n o (l1 ++ n :: l2)
  have w1 : WFT (upd s.kids p (l1 ++ l2)) (upd s.parent o none)
      (fun x => if x = o then none else if s.next o = some x then s.prev o else s.prev x)
      (fun x => if x = o then none else if s.prev o = some x then s.next o else s.next x) :=
    wft_unlink h.wf hkp rfl rfl (fun _ => rfl) (fun _ => rfl)
  have hsub : ∀ q x, x ∈ (substitute s p n o (l1 ++ n :: l2)).kids q → x ∈ s.kids q ∨ (q = p ∧ x = n) := by
    intro q x hx
    rw [sub_kids] at hx
    unfold upd at hx
    split at hx
    · rename_i e; subst e; rw [hkp]; simp at hx ⊢
      rcases hx with t | t | t
      · exact Or.inl (Or.inl t)
      · exact Or.inr t
      · exact Or.inl (Or.inr (Or.inr t))
    · exact Or.inl hx
  refine ⟨?_, ?_, ?_, ?_, ?_, ?_, ?_, ?_⟩
  · refine wft_link (p := p) (c := n) (l1 := l1) (l2 := l2) w1 ?_ ?_ ?_ ?_ ?_ ?_ ?_
    · simp [upd, hno, hpar]
    · rintro (e | e)
      · exact hanc (Or.inl e)
      · exact hanc (Or.inr (anc_unlink e))
    · simp [upd]
    · rw [sub_kids]; funext q; simp only [upd]; split <;> rfl
    · rw [sub_parent]; funext q; simp only [upd]
      by_cases e : q = o
      · subst e; simp [Ne.symm hno]
      · simp [e]
    · intro x
      rw [sub_prev]
      simp only [upd, updOpt_apply, d2, d3]
      by_cases e : x = o
      · subst e
        have : l2.head? ≠ some x := fun t => d5 (head?_mem' t)
        simp [Ne.symm hno, this]
      · rw [if_neg e, if_neg e]
        by_cases e2 : x = n
        · subst e2
          have : l2.head? ≠ some x := fun t => hnn (by rw [hkp]; simp [head?_mem' t])
          simp [this]
        · rw [if_neg e2]
          by_cases e3 : l2.head? = some x
          · simp [e3]
            exact fun t => absurd t e2
          · simp [e3, e2]
    · intro x
      rw [sub_next]
      simp only [upd, updOpt_apply, d2, d3]
      by_cases e : x = o
      · subst e
        have : l1.getLast? ≠ some x := fun t => d4 (getLast?_mem' t)
        simp [Ne.symm hno, this]
      · rw [if_neg e, if_neg e]
        by_cases e2 : x = n
        · subst e2
          have : l1.getLast? ≠ some x := fun t => hnn (by rw [hkp]; simp [getLast?_mem' t])
          simp [this]
        · rw [if_neg e2]
          by_cases e3 : l1.getLast? = some x
          · simp [e3]
            exact fun t => absurd t e2
          · simp [e3, e2]
  · intro q x hx; rw [fr.size]
    rcases hsub q x hx with t | ⟨rfl, rfl⟩
    · exact h.lt q x t
    · exact ⟨hn, hp⟩
  · intro q x hx; rw [fr.kind]
    rcases hsub q x hx with t | ⟨rfl, rfl⟩
    · exact h.kinds q x t
    · exact ⟨hk, hck⟩
  · rw [fr.size, fr.kind, sub_doc]; exact h.nodoc
  · rw [fr.size, fr.kind, sub_doc]; exact h.selfdoc
  · intro q x hx; rw [sub_doc]
    rcases hsub q x hx with t | ⟨rfl, rfl⟩
    · exact h.owner q x t
    · exact hdoc
  · intro q x hx; rw [fr.freed]
    rcases hsub q x hx with t | ⟨rfl, rfl⟩
    · exact h.closed q x t
    · exact hfre
  · rw [fr.size, fr.kind, sub_doc]; exact h.docok

theorem map_subst {l1 l2 : List Id} {n o : Id} (h1 : o ∉ l1) (h2 : o ∉ l2) :
    (l1 ++ o :: l2).map (fun x => if x = o then n else x) = l1 ++ n :: l2 := by
  have key : ∀ l : List Id, o ∉ l → l.map (fun x => if x = o then n else x) = l := by
    intro l h
    induction l with
    | nil => rfl
    | cons a l ih =>
      simp only [List.mem_cons, not_or] at h
      simp [ih h.2, Ne.symm h.1]
  simp [key l1 h1, key l2 h2]

/-- What `DocumentImpl::replaceChild` does after the replacement. -/
def docReplaced (s : St) (p c : Id) (old : Option Id) : St :=
  if s.kind p = .document ∧ s.kind c = .element ∧ (s.root p = none ∨ s.root p = old) then
    { s with root := upd s.root p (some c) } else s

/-- Replacing by a node that is no fragment. -/
theorem replacePlain_cases {b : Bool} {s : St} (h : Inv s) {p c : Id} (old : Option Id) (pre : Pre s p c)
    (hr1 : ¬ (s.kind p = .document ∧ s.kind c = .element ∧ s.root p ≠ none ∧ s.root p ≠ old))
    (hst : b = true → ∀ o, old = some o → ¬ staleReplace s p c o) :
    (∃ e s', (replacePlain s p c old).bind (fun s _ => .ok (docReplaced s p c old) ()) = .err e s' ∧ Inv s' ∧
      Frame s s' ∧ Star b s s' ∧
      (SameTree s s' ∨ (s.parent c ≠ none ∧ ∀ o, old = some o → o ∉ (s.kids p).erase c)) ∧
      (s.doc c ≠ none → (∃ o, old = some o ∧ o ∈ (s.kids p).erase c) → s' = s)) ∨
    (∃ o s', old = some o ∧ o ∈ (s.kids p).erase c ∧
      (replacePlain s p c old).bind (fun s _ => .ok (docReplaced s p c old) ()) = .ok s' () ∧ Inv s' ∧ Frame s s' ∧
      Star b s s' ∧ o ≠ c ∧ s'.kids = Spec.Dom.replaced s.kids p c o ∧
      s'.parent = upd (upd s.parent c (some p)) o none ∧ ¬ AncEq s.parent c p ∧
      (s.doc c ≠ none → s.doc c = s.doc p ∧ childAllowed (s.kind p) (s.kind c) = true) ∧
      (∀ q, s.parent c = some q → s.ro q = false ∧ ¬ (s.kind q = .document ∧ s.dtype q = some c))) := by
  have e0 : replacePlain s p c old =
      ((checkCanAdd s p c).bind (fun s _ => removeIfRequired s c)).bind (fun s _ =>
        match old with
        | none => .err .notFound s
        | some o =>
          match substChild c o (s.kids p) with
          | none => .err .notFound s
          | some l => .ok (substitute s p c o l) ()) := by
    unfold replacePlain; rw [bind_assoc]; cases old <;> rfl
  rw [e0]
  rcases ready (b := b) h pre with ⟨e, s1, he, i1, f1, st1, sm1, eq1⟩ | ⟨s2, he, rd⟩
  · left; rw [he]; exact ⟨e, s1, rfl, i1, f1, st1, Or.inl sm1, fun hd _ => eq1 hd⟩
  · rw [he]
    simp only [Out.bind]
    have f2 := rd.frame
    have i2 := rd.inv
    have general : (∀ o, old = some o → o ∉ (s.kids p).erase c) →
        (SameTree s s2 ∨ (s.parent c ≠ none ∧ ∀ o, old = some o → o ∉ (s.kids p).erase c)) := by
      intro hx
      by_cases hp : s.parent c = none
      · exact Or.inl (rd.same hp)
      · exact Or.inr ⟨hp, hx⟩
    cases old with
    | none =>
      left
      refine ⟨.notFound, s2, rfl, i2, f2, rd.star, general (by simp), ?_⟩
      rintro _ ⟨o, ho, _⟩; cases ho
    | some o =>
      cases hs : substChild c o (s2.kids p) with
      | none =>
        have hn := (substChild_none c o _).mp hs
        rw [rd.kids] at hn
        left
        refine ⟨.notFound, s2, by simp [hs], i2, f2, rd.star, general (by intro o' e; cases e; exact hn), ?_⟩
        rintro _ ⟨o', ho, hm⟩; cases ho; exact absurd hm hn
      | some l =>
        right
        obtain ⟨l1, l2, hkp, ho1, rfl⟩ := substChild_some c o _ _ hs
        obtain ⟨_, _, _, _, ho2⟩ := i2.wf.link _ _ _ _ hkp
        have iS := substitute_inv i2 (by rw [f2.size]; exact pre.hp) (by rw [f2.size]; exact pre.hc)
            (by rw [f2.kind]; exact pre.kids) (by rw [f2.kind]; exact rd.ck) rd.doc rd.orphan rd.anc
            (by rw [f2.freed, pre.fp, pre.fc]) hkp
        have fS := sub_frame s2 p c o (l1 ++ c :: l2)
        have hroot : ¬ (s2.kind p = .document ∧ s2.kind c = .element ∧ s2.root p ≠ none ∧ s2.root p ≠ some o) := by
          rw [f2.kind]
          rintro ⟨a, b, d, e⟩
          rw [rd.root] at d e
          refine hr1 ⟨a, b, ?_, ?_⟩
          · intro hn; rw [hn] at d; simp at d
          · intro hn
            by_cases hq : s.kind p = .document ∧ s.parent c = some p ∧ s.root p = some c
            · rw [if_pos hq] at d; exact d rfl
            · rw [if_neg hq] at e; exact e hn
        have hfin : docReplaced (substitute s2 p c o (l1 ++ c :: l2)) p c (some o) =
            { substitute s2 p c o (l1 ++ c :: l2) with
              root := fun x => if x = p ∧ s2.kind p = .document ∧ s2.kind c = .element then some c else s2.root x } := by
          unfold docReplaced
          by_cases hq : s2.kind p = .document ∧ s2.kind c = .element
          · have : s2.root p = none ∨ s2.root p = some o := by
              by_cases h1 : s2.root p = none
              · exact Or.inl h1
              · by_cases h2 : s2.root p = some o
                · exact Or.inr h2
                · exact absurd ⟨hq.1, hq.2, h1, h2⟩ hroot
            rw [if_pos (by rw [fS.kind, sub_root]; exact ⟨hq.1, hq.2, this⟩)]
            have : (fun x => if x = p ∧ s2.kind p = .document ∧ s2.kind c = .element then some c else s2.root x) =
                upd s2.root p (some c) := by
              funext x; simp [upd, hq.1, hq.2]
            rw [this, ← sub_root s2 p c o (l1 ++ c :: l2)]
          · rw [if_neg (by rw [fS.kind]; exact fun t => hq ⟨t.1, t.2.1⟩)]
            have : (fun x => if x = p ∧ s2.kind p = .document ∧ s2.kind c = .element then some c else s2.root x) = s2.root := by
              funext x; rw [if_neg (fun t => hq t.2)]
            rw [this, ← sub_root s2 p c o (l1 ++ c :: l2)]
        refine ⟨o, { substitute s2 p c o (l1 ++ c :: l2) with
              root := fun x => if x = p ∧ s2.kind p = .document ∧ s2.kind c = .element then some c else s2.root x },
          rfl, ?_, by simp [hs, hfin], ?_, ?_, ?_, ?_, ?_, ?_, rd.anc0, ?_, rd.par⟩
        · have : o ∈ s2.kids p := by rw [hkp]; simp
          rw [rd.kids] at this
          exact this
        · exact iS.of_tree rfl rfl rfl rfl rfl rfl rfl rfl
        · refine (f2.trans fS).trans ⟨rfl, rfl, rfl, rfl, rfl, fun _ _ h => h⟩
        · refine rd.star.trans (Star.one i2 (E.replace s2 p c o l1 l2 _ (by rw [f2.size]; exact pre.hp)
            (by rw [f2.size]; exact pre.hc) (by rw [f2.freed]; exact pre.fp) (by rw [f2.freed]; exact pre.fc)
            (by rw [f2.ro]; exact pre.ro) (by rw [f2.kind]; exact pre.kids)
            (by rw [f2.kind]; exact ⟨rd.ck, fun hk => rd.allowed (fun e => hk (h.nodoc c pre.hc e))⟩) rd.doc
            hroot rd.orphan rd.anc hkp (fun _ => rfl) ?_))
          rintro hb ⟨q1, q2, q3⟩
          rw [f2.kind] at q1 q3
          rw [rd.root] at q2
          by_cases hq : s.kind p = .document ∧ s.parent c = some p ∧ s.root p = some c
          · rw [if_pos hq] at q2; cases q2
          · rw [if_neg hq] at q2
            exact hst hb o rfl ⟨q1, q2, q3⟩
        · intro e; subst e
          exact i2.not_child rd.orphan p (by rw [hkp]; simp)
        · funext q
          show (substitute s2 p c o (l1 ++ c :: l2)).kids q = _
          rw [sub_kids]
          unfold Spec.Dom.replaced upd
          by_cases e : q = p
          · rw [if_pos e, if_pos e, e, ← rd.kids, hkp, map_subst ho1 ho2]
          · rw [if_neg e, if_neg e, rd.kids]
        · show (substitute s2 p c o (l1 ++ c :: l2)).parent = _
          rw [sub_parent, rd.parent]
          funext x; simp only [upd]
          split
          · rfl
          · split <;> rfl
        · intro hd
          have := rd.doc
          rw [rd.docs hd] at this
          exact ⟨this, rd.allowed hd⟩

theorem replaceV_after {b : Bool} : ∀ (fuel : Nat) (s : St) (p c : Id) (old : Option Id), Inv s → p < s.size → c < s.size →
    s.freed p = false → s.freed c = false → (b = true → ∀ o, old = some o → ¬ staleReplace s p c o) →
    (replaceV fuel s p c old).All (After b s)
  | 0, _, _, _, _, _, _, _, _, _, _ => trivial
  | fuel + 1, s, p, c, old, h, hp, hc, fp, fc, hst => by
    have hs := After.refl (b := b) h
    rw [replaceV]
    by_cases hk : hasKids (s.kind p) = false
    · rw [if_pos hk]; exact hs
    rw [if_neg hk]
    have hk' : hasKids (s.kind p) = true := by simpa using hk
    by_cases hdc : s.kind p = .document ∧ childAllowed .document (s.kind c) = false
    · rw [if_pos hdc]; exact hs
    rw [if_neg hdc]
    have hself : ¬ (p = c ∧ s.kind c = .document) := by
      rintro ⟨e1, e2⟩
      subst e1
      exact hdc ⟨e2, by rw [e2]; rfl⟩
    by_cases h3 : s.kind p = .document ∧ s.kind c = .doctype ∧ s.dtype p = old
    · rw [if_pos h3]; exact hs
    rw [if_neg h3]
    by_cases h4 : s.kind p = .document ∧ s.kind c = .element ∧ s.root p ≠ none ∧ s.root p ≠ old
    · rw [if_pos h4]; exact hs
    rw [if_neg h4]
    by_cases h5 : s.ro p = true
    · rw [if_pos h5]; exact hs
    rw [if_neg h5]
    by_cases h6 : s.kind c = .fragment
    · rw [if_pos h6]
      simp only []
      refine Out.all_bind (removeChild_after (b := b) h c _ fc) (fun _ h => h) ?_
      intro s1 _ he1 a1
      have f1 := a1.2.1
      cases hl : (s.kids c).getLast? with
      | none => trivial
      | some x =>
        simp only []
        have hxm : x ∈ s.kids c := getLast?_mem' hl
        have hx := h.lt c x hxm
        have hnd : s.kind p ≠ .document := by
          intro e; exact hdc ⟨e, by rw [h6]; rfl⟩
        have hI := replaceV_after (b := b) fuel s1 p x old a1.1 (by rw [f1.size]; exact hp) (by rw [f1.size]; exact hx.1)
          (by rw [f1.freed]; exact fp) (by rw [f1.freed, h.closed c x hxm]; exact fc)
          (by rintro _ o _ ⟨e, _⟩; rw [f1.kind] at e; exact hnd e)
        refine Out.all_bind (P := After b s1) hI (fun s' h => a1.trans h) ?_
        intro s2 _ he2 a2
        have f2 := a2.2.1
        refine Out.all_mono (insertV_after fuel s2 p c (some x) a2.1 (by rw [f2.size, f1.size]; exact hp)
          (by rw [f2.size, f1.size]; exact hc) (by rw [f2.freed, f1.freed]; exact fp)
          (by rw [f2.freed, f1.freed]; exact fc) (by rw [f2.kind, f1.kind]; exact hself))
          (fun u hu => (a1.trans a2).trans hu)
    · rw [if_neg h6]
      rcases replacePlain_cases (b := b) h old ⟨hp, hc, fp, fc, by simpa using h5, hk', hself, h6⟩ h4 hst with
        ⟨e, s', he, i, f, st, _⟩ | ⟨o, s', _, _, he, i, f, st, _⟩
      · exact (show ((replacePlain s p c old).bind (fun s _ => .ok (docReplaced s p c old) ())).All (After b s) by
          rw [he]; exact ⟨i, f, st⟩)
      · exact (show ((replacePlain s p c old).bind (fun s _ => .ok (docReplaced s p c old) ())).All (After b s) by
          rw [he]; exact ⟨i, f, st⟩)

/-! ## whole subtrees -/

theorem subtree_anc {s : St} (h : Inv s) : ∀ (fuel : Nat) (c x : Id), x ∈ subtree s fuel c → AncEq s.parent c x
  | 0, _, _, hx => by simp [subtree] at hx
  | fuel + 1, c, x, hx => by
    unfold subtree at hx
    cases List.mem_cons.mp hx with
    | inl e => exact Or.inl e.symm
    | inr e =>
      obtain ⟨y, hy, hxy⟩ := List.mem_flatMap.mp e
      exact Or.inr (anc_anceq (.parent _ _ (h.child_parent hy)) (subtree_anc h fuel y x hxy))

theorem anc_child {par : Id → Option Id} {c x : Id} (h : Anc par c x) : ∃ y, par y = some c ∧ AncEq par y x := by
  induction h with
  | parent x hx => exact ⟨x, hx, Or.inl rfl⟩
  | above q x hx _ ih =>
    obtain ⟨y, hy, ha⟩ := ih
    refine ⟨y, hy, Or.inr ?_⟩
    rcases ha with rfl | ha
    · exact .parent _ _ hx
    · exact .above _ _ _ hx ha

theorem anc_subtree {s : St} (h : Inv s) (x : Id) : ∀ (fuel : Nat) (seen : List Id) (c : Id), seen.Nodup →
    (∀ y ∈ seen, y < s.size ∧ Anc s.parent y c) → c < s.size → s.size + 1 ≤ fuel + seen.length →
    AncEq s.parent c x → x ∈ subtree s fuel c := by
  intro fuel
  induction fuel with
  | zero =>
    intro seen c hn hs hlt hf
    have := nodup_length_le s.size seen hn (fun x hx => (hs x hx).1)
    omega
  | succ fuel ih =>
    intro seen c hn hs hlt hf ha
    unfold subtree
    rcases ha with rfl | ha
    · simp
    · obtain ⟨y, hy, hyx⟩ := anc_child ha
      have hm := h.wf.par y c hy
      refine List.mem_cons_of_mem _ (List.mem_flatMap.mpr ⟨y, hm, ?_⟩)
      refine ih (c :: seen) y ?_ ?_ (h.lt c y hm).1 (by simp; omega) hyx
      · rw [List.nodup_cons]
        exact ⟨fun hin => h.wf.acyc c (hs c hin).2, hn⟩
      · intro z hz
        cases List.mem_cons.mp hz with
        | inl e => subst e; exact ⟨hlt, .parent _ _ hy⟩
        | inr e => exact ⟨(hs z e).1, .above _ _ _ hy (hs z e).2⟩

theorem mem_subtree {s : St} (h : Inv s) {c x : Id} (hc : c < s.size) :
    x ∈ subtree s (s.size + 1) c ↔ AncEq s.parent c x :=
  ⟨subtree_anc h _ c x, anc_subtree h x (s.size + 1) [] c List.nodup_nil (by simp) hc (by simp)⟩

/-- Deleting a whole tree. -/
theorem free_inv {s : St} (h : Inv s) {c : Id} (hc : c < s.size) (hp : s.parent c = none) (o : Id → Bool) :
    Inv { s with orphan := o, freed := fun n => if n ∈ subtree s (s.size + 1) c then true else s.freed n } := by
  refine ⟨h.wf, h.lt, h.kinds, h.nodoc, h.selfdoc, h.owner, ?_, h.docok⟩
  intro q x hx
  have hx' : x ∈ s.kids q := hx
  have hpx := h.child_parent hx'
  have : x ∈ subtree s (s.size + 1) c ↔ q ∈ subtree s (s.size + 1) c := by
    rw [mem_subtree h hc, mem_subtree h hc]
    constructor
    · rintro (e | e)
      · subst e; rw [hp] at hpx; cases hpx
      · cases e with
        | parent _ e => rw [hpx] at e; cases e; exact Or.inl rfl
        | above q' _ e1 e2 => rw [hpx] at e1; cases e1; exact Or.inr e2
    · intro e
      exact Or.inr (anceq_anc e (.parent _ _ hpx))
  show (if x ∈ subtree s (s.size + 1) c then true else s.freed x) = (if q ∈ subtree s (s.size + 1) c then true else s.freed q)
  by_cases e : q ∈ subtree s (s.size + 1) c
  · rw [if_pos e, if_pos (this.mpr e)]
  · rw [if_neg e, if_neg (fun t => e (this.mp t))]; exact h.closed q x hx'

/-! ## histories -/

theorem Inv.fresh {s : St} (h : Inv s) (q : Id) (x : Id) (hx : x ∈ s.kids q) : x ≠ s.size ∧ q ≠ s.size := by
  have := h.lt q x hx
  exact ⟨Nat.ne_of_lt this.1, Nat.ne_of_lt this.2⟩

theorem alloc_inv {s : St} (h : Inv s) (k : Kind) (d : Option Id) (data : Str) (o r : Bool)
    (h1 : d = none → k = .doctype) (h2 : k = .document → d = some s.size)
    (h3 : ∀ e, d = some e → (e = s.size ∧ k = .document) ∨ (e < s.size ∧ s.kind e = .document)) :
    Inv (alloc s k d data o r) := by
  refine ⟨h.wf, ?_, ?_, ?_, ?_, ?_, h.closed, ?_⟩
  · intro p c hc
    have := h.lt p c hc
    exact ⟨Nat.lt_succ_of_lt this.1, Nat.lt_succ_of_lt this.2⟩
  · intro p c hc
    have := h.fresh p c hc
    show hasKids (upd s.kind s.size k p) = true ∧ childKind (upd s.kind s.size k c) = true
    rw [upd_ne _ _ this.1, upd_ne _ _ this.2]
    exact h.kinds p c hc
  · intro n hn hd
    have hn' : n < s.size + 1 := hn
    have hd' : upd s.doc s.size d n = none := hd
    show upd s.kind s.size k n = _
    by_cases e : n = s.size
    · rw [e, upd_same] at hd'; rw [e, upd_same]; exact h1 hd'
    · rw [upd_ne _ _ e] at hd'; rw [upd_ne _ _ e]; exact h.nodoc n (by omega) hd'
  · intro n hn hd
    have hn' : n < s.size + 1 := hn
    have hd' : upd s.kind s.size k n = .document := hd
    show upd s.doc s.size d n = _
    by_cases e : n = s.size
    · rw [e, upd_same] at hd'; rw [e, upd_same]; exact h2 hd'
    · rw [upd_ne _ _ e] at hd'; rw [upd_ne _ _ e]; exact h.selfdoc n (by omega) hd'
  · intro p c hc
    have := h.fresh p c hc
    show upd s.doc s.size d c = upd s.doc s.size d p
    rw [upd_ne _ _ this.1, upd_ne _ _ this.2]
    exact h.owner p c hc
  · intro n d' hn hd
    have hn' : n < s.size + 1 := hn
    have hd' : upd s.doc s.size d n = some d' := hd
    show d' < s.size + 1 ∧ upd s.kind s.size k d' = .document
    have key : (d' = s.size ∧ k = .document) ∨ (d' < s.size ∧ s.kind d' = .document) := by
      by_cases e : n = s.size
      · rw [e, upd_same] at hd'; exact h3 d' hd'
      · rw [upd_ne _ _ e] at hd'
        exact Or.inr (h.docok n d' (Nat.lt_of_le_of_ne (Nat.le_of_lt_succ hn') e) hd')
    rcases key with ⟨e1, e2⟩ | ⟨e1, e2⟩
    · rw [e1, upd_same]; exact ⟨Nat.lt_succ_self _, e2⟩
    · rw [upd_ne _ _ (Nat.ne_of_lt e1)]; exact ⟨Nat.lt_succ_of_lt e1, e2⟩

theorem empty_inv : Inv empty := by
  refine ⟨⟨?_, ?_, ?_, ?_⟩, ?_, ?_, ?_, ?_, ?_, ?_, ?_⟩
  · intro p l1 c l2 h
    have : ([] : List Id) = l1 ++ c :: l2 := h
    simp at this
  · intro c _; exact ⟨rfl, rfl⟩
  · intro c p h; cases h
  · intro c h
    have key : ∀ x, Anc empty.parent c x → False := by
      intro x hx
      induction hx with
      | parent x h => cases h
      | above q x h _ ih => exact ih
    exact key c h
  · intro p c h; cases h
  · intro p c h; cases h
  · intro n h; exact absurd h (Nat.not_lt_zero n)
  · intro n h; exact absurd h (Nat.not_lt_zero n)
  · intro p c h; cases h
  · intro p c h; cases h
  · intro n d h; exact absurd h (Nat.not_lt_zero n)

theorem live_iff {s : St} {n : Id} : live s n = true ↔ n < s.size ∧ s.freed n = false := by
  simp [live]

theorem Inv.forest {s : St} (h : Inv s) : Spec.Dom.Forest s.kids (getParent s) s.prev s.next := by
  have hg : getParent s = s.parent := funext h.getParent_eq
  rw [hg]
  refine ⟨?_, ?_, ?_, ?_, ?_, h.wf.orph, h.wf.acyc⟩
  · intro p c
    exact ⟨fun hc => h.child_parent hc, fun hc => h.wf.par c p hc⟩
  · intro p
    have key : ∀ l2 l1 : List Id, s.kids p = l1 ++ l2 → l2.Nodup := by
      intro l2
      induction l2 with
      | nil => intro _ _; exact List.nodup_nil
      | cons a l ih =>
        intro l1 e
        rw [List.nodup_cons]
        exact ⟨(h.wf.link p l1 a l e).2.2.2.2, ih (l1 ++ [a]) (by simp [e])⟩
    exact key _ [] rfl
  · intro p l a b r e
    have h1 := h.wf.link p l a (b :: r) e
    have h2 := h.wf.link p (l ++ [a]) b r (by simp [e])
    exact ⟨h1.2.2.1, by simpa using h2.2.1⟩
  · intro p a r e
    exact (h.wf.link p [] a r e).2.1
  · intro p l a e
    exact (h.wf.link p l a [] e).2.2.1

end Verif.Dom
