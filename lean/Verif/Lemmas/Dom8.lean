import Verif.Lemmas.Dom7
import Verif.Spec.DomText
set_option autoImplicit false
set_option linter.unusedSimpArgs false
set_option linter.unusedVariables false
namespace Verif.Dom
open Verif.Spec.Dom (Anc)

/-! ## outcomes -/

/-- Succeeds with `Q`, or fails, if `E` allows it. -/
def Out.Post {α : Type} (E : Prop) (Q : St → Prop) : Out α → Prop
  | .ok s _ => Q s
  | .err _ _ => E
  | .diverges => False
  | .ub => False

theorem Out.post_bind {α β : Type} {E : Prop} {P Q : St → Prop} {x : Out α} {f : St → α → Out β}
    (h : x.Post E P) (hf : ∀ s a, P s → (f s a).Post E Q) : (x.bind f).Post E Q := by
  cases x with
  | ok s a => exact hf s a h
  | err e s => exact h
  | diverges => exact h
  | ub => exact h

theorem Out.post_mono {α : Type} {E : Prop} {P Q : St → Prop} {x : Out α} (h : x.Post E P)
    (hf : ∀ s, P s → Q s) : x.Post E Q := by
  cases x with
  | ok s a => exact hf s h
  | err e s => exact h
  | diverges => exact h
  | ub => exact h

/-! ## siblings -/

theorem Inv.kid_not_anc {s : St} (h : Inv s) {n c : Id} (hc : c ∈ s.kids n) : ¬ AncEq s.parent c n := by
  have hp := h.child_parent hc
  rintro (rfl | t)
  · exact h.wf.acyc _ (.parent _ _ hp)
  · exact h.wf.acyc _ (.above _ _ _ hp t)

theorem Inv.kids_disjoint {s : St} (h : Inv s) {n c x q : Id} (hc : c ∈ s.kids n) (hx : x ∈ s.kids n) (hne : c ≠ x)
    (h1 : AncEq s.parent c q) (h2 : AncEq s.parent x q) : False := by
  have key : ∀ {c x}, c ∈ s.kids n → x ∈ s.kids n → c ≠ x → ¬ AncEq s.parent c x := by
    intro c x hc hx hne
    rintro (e | t)
    · exact hne e
    · have hp := h.child_parent hx
      cases t with
      | parent _ e => rw [hp] at e; cases e; exact h.kid_not_anc hc (Or.inl rfl)
      | above _ _ e t => rw [hp] at e; cases e; exact h.kid_not_anc hc (Or.inr t)
  rcases anc_comparable h1 h2 with t | t
  · exact key hc hx hne t
  · exact key hx hc (Ne.symm hne) t

theorem Inv.text_leaf {s : St} (h : Inv s) {c : Id} (hk : hasKids (s.kind c) = false) : s.kids c = [] := by
  cases hl : s.kids c with
  | nil => rfl
  | cons a l =>
    have := (h.kinds c a (by rw [hl]; simp)).1
    rw [hk] at this; cases this

theorem Inv.leaf_anc {s : St} (h : Inv s) {c q : Id} (hk : hasKids (s.kind c) = false) (ha : AncEq s.parent c q) : c = q := by
  rcases ha with e | t
  · exact e
  · obtain ⟨x, hx⟩ := anc_has_child t
    have := h.wf.par x c hx
    rw [h.text_leaf hk] at this; cases this

theorem anceq_mono {p p' : Id → Option Id} (hp : ∀ x y, p' x = some y → p x = some y) {a b : Id} (h : AncEq p' a b) :
    AncEq p a b := by
  rcases h with e | t
  · exact Or.inl e
  · right
    induction t with
    | parent c t => exact .parent _ _ (hp _ _ t)
    | above q c t _ ih => exact .above _ _ _ (hp _ _ t) ih

theorem shrink_parent {s s' : St} (h : Inv s) (h' : Inv s') (hs : ∀ q, (s'.kids q).Sublist (s.kids q)) :
    ∀ x y, s'.parent x = some y → s.parent x = some y := by
  intro x y hx
  exact h.child_parent ((hs y).subset (h'.wf.par x y hx))

/-! ## the inner loop -/

/-- After the inner loop of `normalize`. -/
structure Absorbed (s : St) (n : Id) (don : List Id) (c : Id) (r : List Id) (s' : St) : Prop where
  inv : Inv2 s'
  frame : s'.size = s.size ∧ s'.kind = s.kind ∧ s'.ro = s.ro ∧ s'.freed = s.freed
  dataE : ∃ txt r1, r = txt ++ r1 ∧ (∀ x ∈ txt, s.kind x = .text) ∧ (∀ x, r1.head? = some x → s.kind x ≠ .text) ∧
    s'.kids n = don ++ c :: r1 ∧ s'.data = upd s.data c (s.data c ++ txt.flatMap s.data)
  kids : ∀ q, q ≠ n → s'.kids q = s.kids q

theorem Inv.next_eq {s : St} (h : Inv s) {n c : Id} {don r : List Id} (hk : s.kids n = don ++ c :: r) :
    s.next c = r.head? := (h.wf.link _ _ _ _ hk).2.2.1

theorem removeChild_post {E : Prop} {s : St} (h : Inv2 s) {n x : Id} (hx : x ∈ s.kids n) (fn : s.freed n = false)
    (hkx : s.kind x = .text) (hE : s.ro n = true → E) :
    (removeChild s n (some x)).Post E (fun s' => Inv2 s' ∧ Removed s x s') := by
  cases hro : s.ro n with
  | true =>
    have hE := hE hro
    have := removeChild_ends s n (some x)
    rcases removeChild_cases' (b := false) h.inv n (some x) fn with ⟨e, he⟩ | ⟨c, s', _, _, he, i, r, _, hr, _⟩
    · rw [he]; exact hE
    · rw [hro] at hr; cases hr
  | false =>
    have hdoc : ¬ (s.kind n = .document ∧ s.dtype n = some x) := by
      rintro ⟨e, _⟩
      have := h.allow n x hx (by rw [hkx]; simp)
      rw [e, hkx] at this; cases this
    obtain ⟨s', hs'⟩ := removeChild_ok' hx (h.inv.kinds n x hx).1 hro hdoc
    rcases removeChild_cases' (b := false) h.inv n (some x) fn with ⟨e, he⟩ | ⟨c, s2, hc, _, he, i, r, st, hr, _⟩
    · rw [hs'] at he; cases he
    · cases hc
      rw [he]
      exact ⟨After.inv2 ⟨i, r.frame, st⟩ h, r⟩

theorem absorb_post {E : Prop} : ∀ (fuel : Nat) (s : St) (n c : Id) (don r : List Id), Inv2 s → s.freed n = false →
    s.kids n = don ++ c :: r → r.length < fuel → (s.ro n = true → E) → (s.ro c = true → E) →
    (absorb fuel s n c).Post E (Absorbed s n don c r)
  | 0, _, _, _, _, _, _, _, _, hf, _, _ => by omega
  | fuel + 1, s, n, c, don, r, h, fn, hk, hf, hE1, hE2 => by
    rw [absorb, h.inv.next_eq hk]
    have fin : (∀ x, r.head? = some x → s.kind x ≠ .text) → Absorbed s n don c r s := by
      intro hh
      refine ⟨h, ⟨rfl, rfl, rfl, rfl⟩, ⟨[], r, rfl, by simp, hh, hk, ?_⟩, fun _ _ => rfl⟩
      funext y; unfold upd; split
      · rename_i e; subst e; simp
      · rfl
    cases r with
    | nil => exact fin (by simp)
    | cons x r =>
      simp only [List.head?_cons]
      by_cases hx : s.kind x = .text
      · rw [if_pos hx]
        have hxm : x ∈ s.kids n := by rw [hk]; simp
        have hnd := h.inv.nodup n
        rw [hk] at hnd
        have hcx : x ≠ c := by
          rintro rfl
          have := (List.nodup_append.mp hnd).2.1
          simp at this
        unfold appendData
        cases hrc : s.ro c with
        | true => exact hE2 hrc
        | false =>
          simp only [Bool.false_eq_true, if_false]
          have h1 : Inv2 (putData s c (s.data c ++ s.data x)) := h.with_data _
          show (Out.bind (removeChild (putData s c (s.data c ++ s.data x)) n (some x)) _).Post E _
          refine Out.post_bind (removeChild_post h1 (n := n) (x := x) hxm fn hx hE1) ?_
          rintro s2 _ ⟨i2, r2⟩
          have hk2 : s2.kids n = don ++ c :: r := by
            rw [r2.kids]
            show (s.kids n).erase x = _
            rw [hk, List.erase_append_right, List.erase_cons_tail, List.erase_cons_head]
            · simp [Ne.symm hcx]
            · intro hd
              exact (List.nodup_append.mp hnd).2.2 x hd x (by simp) rfl
          have fr := r2.frame
          have := absorb_post (E := E) fuel s2 n c don r i2 (by rw [fr.freed]; exact fn) hk2 (by simp at hf; omega)
            (by rw [fr.ro]; exact hE1) (by rw [fr.ro]; exact hE2)
          refine Out.post_mono this ?_
          intro s3 a3
          obtain ⟨txt, r1, e1, e2, e3, e4, e5⟩ := a3.dataE
          refine ⟨a3.inv, ?_, ⟨x :: txt, r1, by rw [e1]; rfl, ?_, ?_, e4, ?_⟩, ?_⟩
          · rw [a3.frame.1, a3.frame.2.1, a3.frame.2.2.1, a3.frame.2.2.2, fr.size, fr.kind, fr.ro, fr.freed]
            exact ⟨rfl, rfl, rfl, rfl⟩
          · intro y hy
            cases List.mem_cons.mp hy with
            | inl e => subst e; exact hx
            | inr e => have := e2 y e; rw [fr.kind] at this; exact this
          · intro y hy
            have := e3 y hy; rw [fr.kind] at this; exact this
          · rw [e5, fr.data]
            show upd (upd s.data c (s.data c ++ s.data x)) c (upd s.data c (s.data c ++ s.data x) c ++
              txt.flatMap (upd s.data c (s.data c ++ s.data x))) = _
            rw [upd_same, upd_upd]
            have hct : txt.flatMap (upd s.data c (s.data c ++ s.data x)) = txt.flatMap s.data := by
              have hnot : c ∉ txt := by
                intro hin
                have := (List.nodup_append.mp hnd).2.1
                rw [List.nodup_cons] at this
                apply this.1
                rw [e1]; simp [hin]
              clear e1 e2 e5 this a3
              induction txt with
              | nil => rfl
              | cons a l ih =>
                simp only [List.mem_cons, not_or] at hnot
                rw [List.flatMap_cons, List.flatMap_cons, ih hnot.2, upd_ne _ _ (Ne.symm hnot.1)]
            rw [hct, List.flatMap_cons, List.append_assoc]
          · intro q hq
            rw [a3.kids q hq, r2.kids]
            show (s.kids q).erase x = _
            apply List.erase_of_not_mem
            intro hm
            have e1 := h.inv.child_parent hm
            have e2 := h.inv.child_parent hxm
            rw [e1] at e2; cases e2; exact hq rfl
      · rw [if_neg hx]
        exact fin (by intro y hy; simp at hy; subst hy; exact hx)


/-! ## heights -/

/-- The tree below `n` has at most `m` levels. -/
def Hgt (kids : Id → List Id) : Nat → Id → Prop
  | 0, n => kids n = []
  | m + 1, n => ∀ c ∈ kids n, Hgt kids m c

theorem Hgt.mono {k k' : Id → List Id} (hs : ∀ q x, x ∈ k' q → x ∈ k q) : ∀ (m : Nat) (n : Id), Hgt k m n → Hgt k' m n
  | 0, n, h => by
    have h : k n = [] := h
    show k' n = []
    cases hl : k' n with
    | nil => rfl
    | cons a l => have := hs n a (by rw [hl]; simp); rw [h] at this; cases this
  | m + 1, n, h => fun c hc => Hgt.mono hs m c (h c (hs n c hc))

theorem hgt_exists {s : St} (h : Inv s) : ∀ (m : Nat) (seen : List Id) (n : Id), seen.Nodup →
    (∀ x ∈ seen, x < s.size ∧ AncEq s.parent x n) → n ∈ seen → s.size ≤ m + seen.length → Hgt s.kids m n
  | 0, seen, n, hn, hs, hm, hl => by
    show s.kids n = []
    cases hk : s.kids n with
    | nil => rfl
    | cons c l =>
      have hc : c ∈ s.kids n := by rw [hk]; simp
      have := nodup_length_le s.size (c :: seen)
        (List.nodup_cons.mpr ⟨fun t => h.kid_not_anc hc (hs c t).2, hn⟩) (by
          intro x hx
          cases List.mem_cons.mp hx with
          | inl e => subst e; exact (h.lt n x hc).1
          | inr e => exact (hs x e).1)
      simp at this; omega
  | m + 1, seen, n, hn, hs, hm, hl => by
    intro c hc
    refine hgt_exists h m (c :: seen) c (List.nodup_cons.mpr ⟨fun t => h.kid_not_anc hc (hs c t).2, hn⟩) ?_ (by simp)
      (by simp; omega)
    intro x hx
    cases List.mem_cons.mp hx with
    | inl e => subst e; exact ⟨(h.lt n x hc).1, Or.inl rfl⟩
    | inr e =>
      refine ⟨(hs x e).1, Or.inr ?_⟩
      have hp := h.child_parent hc
      rcases (hs x e).2 with t | t
      · rw [t]; exact .parent _ _ hp
      · exact .above _ _ _ hp t

/-! ## content -/

theorem content_append (s : St) (l m : List Id) : content s (l ++ m) = content s l ++ content s m := by
  unfold content; rw [List.flatMap_append]

theorem content_cons (s : St) (a : Id) (m : List Id) : content s (a :: m) = content s [a] ++ content s m := by
  rw [← content_append]; rfl

theorem content_congr {s s' : St} (hk : s'.kind = s.kind) : ∀ (l : List Id), (∀ x ∈ l, s'.data x = s.data x) →
    content s' l = content s l
  | [], _ => rfl
  | a :: l, h => by
    rw [content_cons, content_cons s, content_congr hk l (fun x hx => h x (by simp [hx]))]
    unfold content
    simp only [List.flatMap_cons, List.flatMap_nil, hk, h a (by simp)]

theorem content_texts (s : St) : ∀ (l : List Id), (∀ x ∈ l, s.kind x = .text) →
    content s l = (l.flatMap s.data).map Sum.inl
  | [], _ => rfl
  | a :: l, h => by
    rw [content_cons, content_texts s l (fun x hx => h x (by simp [hx])), List.flatMap_cons, List.map_append]
    unfold content
    simp [h a (by simp)]

theorem Normal.congr {s s' : St} {l : List Id} (hk : s'.kind = s.kind) (hd : ∀ x ∈ l, s'.data x = s.data x)
    (h : Normal s l) : Normal s' l :=
  ⟨fun c hc => by rw [hk, hd c hc]; exact h.full c hc, fun l1 a b l2 e => by rw [hk]; exact h.apart l1 a b l2 e⟩

theorem Normal.nil (s : St) : Normal s [] :=
  ⟨(by simp), fun l1 a b l2 e => by simp at e⟩

theorem Normal.cons {s : St} {c : Id} {l : List Id} (hl : Normal s l) (h1 : s.kind c = .text → s.data c ≠ [])
    (h2 : s.kind c = .text → ∀ x, l.head? = some x → s.kind x ≠ .text) : Normal s (c :: l) := by
  constructor
  · intro x hx
    cases List.mem_cons.mp hx with
    | inl e => subst e; exact h1
    | inr e => exact hl.full x e
  · intro l1 a b l2 e
    cases l1 with
    | nil =>
      simp only [List.nil_append, List.cons.injEq] at e
      obtain ⟨rfl, rfl⟩ := e
      rintro ⟨t1, t2⟩
      exact h2 t1 b rfl t2
    | cons y l1 =>
      simp only [List.cons_append, List.cons.injEq] at e
      exact hl.apart l1 a b l2 e.2

/-! ## the outer loop -/

/-- After `normalize` from the child list `rest`. -/
structure NormOk (s : St) (n : Id) (don rest : List Id) (s' : St) : Prop where
  inv : Inv2 s'
  frame : s'.size = s.size ∧ s'.kind = s.kind ∧ s'.ro = s.ro ∧ s'.freed = s.freed
  shrink : ∀ q, (s'.kids q).Sublist (s.kids q)
  out : ∀ q, q ≠ n → (∀ c ∈ rest, ¬ AncEq s.parent c q) → s'.kids q = s.kids q
  dat : ∀ x, (∀ c ∈ rest, ¬ AncEq s.parent c x) → s'.data x = s.data x
  same : ∀ q, content s' (s'.kids q) = content s (s.kids q)
  here : ∃ rest', s'.kids n = don ++ rest' ∧ Normal s' rest' ∧ (rest = [] → rest' = []) ∧
    (∀ x, rest.head? = some x → s.kind x ≠ .text → rest'.head? = some x)
  below : ∀ c ∈ rest, ∀ q, AncEq s'.parent c q → Normal s' (s'.kids q)

theorem NormOk.par {s s' : St} {n : Id} {don rest : List Id} (h : Inv s) (a : NormOk s n don rest s') :
    ∀ x y, s'.parent x = some y → s.parent x = some y := shrink_parent h a.inv.inv a.shrink

/-- A text child after the inner loop and the removal if empty. -/
structure TextDone (s : St) (n : Id) (don : List Id) (c : Id) (r : List Id) (s' : St) (nx : Option Id) : Prop where
  inv : Inv2 s'
  frame : s'.size = s.size ∧ s'.kind = s.kind ∧ s'.ro = s.ro ∧ s'.freed = s.freed
  kids : ∀ q, q ≠ n → s'.kids q = s.kids q
  data : ∀ x, x ≠ c → s'.data x = s.data x
  same : content s' (s'.kids n) = content s (s.kids n)
  split : ∃ txt mid r1, r = txt ++ r1 ∧ (∀ x ∈ txt, s.kind x = .text) ∧ (∀ x, r1.head? = some x → s.kind x ≠ .text) ∧
    nx = r1.head? ∧ s'.kids n = don ++ mid ++ r1 ∧ (mid = [] ∨ (mid = [c] ∧ s'.data c ≠ []))

theorem text_done {E : Prop} {s : St} {n c : Id} {don r : List Id} (h : Inv2 s) (fn : s.freed n = false)
    (hk : s.kids n = don ++ c :: r) (hc : s.kind c = .text) (hE1 : s.ro n = true → E) (hE2 : s.ro c = true → E)
    {β : Type} {Q : St → Prop} (f : St → Option Id → Out β)
    (hf : ∀ s' nx, TextDone s n don c r s' nx → (f s' nx).Post E Q) :
    ((absorb (s.size + 1) s n c).bind fun s _ =>
      (if s.data c = [] then removeChild s n (some c) else .ok s ()).bind fun s' _ => f s' (s.next c)).Post E Q := by
  have hlen := nodup_length_le s.size (s.kids n) (h.inv.nodup n) (fun x hx => (h.inv.lt n x hx).1)
  rw [hk] at hlen
  simp at hlen
  have hnd := h.inv.nodup n
  rw [hk] at hnd
  have hnd2 := (List.nodup_cons.mp (List.nodup_append.mp hnd).2.1).1
  have hcd : c ∉ don := fun t => (List.nodup_append.mp hnd).2.2 c t c (by simp) rfl
  refine Out.post_bind (absorb_post (E := E) _ s n c don r h fn hk (by omega) hE1 hE2) ?_
  intro s1 _ a
  obtain ⟨f1, f2, f3, f4⟩ := a.frame
  obtain ⟨txt, r1, e1, e2, e3, e4, e5⟩ := a.dataE
  have hcm : c ∈ s1.kids n := by rw [e4]; simp
  have hnx : s1.next c = r1.head? := a.inv.inv.next_eq e4
  have hctxt : c ∉ txt := fun t => hnd2 (by rw [e1]; simp [t])
  have hcr1 : c ∉ r1 := fun t => hnd2 (by rw [e1]; simp [t])
  have hd : ∀ x, x ≠ c → s1.data x = s.data x := fun x hx => by rw [e5, upd_ne _ _ hx]
  have hdc : s1.data c = s.data c ++ txt.flatMap s.data := by rw [e5, upd_same]
  have hct1 : content s1 [c] = content s (c :: txt) := by
    rw [content_texts s (c :: txt) (by
      intro x hx
      cases List.mem_cons.mp hx with
      | inl e => subst e; exact hc
      | inr e => exact e2 x e), content_texts s1 [c] (by intro x hx; simp at hx; subst hx; rw [f2]; exact hc)]
    simp [hdc]
  have hsame : content s1 (s1.kids n) = content s (s.kids n) := by
    rw [e4, hk, e1, content_append, content_cons, content_append, content_cons s c, content_append, hct1,
      content_cons s c txt]
    rw [content_congr f2 don (fun x hx => hd x (fun e => hcd (e ▸ hx))),
      content_congr f2 r1 (fun x hx => hd x (fun e => hcr1 (e ▸ hx)))]
    simp [List.append_assoc]
  by_cases hemp : s1.data c = []
  · rw [if_pos hemp]
    refine Out.post_bind (removeChild_post a.inv hcm (by rw [f4]; exact fn) (by rw [f2]; exact hc) (by rw [f3]; exact hE1)) ?_
    rintro s2 _ ⟨i2, r2⟩
    rw [hnx]
    apply hf
    have fr := r2.frame
    have hk2 : s2.kids n = don ++ r1 := by
      rw [r2.kids, e4, List.erase_append_right _ hcd, List.erase_cons_head]
    have hc0 : content s1 [c] = [] := by
      unfold content
      simp [f2, hc, hemp]
    refine ⟨i2, ?_, ?_, ?_, ?_, ⟨txt, [], r1, e1, e2, e3, rfl, by simpa using hk2, Or.inl rfl⟩⟩
    · rw [fr.size, fr.kind, fr.ro, fr.freed]; exact a.frame
    · intro q hq
      rw [r2.kids, a.kids q hq]
      apply List.erase_of_not_mem
      intro hm
      have q1 := h.inv.child_parent hm
      have q2 := h.inv.child_parent (p := n) (c := c) (by rw [hk]; simp)
      rw [q1] at q2; cases q2; exact hq rfl
    · intro x hx; rw [fr.data]; exact hd x hx
    · rw [← hsame, hk2, e4, content_append, content_append, content_cons s1 c, hc0,
        content_congr fr.kind don (fun _ _ => by rw [fr.data]), content_congr fr.kind r1 (fun _ _ => by rw [fr.data])]
      rfl
  · rw [if_neg hemp]
    show (f s1 (s1.next c)).Post E Q
    rw [hnx]
    apply hf
    exact ⟨a.inv, a.frame, a.kids, hd, hsame, ⟨txt, [c], r1, e1, e2, e3, rfl, by simpa using e4, Or.inr ⟨rfl, hemp⟩⟩⟩

theorem normalizeFrom_post {E : Prop} : ∀ (fuel : Nat) (s : St) (n : Id) (don rest : List Id) (m : Nat), Inv2 s →
    s.freed n = false → s.kids n = don ++ rest → Hgt s.kids m n → rest.length + 1 + m * (s.size + 2) ≤ fuel →
    (∀ x, AncEq s.parent n x → s.ro x = true → E) → (normalizeFrom fuel s n rest.head?).Post E (NormOk s n don rest)
  | 0, _, _, _, _, _, _, _, _, _, hf, _ => by omega
  | fuel + 1, s, n, don, [], m, h, fn, hk, hg, hf, hE => by
    show (normalizeFrom (fuel + 1) s n none).Post E _
    rw [normalizeFrom]
    exact ⟨h, ⟨rfl, rfl, rfl, rfl⟩, fun _ => List.Sublist.refl _, fun _ _ _ => rfl, fun _ _ => rfl, fun _ => rfl,
      ⟨[], hk, Normal.nil s, fun _ => rfl, by simp⟩, by simp⟩
  | fuel + 1, s, n, don, c :: r, m, h, fn, hk, hg, hf, hE => by
    show (normalizeFrom (fuel + 1) s n (some c)).Post E _
    rw [normalizeFrom]
    have hcm : c ∈ s.kids n := by rw [hk]; simp
    have hpc := h.inv.child_parent hcm
    have hnd := h.inv.nodup n
    rw [hk] at hnd
    have hcr := (List.nodup_cons.mp (List.nodup_append.mp hnd).2.1).1
    simp only [List.length_cons] at hf
    by_cases ht : s.kind c = .text
    · rw [if_pos ht]
      refine text_done (E := E) h fn hk ht (hE n (Or.inl rfl)) (hE c (Or.inr (.parent _ _ hpc)))
        (fun s' nx => normalizeFrom fuel s' n nx) ?_
      intro s1 nx td
      obtain ⟨f1, f2, f3, f4⟩ := td.frame
      obtain ⟨txt, mid, r1, e1, e2, e3, e4, e5, e6⟩ := td.split
      have hmid : mid.Sublist [c] := by
        rcases e6 with e | ⟨e, _⟩
        · rw [e]; exact List.nil_sublist _
        · rw [e]; exact List.Sublist.refl _
      have hsh : ∀ q, (s1.kids q).Sublist (s.kids q) := by
        intro q
        by_cases e : q = n
        · rw [e, e5, hk, e1, List.append_assoc]
          refine List.Sublist.append (List.Sublist.refl _) ?_
          show (mid ++ r1).Sublist ([c] ++ (txt ++ r1))
          exact List.Sublist.append hmid (List.sublist_append_right _ _)
        · rw [td.kids q e]; exact List.Sublist.refl _
      have hpar := shrink_parent h.inv td.inv.inv hsh
      have hr1n : ∀ x ∈ r1, x ∈ s.kids n ∧ x ≠ c := by
        intro x hx
        refine ⟨by rw [hk, e1]; simp [hx], ?_⟩
        rintro rfl
        exact hcr (by rw [e1]; simp [hx])
      rw [e4]
      have ih := normalizeFrom_post (E := E) fuel s1 n (don ++ mid) r1 m td.inv (by rw [f4]; exact fn) e5
        (hg.mono (fun q x hx => (hsh q).subset hx)) (by
          rw [f1]
          have : r1.length ≤ r.length := by rw [e1]; simp
          omega)
        (fun x hx hr => hE x (anceq_mono hpar hx) (by rw [← f3]; exact hr))
      refine Out.post_mono ih ?_
      intro s' a
      obtain ⟨g1, g2, g3, g4⟩ := a.frame
      have hpar' := a.par td.inv.inv
      obtain ⟨rest', b1, b2, b3, b4⟩ := a.here
      have hout1 : ∀ q, (∀ d ∈ c :: r, ¬ AncEq s.parent d q) → ∀ d ∈ r1, ¬ AncEq s1.parent d q := by
        intro q hq d hd hb
        exact hq d (by rw [e1]; simp [hd]) (anceq_mono hpar hb)
      have hcout : ∀ d ∈ r1, ¬ AncEq s1.parent d c := by
        intro d hd hb
        have := hr1n d hd
        exact h.inv.kids_disjoint this.1 hcm this.2 (anceq_mono hpar hb) (Or.inl rfl)
      refine ⟨a.inv, ?_, fun q => (a.shrink q).trans (hsh q), ?_, ?_, ?_, ?_, ?_⟩
      · rw [g1, g2, g3, g4]; exact td.frame
      · intro q hq ho
        rw [a.out q hq (hout1 q ho), td.kids q hq]
      · intro x hx
        rw [a.dat x (hout1 x hx), td.data x]
        rintro rfl
        exact hx x (by simp) (Or.inl rfl)
      · intro q
        rw [a.same q]
        by_cases e : q = n
        · rw [e]; exact td.same
        · rw [td.kids q e]
          refine content_congr f2 _ (fun x hx => td.data x ?_)
          rintro rfl
          have := h.inv.child_parent hx
          rw [hpc] at this; cases this; exact e rfl
      · refine ⟨mid ++ rest', by rw [b1, List.append_assoc], ?_, by simp, ?_⟩
        · rcases e6 with e | ⟨e, hne⟩
          · rw [e]; exact b2
          · rw [e]
            refine b2.cons ?_ ?_
            · intro _; rw [a.dat c hcout]; exact hne
            · intro _ x hx
              cases r1 with
              | nil => rw [b3 rfl] at hx; cases hx
              | cons y r1 =>
                have hy := e3 y rfl
                have := b4 y rfl (by rw [f2]; exact hy)
                rw [hx] at this; cases this
                rw [g2, f2]; exact hy
        · intro x hx hxt
          simp at hx; subst hx; exact absurd ht hxt
      · intro d hd q hq
        by_cases hd1 : d ∈ r1
        · exact a.below d hd1 q hq
        · have hdt : s.kind d = .text := by
            cases List.mem_cons.mp hd with
            | inl e => rw [e]; exact ht
            | inr e =>
              rw [e1] at e
              rcases List.mem_append.mp e with e | e
              · exact e2 d e
              · exact absurd e hd1
          have hleaf : hasKids (s'.kind d) = false := by rw [g2, f2, hdt]; rfl
          have := a.inv.inv.leaf_anc hleaf hq
          subst this
          rw [a.inv.inv.text_leaf hleaf]; exact Normal.nil _
    · rw [if_neg ht]
      simp only []
      rw [h.inv.next_eq hk]
      cases m with
      | zero =>
        have hg : s.kids n = [] := hg
        rw [hg] at hcm; cases hcm
      | succ m =>
      have hgc : Hgt s.kids m c := hg c hcm
      have hlen := nodup_length_le s.size (s.kids c) (h.inv.nodup c) (fun x hx => (h.inv.lt c x hx).1)
      have hmul : (m + 1) * (s.size + 2) = m * (s.size + 2) + (s.size + 2) := Nat.succ_mul _ _
      have ih1 := normalizeFrom_post (E := E) fuel s c [] (s.kids c) m h (by rw [h.inv.closed n c hcm]; exact fn) rfl hgc
        (by omega)
        (fun x hx hr => hE x (Or.inr (by
          rcases hx with e | t
          · rw [← e]; exact .parent _ _ hpc
          · exact anc_trans (.parent _ _ hpc) t)) hr)
      refine Out.post_bind ih1 ?_
      intro s1 _ a1
      obtain ⟨f1, f2, f3, f4⟩ := a1.frame
      have hpar := a1.par h.inv
      have hnc : n ≠ c := fun e => h.inv.kid_not_anc hcm (Or.inl e.symm)
      have hkn : s1.kids n = s.kids n := by
        refine a1.out n hnc ?_
        intro d hd hb
        have hpd := h.inv.child_parent hd
        rcases hb with e | t
        · subst e; exact h.inv.wf.acyc _ (.above _ _ _ hpc (.parent _ _ hpd))
        · exact h.inv.wf.acyc _ (.above _ _ _ hpd (.above _ _ _ hpc t))
      have hk1 : s1.kids n = (don ++ [c]) ++ r := by rw [hkn, hk]; simp
      have ih := normalizeFrom_post (E := E) fuel s1 n (don ++ [c]) r (m + 1) a1.inv (by rw [f4]; exact fn) hk1
        (hg.mono (fun q x hx => (a1.shrink q).subset hx)) (by rw [f1]; omega)
        (fun x hx hr => hE x (anceq_mono hpar hx) (by rw [← f3]; exact hr))
      refine Out.post_mono ih ?_
      intro s' a
      obtain ⟨g1, g2, g3, g4⟩ := a.frame
      have hpar' := a.par a1.inv.inv
      obtain ⟨rest', b1, b2, b3, b4⟩ := a.here
      have hc1 : ∀ q, (∀ d ∈ c :: r, ¬ AncEq s.parent d q) → ∀ d ∈ s.kids c, ¬ AncEq s.parent d q := by
        intro q hq d hd hb
        refine hq c (by simp) ?_
        have hpd := h.inv.child_parent hd
        rcases hb with e | t
        · rw [← e]; exact Or.inr (.parent _ _ hpd)
        · exact Or.inr (anc_trans (.parent _ _ hpd) t)
      have hr1 : ∀ q, (∀ d ∈ c :: r, ¬ AncEq s.parent d q) → ∀ d ∈ r, ¬ AncEq s1.parent d q := by
        intro q hq d hd hb
        exact hq d (by simp [hd]) (anceq_mono hpar hb)
      have hunder : ∀ q, AncEq s1.parent c q → ∀ d ∈ r, ¬ AncEq s1.parent d q := by
        intro q hq d hd hb
        refine h.inv.kids_disjoint hcm (by rw [hk]; simp [hd]) ?_ (anceq_mono hpar hq) (anceq_mono hpar hb)
        rintro rfl; exact hcr hd
      have hdc : s'.kids c = s1.kids c := a.out c (Ne.symm hnc) (hunder c (Or.inl rfl))
      refine ⟨a.inv, ?_, fun q => (a.shrink q).trans (a1.shrink q), ?_, ?_, ?_, ?_, ?_⟩
      · rw [g1, g2, g3, g4]; exact a1.frame
      · intro q hq ho
        rw [a.out q hq (hr1 q ho)]
        refine a1.out q ?_ (hc1 q ho)
        rintro rfl
        exact ho q (by simp) (Or.inl rfl)
      · intro x hx
        rw [a.dat x (hr1 x hx), a1.dat x (hc1 x hx)]
      · intro q; rw [a.same q, a1.same q]
      · refine ⟨c :: rest', by rw [b1]; simp, b2.cons ?_ ?_, by simp, ?_⟩
        · rw [g2, f2]; intro e; exact absurd e ht
        · rw [g2, f2]; intro e; exact absurd e ht
        · intro x hx _; simpa using hx
      · intro d hd q hq
        cases List.mem_cons.mp hd with
        | inr e => exact a.below d e q hq
        | inl e =>
          subst e
          have hq1 := anceq_mono hpar' hq
          have hqn : q ≠ n := by
            rintro rfl
            exact h.inv.kid_not_anc hcm (anceq_mono hpar hq1)
          have hkq : s'.kids q = s1.kids q := a.out q hqn (hunder q hq1)
          rw [hkq]
          have hN : Normal s1 (s1.kids q) := by
            by_cases e : d = q
            · obtain ⟨rest1, c1, c2, _⟩ := a1.here
              rw [← e, c1]; exact c2
            · rcases hq1 with e' | t
              · exact absurd e' e
              · obtain ⟨x, hx, hb⟩ := anc_child t
                exact a1.below x ((a1.shrink d).subset (a1.inv.inv.wf.par x d hx)) q hb
          refine hN.congr g2 (fun x hx => a.dat x (hunder x ?_))
          have hpx := a1.inv.inv.child_parent hx
          rcases hq1 with e | t
          · rw [e]; exact Or.inr (.parent _ _ hpx)
          · exact Or.inr (.above _ _ _ hpx t)

theorem normalize_post {E : Prop} {s : St} (h : Inv2 s) {n : Id} (hn : n < s.size) (fn : s.freed n = false)
    (hE : ∀ x, AncEq s.parent n x → s.ro x = true → E) :
    (normalize s n).Post E (NormOk s n [] (s.kids n)) := by
  have hlen := nodup_length_le s.size (s.kids n) (h.inv.nodup n) (fun x hx => (h.inv.lt n x hx).1)
  have hg : Hgt s.kids (s.size - 1) n := hgt_exists h.inv (s.size - 1) [n] n (by simp) (by
    intro x hx; simp at hx; subst hx; exact ⟨hn, Or.inl rfl⟩) (by simp) (by simp; omega)
  have hg2 : (s.kids n).length + 1 + (s.size - 1) * (s.size + 2) ≤ (s.size + 2) * (s.size + 2) := by
    have : (s.size + 2) * (s.size + 2) = (s.size - 1 + 3) * (s.size + 2) := by
      congr 1
      have : 0 < s.size := Nat.lt_of_le_of_lt (Nat.zero_le _) hn
      omega
    rw [this, Nat.add_mul]
    omega
  exact normalizeFrom_post _ s n [] (s.kids n) (s.size - 1) h fn rfl hg hg2 hE


/-! ## splitText -/

theorem before_skip (m x : Nat) : ∀ (l1 l2 : List Nat), x ∉ l1 →
    Spec.Dom.before m x (l1 ++ x :: l2) = l1 ++ m :: x :: l2
  | [], l2, _ => by simp [Spec.Dom.before]
  | a :: l1, l2, h => by
    simp only [List.mem_cons, not_or] at h
    simp only [List.cons_append, Spec.Dom.before]
    rw [if_neg (fun e => h.1 e.symm), before_skip m x l1 l2 h.2]

theorem place_next {l1 l2 : List Nat} {n m : Nat} (hn : (l1 ++ n :: l2).Nodup) :
    Spec.Dom.place m l2.head? (l1 ++ n :: l2) = l1 ++ n :: m :: l2 := by
  cases l2 with
  | nil => simp [Spec.Dom.place]
  | cons x l2 =>
    simp only [List.head?_cons, Spec.Dom.place]
    have := before_skip m x (l1 ++ [n]) l2 (by
      rw [show l1 ++ n :: x :: l2 = (l1 ++ [n]) ++ (x :: l2) by simp] at hn
      intro t
      exact (List.nodup_append.mp hn).2.2 x t x (by simp) rfl)
    simpa using this

theorem splitText_in {s : St} (h : Inv2 s) {n p : Id} (fn : s.freed n = false)
    (hk : s.kind n = .text ∨ s.kind n = .cdata) {k : Nat} (hro : s.ro n = false) (hle : k ≤ (s.data n).length)
    {l1 l2 : List Id} (hp : s.kids p = l1 ++ n :: l2) :
    ∃ u, splitText s n k = .ok u s.size ∧ u.kids p = l1 ++ n :: s.size :: l2 ∧
      (∀ q, q ≠ p → u.kids q = s.kids q) ∧ u.size = s.size + 1 ∧ u.kind = upd s.kind s.size (s.kind n) ∧
      u.data = upd (upd s.data n ((s.data n).take k)) s.size ((s.data n).drop k) ∧
      u.doc s.size = s.doc n ∧ u.freed = s.freed := by
  have hm : n ∈ s.kids p := by rw [hp]; simp
  have hpar := h.inv.child_parent hm
  obtain ⟨hn, hps⟩ := h.inv.lt p n hm
  obtain ⟨⟨d, hd, hd1, hd2⟩, i1, i0, hs⟩ := splitText_good h hn fn hk hro hle
  rcases hs with ⟨e, _⟩ | ⟨p', u, e, hs, hu⟩
  · rw [hpar] at e; cases e
  · rw [hpar] at e; cases e
    refine ⟨u, hs, ?_⟩
    have hkm : s.kind n ≠ .fragment ∧ s.kind n ≠ .document := by
      rcases hk with e | e <;> rw [e] <;> simp
    have hpne : p ≠ s.size := fun e => by rw [e] at hps; exact Nat.lt_irrefl _ hps
    unfold insertBefore at hu
    rcases insertV_plain_cases i1.inv (p := p) (c := s.size) (s.next n)
      (((alloc (putData s n ((s.data n).take k)) (s.kind n) (s.doc n) ((s.data n).drop k) true false).kids s.size).length + 1)
      (Nat.lt_succ_of_lt hps) (Nat.lt_succ_self _) (by show s.freed p = false; rw [← h.inv.closed p n hm]; exact fn)
      (h.fresh _ (Nat.le_refl _)) (fun t => hpne t.1)
      (by show upd s.kind s.size (s.kind n) s.size ≠ _; rw [upd_same]; exact hkm.1) with
      ⟨e, s', he, _⟩ | ⟨s', he, iu, fr, _, hkids, _⟩
    · rw [hu] at he; cases he
    · rw [hu] at he; cases he
      have hnot : ∀ q, s.size ∉ s.kids q := fun q t => Nat.lt_irrefl _ (h.inv.lt q _ t).1
      refine ⟨?_, ?_, fr.size, fr.kind, fr.data, ?_, fr.freed⟩
      · rw [hkids]
        unfold Spec.Dom.inserted
        rw [if_pos rfl]
        show Spec.Dom.place s.size (s.next n) ((s.kids p).erase s.size) = _
        rw [List.erase_of_not_mem (hnot p), h.inv.next_eq hp, hp]
        exact place_next (by rw [← hp]; exact h.inv.nodup p)
      · intro q hq
        rw [hkids]
        unfold Spec.Dom.inserted
        rw [if_neg hq]
        exact List.erase_of_not_mem (hnot q)
      · rw [hd]
        refine fr.doc s.size d ?_
        show upd s.doc s.size (s.doc n) s.size = some d
        rw [upd_same, hd]


theorem charEdit_ends (s : St) (n : Id) (e : CharEdit) : (charEdit s n e).Ends := by
  cases e with
  | set a => show (setData s n a).Ends; unfold setData; split <;> trivial
  | append a => show (appendData s n a).Ends; unfold appendData; split <;> trivial
  | insert o a =>
    show (insertData s n o a).Ends; unfold insertData; split
    · trivial
    · split <;> trivial
  | delete o c =>
    show (deleteData s n o c).Ends; unfold deleteData; split
    · trivial
    · split
      · trivial
      · split <;> trivial
  | replace o c a =>
    show (replaceData s n o c a).Ends; unfold replaceData; split
    · trivial
    · split
      · trivial
      · split <;> trivial

end Verif.Dom
