import Verif.Lemmas.TagList2
set_option autoImplicit false
set_option linter.unusedSimpArgs false
set_option linter.unusedVariables false
/-!
# Lemmas: histories with a list of elements
-/
namespace Verif.TagList
open Verif.Dom
open Verif.Spec.Dom (Anc)
open Verif.Spec.TagList

theorem sibling_within {s : St} (h : Inv s) {p a b x : Id} (ha : a ∈ s.kids p) (hb : b ∈ s.kids p)
    (hax : AncEq s.parent a x) (hbx : AncEq s.parent b x) : a = b := by
  have one : ∀ {u v : Id}, u ∈ s.kids p → v ∈ s.kids p → Anc s.parent u v → False := fun hu hv t =>
    h.wf.acyc p (anc_anceq (.parent _ _ (h.child_parent hu)) (anc_of_child h hv t))
  rcases anc_comparable hax hbx with t | t
  · rcases t with t | t
    · exact t
    · exact (one ha hb t).elim
  · rcases t with t | t
    · exact t.symm
    · exact (one hb ha t).elim

theorem split_asymm {α : Type} {l l1 l2 l3 m1 m2 m3 : List α} {a b : α} (hn : l.Nodup)
    (h1 : l = l1 ++ a :: l2 ++ b :: l3) (h2 : l = m1 ++ b :: m2 ++ a :: m3) : False := by
  have p1 : l.Pairwise (fun x y => ¬ (x = b ∧ y = a)) := by
    rw [h1] at hn ⊢
    simp only [List.append_assoc, List.cons_append, List.nodup_append, List.nodup_cons, List.mem_append,
      List.mem_cons, not_or] at hn
    rw [List.pairwise_iff_forall_sublist]
    rintro x y hs ⟨rfl, rfl⟩
    -- `x` occurs only at the second place
    have : [x, y].Sublist (l1 ++ y :: l2 ++ x :: l3) := hs
    rw [List.sublist_append_iff] at this
    obtain ⟨u, v, huv, hu, hv⟩ := this
    have hxu : x ∉ u := by
      intro t
      have := hu.subset t
      simp only [List.mem_append, List.mem_cons] at this
      rcases this with t | t | t
      · exact hn.2.2 x t x (Or.inr (Or.inr (Or.inl rfl))) rfl
      · exact hn.2.1.1.2.1 t.symm
      · exact hn.2.1.2.2.2 x t x (Or.inl rfl) rfl
    cases u with
    | nil =>
      simp only [List.nil_append] at huv
      subst huv
      have hy : y ∈ x :: l3 := hv.subset (by simp)
      rcases List.mem_cons.mp hy with e | e
      · exact hn.2.1.1.2.1 e
      · exact hn.2.1.1.2.2 e
    | cons z u =>
      simp only [List.cons_append, List.cons.injEq] at huv
      exact hxu (by rw [huv.1]; simp)
  rw [h2, List.pairwise_iff_forall_sublist] at p1
  refine p1 (a := b) (b := a) ?_ ⟨rfl, rfl⟩
  rw [List.append_assoc]
  refine List.Sublist.trans ?_ (List.sublist_append_right m1 _)
  refine List.Sublist.cons_cons b ?_
  refine List.Sublist.trans ?_ (List.sublist_append_right m2 _)
  exact List.Sublist.cons_cons a (List.nil_sublist _)

theorem before_asymm {s : St} (h : Inv s) {root x y : Id} (h1 : Before s root x y) (h2 : Before s root y x) :
    False := by
  have cross : ∀ {x y : Id}, Anc s.parent x y → Before s root y x → False := by
    intro x y hxy hb
    refine before_irrefl (root := root) h (x := y) ?_
    rcases hb with hb | ⟨p, a, b, l1, l2, l3, hp, hk, ha, hb⟩
    · exact Or.inl (anc_trans hb hxy)
    · exact Or.inr ⟨p, a, b, l1, l2, l3, hp, hk, ha,
        within_anceq.mpr (anceq_trans (within_anceq.mp hb) (Or.inr hxy))⟩
  rcases h1 with h1 | ⟨p, a, b, l1, l2, l3, hp, hk, ha, hb⟩
  · exact cross h1 h2
  rcases h2 with h2 | ⟨p', a', b', m1, m2, m3, hp', hk', ha', hb'⟩
  · exact cross h2 (Or.inr ⟨p, a, b, l1, l2, l3, hp, hk, ha, hb⟩)
  rw [within_anceq] at ha hb ha' hb'
  have am : a ∈ s.kids p := by rw [hk]; simp
  have bm : b ∈ s.kids p := by rw [hk]; simp
  have am' : a' ∈ s.kids p' := by rw [hk']; simp
  have bm' : b' ∈ s.kids p' := by rw [hk']; simp
  have hne : a ≠ b := by
    rintro rfl
    exact (h.wf.link p (l1 ++ a :: l2) a l3 hk).2.2.2.1 (by simp)
  have hne' : a' ≠ b' := by
    rintro rfl
    exact (h.wf.link p' (m1 ++ a' :: m2) a' m3 hk').2.2.2.1 (by simp)
  have px : Anc s.parent p x := anc_anceq (.parent _ _ (h.child_parent am)) ha
  have px' : Anc s.parent p' x := anc_anceq (.parent _ _ (h.child_parent bm')) hb'
  have py : Anc s.parent p y := anc_anceq (.parent _ _ (h.child_parent bm)) hb
  have py' : Anc s.parent p' y := anc_anceq (.parent _ _ (h.child_parent am')) ha'
  -- if one of the two nodes is below the other, its two subtrees are in one child of the other
  have below : ∀ {p q a b : Id}, a ∈ s.kids p → b ∈ s.kids p → a ≠ b → AncEq s.parent a x → AncEq s.parent b y →
      Anc s.parent q x → Anc s.parent q y → Anc s.parent p q → False := by
    intro p q a b am bm hne ha hb qx qy hpq
    obtain ⟨c, hc, hcq⟩ := anc_child hpq
    have cm := h.wf.par c p hc
    have e1 := sibling_within h am cm ha (anceq_trans hcq (Or.inr qx))
    have e2 := sibling_within h bm cm hb (anceq_trans hcq (Or.inr qy))
    exact hne (e1.trans e2.symm)
  rcases anc_comparable (Or.inr px) (Or.inr px') with t | t
  · rcases t with e | t
    · subst e
      have e1 := sibling_within h am bm' ha hb'
      have e2 := sibling_within h bm am' hb ha'
      subst e1 e2
      exact split_asymm (h.nodup p) hk hk'
    · exact below am bm hne ha hb px' py' t
  · rcases t with e | t
    · subst e
      have e1 := sibling_within h am bm' ha hb'
      have e2 := sibling_within h bm am' hb ha'
      subst e1 e2
      exact split_asymm (h.nodup p') hk hk'
    · exact below bm' am' (Ne.symm hne') hb' ha' px py t

theorem lists_unique {s : St} (h : Inv s) {deep : Bool} {nm : Id → Name} {root : Id} {q : Query} {l l' : List Id}
    (h1 : Lists deep s nm root q l) (h2 : Lists deep s nm root q l') : l = l' := by
  have hp : l.Perm l' := (List.perm_ext_iff_of_nodup h1.once h2.once).mpr (fun x => (h1.mem x).trans (h2.mem x).symm)
  exact hp.eq_of_pairwise (fun a b _ _ x y => (before_asymm h x y).elim) h1.order h2.order

/-! ## the cache -/

structure Good (w : World) : Prop where
  inv : Inv2 w.s
  lt : w.list.root < w.s.size
  doc : w.s.doc w.list.root = some w.list.doc
  cache : ∃ c, c ≤ w.s.changes w.list.doc ∧ w.list.changes = c % 2 ^ 32 ∧ (c = w.s.changes w.list.doc →
    (∀ l, w.list.query ≠ .ns [] l) → Lists false w.s w.nm w.list.root w.list.query w.list.nodes)

theorem good_populate {w : World} (h : Good w) : Good ⟨w.s, w.nm, populate w.s w.nm w.list⟩ :=
  ⟨h.inv, h.lt, h.doc, _, Nat.le_refl _, rfl, fun _ hq => visit_lists h.inv.inv w.nm hq h.lt⟩

theorem good_step {w : World} (h : Good w) {s' : St} (hi : Inv2 s') (hc : Counts w.s s') {nm' : Id → Name}
    (hn : ∀ n, n < w.s.size → nm' n = w.nm n) : Good ⟨s', nm', w.list⟩ := by
  obtain ⟨c, c1, c2, c3⟩ := h.cache
  refine ⟨hi, Nat.lt_of_lt_of_le h.lt hc.size, hc.doc _ _ h.lt h.doc, c, Nat.le_trans c1 (hc.le _), c2, ?_⟩
  intro e hq
  have h1 := hc.le w.list.doc
  have e' : c = s'.changes w.list.doc := e
  exact keep_lists h.inv.inv hi.inv hc h.lt h.doc (by omega) (fun n hn' => by show Named _ (nm' n) ↔ _; rw [hn n hn'])
    (c3 (by omega) hq)

theorem named_prefix {q : Query} (hq : byNamespace q) {n m : Name} (h1 : m.uri = n.uri) (h2 : m.localName = n.localName) :
    Named q m ↔ Named q n := by
  cases q with
  | tag t => exact hq.elim
  | ns u l =>
    show ((u = ['*'] ∨ m.uri = _) ∧ (l = ['*'] ∨ m.localName = l)) ↔ ((u = ['*'] ∨ n.uri = _) ∧ (l = ['*'] ∨ n.localName = l))
    rw [h1, h2]

theorem setPrefix_named {s : St} {nm nm' : Id → Name} {n : Id} {p : Str} (h : setPrefix s nm n p = some nm') (x : Id) :
    (nm' x).uri = (nm x).uri ∧ (nm' x).localName = (nm x).localName := by
  unfold setPrefix at h
  by_cases hr : s.ro n = true
  · rw [if_pos hr] at h; cases h
  · rw [if_neg hr] at h
    cases hu : (nm n).uri with
    | none => rw [hu] at h; cases h
    | some u =>
      rw [hu] at h
      simp only [Option.some.injEq] at h
      subst h
      unfold upd
      by_cases e : x = n
      · rw [if_pos e, e]; exact ⟨rfl, rfl⟩
      · rw [if_neg e]; exact ⟨rfl, rfl⟩

theorem hist_good {w : World} (h : Hist byNamespace w) : Good w := by
  induction h with
  | make s nm root doc q hr hl _ hd =>
    have hi := reach_inv2 hr
    have hlt := (live_iff.mp hl).1
    exact ⟨hi, hlt, hd, _, Nat.le_refl _, rfl, fun _ hq => visit_lists hi.inv nm hq hlt⟩
  | ok w op s' nm' _ hb he hn ih =>
    have := step_counts ih.inv hb
    rw [he] at this
    exact good_step ih this.1 this.2 hn
  | err w op e s' nm' _ hb he hn ih =>
    have := step_counts ih.inv hb
    rw [he] at this
    exact good_step ih this.1 this.2 hn
  | setPrefix w n p nm' _ hq he ih =>
    obtain ⟨c, c1, c2, c3⟩ := ih.cache
    refine ⟨ih.inv, ih.lt, ih.doc, c, c1, c2, fun e hq' => ?_⟩
    exact keep_lists ih.inv.inv ih.inv.inv (Counts.refl _) ih.lt ih.doc rfl
      (fun x _ => named_prefix hq (setPrefix_named he x).1 (setPrefix_named he x).2) (c3 e hq')
  | getLength w L n _ he ih =>
    unfold getLength at he
    by_cases h1 : stale w.s w.list = true
    · rw [if_pos h1] at he
      by_cases h2 : live w.s w.list.root = true
      · rw [if_pos h2] at he; cases he; exact good_populate ih
      · rw [if_neg h2] at he; cases he
    · rw [if_neg h1] at he; cases he; exact ih
  | item w i L r _ he ih =>
    unfold item at he
    by_cases h0 : w.list.nodes.length ≤ i
    · rw [if_pos h0] at he; cases he; exact ih
    · rw [if_neg h0] at he
      by_cases h1 : stale w.s w.list = true
      · rw [if_pos h1] at he
        by_cases h2 : live w.s w.list.root = true
        · rw [if_pos h2] at he
          have : L = populate w.s w.nm w.list := (congrArg Prod.fst he).symm
          subst this; exact good_populate ih
        · rw [if_neg h2] at he; cases he
      · rw [if_neg h1] at he
        have : L = w.list := (congrArg Prod.fst he).symm
        subst this; exact ih

/-- A list that does not look stale is not. -/
theorem Good.fresh {w : World} (h : Good w) (hq : ∀ l, w.list.query ≠ .ns [] l)
    (hc : w.s.changes w.list.doc < 2 ^ 64) (hs : stale w.s w.list ≠ true) :
    Lists false w.s w.nm w.list.root w.list.query w.list.nodes := by
  obtain ⟨c, c1, c2, c3⟩ := h.cache
  unfold stale at hs
  have e : w.list.changes = w.s.changes w.list.doc % 2 ^ 64 := by simpa using hs
  rw [Nat.mod_eq_of_lt hc] at e
  refine c3 ?_ hq
  have : c % 2 ^ 32 ≤ c := Nat.mod_le _ _
  omega

theorem at_eq {l : List Id} {i : Nat} (h : i < l.length) : at' l i = .ok l[i]? := by
  unfold at'
  rw [List.getElem?_eq_getElem h]

theorem at_ub {l : List Id} {i : Nat} (h : l.length ≤ i) : at' l i = .ub := by
  unfold at'
  rw [List.getElem?_eq_none h]

theorem populate_twice (s : St) (nm : Id → Name) (L : TagList) : populate s nm (populate s nm L) = populate s nm L := rfl

end Verif.TagList
