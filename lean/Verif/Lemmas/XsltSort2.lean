import Verif.Lemmas.XsltSort
set_option autoImplicit false
set_option linter.unusedSimpArgs false
set_option linter.unusedVariables false
/-! Lemmas about sorted lists: there is only one, and only the keys of its members count. -/
namespace Verif.Xslt
open Verif.XPath (Num)
open Verif.Spec.XsltSort
variable {α : Type}

theorem arranged_sort (ks : List (Key α)) (l : List α) : Arranged ks l (stableSort ks l) where
  perm := sort_perm _ _
  order := sort_sorted ks l
  stable x hx p hp := by
    have hq : ∀ a ∈ l, p a = (open Classical in decide (Tie ks x a)) := by
      intro a ha
      by_cases h : Tie ks x a
      · rw [(hp a ha).2 h]; simp [h]
      · have : p a = false := by
          cases e : p a with
          | false => rfl
          | true => exact absurd ((hp a ha).1 e) h
        rw [this]; simp [h]
    have h1 : l.filter p = l.filter fun a => (open Classical in decide (Tie ks x a)) := List.filter_congr hq
    have h2 : (stableSort ks l).filter p = (stableSort ks l).filter fun a => (open Classical in decide (Tie ks x a)) :=
      List.filter_congr fun a ha => hq a ((sort_perm _ _).mem_iff.1 ha)
    rw [h1, h2]
    refine sort_stable ks l _ fun a b ha hb => ?_
    simp only [decide_eq_true_eq] at ha hb
    exact tie_trans ks _ _ _ (tie_symm ks _ _ ha) hb

theorem sorted_unique (ks : List (Key α)) : ∀ (l1 l2 : List α), l1.Perm l2 →
    l1.Pairwise (fun a b => ¬ Before ks b a) → l2.Pairwise (fun a b => ¬ Before ks b a) →
    (∀ x ∈ l1, l1.filter (fun a => (open Classical in decide (Tie ks x a))) =
      l2.filter (fun a => (open Classical in decide (Tie ks x a)))) → l1 = l2
  | [], l2, h, _, _, _ => h.nil_eq
  | a :: t1, [], h, _, _, _ => by cases h.eq_nil
  | a :: t1, b :: t2, h, h1, h2, hf => by
    have ha : ¬ Before ks a b := by
      rcases List.mem_cons.1 (h.mem_iff.1 (List.mem_cons_self)) with e | hm
      · rw [e]; exact before_irrefl ks b
      · exact (List.pairwise_cons.1 h2).1 a hm
    have hb : ¬ Before ks b a := by
      rcases List.mem_cons.1 (h.mem_iff.2 (List.mem_cons_self)) with e | hm
      · rw [e]; exact before_irrefl ks a
      · exact (List.pairwise_cons.1 h1).1 b hm
    have ht : Tie ks a b := by
      rcases before_total ks a b with h | h | h
      · exact h
      · exact absurd h ha
      · exact absurd h hb
    have haa : Tie ks a a := fun k _ => sameKey_refl k a
    have e := hf a List.mem_cons_self
    rw [List.filter_cons_of_pos (by simpa using haa), List.filter_cons_of_pos (by simpa using ht)] at e
    injection e with e1 e2
    subst e1
    rw [sorted_unique ks t1 t2 h.cons_inv (List.pairwise_cons.1 h1).2 (List.pairwise_cons.1 h2).2 fun x hx => ?_]
    have e := hf x (List.mem_cons_of_mem _ hx)
    by_cases hxa : Tie ks x a
    · rw [List.filter_cons_of_pos (by simpa using hxa), List.filter_cons_of_pos (by simpa using hxa)] at e
      injection e
    · rw [List.filter_cons_of_neg (by simpa using hxa), List.filter_cons_of_neg (by simpa using hxa)] at e
      exact e

theorem arranged_unique {ks : List (Key α)} {l l1 l2 : List α} (h1 : Arranged ks l l1) (h2 : Arranged ks l l2) :
    l1 = l2 := by
  refine sorted_unique ks l1 l2 (h1.perm.trans h2.perm.symm) h1.order h2.order fun x hx => ?_
  have hx' := h1.perm.mem_iff.1 hx
  rw [h1.stable x hx' _ fun a _ => by simp, h2.stable x hx' _ fun a _ => by simp]

theorem arranged_nil {l l' : List α} : Arranged [] l l' ↔ l' = l := by
  constructor
  · intro h
    exact arranged_unique h (l1 := l') ⟨List.Perm.refl _, List.Pairwise.imp (R := fun _ _ => True)
      (fun _ => by simp [Before]) (List.pairwise_of_forall fun _ _ => trivial), fun _ _ _ _ => rfl⟩
  · rintro rfl
    exact ⟨List.Perm.refl _, List.pairwise_of_forall fun _ _ => by simp [Before], fun _ _ _ _ => rfl⟩

/-- Keys that are the same for the members of a list. -/
inductive SameOn (l : List α) : List (Key α) → List (Key α) → Prop where
  | nil : SameOn l [] []
  | cons {k k' : Key α} {ks ks' : List (Key α)} (number : k.number = k'.number) (ascending : k.ascending = k'.ascending)
      (h : ∀ y ∈ l, if k.number then k.num y = k'.num y else k.str y = k'.str y) (hs : SameOn l ks ks') :
      SameOn l (k :: ks) (k' :: ks')

theorem sameOn_symm {l : List α} {ks ks' : List (Key α)} (h : SameOn l ks ks') : SameOn l ks' ks := by
  induction h with
  | nil => exact .nil
  | cons h1 h2 h3 _ ih =>
    refine .cons h1.symm h2.symm (fun y hy => ?_) ih
    have := h3 y hy
    rw [h1] at this
    split at this
    · rw [if_pos (by assumption)]; exact this.symm
    · rw [if_neg (by assumption)]; exact this.symm

theorem sameKey_on {k k' : Key α} {l : List α} (h1 : k.number = k'.number)
    (h : ∀ y ∈ l, if k.number then k.num y = k'.num y else k.str y = k'.str y) {a b : α} (ha : a ∈ l) (hb : b ∈ l) :
    SameKey k a b ↔ SameKey k' a b := by
  have e1 := h a ha
  have e2 := h b hb
  rw [SameKey, SameKey, ← h1]
  cases hn : k.number with
  | true => simp only [hn, if_true] at e1 e2 ⊢; rw [e1, e2]
  | false => simp only [hn, Bool.false_eq_true, if_false] at e1 e2 ⊢; rw [e1, e2]

theorem keyBefore_on {k k' : Key α} {l : List α} (h1 : k.number = k'.number) (h2 : k.ascending = k'.ascending)
    (h : ∀ y ∈ l, if k.number then k.num y = k'.num y else k.str y = k'.str y) {a b : α} (ha : a ∈ l) (hb : b ∈ l) :
    KeyBefore k a b ↔ KeyBefore k' a b := by
  have e1 := h a ha
  have e2 := h b hb
  rw [KeyBefore, KeyBefore, ← h1, ← h2]
  cases hn : k.number with
  | true => simp only [hn, if_true] at e1 e2 ⊢; rw [e1, e2]; cases k.ascending <;> exact Iff.rfl
  | false => simp only [hn, Bool.false_eq_true, if_false] at e1 e2 ⊢; rw [e1, e2]; cases k.ascending <;> exact Iff.rfl

theorem tie_on {l : List α} {ks ks' : List (Key α)} (h : SameOn l ks ks') {a b : α} (ha : a ∈ l) (hb : b ∈ l) :
    Tie ks a b ↔ Tie ks' a b := by
  induction h with
  | nil => exact Iff.rfl
  | cons h1 h2 h3 _ ih =>
    simp only [Tie, List.mem_cons, forall_eq_or_imp] at ih ⊢
    rw [sameKey_on h1 h3 ha hb, ih]

theorem before_on {l : List α} {ks ks' : List (Key α)} (h : SameOn l ks ks') {a b : α} (ha : a ∈ l) (hb : b ∈ l) :
    Before ks a b ↔ Before ks' a b := by
  induction h with
  | nil => exact Iff.rfl
  | cons h1 h2 h3 _ ih => rw [Before, Before, sameKey_on h1 h3 ha hb, keyBefore_on h1 h2 h3 ha hb, ih]

theorem arranged_on {l l' : List α} {ks ks' : List (Key α)} (h : SameOn l ks ks') (ha : Arranged ks l l') :
    Arranged ks' l l' where
  perm := ha.perm
  order := by
    refine List.Pairwise.imp_of_mem ?_ ha.order
    intro a b h1 h2 h3 h4
    exact h3 ((before_on h (ha.perm.mem_iff.1 h2) (ha.perm.mem_iff.1 h1)).2 h4)
  stable x hx p hp := ha.stable x hx p fun a h' => by rw [hp a h', tie_on h hx h']

/-- Keys for other things. -/
def pull {β : Type} (f : β → α) (k : Key α) : Key β := ⟨k.number, k.ascending, fun b => k.num (f b), fun b => k.str (f b)⟩

theorem sortLess_pull {β : Type} (f : β → α) : ∀ (ks : List (Key α)) (a b : β),
    sortLess (ks.map (pull f)) a b = sortLess ks (f a) (f b)
  | [], _, _ => rfl
  | k :: ks, a, b => by
    rw [List.map_cons, sortLess, sortLess, sortLess_pull f ks a b, List.isEmpty_map]
    rfl

theorem insert_pull {β : Type} (f : β → α) (ks : List (Key α)) (a : β) : ∀ l : List β,
    insertNode ks (f a) (l.map f) = (insertNode (ks.map (pull f)) a l).map f
  | [] => rfl
  | b :: l => by
    rw [List.map_cons, insertNode, insertNode, sortLess_pull, insert_pull f ks a l]
    split <;> rfl

theorem stableSort_pull {β : Type} (f : β → α) (ks : List (Key α)) : ∀ l : List β,
    stableSort ks (l.map f) = (stableSort (ks.map (pull f)) l).map f
  | [] => rfl
  | a :: l => by
    rw [List.map_cons, stableSort, stableSort, stableSort_pull f ks l, insert_pull]

end Verif.Xslt
