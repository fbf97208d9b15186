import Verif.Spec.XPathNodeSet
import Verif.Lemmas.XTreeOrder
import Verif.Lemmas.XTreeNav
set_option autoImplicit false
set_option linter.unusedSimpArgs false
set_option linter.unusedVariables false
namespace Verif.XTree
open Verif.Spec.XPathAxes Verif.Spec.XPathNodeSet

theorem siblingPosition_eq (i : Nat) (h : i < 4294967) : siblingPosition i = 1000 * (i + 1) := by
  induction i with
  | zero => rfl
  | succ i ih => rw [siblingPosition, ih (by omega)]; omega

/-- The number of a step. -/
def stepPos : Step → Nat
  | .attr i => (i + 1) % 2 ^ 32
  | .child i => siblingPosition i

/-- A step whose number is not too large. -/
def StepOk : Step → Prop
  | .attr i => i < 999
  | .child i => i < 2147483

theorem ultimateParent_nil (r : Ref) : ultimateParent r = [] := by
  induction r with
  | nil => rfl
  | cons s up ih => exact ih

theorem nodePosition_eq {t : Tree} (h : t.kind ≠ .attribute) (r : Ref) :
    nodePosition t r = some (r.map stepPos ++ [1000]) := by
  induction r with
  | nil => simp [nodePosition, childPosition, h, siblingPosition]
  | cons s up ih =>
    rw [nodePosition, ih]
    cases s <;> simp [childPosition, stepPos]

theorem small_steps {t : Tree} (h : Small t) {r : Ref} (hr : (sub t r).isSome) : ∀ s ∈ r, StepOk s := by
  induction r with
  | nil => simp
  | cons s up ih =>
    obtain ⟨m, hm⟩ := Option.isSome_iff_exists.1 hr
    obtain ⟨n, hn, hs⟩ := sub_cons.1 hm
    intro x hx
    rcases List.mem_cons.1 hx with rfl | hx
    · have := h up n hn
      cases x with
      | attr i =>
        have := (List.getElem?_eq_some_iff.1 hs).1
        simp only [StepOk]; omega
      | child i =>
        have := (List.getElem?_eq_some_iff.1 hs).1
        simp only [StepOk]; omega
    · exact ih (by simp [hn]) x hx

/-- The number of a step without overflow. -/
def stepNum : Step → Nat
  | .attr i => i + 1
  | .child i => 1000 * (i + 1)

theorem stepPos_eq {x : Step} (hx : StepOk x) : stepPos x = stepNum x := by
  cases x with
  | attr i => simp only [StepOk, stepPos, stepNum] at *; omega
  | child i => simp only [StepOk, stepPos, stepNum] at *; exact siblingPosition_eq i (by omega)

theorem stepNum_small {x : Step} (hx : StepOk x) : stepNum x < 2147483648 := by
  cases x <;> simp only [StepOk, stepNum] at * <;> omega

theorem stepNum_lt {x y : Step} (hx : StepOk x) (hy : StepOk y) : stepNum x < stepNum y ↔ StepLt x y := by
  cases x <;> cases y <;> simp only [StepOk, stepNum, StepLt, iff_true, iff_false] at * <;> omega

theorem signed32_lt {a b : Nat} (ha : a < 2147483648) (hb : b < 2147483648) (h : a ≠ b) :
    signed32 ((a + 2 ^ 32 - b) % 2 ^ 32) < 0 ↔ a < b := by
  simp only [signed32]
  by_cases hab : a < b
  · rw [if_neg (by omega)]; omega
  · rw [if_pos (by omega)]; omega

theorem stepPos_lt {x y : Step} (hx : StepOk x) (hy : StepOk y) (h : stepPos x ≠ stepPos y) :
    signed32 ((stepPos x + 2 ^ 32 - stepPos y) % 2 ^ 32) < 0 ↔ StepLt x y := by
  rw [stepPos_eq hx, stepPos_eq hy] at *
  rw [signed32_lt (stepNum_small hx) (stepNum_small hy) h, stepNum_lt hx hy]

theorem stepPos_inj {x y : Step} (hx : StepOk x) (hy : StepOk y) : stepPos x = stepPos y ↔ x = y := by
  rw [stepPos_eq hx, stepPos_eq hy]
  cases x <;> cases y <;> simp only [StepOk, stepNum, Step.attr.injEq, Step.child.injEq, reduceCtorEq, iff_false] at * <;> omega

theorem comparePositions_lt {p q : List Step} (hp : ∀ s ∈ p, StepOk s) (hq : ∀ s ∈ q, StepOk s) :
    comparePositions (p.map stepPos) (q.map stepPos) < 0 ↔ PathLt p q := by
  induction p generalizing q with
  | nil => cases q <;> simp [comparePositions, PathLt]
  | cons x p ih =>
    cases q with
    | nil => simp [comparePositions, PathLt]
    | cons y q =>
      have hx := hp x (by simp)
      have hy := hq y (by simp)
      simp only [List.map_cons, comparePositions, PathLt]
      by_cases e : stepPos x = stepPos y
      · have e' := (stepPos_inj hx hy).1 e
        subst e'
        rw [if_neg (by simp), ih (fun s hs => hp s (by simp [hs])) (fun s hs => hq s (by simp [hs]))]
        simp [stepLt_irrefl]
      · rw [if_pos e, stepPos_lt hx hy e]
        have : x ≠ y := fun h => e (by rw [h])
        simp [this]

theorem lessThan_iff {w : World} (hw : Forest w) {S : XN → Prop} (hS : Usual w S) {x y : XN} (hx : S x) (hy : S y) :
    nodesLessThan w x y = true ↔ DocBefore w x y := by
  rw [nodesLessThan, compareNodes, DocBefore]
  by_cases e : x = y
  · subst e
    simp [before_irrefl]
  · rw [if_neg e]
    by_cases hh : w.home x.1 = w.home y.1
    · rw [if_neg (by simpa using hh)]
      by_cases ht : x.1 = y.1
      · rw [if_neg (by simp [ht, ultimateParent_nil]), if_pos ht]
        rw [nodePosition_eq (hS.root x hx), nodePosition_eq (hS.root y hy)]
        simp only [List.reverse_append, List.reverse_cons, List.reverse_nil, List.nil_append, List.singleton_append,
          comparePositions, ne_eq, not_true, if_false, ← List.map_reverse, decide_eq_true_eq]
        exact comparePositions_lt
          (fun s hs => small_steps (hS.small x hx) (hS.valid x hx) s (List.mem_reverse.1 hs))
          (fun s hs => small_steps (hS.small y hy) (hS.valid y hy) s (List.mem_reverse.1 hs))
      · rw [if_pos (by simp [ht]), if_neg ht, if_pos hh]
        simp only [resolveDifferentSubtrees, decide_eq_true_eq, Nat.lt_irrefl, if_false]
        by_cases hd : (w.tree x.1).kind = .document
        · simp [hd]
        · rw [if_neg hd]
          simp only [hd, iff_false]
          split <;> simp
    · have ht : x.1 ≠ y.1 := fun h => hh (by rw [h])
      rw [if_pos (by simpa using hh), if_neg ht, if_neg hh]
      by_cases hl : w.home x.1 < w.home y.1
      · simp only [hl, if_true]
        constructor
        · intro h; simp at h
        · intro h; omega
      · simp only [hl, if_false]
        constructor
        · intro _; omega
        · intro _; simp

theorem docBefore_total {w : World} (hw : Forest w) {S : XN → Prop} (hS : OneFragment w S) :
    TotalOrder S (DocBefore w) where
  irrefl x _ := by simp [DocBefore, before_irrefl]
  trans x y z hx hy hz h1 h2 := by
    have key : ∀ j, (w.tree j).kind = .document → w.home j = j := hw.doc
    simp only [DocBefore] at *
    by_cases e1 : x.1 = y.1
    · rw [if_pos e1] at h1
      by_cases e2 : y.1 = z.1
      · rw [if_pos e2] at h2
        rw [if_pos (e1.trans e2)]
        exact before_trans h1 h2
      · rw [if_neg e2] at h2
        rw [if_neg (by rw [e1]; exact e2), e1]
        exact h2
    · rw [if_neg e1] at h1
      by_cases e2 : y.1 = z.1
      · rw [if_neg (by rw [← e2]; exact e1), ← e2]
        exact h1
      · rw [if_neg e2] at h2
        by_cases f1 : w.home x.1 = w.home y.1
        · rw [if_pos f1] at h1
          have k1 := key _ h1
          by_cases f2 : w.home y.1 = w.home z.1
          · rw [if_pos f2] at h2
            have k2 := key _ h2
            omega
          · rw [if_neg f2] at h2
            have : w.home x.1 ≠ w.home z.1 := by rw [f1]; exact f2
            rw [if_neg (fun h => this (by rw [h])), if_neg this]
            omega
        · rw [if_neg f1] at h1
          by_cases f2 : w.home y.1 = w.home z.1
          · have : w.home x.1 ≠ w.home z.1 := by rw [← f2]; exact f1
            rw [if_neg (fun h => this (by rw [h])), if_neg this]
            omega
          · rw [if_neg f2] at h2
            have : w.home x.1 ≠ w.home z.1 := by omega
            rw [if_neg (fun h => this (by rw [h])), if_neg this]
            omega
  total x y hx hy := by
    simp only [DocBefore]
    by_cases e1 : x.1 = y.1
    · rw [if_pos e1, if_pos e1.symm]
      rcases before_tri x.2 y.2 with h | h | h
      · exact .inl h
      · exact .inr (.inl (Prod.ext e1 h))
      · exact .inr (.inr h)
    · rw [if_neg e1, if_neg (Ne.symm e1)]
      by_cases f1 : w.home x.1 = w.home y.1
      · rw [if_pos f1, if_pos f1.symm]
        rcases hS x y hx hy f1 e1 with h | h
        · exact .inl h
        · exact .inr (.inr h)
      · rw [if_neg f1, if_neg (Ne.symm f1)]
        omega

theorem totalOrder_congr {S : XN → Prop} {lt lt' : XN → XN → Prop} (h : TotalOrder S lt)
    (e : ∀ x y, S x → S y → (lt x y ↔ lt' x y)) : TotalOrder S lt' where
  irrefl x hx hl := h.irrefl x hx ((e x x hx hx).2 hl)
  trans x y z hx hy hz h1 h2 :=
    (e x z hx hz).1 (h.trans x y z hx hy hz ((e x y hx hy).2 h1) ((e y z hy hz).2 h2))
  total x y hx hy := by
    rw [← e x y hx hy, ← e y x hy hx]
    exact h.total x y hx hy

theorem totalOrder_mono {S S' : XN → Prop} {lt : XN → XN → Prop} (h : TotalOrder S lt) (hs : ∀ x, S' x → S x) :
    TotalOrder S' lt where
  irrefl x hx := h.irrefl x (hs x hx)
  trans x y z hx hy hz := h.trans x y z (hs x hx) (hs y hy) (hs z hz)
  total x y hx hy := h.total x y (hs x hx) (hs y hy)

theorem mem_unique {l : List XN} {x : XN} : x ∈ unique l ↔ x ∈ l := by
  induction l with
  | nil => simp [unique]
  | cons a l ih =>
    cases l with
    | nil => simp [unique]
    | cons b l =>
      rw [unique]
      by_cases e : a = b
      · rw [if_pos e, ih]; subst e; simp
      · rw [if_neg e, List.mem_cons, ih]; simp

theorem unique_reverse_pairwise {lt : XN → XN → Prop} {l : List XN} (ht : TotalOrder (· ∈ l) lt)
    (h : l.Pairwise fun x y => ¬ lt y x) : (unique l).Pairwise lt := by
  induction l with
  | nil => simp [unique]
  | cons a l ih =>
    cases l with
    | nil => simp [unique]
    | cons b l =>
      have h' := List.pairwise_cons.1 h
      have ih' := ih (totalOrder_mono ht (fun x hx => by simp [List.mem_cons.1 hx])) h'.2
      rw [unique]
      by_cases e : a = b
      · rw [if_pos e]; exact ih'
      · rw [if_neg e]
        refine List.pairwise_cons.2 ⟨?_, ih'⟩
        intro y hy
        rw [mem_unique] at hy
        have hab : lt a b := by
          rcases ht.total a b (by simp) (by simp) with h1 | h1 | h1
          · exact h1
          · exact absurd h1 e
          · exact absurd h1 (h'.1 b (by simp))
        rcases ht.total a y (by simp) (by simp [List.mem_cons.1 hy]) with h1 | h1 | h1
        · exact h1
        · subst h1
          rcases List.mem_cons.1 hy with h2 | h2
          · exact absurd h2 e
          · exact absurd hab ((List.pairwise_cons.1 h'.2).1 a h2)
        · exact absurd h1 (h'.1 y hy)

/-- The list is in the order of the flag. -/
def Ordered (w : World) (fwd : Bool) (l : List XN) : Prop :=
  if fwd then l.Pairwise (DocBefore w) else l.Pairwise fun x y => DocBefore w y x

variable {w : World} {S : XN → Prop} {srt : List XN → List XN}

theorem totalOrder_list (hw : Forest w) (hS : Usual w S) {l : List XN} (h : ∀ x ∈ l, S x) :
    TotalOrder (· ∈ l) (DocBefore w) := totalOrder_mono (docBefore_total hw hS.one) h

theorem srt_spec (hw : Forest w) (hS : Usual w S) (hsrt : StdSort (nodesLessThan w) srt) {l : List XN}
    (h : ∀ x ∈ l, S x) : (∀ x, x ∈ srt l ↔ x ∈ l) ∧ (srt l).Pairwise fun x y => ¬ DocBefore w y x := by
  have := hsrt l (totalOrder_congr (totalOrder_list hw hS h) fun x y hx hy =>
    (lessThan_iff hw hS (h x hx) (h y hy)).symm)
  refine ⟨fun x => this.1.mem_iff, ?_⟩
  refine List.Pairwise.imp_of_mem ?_ this.2
  intro x y hx hy hl hb
  rw [(lessThan_iff hw hS (h y (this.1.mem_iff.1 hy)) (h x (this.1.mem_iff.1 hx))).2 hb] at hl
  cases hl

/-- What holds of every node-set. -/
structure NSInv (w : World) (S : XN → Prop) (ns : NodeSet) : Prop where
  all : ∀ x ∈ ns.nodes, S x
  ord : ns.sorted = true → Ordered w ns.forward ns.nodes

theorem sort_spec (hw : Forest w) (hS : Usual w S) (hsrt : StdSort (nodesLessThan w) srt) {ns : NodeSet}
    (h : NSInv w S ns) : (ns.sort srt).forward = ns.forward ∧ (ns.sort srt).sorted = true ∧
      Ordered w ns.forward (ns.sort srt).nodes ∧ ∀ x, x ∈ (ns.sort srt).nodes ↔ x ∈ ns.nodes := by
  rw [NodeSet.sort]
  by_cases hs : ns.sorted = true
  · rw [if_pos hs]
    exact ⟨rfl, hs, h.ord hs, fun _ => Iff.rfl⟩
  · rw [if_neg hs]
    refine ⟨rfl, rfl, ?_, ?_⟩
    · rw [Ordered]
      by_cases hf : ns.forward = true
      · simp only [hf, if_true]
        have := srt_spec hw hS hsrt h.all
        exact unique_reverse_pairwise (totalOrder_list hw hS fun x hx => h.all x ((this.1 x).1 hx)) this.2
      · simp only [Bool.not_eq_true] at hf
        simp only [hf]
        have h' : ∀ x ∈ ns.nodes.reverse, S x := fun x hx => h.all x (List.mem_reverse.1 hx)
        have := srt_spec hw hS hsrt h'
        have ht := totalOrder_list hw hS fun x hx => h' x ((this.1 x).1 hx)
        refine unique_reverse_pairwise (lt := fun x y => DocBefore w y x) ?_ ?_
        · constructor
          · intro x hx; exact ht.irrefl x (List.mem_reverse.1 hx)
          · intro x y z hx hy hz h1 h2
            exact ht.trans z y x (List.mem_reverse.1 hz) (List.mem_reverse.1 hy) (List.mem_reverse.1 hx) h2 h1
          · intro x y hx hy
            rcases ht.total y x (List.mem_reverse.1 hy) (List.mem_reverse.1 hx) with h | h | h
            · exact .inl h
            · exact .inr (.inl h.symm)
            · exact .inr (.inr h)
        · exact List.pairwise_reverse.2 this.2
    · intro x
      simp only [mem_unique]
      by_cases hf : ns.forward = true
      · simp only [hf, if_true]
        exact (srt_spec hw hS hsrt h.all).1 x
      · simp only [Bool.not_eq_true] at hf
        simp only [hf]
        have h' : ∀ x ∈ ns.nodes.reverse, S x := fun x hx => h.all x (List.mem_reverse.1 hx)
        have := (srt_spec hw hS hsrt h').1 x
        simp at this ⊢
        exact this

theorem ordered_reverse {l : List XN} : Ordered w true l.reverse ↔ Ordered w false l := by
  simp [Ordered, List.pairwise_reverse]

theorem docOrder_spec (hw : Forest w) (hS : Usual w S) (hsrt : StdSort (nodesLessThan w) srt) {ns : NodeSet}
    (h : NSInv w S ns) : (ns.toDocumentOrder srt).forward = true ∧ (ns.toDocumentOrder srt).sorted = true ∧
      InOrder w (ns.toDocumentOrder srt).nodes ∧ ∀ x, x ∈ (ns.toDocumentOrder srt).nodes ↔ x ∈ ns.nodes := by
  obtain ⟨h1, h2, h3, h4⟩ := sort_spec hw hS hsrt h
  rw [NodeSet.toDocumentOrder]
  by_cases hf : ns.forward = true
  · rw [if_pos (h1.trans hf)]
    rw [hf] at h3
    exact ⟨h1.trans hf, h2, h3, h4⟩
  · simp only [Bool.not_eq_true] at hf
    rw [hf] at h3 h1
    rw [if_neg (by rw [h1]; simp)]
    exact ⟨rfl, h2, ordered_reverse.2 h3, fun x => by simp [h4]⟩

theorem inv_step (hw : Forest w) (hS : Usual w S) (hsrt : StdSort (nodesLessThan w) srt) {ns : NodeSet}
    (h : NSInv w S ns) (o : Op) (ho : ∀ x ∈ added [o], S x) :
    NSInv w S (ns.step srt o) ∧ ∀ x, x ∈ (ns.step srt o).nodes ↔ x ∈ ns.nodes ∨ x ∈ added [o] := by
  cases o with
  | push x =>
    have hx := ho x (by simp [added])
    refine ⟨⟨?_, by simp [NodeSet.step, NodeSet.push]⟩, ?_⟩
    · intro y hy
      simp [NodeSet.step, NodeSet.push] at hy
      rcases hy with hy | rfl
      · exact h.all y hy
      · exact hx
    · intro y; simp [NodeSet.step, NodeSet.push, added]
  | insert i xs =>
    have hm : ∀ y, y ∈ (ns.nodes.take i ++ xs ++ ns.nodes.drop i) ↔ y ∈ ns.nodes ∨ y ∈ xs := by
      intro y
      conv => rhs; rw [← List.take_append_drop i ns.nodes]
      simp only [List.mem_append]
      constructor
      · rintro ((h | h) | h)
        · exact .inl (.inl h)
        · exact .inr h
        · exact .inl (.inr h)
      · rintro ((h | h) | h)
        · exact .inl (.inl h)
        · exact .inr h
        · exact .inl (.inr h)
    refine ⟨⟨?_, by simp [NodeSet.step, NodeSet.insert]⟩, ?_⟩
    · intro y hy
      rcases (hm y).1 hy with hy | hy
      · exact h.all y hy
      · exact ho y (by simp [added, hy])
    · intro y
      rw [show (ns.step srt (.insert i xs)).nodes = ns.nodes.take i ++ xs ++ ns.nodes.drop i from rfl]
      simp only [hm, added, List.append_nil]
  | setForward b =>
    have e : (ns.step srt (.setForward b)).nodes = ns.nodes := by
      rw [NodeSet.step, NodeSet.setForward]; split <;> rfl
    refine ⟨⟨by rw [e]; exact h.all, ?_⟩, by intro x; simp [e, added]⟩
    rw [NodeSet.step, NodeSet.setForward]
    split
    · exact h.ord
    · intro h; simp at h
  | sort =>
    obtain ⟨h1, h2, h3, h4⟩ := sort_spec hw hS hsrt h
    refine ⟨⟨fun x hx => h.all x ((h4 x).1 hx), fun _ => ?_⟩, fun x => by simp [NodeSet.step, added, h4]⟩
    simp only [NodeSet.step, h1]
    exact h3
  | toDocumentOrder =>
    obtain ⟨h1, h2, h3, h4⟩ := docOrder_spec hw hS hsrt h
    refine ⟨⟨fun x hx => h.all x ((h4 x).1 hx), fun _ => ?_⟩, fun x => by simp [NodeSet.step, added, h4]⟩
    simp only [NodeSet.step, h1]
    exact h3
  | top =>
    obtain ⟨h1, h2, h3, h4⟩ := sort_spec hw hS hsrt h
    refine ⟨⟨fun x hx => h.all x ((h4 x).1 hx), fun _ => ?_⟩, fun x => by simp [NodeSet.step, NodeSet.top, added, h4]⟩
    simp only [NodeSet.step, NodeSet.top, h1]
    exact h3

theorem added_cons (o : Op) (os : List Op) : added (o :: os) = added [o] ++ added os := by
  cases o <;> simp [added]

theorem inv_run (hw : Forest w) (hS : Usual w S) (hsrt : StdSort (nodesLessThan w) srt) {ns : NodeSet}
    (h : NSInv w S ns) (os : List Op) (ho : ∀ x ∈ added os, S x) :
    NSInv w S (ns.run srt os) ∧ ∀ x, x ∈ (ns.run srt os).nodes ↔ x ∈ ns.nodes ∨ x ∈ added os := by
  induction os generalizing ns with
  | nil => exact ⟨h, fun x => by simp [NodeSet.run, added]⟩
  | cons o os ih =>
    rw [added_cons] at ho
    obtain ⟨h1, h2⟩ := inv_step hw hS hsrt h o (fun x hx => ho x (by simp [hx]))
    obtain ⟨h3, h4⟩ := ih h1 (fun x hx => ho x (by simp [hx]))
    refine ⟨h3, fun x => ?_⟩
    rw [NodeSet.run, h4, h2, added_cons o os, List.mem_append, or_assoc]

theorem head_ordered {l : List XN} (h : Ordered w true l) {x : XN} (hx : l.head? = some x) :
    x ∈ l ∧ ∀ y ∈ l, y = x ∨ DocBefore w x y := by
  cases l with
  | nil => simp at hx
  | cons a l =>
    simp at hx
    subst hx
    simp only [Ordered, if_true, List.pairwise_cons] at h
    refine ⟨by simp, fun y hy => ?_⟩
    rcases List.mem_cons.1 hy with rfl | hy
    · exact .inl rfl
    · exact .inr (h.1 y hy)

theorem top_spec (hw : Forest w) (hS : Usual w S) (hsrt : StdSort (nodesLessThan w) srt) {ns : NodeSet}
    (h : NSInv w S ns) (hne : ns.nodes ≠ []) :
    ∃ x, (ns.top srt).2 = some x ∧ x ∈ ns.nodes ∧ ∀ y ∈ ns.nodes, y = x ∨ DocBefore w x y := by
  obtain ⟨h1, h2, h3, h4⟩ := sort_spec hw hS hsrt h
  have hne' : (ns.sort srt).nodes ≠ [] := by
    obtain ⟨a, ha⟩ := List.exists_mem_of_ne_nil _ hne
    exact List.ne_nil_of_mem ((h4 a).2 ha)
  rw [NodeSet.top]
  by_cases hf : ns.forward = true
  · simp only [h1, hf, if_true]
    rw [hf] at h3
    obtain ⟨a, ha⟩ : ∃ a, (ns.sort srt).nodes.head? = some a := by
      cases hl : (ns.sort srt).nodes with
      | nil => exact absurd hl hne'
      | cons a l => exact ⟨a, rfl⟩
    have := head_ordered h3 ha
    exact ⟨a, ha, (h4 a).1 this.1, fun y hy => this.2 y ((h4 y).2 hy)⟩
  · simp only [Bool.not_eq_true] at hf
    simp only [h1, hf]
    rw [hf] at h3
    have h3' := ordered_reverse.2 h3
    obtain ⟨a, ha⟩ : ∃ a, (ns.sort srt).nodes.reverse.head? = some a := by
      cases hl : (ns.sort srt).nodes.reverse with
      | nil => simp at hl; exact absurd hl hne'
      | cons a l => exact ⟨a, rfl⟩
    have := head_ordered h3' ha
    rw [List.head?_reverse] at ha
    exact ⟨a, by simpa using ha, (h4 a).1 (by simpa using this.1), fun y hy => this.2 y (by simpa using (h4 y).2 hy)⟩

end Verif.XTree

namespace Verif.XTree
open Verif.Spec.XPathAxes Verif.Spec.XPathNodeSet

/-! ## A sort that keeps the promise of `std::sort` -/

def insertLt (lt : XN → XN → Bool) (x : XN) : List XN → List XN
  | [] => [x]
  | y :: l => if lt y x then y :: insertLt lt x l else x :: y :: l

def sortLt (lt : XN → XN → Bool) : List XN → List XN
  | [] => []
  | x :: l => insertLt lt x (sortLt lt l)

theorem insertLt_perm (lt : XN → XN → Bool) (x : XN) (l : List XN) : (insertLt lt x l).Perm (x :: l) := by
  induction l with
  | nil => exact List.Perm.refl _
  | cons y l ih =>
    rw [insertLt]
    split
    · exact (List.Perm.cons y ih).trans (List.Perm.swap x y l)
    · exact List.Perm.refl _

theorem insertLt_sorted {lt : XN → XN → Bool} {x : XN} {l : List XN}
    (ht : TotalOrder (· ∈ x :: l) (fun a b => lt a b = true)) (h : l.Pairwise fun a b => lt b a = false) :
    (insertLt lt x l).Pairwise fun a b => lt b a = false := by
  induction l with
  | nil => simp [insertLt]
  | cons y l ih =>
    rw [insertLt]
    have h' := List.pairwise_cons.1 h
    by_cases hl : lt y x = true
    · rw [if_pos hl]
      refine List.pairwise_cons.2 ⟨?_, ih (totalOrder_mono ht (by
        intro z hz; rcases List.mem_cons.1 hz with rfl | hz
        · simp
        · simp [hz])) h'.2⟩
      intro z hz
      rcases List.mem_cons.1 ((insertLt_perm lt x l).mem_iff.1 hz) with rfl | hz
      · cases e : lt z y with
        | false => rfl
        | true => exact absurd (ht.trans _ _ _ (by simp) (by simp) (by simp) e hl) (ht.irrefl _ (by simp))
      · exact h'.1 z hz
    · rw [if_neg hl]
      refine List.pairwise_cons.2 ⟨?_, h⟩
      intro z hz
      cases e : lt z x with
      | false => rfl
      | true =>
        exfalso
        rcases List.mem_cons.1 hz with rfl | hz'
        · exact hl e
        · rcases ht.total y x (by simp) (by simp) with h1 | h1 | h1
          · exact hl h1
          · subst h1
            rw [h'.1 z hz'] at e
            cases e
          · have := ht.trans _ _ _ (by simp [hz']) (by simp) (by simp) e h1
            rw [h'.1 z hz'] at this
            cases this

theorem sortLt_spec (lt : XN → XN → Bool) : StdSort lt (sortLt lt) := by
  intro l ht
  have hp : ∀ l, (sortLt lt l).Perm l := by
    intro l
    induction l with
    | nil => exact List.Perm.refl _
    | cons x l ih => exact (insertLt_perm lt x _).trans (List.Perm.cons x ih)
  refine ⟨hp l, ?_⟩
  induction l with
  | nil => simp [sortLt]
  | cons x l ih =>
    rw [sortLt]
    refine insertLt_sorted (totalOrder_mono ht ?_) (ih (totalOrder_mono ht fun z hz => by simp [hz]))
    intro z hz
    rcases List.mem_cons.1 hz with rfl | hz
    · simp
    · simp [(hp l).mem_iff.1 hz]

/-- A check for `Small`. -/
def checkSmall (t : Tree) : Bool :=
  (refs [] t).all fun r => decide ((attrsOf t r).length < 1000 ∧ (kidsOf t r).length ≤ 2147483)

theorem small_of_check {t : Tree} (h : checkSmall t = true) : Small t := by
  intro r n hn
  have := List.all_eq_true.1 h r (mem_all (by simp [hn]))
  rw [attrsOf_some hn, kidsOf_some hn] at this
  simpa using this

end Verif.XTree
