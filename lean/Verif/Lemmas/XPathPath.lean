import Verif.Lemmas.XStringValue
import Verif.Lemmas.XNodeSet
set_option autoImplicit false
set_option linter.unusedSimpArgs false
set_option linter.unusedVariables false
namespace Verif.XTree
open Verif.Spec.XPathAxes Verif.Spec.XPathNodeSet Verif.Spec.XPathPath
open Verif.XPath (Value Num asBool)

/-! ## Predicates -/

theorem predicateLoop_cons (p : Pred) (size pos : Nat) (x : XN) (xs : List XN) (hpos : 0 < pos) :
    (Keeps pos (p x pos size) ∧ predicateLoop p size pos (x :: xs) = x :: predicateLoop p size (pos + 1) xs) ∨
    (¬ Keeps pos (p x pos size) ∧ predicateLoop p size pos (x :: xs) = predicateLoop p size (pos + 1) xs) := by
  rw [predicateLoop]
  cases hv : p x pos size with
  | bool b => cases b <;> simp [Keeps, asBool]
  | str s => cases s <;> simp [Keeps, asBool]
  | nodes l => cases l <;> simp [Keeps, asBool]
  | num n =>
    cases n with
    | nan => simp [Keeps, Num.eq]
    | ninf => simp [Keeps, Num.eq]
    | pinf => simp [Keeps, Num.eq]
    | fin q =>
      by_cases e : q = (pos : Rat)
      · subst e
        left
        have h0 : (pos : Rat) ≠ 0 := by
          intro h
          have : pos = 0 := by exact_mod_cast h
          omega
        simp [Keeps, Num.eq, asBool, Num.isNaN, h0]
      · right
        simp [Keeps, Num.eq, e]

theorem predicateLoop_spec (p : Pred) (size : Nat) (l : List XN) (pos : Nat) (hpos : 0 < pos) :
    ∃ keep : List Nat, keep.Pairwise (· < ·) ∧ (predicateLoop p size pos l).map some = keep.map (fun i => l[i]?) ∧
      ∀ (i : Nat) (x : XN), l[i]? = some x → (i ∈ keep ↔ Keeps (i + pos) (p x (i + pos) size)) := by
  induction l generalizing pos with
  | nil => exact ⟨[], by simp, by simp [predicateLoop], by simp⟩
  | cons a l ih =>
    obtain ⟨keep, h1, h2, h3⟩ := ih (pos + 1) (by omega)
    have hs : (keep.map (· + 1)).Pairwise (· < ·) := List.pairwise_map.2 (h1.imp fun h => by omega)
    have hm : keep.map (fun i => l[i]?) = (keep.map (· + 1)).map fun i => (a :: l)[i]? := by
      rw [List.map_map]; rfl
    rcases predicateLoop_cons p size pos a l hpos with ⟨hk, e⟩ | ⟨hk, e⟩
    · refine ⟨0 :: keep.map (· + 1), List.pairwise_cons.2 ⟨?_, hs⟩, ?_, ?_⟩
      · intro b hb
        obtain ⟨c, _, rfl⟩ := List.mem_map.1 hb
        omega
      · rw [e, List.map_cons, h2, hm]; simp
      · intro i x hx
        cases i with
        | zero => simp at hx; subst hx; simpa using hk
        | succ i =>
          have := h3 i x (by simpa using hx)
          rw [show i + 1 + pos = i + (pos + 1) by omega, ← this]
          simp
    · refine ⟨keep.map (· + 1), hs, by rw [e, h2, hm], ?_⟩
      intro i x hx
      cases i with
      | zero => simp at hx; subst hx; simpa using hk
      | succ i =>
        have := h3 i x (by simpa using hx)
        rw [show i + 1 + pos = i + (pos + 1) by omega, ← this]
        simp

theorem filtered_loop (p : Pred) (l : List XN) : Filtered p l (predicateLoop p l.length 1 l) :=
  predicateLoop_spec p l.length l 1 (by omega)

theorem filtered_unique {p : Pred} {l a b : List XN} (ha : Filtered p l a) (hb : Filtered p l b) : a = b := by
  obtain ⟨k, h1, h2, h3⟩ := ha
  obtain ⟨k', h1', h2', h3'⟩ := hb
  have val : ∀ (k : List Nat) (a : List XN), a.map some = k.map (fun i => l[i]?) → ∀ i ∈ k, ∃ x, l[i]? = some x := by
    intro k a h i hi
    have : l[i]? ∈ a.map some := by rw [h]; exact List.mem_map.2 ⟨i, hi, rfl⟩
    obtain ⟨x, _, hx⟩ := List.mem_map.1 this
    exact ⟨x, hx.symm⟩
  have e : k = k' := by
    refine sorted_unique (fun a => by omega) (fun a b => by omega) h1 h1' fun i => ?_
    constructor
    · intro hi
      obtain ⟨x, hx⟩ := val k a h2 i hi
      exact (h3' i x hx).2 ((h3 i x hx).1 hi)
    · intro hi
      obtain ⟨x, hx⟩ := val k' b h2' i hi
      exact (h3 i x hx).2 ((h3' i x hx).1 hi)
  subst e
  rw [← h2'] at h2
  have inj : ∀ a b : List XN, a.map some = b.map some → a = b := by
    intro a b h
    have := congrArg (List.filterMap id) h
    simpa [List.filterMap_map] using this
  exact inj _ _ h2

theorem filteredBy_unique {ps : List Pred} {l a b : List XN} (ha : FilteredBy ps l a) (hb : FilteredBy ps l b) : a = b := by
  induction ps generalizing l with
  | nil => rw [FilteredBy] at ha hb; rw [ha, hb]
  | cons p ps ih =>
    obtain ⟨m, h1, h2⟩ := ha
    obtain ⟨m', h1', h2'⟩ := hb
    rw [filtered_unique h1' h1] at h2'
    exact ih h2 h2'

theorem filtered_nil (p : Pred) : Filtered p [] [] := ⟨[], by simp, by simp, by simp⟩

theorem filteredBy_nil (ps : List Pred) : FilteredBy ps [] [] := by
  induction ps with
  | nil => rfl
  | cons p ps ih => exact ⟨[], filtered_nil p, ih⟩

theorem applyPredicates_spec (ps : List Pred) (ns : NodeSet) : FilteredBy ps ns.nodes (applyPredicates ps ns).nodes := by
  induction ps generalizing ns with
  | nil => rfl
  | cons p ps ih =>
    rw [applyPredicates]
    by_cases e : ns.nodes = []
    · rw [if_pos (by simp [e]), e]; exact filteredBy_nil _
    · rw [if_neg (by simpa using e)]
      exact ⟨_, filtered_loop p ns.nodes, ih (applyPredicate p ns)⟩

theorem filtered_mem {p : Pred} {l a : List XN} (h : Filtered p l a) {x : XN} (hx : x ∈ a) : x ∈ l := by
  obtain ⟨k, h1, h2, h3⟩ := h
  have : some x ∈ k.map fun i => l[i]? := by rw [← h2]; exact List.mem_map.2 ⟨x, hx, rfl⟩
  obtain ⟨i, _, hi⟩ := List.mem_map.1 this
  exact List.mem_of_getElem? hi

theorem filteredBy_mem {ps : List Pred} {l a : List XN} (h : FilteredBy ps l a) {x : XN} (hx : x ∈ a) : x ∈ l := by
  induction ps generalizing l with
  | nil => rw [FilteredBy] at h; rw [← h]; exact hx
  | cons p ps ih =>
    obtain ⟨m, h1, h2⟩ := h
    exact filtered_mem h1 (ih h2)

/-! ## Tests -/

theorem holds_iff (test : NodeTest) (d : Data) : test.holds d = true ↔ Passes d test := by
  cases test <;> simp only [NodeTest.holds, Passes]
  case node => by_cases h : d.kind = .document <;> by_cases h' : d.kind = .fragment <;> simp [h, h']
  case processingInstruction target =>
    by_cases h : d.kind = .pi
    · cases target <;> simp [h]
    · simp [h]
  all_goals simp [and_assoc, and_comm, and_left_comm]

theorem at_iff {test : NodeTest} {t : Tree} {r : Ref} :
    test.at t r = true ↔ ∃ n, sub t r = some n ∧ Passes n.data test := by
  rw [NodeTest.at]
  cases sub t r with
  | none => simp
  | some n => simp [holds_iff]

/-! ## Steps -/

theorem axisList_unique {t : Tree} {c : Ref} {axis : Axis} {l l' : List Ref} (h : IsAxis t c axis l)
    (h' : IsAxis t c axis l') : l = l' := by
  have hm : ∀ x, x ∈ l ↔ x ∈ l' := fun x => (h.1 x).trans (h'.1 x).symm
  by_cases hr : Reverse axis
  · exact sorted_unique (lt := fun a b => Before b a) before_irrefl (fun _ _ => before_asymm) (h.2.1 hr) (h'.2.1 hr)
      fun x => hm x
  · exact sorted_unique before_irrefl (fun _ _ => before_asymm) (h.2.2 hr) (h'.2.2 hr) hm

theorem axisList_nodup {t : Tree} {c : Ref} {axis : Axis} {l : List Ref} (h : IsAxis t c axis l) : l.Nodup := by
  by_cases hr : Reverse axis
  · exact (h.2.1 hr).imp fun {a b} (hab : Before b a) (e : a = b) => before_irrefl a (by rw [← e] at hab; exact hab)
  · exact (h.2.2 hr).imp fun {a b} (hab : Before a b) (e : a = b) => before_irrefl a (by rw [← e] at hab; exact hab)

theorem sublist_filter {l p : List Ref} {q : Ref → Bool} (hn : l.Nodup) (hs : p.Sublist l) (h : ∀ r ∈ l, r ∈ p ↔ q r = true) :
    p = l.filter q := by
  induction hs with
  | slnil => rfl
  | @cons p l a hs ih =>
    obtain ⟨h1, h2⟩ := List.nodup_cons.1 hn
    have ha : q a = false := by
      cases e : q a with
      | false => rfl
      | true => exact absurd (hs.subset ((h a (by simp)).2 e)) h1
    rw [List.filter_cons_of_neg (by simp [ha])]
    exact ih h2 fun r hr => h r (by simp [hr])
  | @cons_cons p l a hs ih =>
    obtain ⟨h1, h2⟩ := List.nodup_cons.1 hn
    have ha : q a = true := (h a (by simp)).1 (by simp)
    rw [List.filter_cons_of_pos ha]
    congr 1
    refine ih h2 fun r hr => ?_
    rw [← h r (by simp [hr])]
    constructor
    · intro h; simp [h]
    · intro h
      rcases List.mem_cons.1 h with rfl | h
      · exact absurd hr h1
      · exact h

theorem stepSelects_iff {w : World} {s : PathStep} {x y : XN} {l : List Ref} {kept : List XN}
    (hl : IsAxis (w.tree x.1) x.2 s.axis l)
    (hk : FilteredBy s.preds ((l.filter (s.test.at (w.tree x.1))).map fun r => (x.1, r)) kept) :
    StepSelects w s x y ↔ y ∈ kept := by
  constructor
  · rintro ⟨l', p, k, h1, h2, h3, h4, h5⟩
    rw [axisList_unique h1 hl] at h2 h3
    have e : p = l.filter (s.test.at (w.tree x.1)) :=
      sublist_filter (axisList_nodup hl) h2 fun r hr => (h3 r hr).trans at_iff.symm
    rw [e] at h4
    rw [← filteredBy_unique h4 hk]
    exact h5
  · intro hy
    refine ⟨l, _, kept, hl, List.filter_sublist, ?_, hk, hy⟩
    intro r hr
    rw [List.mem_filter, at_iff]
    simp [hr]

/-- The nodes of some trees. -/
def NodesOf (w : World) (K : Nat → Prop) (y : XN) : Prop := K y.1 ∧ XNode (w.tree y.1) y.2

theorem usual_nodes {w : World} {K : Nat → Prop} (h : Trees w K) : Usual w (NodesOf w K) where
  valid x hx := xnode_some hx.2
  small x hx := h.small _ hx.1
  root x hx := (h.dom _ hx.1).root
  one x y hx hy h1 h2 := h.one _ _ hx.1 hy.1 h1 h2

/-- What is asked of a node a step starts from. -/
structure StepOkAt (w : World) (K : Nat → Prop) (s : PathStep) (x : XN) : Prop where
  node : NodesOf w K x
  child : s.axis = .child → ¬ IsAttr x.2
  following : s.axis = .following → (w.tree x.1).kind = .document
  preceding : s.axis = .preceding → Normalized (w.tree x.1)

theorem stepSelects_node {w : World} {K : Nat → Prop} {s : PathStep} {x y : XN} (hx : NodesOf w K x) (h : StepSelects w s x y) :
    NodesOf w K y ∧ y.1 = x.1 := by
  obtain ⟨l, p, k, h1, h2, h3, h4, h5⟩ := h
  obtain ⟨r, hr, rfl⟩ := List.mem_map.1 (filteredBy_mem h4 h5)
  exact ⟨⟨hx.1, ((h1.1 r).1 (h2.subset hr)).1⟩, rfl⟩

theorem foldl_push {srt : List XN → List XN} (l : List XN) (ns : NodeSet) :
    l.foldl NodeSet.push ns = ns.run srt (l.map .push) := by
  induction l generalizing ns with
  | nil => rfl
  | cons a l ih => rw [List.foldl_cons, ih]; rfl

theorem foldl_push_forward (l : List XN) (ns : NodeSet) : (l.foldl NodeSet.push ns).forward = ns.forward := by
  induction l generalizing ns with
  | nil => rfl
  | cons a l ih => rw [List.foldl_cons, ih]; rfl

theorem foldl_push_nodes (l : List XN) (ns : NodeSet) : (l.foldl NodeSet.push ns).nodes = ns.nodes ++ l := by
  induction l generalizing ns with
  | nil => simp
  | cons a l ih => rw [List.foldl_cons, ih]; simp [NodeSet.push]

theorem added_push (l : List XN) : added (l.map .push) = l := by
  induction l with
  | nil => rfl
  | cons a l ih => simp [added, ih]

theorem setForward_forward (ns : NodeSet) (b : Bool) : (ns.setForward b).forward = b := by
  rw [NodeSet.setForward]
  by_cases h : ns.forward = b
  · rw [if_pos h]; exact h
  · rw [if_neg h]

variable {w : World} {K : Nat → Prop} {srt : List XN → List XN}

theorem enumerateOver_spec (hw : Forest w) (hK : Trees w K) (hsrt : StdSort (nodesLessThan w) srt) {s : PathStep} {x : XN}
    (hx : StepOkAt w K s x) : ∃ fuel, ∀ f, fuel ≤ f → ∀ ns : NodeSet, NSInv w (NodesOf w K) ns →
      ∃ ns', enumerateOver w s f ns x = .done ns' ∧ NSInv w (NodesOf w K) ns' ∧ ns'.forward = s.axis.forward ∧
        ∀ y, y ∈ ns'.nodes ↔ y ∈ ns.nodes ∨ StepSelects w s x y := by
  obtain ⟨fuel, l, h1, h2⟩ := axes (hK.dom _ hx.node.1) (hK.expanded _ hx.node.1) hx.node.2 s.axis hx.child
    hx.following hx.preceding
  refine ⟨fuel, fun f hf ns hns => ?_⟩
  rw [enumerateOver, enumerate_mono h1 hf]
  simp only
  have hS := usual_nodes hK
  have hfound : ∀ y ∈ (l.filter (s.test.at (w.tree x.1))).map (fun r => (x.1, r)), NodesOf w K y := by
    intro y hy
    obtain ⟨r, hr, rfl⟩ := List.mem_map.1 hy
    exact ⟨hx.node.1, ((h2.1 r).1 (List.mem_filter.1 hr).1).1⟩
  generalize hfd : (l.filter (s.test.at (w.tree x.1))).map (fun r => (x.1, r)) = found at *
  obtain ⟨i1, i2⟩ := inv_step hw hS hsrt hns (.setForward s.axis.forward) (by simp [added])
  simp only [added, List.not_mem_nil, or_false, NodeSet.step] at i1 i2
  by_cases hp : s.preds = []
  · rw [if_pos (by simp [hp])]
    refine ⟨_, rfl, ?_, ?_, ?_⟩
    · rw [foldl_push (srt := srt)]
      exact (inv_run hw hS hsrt i1 _ (by rw [added_push]; exact hfound)).1
    · rw [foldl_push_forward, setForward_forward]
    · intro y
      rw [foldl_push_nodes, List.mem_append, i2, stepSelects_iff h2 (kept := found) (by rw [hp, hfd]; rfl)]
  · rw [if_neg (by simpa using hp)]
    have hk := applyPredicates_spec s.preds (found.foldl NodeSet.push { forward := s.axis.forward })
    rw [foldl_push_nodes, show ({ forward := s.axis.forward } : NodeSet).nodes = [] from rfl, List.nil_append] at hk
    generalize (applyPredicates s.preds (found.foldl NodeSet.push { forward := s.axis.forward })).nodes = kept at *
    obtain ⟨j1, j2⟩ := inv_step hw hS hsrt i1 (.insert (ns.setForward s.axis.forward).nodes.length kept)
      (by simp only [added, List.append_nil]; exact fun y hy => hfound y (filteredBy_mem hk hy))
    refine ⟨_, rfl, j1, setForward_forward _ _, fun y => ?_⟩
    rw [stepSelects_iff h2 (kept := kept) (by rw [hfd]; exact hk)]
    have := j2 y
    simp only [added, List.append_nil, i2] at this
    exact this

theorem overNodes_spec (hw : Forest w) (hK : Trees w K) (hsrt : StdSort (nodesLessThan w) srt) {s : PathStep} {l : List XN}
    (hl : ∀ x ∈ l, StepOkAt w K s x) : ∃ fuel, ∀ f, fuel ≤ f → ∀ ns : NodeSet, NSInv w (NodesOf w K) ns →
      ∃ ns', overNodes w s f ns l = .done ns' ∧ NSInv w (NodesOf w K) ns' ∧ (l ≠ [] → ns'.forward = s.axis.forward) ∧
        ∀ y, y ∈ ns'.nodes ↔ y ∈ ns.nodes ∨ ∃ x ∈ l, StepSelects w s x y := by
  induction l with
  | nil => exact ⟨0, fun f _ ns hns => ⟨ns, rfl, hns, by simp, by simp⟩⟩
  | cons x l ih =>
    obtain ⟨f1, h1⟩ := enumerateOver_spec hw hK hsrt (hl x (by simp))
    obtain ⟨f2, h2⟩ := ih fun y hy => hl y (by simp [hy])
    refine ⟨max f1 f2, fun f hf ns hns => ?_⟩
    obtain ⟨n1, e1, i1, d1, m1⟩ := h1 f (by omega) ns hns
    obtain ⟨n2, e2, i2, d2, m2⟩ := h2 f (by omega) n1 i1
    refine ⟨n2, by rw [overNodes, e1]; exact e2, i2, fun _ => ?_, fun y => ?_⟩
    · by_cases e : l = []
      · subst e
        rw [overNodes] at e2
        cases e2
        exact d1
      · exact d2 e
    · rw [m2, m1]
      simp [or_assoc]

theorem enumerateOver_mono {s : PathStep} {x : XN} {ns r : NodeSet} {f f' : Nat} (h : enumerateOver w s f ns x = .done r)
    (hf : f ≤ f') : enumerateOver w s f' ns x = .done r := by
  rw [enumerateOver] at h
  cases he : enumerate (w.tree x.1) x.2 s.axis f with
  | done l => rw [he] at h; rw [enumerateOver, enumerate_mono he hf]; exact h
  | crash => rw [he] at h; cases h
  | more => rw [he] at h; cases h

theorem overNodes_mono {s : PathStep} {l : List XN} {ns r : NodeSet} {f f' : Nat} (h : overNodes w s f ns l = .done r)
    (hf : f ≤ f') : overNodes w s f' ns l = .done r := by
  induction l generalizing ns with
  | nil => exact h
  | cons x l ih =>
    rw [overNodes] at h ⊢
    cases he : enumerateOver w s f ns x with
    | done n => rw [he] at h; rw [enumerateOver_mono he hf]; exact ih h
    | crash => rw [he] at h; cases h
    | more => rw [he] at h; cases h

theorem overSteps_spec (hw : Forest w) (hK : Trees w K) (hsrt : StdSort (nodesLessThan w) srt) (steps : List PathStep)
    {ns : NodeSet} (hns : NSInv w (NodesOf w K) ns) (hr : ∀ x ∈ ns.nodes, Regular w steps x) :
    ∃ fuel ns', (∀ f, fuel ≤ f → overSteps w f steps ns = .done ns') ∧ NSInv w (NodesOf w K) ns' ∧
      (∀ s, steps.getLast? = some s → ns'.nodes ≠ [] → ns'.forward = s.axis.forward) ∧ (steps = [] → ns' = ns) ∧
      ∀ y, y ∈ ns'.nodes ↔ ∃ x ∈ ns.nodes, PathSelects w steps x y := by
  induction steps generalizing ns with
  | nil =>
    refine ⟨0, ns, fun _ _ => rfl, hns, by simp, by simp, fun y => ?_⟩
    simp [PathSelects]
  | cons s ss ih =>
    have hok : ∀ x ∈ ns.nodes, StepOkAt w K s x := fun x hx =>
      { node := hns.all x hx
        child := fun h => ((hr x hx) [] s ss rfl).1 h x rfl
        following := ((hr x hx) [] s ss rfl).2.1
        preceding := ((hr x hx) [] s ss rfl).2.2 }
    obtain ⟨f1, h1⟩ := overNodes_spec hw hK hsrt hok
    have key : ∃ ns1, (∀ f, f1 ≤ f → overNodes w s f {} ns.nodes = .done ns1) ∧ NSInv w (NodesOf w K) ns1 ∧
        (ns.nodes ≠ [] → ns1.forward = s.axis.forward) ∧ ∀ y, y ∈ ns1.nodes ↔ ∃ x ∈ ns.nodes, StepSelects w s x y := by
      obtain ⟨ns1, e1, i1, d1, m1⟩ := h1 f1 (Nat.le_refl _) {} ⟨by simp, by simp⟩
      refine ⟨ns1, fun f hf => ?_, i1, d1, fun y => by rw [m1]; simp⟩
      exact overNodes_mono e1 hf
    obtain ⟨ns1, e1, i1, d1, m1⟩ := key
    obtain ⟨f2, ns2, e2, i2, d2, z2, m2⟩ := ih i1 (by
      intro m hm pre s' post he
      obtain ⟨x, hx, hxm⟩ := (m1 m).1 hm
      have := hr x hx (s :: pre) s' post (by rw [he]; rfl)
      have ht := (stepSelects_node (hns.all x hx) hxm).2
      rw [ht]
      exact ⟨fun h y hy => this.1 h y ⟨m, hxm, hy⟩, this.2⟩)
    refine ⟨max f1 f2, ns2, fun f hf => ?_, i2, ?_, by simp, fun y => ?_⟩
    · rw [overSteps, e1 f (by omega)]; exact e2 f (by omega)
    · intro s' hs' hne
      cases ss with
      | nil =>
        simp at hs'
        subst hs'
        rw [z2 rfl]
        refine d1 ?_
        intro h0
        obtain ⟨y, hy⟩ := List.exists_mem_of_ne_nil _ hne
        obtain ⟨m, hm, _⟩ := (m2 y).1 hy
        obtain ⟨x, hx, _⟩ := (m1 m).1 hm
        rw [h0] at hx
        simp at hx
      | cons s2 ss => exact d2 s' (by simpa using hs') hne
    · rw [m2]
      constructor
      · rintro ⟨m, hm, h⟩
        obtain ⟨x, hx, hxm⟩ := (m1 m).1 hm
        exact ⟨x, hx, m, hxm, h⟩
      · rintro ⟨x, hx, m, hxm, h⟩
        exact ⟨m, (m1 m).2 ⟨x, hx, hxm⟩, h⟩

end Verif.XTree
