import Verif.Lemmas.XPathEvalUnique
set_option autoImplicit false
set_option linter.unusedSimpArgs false
set_option linter.unusedVariables false
namespace Verif.XPathEval
open Verif.XTree Verif.XPath
open Verif.Spec.XPathAxes Verif.Spec.XPathNodeSet Verif.Spec.XPathPath Verif.Spec.XPath Verif.Spec.XPathEval
open Verif.XPathParse (Expr Test)

section
variable {E : Env} {K : Nat → Prop}

/-! ## Predicates -/

theorem keeps_iff {m : XVal} {v : Val} (h : Rep E.w K m v) {pos : Nat} (hpos : 0 < pos) :
    keeps pos m = true ↔ Keeps pos (v.plain E.w) := by
  have ht := isTrue_iff h
  rcases rep_cases h with ⟨b, rfl, rfl⟩ | ⟨n, rfl, rfl⟩ | ⟨s, rfl, rfl⟩ | ⟨ns, l, rfl, rfl, hs, _, hl⟩
  · simp only [keeps, Bool.true_and, Val.plain, Keeps]
    exact Iff.rfl
  · simp only [keeps, Bool.and_eq_true, Val.plain, Keeps]
    constructor
    · rintro ⟨h1, h2⟩
      cases n <;> simp [Num.eq] at h1
      rw [h1]
    · rintro rfl
      refine ⟨by simp [Num.eq], ht.2 ?_⟩
      have h0 : (pos : Rat) ≠ 0 := by
        intro h
        have : pos = 0 := by exact_mod_cast h
        omega
      simp [toBoolean, Val.plain, boolean, h0]
  · simp only [keeps, Bool.true_and]
    rw [ht]
    simp [toBoolean, Val.plain, boolean, Keeps]
  · simp only [keeps, Bool.true_and]
    rw [ht]
    simp [toBoolean, Val.plain, boolean, Keeps]

theorem filterLoop_ends {P : XN → Int → Int → Val → Prop} {q : Nat → XN → Int → Int → Ev XVal} (size : Nat) (l : List XN)
    (pos : Nat) (hpos : 0 < pos)
    (hq : ∀ (i : Nat) (x : XN), l[i]? = some x →
      ∃ v m, P x ((i + pos : Nat) : Int) size v ∧ Rep E.w K m v ∧ Ends (fun f => q f x ((i + pos : Nat) : Int) size) m) :
    ∃ r, Ends (fun f => filterLoop (q f) size pos l) r ∧
      ∃ keep : List Nat, keep.Pairwise (· < ·) ∧ r.map some = keep.map (fun i => l[i]?) ∧
        ∀ (i : Nat) (x : XN), l[i]? = some x →
          ∃ v, P x ((i + pos : Nat) : Int) size v ∧ (i ∈ keep ↔ Keeps (i + pos) (v.plain E.w)) := by
  induction l generalizing pos with
  | nil => exact ⟨[], ends_val _, [], by simp, by simp, by simp⟩
  | cons a l ih =>
    obtain ⟨r, h0, keep, h1, h2, h3⟩ := ih (pos + 1) (by omega) (fun i x hx => by
      have := hq (i + 1) x (by simpa using hx)
      rw [show i + 1 + pos = i + (pos + 1) by omega] at this
      exact this)
    obtain ⟨v, m, g1, g2, g3⟩ := hq 0 a rfl
    rw [Nat.zero_add] at g1 g3
    have hk := keeps_iff g2 hpos
    have hs : (keep.map (· + 1)).Pairwise (· < ·) := List.pairwise_map.2 (h1.imp fun h => by omega)
    have hm : keep.map (fun i => l[i]?) = (keep.map (· + 1)).map fun i => (a :: l)[i]? := by
      rw [List.map_map]; rfl
    have tail : ∀ (k : List Nat), (∀ i, i + 1 ∈ k ↔ i ∈ keep) → (0 ∈ k ↔ Keeps pos (v.plain E.w)) →
        ∀ (i : Nat) (x : XN), (a :: l)[i]? = some x →
          ∃ v, P x ((i + pos : Nat) : Int) size v ∧ (i ∈ k ↔ Keeps (i + pos) (v.plain E.w)) := by
      intro k k1 k2 i x hx
      cases i with
      | zero =>
        simp at hx
        subst hx
        rw [Nat.zero_add]
        exact ⟨v, g1, k2⟩
      | succ i =>
        obtain ⟨v', e1, e2⟩ := h3 i x (by simpa using hx)
        rw [show i + 1 + pos = i + (pos + 1) by omega]
        exact ⟨v', e1, (k1 i).trans e2⟩
    by_cases hc : keeps pos m = true
    · refine ⟨a :: r, ?_, 0 :: keep.map (· + 1), List.pairwise_cons.2 ⟨?_, hs⟩, ?_, ?_⟩
      · refine ends_congr ?_ (fun f => by rw [filterLoop])
        refine ends_bind g3 ?_
        refine ends_congr ?_ (fun f => by rw [if_pos hc])
        exact ends_bind h0 (ends_val _)
      · intro b hb
        obtain ⟨c, _, rfl⟩ := List.mem_map.1 hb
        omega
      · rw [List.map_cons, h2, hm]; simp
      · exact tail _ (by simp) (by simpa using hk.1 hc)
    · refine ⟨r, ?_, keep.map (· + 1), hs, ?_, ?_⟩
      · refine ends_congr ?_ (fun f => by rw [filterLoop])
        refine ends_bind g3 ?_
        exact ends_congr h0 (fun f => by rw [if_neg hc])
      · rw [h2, hm]
      · exact tail _ (by simp) (by simp; exact fun h => hc (hk.2 h))

variable {vars : List Char → List Char → Option Val}

/-- An expression is evaluated as it should be. -/
def GoodE (E : Env) (K : Nat → Prop) (vars : List Char → List Char → Option Val) (e : Expr) : Prop :=
  ∀ (x : XN) (i k : Int), NodeIn E.w K x → Sound E.w E.cv vars e x i k →
    ∃ v m, Means E.w E.cv vars e x i k v ∧ Rep E.w K m v ∧ Ends (fun f => eval E f e x i k) m

theorem predsMean_nil (ps : List Expr) : PredsMean E.w E.cv vars ps [] [] := by
  induction ps with
  | nil => rw [PredsMean]
  | cons p ps ih =>
    rw [PredsMean]
    exact ⟨[], ⟨[], by simp, by simp, by simp⟩, ih⟩

theorem evalPreds_ends {ps : List Expr} (hg : ∀ p ∈ ps, GoodE E K vars p) {ns : NodeSet}
    (hns : NSInv E.w (NodeIn E.w K) ns) (hs : SoundPreds E.w E.cv vars ps ns.nodes) :
    ∃ r, Ends (fun f => evalPreds E f ps ns) r ∧ NSInv E.w (NodeIn E.w K) r ∧
      PredsMean E.w E.cv vars ps ns.nodes r.nodes := by
  induction ps generalizing ns with
  | nil => exact ⟨ns, ⟨0, fun f _ => by simp only; rw [evalPreds]⟩, hns, by rw [PredsMean]⟩
  | cons p ps ih =>
    by_cases h0 : ns.nodes = []
    · refine ⟨ns, ⟨0, fun f _ => ?_⟩, hns, ?_⟩
      · simp only
        rw [evalPreds, if_pos (by simp [h0])]
      · rw [h0]
        exact predsMean_nil _
    · rw [SoundPreds] at hs
      obtain ⟨r, h1, h2⟩ := filterLoop_ends (E := E) (K := K) (P := fun x i k v => Means E.w E.cv vars p x i k v)
        (q := fun f x i k => eval E f p x i k) ns.nodes.length ns.nodes 1 (by omega) (fun i x hx => by
          have := hg p (by simp) x (i + 1) ns.nodes.length (hns.all x (List.mem_of_getElem? hx)) (hs.1 i x hx)
          exact this)
      have hk : Kept E.w (fun x i k v => Means E.w E.cv vars p x i k v) ns.nodes r := h2
      obtain ⟨r', h3, h4, h5⟩ := ih (fun q hq => hg q (by simp [hq]))
        (ns := { nodes := r, forward := ns.isForward, sorted := false })
        ⟨fun x hx => hns.all x (kept_mem hk hx), by simp⟩ (hs.2 r hk)
      refine ⟨r', ?_, h4, ?_⟩
      · refine ends_congr (r := fun f => (filterNodes (fun x i k => eval E f p x i k) ns).bind fun r => evalPreds E f ps r) ?_
          (fun f => by rw [evalPreds, if_neg (by simpa using h0)])
        exact ends_bind (ends_bind h1 (ends_val _)) h3
      · rw [PredsMean]
        exact ⟨r, hk, h5⟩

/-! ## Steps over an axis -/

theorem axisOf_eq (a : Verif.XPathParse.Axis) : axisOf a = treeAxis a := by cases a <;> rfl

theorem treeTest_eq {t : Test} (h1 : t ≠ .pi (some [])) (h2 : t ≠ .node) :
    Verif.Spec.XPathMatch.treeTest t = Verif.XPathMatch.nodeTestOf t := by
  cases t with
  | pi o =>
    cases o with
    | none => rfl
    | some t =>
      have : t ≠ [] := fun h => h1 (by rw [h])
      simp [Verif.Spec.XPathMatch.treeTest, Verif.XPathMatch.nodeTestOf, this]
  | node => exact absurd rfl h2
  | _ => rfl

/-- `applyPredicates` of a step. -/
def predsOf (E : Env) (f : Nat) (ps : List Expr) : Option (NodeSet → Ev NodeSet) :=
  if ps.isEmpty then none else some fun m => evalPreds E f ps m

theorem stepFrom_ends (hw : Forest E.w) (hK : Documents E.w K) (hsrt : StdSort (nodesLessThan E.w) E.srt)
    {a : Verif.XPathParse.Axis} {t : Test} {ps : List Expr} (hg : ∀ p ∈ ps, GoodE E K vars p) {x : XN} {i k : Int}
    (hx : NodeIn E.w K x) (hs : SoundStep E.w E.cv vars (.test a t ps) x i k) {axis : Axis} (ha : axisOf a = some axis)
    {ns : NodeSet} (hns : NSInv E.w (NodeIn E.w K) ns) :
    ∃ r, Ends (fun f => stepFrom E f axis (Verif.XPathMatch.nodeTestOf t) (predsOf E f ps) ns x) r ∧
      NSInv E.w (NodeIn E.w K) r ∧ ∀ y, y ∈ r.nodes ↔ y ∈ ns.nodes ∨ StepMeans E.w E.cv vars (.test a t ps) x i k y := by
  rw [SoundStep] at hs
  obtain ⟨_, s1, s2, s3, s4⟩ := hs
  have hchild : axis = .child → ¬ IsAttr x.2 := by
    intro h
    apply s1
    subst h
    cases a <;> simp [axisOf] at ha
    rfl
  obtain ⟨fuel, l, h1, h2⟩ := axes (hK.dom _ hx.1) (hK.expanded _ hx.1) hx.2 axis hchild (fun _ => hK.document _ hx.1)
    (fun _ => hK.normalized _ hx.1)
  have hS := usual hK
  have hc : Candidates E.w a t x ((l.filter ((Verif.XPathMatch.nodeTestOf t).at (E.w.tree x.1))).map fun r => (x.1, r)) := by
    refine ⟨axis, l, _, by rw [← axisOf_eq, ha], h2, List.filter_sublist, fun r hr => ?_, rfl⟩
    rw [List.mem_filter, at_iff, treeTest_eq s2 s3]
    simp [hr]
  have hfound : ∀ y ∈ (l.filter ((Verif.XPathMatch.nodeTestOf t).at (E.w.tree x.1))).map (fun r => (x.1, r)),
      NodeIn E.w K y := by
    intro y hy
    obtain ⟨r, hr, rfl⟩ := List.mem_map.1 hy
    exact ⟨hx.1, ((h2.1 r).1 (List.mem_filter.1 hr).1).1⟩
  generalize hfd : (l.filter ((Verif.XPathMatch.nodeTestOf t).at (E.w.tree x.1))).map (fun r => (x.1, r)) = found at *
  have hstep : ∀ {kept : List XN}, PredsMean E.w E.cv vars ps found kept →
      ∀ y, StepMeans E.w E.cv vars (.test a t ps) x i k y ↔ y ∈ kept := by
    intro kept hk y
    rw [StepMeans]
    constructor
    · rintro ⟨l', kept', g1, g2, g3⟩
      cases candidates_unique g1 hc
      cases predsMean_unique hw ps g2 hk
      exact g3
    · exact fun hy => ⟨_, _, hc, hk, hy⟩
  obtain ⟨i1, i2⟩ := inv_step hw hS hsrt hns (.setForward axis.forward) (by simp [added])
  simp only [added, List.not_mem_nil, or_false, NodeSet.step] at i1 i2
  have hen : Ends (fun f => Ev.ofOutcome (enumerate (E.w.tree x.1) x.2 axis f)) l :=
    ⟨fuel, fun f hf => by simp only; rw [enumerate_mono h1 hf]; rfl⟩
  by_cases hp : ps = []
  · subst hp
    refine ⟨found.foldl NodeSet.push (ns.setForward axis.forward), ?_, ?_, ?_⟩
    · refine ends_bind hen ⟨0, fun f _ => ?_⟩
      simp only [predsOf, List.isEmpty_nil, if_true]
      rw [hfd]
    · rw [foldl_push (srt := E.srt)]
      exact (inv_run hw hS hsrt i1 _ (by rw [added_push]; exact hfound)).1
    · intro y
      rw [foldl_push_nodes, List.mem_append, i2, hstep (kept := found) (by rw [PredsMean])]
  · have hf : ∀ {f : Nat}, predsOf E f ps = some fun m => evalPreds E f ps m := by
      intro f
      rw [predsOf, if_neg (by simpa using hp)]
    have hfn : (found.foldl NodeSet.push { forward := axis.forward }).nodes = found := by
      rw [foldl_push_nodes]; rfl
    obtain ⟨r, e1, e2, e3⟩ := evalPreds_ends hg (ns := found.foldl NodeSet.push { forward := axis.forward }) (by
      rw [foldl_push (srt := E.srt)]
      exact (inv_run hw hS hsrt (ns := { forward := axis.forward }) ⟨by simp, by
        intro h; simp [Ordered]⟩ _ (by rw [added_push]; exact hfound)).1) (by rw [hfn]; exact s4 _ hc)
    rw [hfn] at e3
    obtain ⟨j1, j2⟩ := inv_step hw hS hsrt i1 (.insert (ns.setForward axis.forward).nodes.length r.nodes)
      (by simp only [added, List.append_nil]; exact e2.all)
    refine ⟨_, ?_, j1, fun y => ?_⟩
    · refine ends_bind hen ?_
      simp only [hfd]
      refine ends_congr (r := fun f => (evalPreds E f ps (found.foldl NodeSet.push { forward := axis.forward })).bind
        fun kept => .val ((ns.setForward axis.forward).insert (ns.setForward axis.forward).nodes.length kept.nodes)) ?_ ?_
      · exact ends_bind e1 (ends_val _)
      · intro f
        rw [hf]
    · rw [hstep e3]
      have := j2 y
      simp only [added, List.append_nil, i2] at this
      exact this

theorem stepOver_ends (hw : Forest E.w) (hK : Documents E.w K) (hsrt : StdSort (nodesLessThan E.w) E.srt)
    {a : Verif.XPathParse.Axis} {t : Test} {ps : List Expr} (hg : ∀ p ∈ ps, GoodE E K vars p) {i k : Int}
    {axis : Axis} (ha : axisOf a = some axis) {l : List XN} (hl : ∀ x ∈ l, NodeIn E.w K x)
    (hs : ∀ x ∈ l, SoundStep E.w E.cv vars (.test a t ps) x i k) {ns : NodeSet} (hns : NSInv E.w (NodeIn E.w K) ns) :
    ∃ r, Ends (fun f => stepOver E f axis (Verif.XPathMatch.nodeTestOf t) (predsOf E f ps) ns l) r ∧
      NSInv E.w (NodeIn E.w K) r ∧
      ∀ y, y ∈ r.nodes ↔ y ∈ ns.nodes ∨ ∃ x ∈ l, StepMeans E.w E.cv vars (.test a t ps) x i k y := by
  induction l generalizing ns with
  | nil => exact ⟨ns, ends_val _, hns, by simp⟩
  | cons x l ih =>
    obtain ⟨r1, e1, e2, e3⟩ := stepFrom_ends hw hK hsrt hg (hl x (by simp)) (hs x (by simp)) ha hns
    obtain ⟨r2, g1, g2, g3⟩ := ih (fun y hy => hl y (by simp [hy])) (fun y hy => hs y (by simp [hy])) e2
    refine ⟨r2, ?_, g2, fun y => ?_⟩
    · refine ends_congr ?_ (fun f => by rw [stepOver])
      exact ends_bind e1 g1
    · rw [g3, e3]
      simp [or_assoc]

/-- The parts of a step. -/
def GoodS (E : Env) (K : Nat → Prop) (vars : List Char → List Char → Option Val) : Verif.XPathParse.Step → Prop
  | .test _ _ ps => ∀ p ∈ ps, GoodE E K vars p
  | .expr e ps => GoodE E K vars e ∧ ∀ p ∈ ps, GoodE E K vars p

theorem inv_single {x : XN} (hx : NodeIn E.w K x) : NSInv E.w (NodeIn E.w K) (NodeSet.push {} x) := by
  refine ⟨?_, ?_⟩
  · intro y hy
    simp [NodeSet.push] at hy
    rw [hy]; exact hx
  · intro h
    simp [NodeSet.push] at h

theorem evalStep_ends (hw : Forest E.w) (hK : Documents E.w K) (hsrt : StdSort (nodesLessThan E.w) E.srt) {s : Verif.XPathParse.Step}
    (hg : GoodS E K vars s) {i k : Int} {ns : NodeSet} (hns : NSInv E.w (NodeIn E.w K) ns)
    (h1 : ¬ IsTest s → ∃ x, ns = NodeSet.push {} x) (hs : ∀ x ∈ ns.nodes, SoundStep E.w E.cv vars s x i k) :
    ∃ r, Ends (fun f => evalStep E f s ns i k) r ∧ NSInv E.w (NodeIn E.w K) r ∧
      ∀ y, y ∈ r.nodes ↔ ∃ x ∈ ns.nodes, StepMeans E.w E.cv vars s x i k y := by
  cases s with
  | test a t ps =>
    cases ha : axisOf a with
    | none =>
      by_cases h0 : ns.nodes = []
      · refine ⟨{}, ⟨0, fun f _ => ?_⟩, ⟨by simp, by intro h; simp [Ordered]⟩, by simp [h0]⟩
        simp only
        rw [evalStep, ha]
        simp [h0]
      · obtain ⟨x, hx⟩ := List.exists_mem_of_ne_nil _ h0
        have := hs x hx
        rw [SoundStep] at this
        cases a <;> simp [axisOf] at ha
        exact absurd rfl this.1
    | some axis =>
      obtain ⟨r, e1, e2, e3⟩ := stepOver_ends hw hK hsrt hg ha hns.all hs (ns := {}) ⟨by simp, by intro h; simp [Ordered]⟩
      refine ⟨r, ends_congr e1 (fun f => ?_), e2, fun y => by rw [e3]; simp⟩
      rw [evalStep, ha]
      rfl
  | expr e ps =>
    obtain ⟨x, rfl⟩ := h1 (by simp [IsTest])
    have hx : NodeIn E.w K x := hns.all x (by simp [NodeSet.push])
    have hs' := hs x (by simp [NodeSet.push])
    rw [SoundStep] at hs'
    obtain ⟨s1, s2, s3⟩ := hs'
    obtain ⟨v, m, g1, g2, g3⟩ := hg.1 x i k hx s1
    obtain ⟨l, rfl⟩ := s2 v g1
    obtain ⟨n, rfl, g4, g5, g6⟩ := rep_nodes g2
    have htop : ((NodeSet.push {} x).top E.srt).2 = some x := by
      obtain ⟨y, h1, h2, _⟩ := top_spec hw (usual hK) hsrt hns (by simp [NodeSet.push])
      simp [NodeSet.push] at h2
      rw [h1, h2]
    have hstep : ∀ {kept : List XN}, PredsMean E.w E.cv vars ps l kept →
        ∀ y, (∃ z ∈ (NodeSet.push {} x).nodes, StepMeans E.w E.cv vars (.expr e ps) z i k y) ↔ y ∈ kept := by
      intro kept hk y
      simp only [NodeSet.push, List.nil_append, List.mem_singleton, exists_eq_left]
      rw [StepMeans]
      constructor
      · rintro ⟨l', kept', q1, q2, q3⟩
        cases means_unique hw e q1 g1
        cases predsMean_unique hw ps q2 hk
        exact q3
      · exact fun hy => ⟨_, _, g1, hk, hy⟩
    by_cases hp : ps = []
    · subst hp
      refine ⟨n, ?_, inv_of_rep g2, fun y => ?_⟩
      · refine ends_congr (r := fun f => (eval E f e x i k).bind fun v => .val v.nodeSet) ?_ (fun f => ?_)
        · exact ends_bind g3 (ends_val _)
        · rw [evalStep, htop]
          rfl
      · rw [hstep (kept := l) (by rw [PredsMean])]
        exact shows_mem g4 y
    · obtain ⟨d1, d2, d3, d4⟩ := docOrder_spec hw (usual hK) hsrt (inv_of_rep g2)
      have hnl : (n.toDocumentOrder E.srt).nodes = l :=
        inOrder_unique hw d3 g5 fun y => (d4 y).trans (shows_mem g4 y)
      obtain ⟨r, e1, e2, e3⟩ := evalPreds_ends hg.2 (ns := n.toDocumentOrder E.srt)
        ⟨fun y hy => g6 y (by rw [← hnl]; exact hy), fun _ => by rw [Ordered, if_pos d1]; exact d3⟩
        (by rw [hnl]; exact s3 l g1)
      refine ⟨r, ?_, e2, fun y => ?_⟩
      · refine ends_congr (r := fun f => (eval E f e x i k).bind fun v => evalPreds E f ps (v.nodeSet.toDocumentOrder E.srt))
          ?_ (fun f => ?_)
        · exact ends_bind g3 e1
        · rw [evalStep, htop]
          simp only [Ev.ofOption, bind_val, show ps.isEmpty = false by simpa using hp, Bool.false_eq_true, if_false]
      · rw [hnl] at e3
        exact (hstep e3 y).symm

theorem evalSteps_ends (hw : Forest E.w) (hK : Documents E.w K) (hsrt : StdSort (nodesLessThan E.w) E.srt) {ss : List Verif.XPathParse.Step}
    (hg : ∀ s ∈ ss, GoodS E K vars s) {i k : Int} {ns : NodeSet} (hns : NSInv E.w (NodeIn E.w K) ns)
    (h1 : ∀ s ∈ ss.tail, IsTest s) (h2 : ∀ s ∈ ss.head?, ¬ IsTest s → ∃ x, ns = NodeSet.push {} x)
    (hs : ∀ x ∈ ns.nodes, SoundSteps E.w E.cv vars ss x i k) :
    ∃ r, Ends (fun f => evalSteps E f ss ns i k) r ∧ NSInv E.w (NodeIn E.w K) r ∧
      ∀ y, y ∈ r.nodes ↔ ∃ x ∈ ns.nodes, PathMeans E.w E.cv vars ss x i k y := by
  induction ss generalizing ns with
  | nil =>
    refine ⟨ns, ⟨0, fun f _ => by simp only; rw [evalSteps]⟩, hns, fun y => ?_⟩
    simp [PathMeans]
  | cons s ss ih =>
    simp only [List.tail_cons] at h1
    obtain ⟨r1, e1, e2, e3⟩ := evalStep_ends hw hK hsrt (hg s (by simp)) (i := i) (k := k) hns (h2 s (by simp)) (fun x hx => by
      have := hs x hx
      rw [SoundSteps] at this
      exact this.1)
    obtain ⟨r2, g1, g2, g3⟩ := ih (fun t ht => hg t (by simp [ht])) e2 (fun t ht => h1 t (List.mem_of_mem_tail ht))
      (fun t ht hn => absurd (h1 t (List.mem_of_mem_head? ht)) hn) (fun m hm => by
        obtain ⟨x, hx, hxm⟩ := (e3 m).1 hm
        have := hs x hx
        rw [SoundSteps] at this
        exact this.2 m hxm)
    refine ⟨r2, ?_, g2, fun y => ?_⟩
    · refine ends_congr ?_ (fun f => by rw [evalSteps])
      exact ends_bind e1 g1
    · rw [g3]
      simp only [PathMeans]
      constructor
      · rintro ⟨m, hm, hp⟩
        obtain ⟨x, hx, hxm⟩ := (e3 m).1 hm
        exact ⟨x, hx, m, hxm, hp⟩
      · rintro ⟨x, hx, m, hxm, hp⟩
        exact ⟨m, (e3 m).2 ⟨x, hx, hxm⟩, hp⟩

end

end Verif.XPathEval
