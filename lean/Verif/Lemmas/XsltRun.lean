import Verif.Spec.XsltRun
import Verif.Lemmas.XPathEvalFlat
set_option autoImplicit false
set_option linter.unusedSimpArgs false
set_option linter.unusedVariables false
namespace Verif.XsltRun
open Verif.XTree Verif.XPath Verif.XPathEval
open Verif.Spec.XPathAxes Verif.Spec.XPathNodeSet Verif.Spec.XPathPath Verif.Spec.XPath Verif.Spec.XPathEval
open Verif.Spec.XsltRun
open Verif.XPathParse (Expr flat flats flatStep flatSteps unbracket)
open Verif.Xslt (Out Instr Instrs exec execs startElement endElement startAttribute endAttribute addAttribute characters
  startComment endComment startPI endPI)

/-! ## Output -/

theorem execs_append (a b : List Instr) (o : Out) : execs o (seq (a ++ b)) = execs (execs o (seq a)) (seq b) := by
  induction a generalizing o with
  | nil => rw [List.nil_append, seq, execs]
  | cons i a ih => rw [List.cons_append, seq, seq, execs, execs, ih]

theorem execs_one (i : Instr) (o : Out) : execs o (seq [i]) = exec o i := by
  rw [seq, seq, execs, execs]

theorem execs_none (o : Out) : execs o (seq []) = o := by rw [seq, execs]

theorem execs_text (s : Str) (o : Out) : execs o (seq [.text s]) = characters o s := by rw [execs_one, exec]

/-! ## Copies -/

/-- As in `Named`. -/
def NamedNode (n : Tree) : Prop :=
  (n.data.uri = [] → n.data.loc = n.data.name) ∧ (n.data.pfx = [] → n.data.loc = n.data.name)

theorem sub_step (t c : Tree) (s : Step) (h : t.step s = some c) (r : Ref) : sub t (r ++ [s]) = sub c r := by
  induction r with
  | nil => simp [sub, h]
  | cons q r ih => simp [sub, ih]

theorem named_step {t c : Tree} {s : Step} (h : t.step s = some c) (hn : ∀ r m, sub t r = some m → NamedNode m) :
    ∀ r m, sub c r = some m → NamedNode m := fun r m hm => hn (r ++ [s]) m (by rw [sub_step t c s h]; exact hm)

theorem localName_eq {d : Data} (h : d.uri = [] → d.loc = d.name) : localName d = d.loc := by
  rw [localName]
  split
  · next h' => exact (h h').symm
  · rfl

theorem nodeName_eq {d : Data} (h : d.uri = [] → d.loc = d.name) (h' : d.pfx = [] → d.loc = d.name) :
    nodeName d = (d.pfx, localName d) := by
  rw [nodeName, localName_eq h]
  split
  · next g => rw [h' g]
  · rfl

mutual

theorem copyTree_eq : ∀ (t : Tree) (o : Out), (∀ r m, sub t r = some m → NamedNode m) →
    copyTree t o = execs o (seq (copied t))
  | .node d as ks, o, h => by
    have h0 := h [] (.node d as ks) rfl
    have ha : ∀ c ∈ as, ∀ r m, sub c r = some m → NamedNode m := by
      intro c hc
      obtain ⟨i, hi⟩ := List.mem_iff_getElem?.1 hc
      exact named_step (t := .node d as ks) (s := .attr i) (by simpa [Tree.step, Tree.attrs] using hi) h
    have hk : ∀ c ∈ ks, ∀ r m, sub c r = some m → NamedNode m := by
      intro c hc
      obtain ⟨i, hi⟩ := List.mem_iff_getElem?.1 hc
      exact named_step (t := .node d as ks) (s := .child i) (by simpa [Tree.step, Tree.kids] using hi) h
    have h1 : localName d = d.loc := localName_eq h0.1
    have h2 : nodeName d = (d.pfx, d.loc) := by
      have := nodeName_eq (d := d) h0.1 h0.2
      rw [this, h1]
    cases hd : d.kind <;> simp only [copyTree, copied, hd, h1, h2]
    · exact copyTrees_eq ks o hk
    · exact copyTrees_eq ks o hk
    · rw [execs_one, exec, execs_append, copyTrees_eq as _ ha, copyTrees_eq ks _ hk]
    · rw [execs_one, exec]
    · rw [execs_text]
    · rw [execs_text]
    · rw [execs_one, exec, execs_text]
    · rw [execs_one, exec, execs_text]
    · rw [execs_none]
    · rw [execs_none]

theorem copyTrees_eq : ∀ (ts : List Tree) (o : Out), (∀ c ∈ ts, ∀ r m, sub c r = some m → NamedNode m) →
    copyTrees ts o = execs o (seq (copiedAll ts))
  | [], o, _ => by rw [copyTrees, copiedAll, execs_none]
  | t :: ts, o, h => by
    rw [copyTrees, copiedAll, execs_append, copyTree_eq t o (h t (by simp)),
      copyTrees_eq ts _ fun c hc => h c (by simp [hc])]

end

/-! ## Node-sets -/

theorem inDocumentOrder_eq (E : Env) {ns : NodeSet} {l : List XN} (h : ShowsNodes ns l) : inDocumentOrder E ns = l := by
  obtain ⟨h1, h2⟩ := h
  rw [inDocumentOrder]
  cases hf : ns.forward with
  | true => simpa [h1, hf] using h2
  | false => simp [h1, hf, NodeSet.toDocumentOrder, NodeSet.sort, h2]

theorem forward_push (l : List XN) (ns : NodeSet) : (l.foldl NodeSet.push ns).forward = ns.forward := by
  induction l generalizing ns with
  | nil => rfl
  | cons x l ih => rw [List.foldl_cons, ih]; rfl

theorem bind_val {α β : Type} {r : Ev α} {g : α → Ev β} {b : β} (h : r.bind g = .val b) :
    ∃ a, r = .val a ∧ g a = .val b := by
  cases r with
  | val a => exact ⟨a, rfl, h⟩
  | throws => cases h
  | undefined => cases h
  | more => cases h

theorem stepFrom_forward {E : Env} {f : Nat} {axis : Axis} {t : NodeTest} {ps : Option (NodeSet → Ev NodeSet)}
    {results r : NodeSet} {x : XN} (hf : axis.forward = true) (h : stepFrom E f axis t ps results x = .val r) :
    r.forward = true := by
  rw [stepFrom] at h
  obtain ⟨l, _, h⟩ := bind_val h
  have hs : (results.setForward axis.forward).forward = true := by
    rw [NodeSet.setForward, hf]
    split
    · assumption
    · rfl
  cases ps with
  | none =>
    simp only [Ev.val.injEq] at h
    rw [← h, forward_push, hs]
  | some ps =>
    obtain ⟨k, _, h⟩ := bind_val h
    simp only [Ev.val.injEq] at h
    rw [← h]
    exact hs

theorem stepOver_forward {E : Env} {f : Nat} {axis : Axis} {t : NodeTest} {ps : Option (NodeSet → Ev NodeSet)}
    (hf : axis.forward = true) {l : List XN} {results r : NodeSet} (hr : results.forward = true)
    (h : stepOver E f axis t ps results l = .val r) : r.forward = true := by
  induction l generalizing results with
  | nil => rw [stepOver] at h; cases h; exact hr
  | cons x l ih =>
    rw [stepOver] at h
    obtain ⟨a, h1, h2⟩ := bind_val h
    exact ih (stepFrom_forward hf h1) h2

theorem evalSteps_last {E : Env} {f : Nat} {init : List Verif.XPathParse.Step} {s : Verif.XPathParse.Step}
    {ns r : NodeSet} {i k : Int} (h : evalSteps E f (init ++ [s]) ns i k = .val r) :
    ∃ m, evalStep E f s m i k = .val r := by
  induction init generalizing ns with
  | nil =>
    rw [List.nil_append, evalSteps] at h
    obtain ⟨a, h1, h2⟩ := bind_val h
    rw [evalSteps] at h2
    cases h2
    exact ⟨ns, h1⟩
  | cons q init ih =>
    rw [List.cons_append, evalSteps] at h
    obtain ⟨a, h1, h2⟩ := bind_val h
    exact ih h2

theorem evalStep_forward {E : Env} {f : Nat} {a : Verif.XPathParse.Axis} {t : Verif.XPathParse.Test} {ps : List Expr}
    {ns r : NodeSet} {i k : Int} (ha : ∀ axis, treeAxis a = some axis → axis ≠ .parent ∧ ¬ Reverse axis)
    (h : evalStep E f (.test a t ps) ns i k = .val r) : r.forward = true := by
  rw [evalStep] at h
  have hax : axisOf a = treeAxis a := by cases a <;> rfl
  rw [hax] at h
  cases hx : treeAxis a with
  | none =>
    rw [hx] at h
    simp only at h
    split at h
    · cases h; rfl
    · cases h
  | some axis =>
    rw [hx] at h
    simp only at h
    have hr := ha axis hx
    exact stepOver_forward (by cases axis <;> first | rfl | exact absurd trivial hr.2 | exact absurd rfl hr.1) rfl h

theorem forward_path {E : Env} {f : Nat} (e : Expr) {x : XN} {i k : Int} {ns : NodeSet} (he : ForwardPath e)
    (h : eval E f e x i k = .val (.nodes ns)) : ns.forward = true := by
  match e, he with
  | .path absolute ss, he =>
    rw [ForwardPath] at he
    obtain ⟨init, a, t, ps, rfl, ha⟩ := he
    rw [eval] at h
    obtain ⟨m, h1, h2⟩ := bind_val h
    obtain ⟨q, h3⟩ := evalSteps_last h1
    have := evalStep_forward ha h3
    simp only [Ev.val.injEq, XVal.nodes.injEq] at h2
    rw [← h2, NodeSet.sort]
    split <;> exact this
  | .binary .union a b, he =>
    rw [ForwardPath] at he
    rw [eval, binaryOp] at h
    obtain ⟨u, h1, h2⟩ := bind_val h
    cases u with
    | nodes n1 =>
      rw [unionValues] at h2
      obtain ⟨v, h3, h4⟩ := bind_val h2
      cases v with
      | nodes n2 =>
        simp only [Ev.val.injEq, XVal.nodes.injEq] at h4
        have g1 := forward_path a he.1 h1
        have g2 := forward_path b he.2 h3
        rw [← h4, union]
        split
        · exact g2
        · split
          · exact g1
          · rw [NodeSet.toDocumentOrder]
            split
            · assumption
            · rfl
      | bool _ => cases h4
      | num _ => cases h4
      | str _ => cases h4
    | bool _ => cases h2
    | num _ => cases h2
    | str _ => cases h2

/-! ## Paths that are written out -/

theorem flatSteps_snoc (init : List Verif.XPathParse.Step) (s : Verif.XPathParse.Step) :
    flatSteps (init ++ [s]) = flatSteps init ++ [flatStep s] := by
  induction init with
  | nil => simp [flatSteps]
  | cons a l ih => simp [flatSteps, ih]

/-- A path that is written out still ends with the same step. -/
theorem forward_flat {e : Expr} (he : ForwardPath e) : ForwardPath (flat e) := by
  match e, he with
  | .path absolute ss, he =>
    rw [ForwardPath] at he
    obtain ⟨init, a, t, ps, rfl, ha⟩ := he
    rw [flat, flatSteps_snoc, flatStep, ForwardPath]
    cases hi : flatSteps init with
    | nil => exact ⟨[], a, t, flats ps, rfl, ha⟩
    | cons q l =>
      unfold unbracket
      split
      · rename_i s ss rest h
        rw [List.cons_append, List.cons.injEq] at h
        obtain ⟨_, rfl⟩ := h
        exact ⟨s :: (ss ++ l), a, t, flats ps, by simp, ha⟩
      · exact ⟨q :: l, a, t, flats ps, rfl, ha⟩
  | .binary .union a b, he =>
    rw [ForwardPath] at he
    rw [flat, ForwardPath]
    exact ⟨forward_flat he.1, forward_flat he.2⟩

theorem flatSteps_eq_snoc {ss l : List Verif.XPathParse.Step} {q : Verif.XPathParse.Step} (h : flatSteps ss = l ++ [q]) :
    ∃ init s, ss = init ++ [s] ∧ flatStep s = q := by
  rcases List.eq_nil_or_concat ss with rfl | ⟨init, s, rfl⟩
  · simp [flatSteps] at h
  · rw [List.concat_eq_append, flatSteps_snoc] at h
    exact ⟨init, s, by simp, by simpa using (List.append_inj' h rfl).2⟩

theorem path_of_flat {e : Expr} {b : Bool} {ss : List Verif.XPathParse.Step} (h : flat e = .path b ss) :
    ∃ ss', e = .path b ss' := by
  cases e <;> simp [flat] at h
  exact ⟨_, by rw [h.1]⟩

theorem test_of_flat {s : Verif.XPathParse.Step} {a : Verif.XPathParse.Axis} {t : Verif.XPathParse.Test} {ps : List Expr}
    (h : flatStep s = .test a t ps) : ∃ ps', s = .test a t ps' := by
  cases s <;> simp [flatStep] at h
  exact ⟨_, by rw [h.1, h.2.1]⟩

theorem flats_nil {es : List Expr} (h : flats es = []) : es = [] := by
  cases es <;> simp [flats] at h
  rfl

theorem sort_forward (w : NodeSet) (srt : List XN → List XN) : (w.sort srt).forward = w.forward := by
  rw [NodeSet.sort]
  split <;> rfl

theorem path_last {E : Env} {f : Nat} {b : Bool} {init : List Verif.XPathParse.Step} {a : Verif.XPathParse.Axis}
    {t : Verif.XPathParse.Test} {ps : List Expr} {x : XN} {i k : Int} {ns : NodeSet}
    (ha : ∀ axis, treeAxis a = some axis → axis ≠ .parent ∧ ¬ Reverse axis)
    (h : eval E f (.path b (init ++ [.test a t ps])) x i k = .val (.nodes ns)) : ns.forward = true :=
  forward_path _ (by rw [ForwardPath]; exact ⟨init, a, t, ps, rfl, ha⟩) h

theorem union_forward {E : Env} {f : Nat} {a b : Expr} {x : XN} {i k : Int} {ns : NodeSet}
    (h : eval E f (.binary .union a b) x i k = .val (.nodes ns))
    (ga : ∀ n, eval E f a x i k = .val (.nodes n) → n.forward = true)
    (gb : ∀ n, eval E f b x i k = .val (.nodes n) → n.forward = true) : ns.forward = true := by
  rw [eval, binaryOp] at h
  obtain ⟨u, h1, h2⟩ := bind_val h
  cases u with
  | nodes n1 =>
    rw [unionValues] at h2
    obtain ⟨v, h3, h4⟩ := bind_val h2
    cases v with
    | nodes n2 =>
      simp only [Ev.val.injEq, XVal.nodes.injEq] at h4
      have g1 := ga _ h1
      have g2 := gb _ h3
      rw [← h4, union]
      split
      · exact g2
      · split
        · exact g1
        · rw [NodeSet.toDocumentOrder]
          split
          · assumption
          · rfl
    | bool _ => cases h4
    | num _ => cases h4
    | str _ => cases h4
  | bool _ => cases h2
  | num _ => cases h2
  | str _ => cases h2

theorem forward_of_flat {E : Env} {f : Nat} : ∀ (n : Nat) (e : Expr) {x : XN} {i k : Int} {ns : NodeSet}, sizeOf e < n →
    ForwardPath (flat e) → eval E f e x i k = .val (.nodes ns) → ns.forward = true
  | 0, _, _, _, _, _, hn, _, _ => by omega
  | n + 1, .path b ss, x, i, k, ns, hn, he, h => by
    rw [flat, ForwardPath] at he
    obtain ⟨init, a, t, ps, hu, ha⟩ := he
    unfold unbracket at hu
    split at hu
    · rename_i s s2 rest hss
      match ss, hss, h, hn with
      | .test _ _ _ :: _, hss, _, _ => simp [flatSteps, flatStep] at hss
      | .expr e0 ps0 :: rest0, hss, h, hn =>
        simp only [Verif.XPathParse.Expr.path.sizeOf_spec, List.cons.sizeOf_spec, Verif.XPathParse.Step.expr.sizeOf_spec] at hn
        simp only [flatSteps, flatStep, List.cons.injEq, Verif.XPathParse.Step.expr.injEq] at hss
        obtain ⟨⟨h0, hp⟩, hr⟩ := hss
        have hp := flats_nil hp
        subst hp
        rcases List.eq_nil_or_concat rest0 with rfl | ⟨r1, q, rfl⟩
        · have hr : rest = [] := by rw [← hr]; rfl
          rw [hr, List.append_nil] at hu
          have hf0 : ForwardPath (flat e0) := by
            rw [h0, ForwardPath]
            exact ⟨init, a, t, ps, hu, ha⟩
          obtain ⟨ss0, rfl⟩ := path_of_flat h0
          rw [eval] at h
          obtain ⟨m, h1, h2⟩ := bind_val h
          simp only [Ev.val.injEq, XVal.nodes.injEq] at h2
          rw [← h2, sort_forward]
          rw [evalSteps] at h1
          obtain ⟨r, h3, h4⟩ := bind_val h1
          rw [evalSteps] at h4
          cases h4
          rw [evalStep] at h3
          obtain ⟨c, _, h5⟩ := bind_val h3
          obtain ⟨v, h6, h7⟩ := bind_val h5
          rw [if_pos (by rfl)] at h7
          cases v with
          | nodes n2 =>
            cases h7
            exact forward_of_flat n _ (by omega) hf0 h6
          | bool _ => rw [eval] at h6; obtain ⟨_, _, h6⟩ := bind_val h6; cases h6
          | num _ => rw [eval] at h6; obtain ⟨_, _, h6⟩ := bind_val h6; cases h6
          | str _ => rw [eval] at h6; obtain ⟨_, _, h6⟩ := bind_val h6; cases h6
        · rw [List.concat_eq_append] at hr h
          rw [flatSteps_snoc] at hr
          rw [← hr, ← List.cons_append, ← List.append_assoc] at hu
          have := (List.append_inj' hu rfl).2
          simp only [List.cons.injEq, and_true] at this
          obtain ⟨ps', rfl⟩ := test_of_flat this
          rw [← List.cons_append] at h
          exact path_last ha h
    · obtain ⟨init', s', rfl, hs⟩ := flatSteps_eq_snoc hu
      obtain ⟨ps', rfl⟩ := test_of_flat hs
      exact path_last ha h
  | n + 1, .binary .union a b, x, i, k, ns, hn, he, h => by
    rw [flat, ForwardPath] at he
    simp only [Verif.XPathParse.Expr.binary.sizeOf_spec] at hn
    exact union_forward h (fun m hm => forward_of_flat n a (by omega) he.1 hm)
      (fun m hm => forward_of_flat n b (by omega) he.2 hm)

/-- What is written as a forward path, or as one with brackets, is in document order. -/
theorem forward_same {E : Env} {f : Nat} {e e' : Expr} {x : XN} {i k : Int} {ns : NodeSet} (hs : flat e' = flat e)
    (he : ForwardPath e) (h : eval E f e' x i k = .val (.nodes ns)) : ns.forward = true :=
  forward_of_flat _ e' (Nat.lt_succ_self _) (by rw [hs]; exact forward_flat he) h

/-! ## Children -/

section
variable {E : Env} {K : Nat → Prop}

theorem pathLt_append (r a b : List Step) (h : PathLt a b) : PathLt (r ++ a) (r ++ b) := by
  induction r with
  | nil => exact h
  | cons s r ih => exact Or.inr ⟨rfl, ih⟩

theorem before_children (r : Ref) {i j : Nat} (h : i < j) : Before (.child i :: r) (.child j :: r) := by
  rw [Before, List.reverse_cons, List.reverse_cons]
  exact pathLt_append _ _ _ (Or.inl h)

theorem childNodes_order (x : XN) : InOrder E.w (childNodes E x) := by
  rw [InOrder, childNodes, List.pairwise_map]
  refine List.pairwise_lt_range.imp ?_
  intro i j h
  rw [DocBefore, if_pos rfl]
  exact before_children _ h

theorem xnode_child (hK : Documents E.w K) {x : XN} (hx : NodeIn E.w K x) (hna : ¬ IsAttr x.2) {i : Nat} :
    XNode (E.w.tree x.1) (.child i :: x.2) ↔ i < (kidsOf (E.w.tree x.1) x.2).length := by
  have hall : AllChild x.2 := by
    have h := hx.2
    revert h hna
    cases hr : x.2 with
    | nil => intro _ _ s hs; cases hs
    | cons s up =>
      cases s with
      | «attr» i => intro hna _; exact absurd trivial hna
      | child i =>
        intro _ h s hs
        rcases List.mem_cons.1 hs with rfl | hs
        · exact ⟨i, rfl⟩
        · exact h.1 s hs
  constructor
  · rintro ⟨_, ⟨n, hn, _⟩, _⟩
    rw [sub_child] at hn
    exact (List.getElem?_eq_some_iff.1 hn).1
  · intro h
    have hn : sub (E.w.tree x.1) (.child i :: x.2) = some (kidsOf (E.w.tree x.1) x.2)[i] := by
      rw [sub_child]
      exact List.getElem?_eq_getElem h
    have he := hK.expanded _ hx.1 _ _ hn
    refine ⟨hall, ⟨_, hn, he.1, he.2⟩, ?_⟩
    rintro ⟨h1, j, rfl, h2⟩
    exact hK.normalized _ hx.1 x.2 j ⟨h2, h1⟩

theorem children_eq (hw : Forest E.w) (hK : Documents E.w K) {x : XN} {l : List XN} (hx : NodeIn E.w K x)
    (hna : ¬ IsAttr x.2) (h : Children E.w x l) : childNodes E x = l ∧ ∀ y ∈ l, NodeIn E.w K y := by
  obtain ⟨rs, hrs, rfl⟩ := h
  refine ⟨inOrder_unique hw (childNodes_order x) ?_ ?_, ?_⟩
  · rw [InOrder, List.pairwise_map]
    refine (hrs.2.2 (by simp [Reverse])).imp ?_
    intro a b hab
    rw [DocBefore, if_pos rfl]
    exact hab
  · intro y
    rw [childNodes, List.mem_map, List.mem_map]
    constructor
    · rintro ⟨i, hi, rfl⟩
      rw [List.mem_range] at hi
      exact ⟨_, (hrs.1 _).2 ⟨(xnode_child hK hx hna).2 hi, i, rfl⟩, rfl⟩
    · rintro ⟨r, hr, rfl⟩
      obtain ⟨h1, i, rfl⟩ := (hrs.1 r).1 hr
      exact ⟨i, List.mem_range.2 ((xnode_child hK hx hna).1 h1), rfl⟩
  · intro y hy
    obtain ⟨r, hr, rfl⟩ := List.mem_map.1 hy
    exact ⟨hx.1, ((hrs.1 r).1 hr).1⟩

/-- The value of text, and of an attribute. -/
theorem value_string (hK : Documents E.w K) {x : XN} (hx : NodeIn E.w K x) {n : Tree}
    (hn : sub (E.w.tree x.1) x.2 = some n) (hk : n.kind ∈ [Kind.attribute, .text, .cdata]) :
    n.data.value = stringValue E.w x := by
  have text : n.kind = .text ∨ n.kind = .cdata → n.data.value = stringValue E.w x := by
    intro ht
    obtain ⟨k, r⟩ := x
    simp only at hn
    match r, hn with
    | [], hn => rcases ht with h | h <;> simp only [stringValue, sub, h] <;> simp [sub] at hn <;> rw [hn] <;> simp [h]
    | .attr i :: up, hn => rcases ht with h | h <;> simp only [stringValue, hn, h]
    | .child i :: up, hn =>
      have hs := hn
      rw [sub_child] at hs
      obtain ⟨hi, hs⟩ := List.getElem?_eq_some_iff.1 hs
      have hl : leadingText ((kidsOf (E.w.tree k) up).drop i) = n.data.value := by
        rw [List.drop_eq_getElem_cons hi, hs, leadingText, if_pos ht]
        by_cases hj : i + 1 < (kidsOf (E.w.tree k) up).length
        · rw [List.drop_eq_getElem_cons hj, leadingText, if_neg, List.append_nil]
          intro h
          refine hK.normalized k hx.1 up i ⟨⟨n, hn, ht⟩, _, ?_, h⟩
          rw [sub_child]
          exact List.getElem?_eq_getElem hj
        · rw [List.drop_eq_nil_of_le (by omega), leadingText, List.append_nil]
      rcases ht with h | h <;> simp only [stringValue, hn, h] <;> exact hl.symm
  simp only [List.mem_cons, List.not_mem_nil, or_false] at hk
  rcases hk with h | h
  · simp only [stringValue, hn, h]
  · exact text h

end

end Verif.XsltRun
