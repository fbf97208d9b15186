import Verif.Lemmas.XPathEvalStep
set_option autoImplicit false
set_option linter.unusedSimpArgs false
set_option linter.unusedVariables false
namespace Verif.XPathEval
open Verif.XTree Verif.XPath
open Verif.Spec.XPathAxes Verif.Spec.XPathNodeSet Verif.Spec.XPathPath Verif.Spec.XPath Verif.Spec.XPathEval
open Verif.XPathParse (Expr Test)

section
variable {E : Env} {K : Nat → Prop} {vars : List Char → List Char → Option Val}

theorem rootOf_eq (hw : Forest E.w) (hK : Documents E.w K) {x : XN} (hx : NodeIn E.w K x) : rootOf E x = (x.1, []) := by
  have hd := hK.dom _ hx.1
  have h0 : ∀ n, sub (E.w.tree x.1) x.2 = some n → n.kind = .document ∨ n.kind = .fragment → x.2 = [] := by
    intro n hn hk
    obtain ⟨j, r⟩ := x
    simp only at hn hd ⊢
    match r, hn with
    | [], _ => rfl
    | .child i :: up, hn =>
      obtain ⟨_, h2, h3⟩ := hd.kids up i n hn
      rcases hk with h | h
      · exact absurd h h2
      · exact absurd h h3
    | .attr i :: up, hn =>
      have := hd.attrs up i n hn
      rw [this] at hk
      simp at hk
  rw [rootOf]
  split
  · rename_i h
    rw [kindOf] at h
    cases hn : sub (E.w.tree x.1) x.2 with
    | none => simp [hn] at h
    | some n =>
      have := h0 n hn (by simpa [hn] using h)
      rw [← this]
  · rw [hw.doc _ (hK.document _ hx.1)]

theorem evalArgs_ends {es : List Expr} (hg : ∀ e ∈ es, GoodE E K vars e) {x : XN} {i k : Int} (hx : NodeIn E.w K x)
    (hs : SoundArgs E.w E.cv vars es x i k) :
    ∃ vs ms, ArgsMean E.w E.cv vars es x i k vs ∧ Reps E.w K ms vs ∧
      ∃ F, ∀ f, F ≤ f → evalArgs E f es x i k = ms.map Ev.val := by
  induction es with
  | nil => exact ⟨[], [], by rw [ArgsMean], trivial, 0, fun f _ => by rw [evalArgs]; rfl⟩
  | cons e es ih =>
    rw [SoundArgs] at hs
    obtain ⟨v, m, h1, h2, F, h3⟩ := hg e (by simp) x i k hx hs.1
    obtain ⟨vs, ms, g1, g2, G, g3⟩ := ih (fun e' he => hg e' (by simp [he])) hs.2
    refine ⟨v :: vs, m :: ms, ?_, ⟨h2, g2⟩, max F G, fun f hf => ?_⟩
    · rw [ArgsMean]
      exact ⟨v, vs, rfl, h1, g1⟩
    · rw [evalArgs, g3 f (by omega), List.map_cons]
      have := h3 f (by omega)
      simp only at this
      rw [this]

theorem rep_vars (hv : SameVariables E.w K E.vars vars) {u n : List Char} {v : Val} (h : vars u n = some v) :
    ∃ m, E.vars u n = some m ∧ Rep E.w K m v := by
  obtain ⟨m, h1, h2, h3⟩ := hv u n v h
  exact ⟨m, h1, h2, h3⟩

theorem good_call (hK : Documents E.w K) {u n : List Char} {args : List Expr} (hg : ∀ e ∈ args, GoodE E K vars e) :
    GoodE E K vars (.call u n args) := by
  intro x i k hx hs
  rw [Sound] at hs
  obtain ⟨rfl, fn, rfl, h1, h2⟩ := hs
  obtain ⟨vs, ms, g1, g2, F, g3⟩ := evalArgs_ends hg hx h1
  obtain ⟨v, m, e1, e2, e3⟩ := callFn_ends hK hx i k (h2 vs g1) g2
  refine ⟨v, m, ?_, e2, ?_⟩
  · rw [Means]
    exact ⟨rfl, fn, vs, rfl, g1, e1⟩
  · refine ends_of e3 F fun f hf => ?_
    rw [eval, g3 f hf, callNamed, if_pos (by rfl), function_found]

theorem good_binary (hw : Forest E.w) (hK : Documents E.w K) (hsrt : StdSort (nodesLessThan E.w) E.srt)
    {op : Verif.XPathParse.Op} {a b : Expr} (ha : GoodE E K vars a) (hb : GoodE E K vars b) :
    GoodE E K vars (.binary op a b) := by
  intro x i k hx hs
  rw [Sound] at hs
  obtain ⟨s1, s2, s3⟩ := hs
  obtain ⟨v, m, h1, h2, F, h3⟩ := ha x i k hx s1
  obtain ⟨v', m', h1', h2', F', h3'⟩ := hb x i k hx s2
  obtain ⟨r, n, e1, e2, e3⟩ := binaryOp_ends hw hK hsrt (B := fun vb => Means E.w E.cv vars b x i k vb) h2 h2' h1'
    (s3 v v' h1 h1')
  refine ⟨r, n, ?_, e2, ?_⟩
  · rw [Means]
    exact ⟨v, h1, e1⟩
  · refine ends_of e3 (max F F') fun f hf => ?_
    have g1 := h3 f (by omega)
    have g2 := h3' f (by omega)
    simp only at g1 g2 ⊢
    rw [eval, g1, g2]

theorem good_negative (hK : Documents E.w K) {a : Expr} (ha : GoodE E K vars a) : GoodE E K vars (.negative a) := by
  intro x i k hx hs
  rw [Sound] at hs
  obtain ⟨v, m, h1, h2, h3⟩ := ha x i k hx hs
  refine ⟨.num (toNumber E.w E.cv v).neg, .num (toNumber E.w E.cv v).neg, ?_, rep_num _, ?_⟩
  · rw [Means]
    exact ⟨v, h1, rfl⟩
  · refine ends_congr ?_ (fun f => by rw [eval])
    refine ends_num (ends_bind (ends_bind h3 (number_ends hK h2)) (ends_val _))

theorem good_path (hw : Forest E.w) (hK : Documents E.w K) (hsrt : StdSort (nodesLessThan E.w) E.srt) {b : Bool}
    {ss : List Verif.XPathParse.Step} (hg : ∀ s ∈ ss, GoodS E K vars s) : GoodE E K vars (.path b ss) := by
  intro x i k hx hs
  rw [Sound] at hs
  have hroot := rootOf_eq hw hK hx
  have hstart : NodeIn E.w K (if b = true then (x.1, []) else x) := by
    split
    · exact ⟨hx.1, trivial⟩
    · exact hx
  have e0 : (if b = true then rootOf E x else x) = if b = true then (x.1, []) else x := by rw [hroot]
  generalize hst : (if b = true then ((x.1, []) : XN) else x) = start at *
  obtain ⟨r, e1, e2, e3⟩ := evalSteps_ends hw hK hsrt hg (i := i) (k := k) (inv_single hstart) hs.1 (fun s _ _ => ⟨start, rfl⟩)
    (fun y hy => by
      simp [NodeSet.push] at hy
      rw [hy]; exact hs.2)
  obtain ⟨d1, d2, d3, d4⟩ := sort_spec hw (usual hK) hsrt e2
  obtain ⟨l, h1, h2, h3⟩ := rep_of_inv (ns := r.sort E.srt)
    ⟨fun y hy => e2.all y ((d4 y).1 hy), fun _ => by rw [d1]; exact d3⟩ d2
  refine ⟨.nodes l, .nodes (r.sort E.srt), ?_, h1, ?_⟩
  · rw [Means]
    refine ⟨l, rfl, h2, fun y => ?_⟩
    rw [h3, d4, e3]
    rw [hst]
    simp only [NodeSet.push, List.nil_append, List.mem_singleton, exists_eq_left]
  · refine ends_congr ?_ (fun f => by rw [eval])
    rw [e0]
    exact ends_bind e1 (ends_val _)

mutual

theorem goodE (hw : Forest E.w) (hK : Documents E.w K) (hsrt : StdSort (nodesLessThan E.w) E.srt)
    (hv : SameVariables E.w K E.vars vars) : ∀ e : Expr, GoodE E K vars e
  | .number t => fun x i k hx hs =>
    ⟨.num (E.cv.number t), _, by rw [Means], rep_num _, ⟨0, fun f _ => by simp only; rw [eval]⟩⟩
  | .string t => fun x i k hx hs => ⟨.str t, _, by rw [Means], rep_str _, ⟨0, fun f _ => by simp only; rw [eval]⟩⟩
  | .var u n => fun x i k hx hs => by
    rw [Sound] at hs
    obtain ⟨v, h⟩ := hs
    obtain ⟨m, h1, h2⟩ := rep_vars hv h
    refine ⟨v, m, by rw [Means]; exact h, h2, ⟨0, fun f _ => ?_⟩⟩
    simp only
    rw [eval, variableValue, h1]
  | .call u n args => good_call hK (goodArgs hw hK hsrt hv args)
  | .binary op a b => good_binary hw hK hsrt (goodE hw hK hsrt hv a) (goodE hw hK hsrt hv b)
  | .negative a => good_negative hK (goodE hw hK hsrt hv a)
  | .path b ss => good_path hw hK hsrt (goodSteps hw hK hsrt hv ss)

theorem goodArgs (hw : Forest E.w) (hK : Documents E.w K) (hsrt : StdSort (nodesLessThan E.w) E.srt)
    (hv : SameVariables E.w K E.vars vars) : ∀ (es : List Expr), ∀ e ∈ es, GoodE E K vars e
  | [] => fun e he => absurd he (by simp)
  | e :: es => List.forall_mem_cons.2 ⟨goodE hw hK hsrt hv e, goodArgs hw hK hsrt hv es⟩

theorem goodStep (hw : Forest E.w) (hK : Documents E.w K) (hsrt : StdSort (nodesLessThan E.w) E.srt)
    (hv : SameVariables E.w K E.vars vars) : ∀ (s : Verif.XPathParse.Step), GoodS E K vars s
  | .test a t ps => goodArgs hw hK hsrt hv ps
  | .expr e ps => ⟨goodE hw hK hsrt hv e, goodArgs hw hK hsrt hv ps⟩

theorem goodSteps (hw : Forest E.w) (hK : Documents E.w K) (hsrt : StdSort (nodesLessThan E.w) E.srt)
    (hv : SameVariables E.w K E.vars vars) : ∀ (ss : List Verif.XPathParse.Step), ∀ s ∈ ss, GoodS E K vars s
  | [] => fun s hs => absurd hs (by simp)
  | s :: ss => List.forall_mem_cons.2 ⟨goodStep hw hK hsrt hv s, goodSteps hw hK hsrt hv ss⟩

end

end

end Verif.XPathEval
