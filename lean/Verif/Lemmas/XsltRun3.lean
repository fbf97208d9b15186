import Verif.Lemmas.XsltRun2
set_option autoImplicit false
set_option linter.unusedSimpArgs false
set_option linter.unusedVariables false
namespace Verif.XsltRun
open Verif.XTree Verif.XPath Verif.XPathEval
open Verif.Spec.XPathAxes Verif.Spec.XPathNodeSet Verif.Spec.XPathPath Verif.Spec.XPath Verif.Spec.XPathEval
open Verif.Spec.XsltRun
open Verif.XPathParse (Expr flat)
open Verif.Xslt (Out Instr Instrs exec execs startElement endElement startAttribute endAttribute addAttribute characters
  startComment endComment startPI endPI)

section
variable (S : Setting)

/-- What the code does with a task. -/
def Claim : Task → List Instr → Prop
  | .item φ L i, out => ∀ i', LikeItem i i' → ∀ b st, TidyItem S.R S.free b i → Agree S φ L b st →
      ∃ st', Ends2 (fun f n => runItem S.E f (invoke S.E (S.M f) f n) i' φ.node st) st' ∧ After st st' out ∧
        (moves i = false → st'.position = st.position ∧ st'.current = st.current)
  | .items φ L is, out => ∀ is', LikeItems is is' → ∀ b st, TidyItems S.R S.free b is → Agree S φ L b st →
      ∃ st' sc, Ends2 (fun f n => runItems S.E f (invoke S.E (S.M f) f n) is' φ.node st) st' ∧
        After { st with stack := sc :: st.stack.tail } st' out ∧
        (movesIn is = false → st'.position = st.position ∧ st'.current = st.current) ∧
        (Undeclaring is → st'.stack = st.stack)
  | .whens φ L ws, out => ∀ ws', LikeWhens ws ws' → ∀ b st, TidyWhens S.R S.free b ws → Agree S φ L b st →
      ∃ st' sc, Ends2 (fun f n => runWhens S.E f (invoke S.E (S.M f) f n) ws' φ.node st) st' ∧
        After { st with stack := sc :: st.stack.tail } st' out ∧
        (movesWhen ws = false → st'.position = st.position ∧ st'.current = st.current)
  | .each L body nodes i k, out => ∀ body', LikeItems body body' → ∀ st φ, TidyItems S.R S.free false body → (∀ y ∈ nodes, NodeIn S.E.w S.K y) →
      Agree S φ L true st → φ.size = k →
      ∃ st', Ends2 (fun f n => eachNode (fun y i st => (runItems S.E f (invoke S.E (S.M f) f n) body' y
        (st.chain.setPosition y i)).bind fun st => .val st.pop) nodes i st) st' ∧ After st st' out
  | .rules mode given nodes i k, out => ∀ st, (∀ y ∈ nodes, NodeIn S.E.w S.K y) → Caller S given st → st.last = k →
      ∃ st', Ends2 (fun f n => eachNode (fun y i st => invoke S.E (S.M f) f n (.rule mode) y (st.setPosition y i)) nodes i st)
        st' ∧ After st st' out
  | .template t given φ, out => ∀ t', LikeTemplate t t' → ∀ b st, TidyTemplate S.R S.free b t → NodeIn S.E.w S.K φ.node → st.last = φ.size →
      (b = false → st.position = φ.position ∧ st.current = φ.node) → Caller S given st →
      ∃ st', Ends2 (fun f n => runTemplate S.E f (invoke S.E (S.M f) f n) t' φ.node st.push) st' ∧ After st st'.pop out
  | .rule mode given φ, out => ∀ st, NodeIn S.E.w S.K φ.node → st.last = φ.size → st.position = φ.position →
      st.current = φ.node → Caller S given st →
      ∃ st', Ends2 (fun f n => invoke S.E (S.M f) f n (.rule mode) φ.node st) st' ∧ After st st' out

end

section
variable {S : Setting}

theorem after_out {st : St} {o : Out} {out : List Instr} (h : o = execs st.out (seq out)) :
    After st { st with out := o } out := ⟨rfl, rfl, rfl, h⟩

theorem After.trans {a b c : St} {x y : List Instr} (h : After a b x) (h' : After b c y) : After a c (x ++ y) :=
  ⟨by rw [h'.last, h.last], by rw [h'.stack, h.stack], by rw [h'.params, h.params], by rw [h'.out, h.out, execs_append]⟩

/-- Back from a frame. -/
theorem after_pop {st st' : St} {sc : List (VName × XVal)} {out : List Instr}
    (h : After { st.chain with stack := sc :: st.chain.stack.tail } st' out) : After st st'.pop out := by
  refine ⟨h.last, ?_, ?_, h.out⟩
  · have := h.stack
    simp only [St.chain, List.tail_cons] at this
    simp only [St.pop, this, List.tail_cons]
  · have := h.params
    simp only [St.chain] at this
    simp only [St.pop, this, List.tail_cons]

theorem attributes_end {φ : Focus} {L : Bindings} {b : Bool} :
    ∀ (as as' : List Attribute) (atts : List Instr) (st : St), LikeAttributes as as' → Agree S φ L b st → (∀ a ∈ as, Still S.R b a.value) →
      AttributesGive S.E.w S.E.cv S.R S.G φ L as atts →
      Ends (fun f => runAttributes S.E f as' φ.node st) { st with out := execs st.out (seq atts) }
  | [], as', atts, st, hl, _, _, h => by
    cases hl
    rw [AttributesGive] at h
    subst h
    rw [execs_none]
    exact ⟨0, fun f _ => by simp only; rw [runAttributes]⟩
  | a :: as, as', atts, st, hl, hA, hs, h => by
    cases hl with | @cons p l u e e' _ as' he hl => ?_
    rw [AttributesGive] at h
    obtain ⟨v, rest, h1, h2, rfl⟩ := h
    have hA1 : Agree S φ L b { st with out := startAttribute st.out p l u } := hA.congr rfl rfl rfl rfl rfl
    obtain ⟨F, g1⟩ := evals_string hA1 he (hs ⟨p, l, u, e⟩ (by simp)) h1
    have hA2 : Agree S φ L b { st with out := (endAttribute (characters (startAttribute st.out p l u)
        (toString S.E.w S.E.cv v))) } := hA.congr rfl rfl rfl rfl rfl
    obtain ⟨F', g2⟩ := attributes_end as as' rest _ hl hA2 (fun q hq => hs q (by simp [hq])) h2
    refine ⟨max F F', fun f hf => ?_⟩
    simp only
    have g1 := g1 f (by omega)
    simp only at g1
    rw [runAttributes, g1]
    have g2 := g2 f (by omega)
    simp only at g2
    simp only [Ev.bind]
    rw [g2, ← List.singleton_append, execs_append, execs_one, exec, execs_text]

theorem setting_named {x : XN} (hx : NodeIn S.E.w S.K x) {n : Tree} (hn : sub (S.E.w.tree x.1) x.2 = some n) :
    ∀ r m, sub n r = some m → NamedNode m := by
  intro r m hm
  have : sub (S.E.w.tree x.1) (r ++ x.2) = some m := by
    clear hx
    induction r generalizing m with
    | nil => simp [sub] at hm; rw [← hm]; exact hn
    | cons s r ih =>
      rw [sub] at hm
      cases hr : sub n r with
      | none => rw [hr] at hm; cases hm
      | some q =>
        rw [hr] at hm
        rw [List.cons_append, sub, ih q hr]
        exact hm
  exact S.hN _ hx.1 _ _ this

theorem copies_eq {l : List XN} (hl : ∀ x ∈ l, NodeIn S.E.w S.K x) (o : Out) :
    copyTrees (l.filterMap fun y => sub (S.E.w.tree y.1) y.2) o = execs o (seq (copies S.E.w l)) := by
  rw [copyTrees_eq, copies]
  intro c hc
  obtain ⟨y, hy, hs⟩ := List.mem_filterMap.1 hc
  exact setting_named (hl y hy) hs

/-- One step, and the rest. -/
theorem ends2_step {α β : Type} {r : Nat → Nat → Ev α} {r' g : Nat → Nat → Ev β} {a : α} {b : β} (h : Ends2 r a)
    (h' : Ends2 r' b) (e : ∀ f n, r f n = .val a → g f n = r' f n) : Ends2 g b := by
  obtain ⟨F, h⟩ := h
  obtain ⟨F', h'⟩ := h'
  refine ⟨max F F', fun f hf n hn => ?_⟩
  rw [e f n (h f (by omega) n (by omega))]
  exact h' f (by omega) n (by omega)

/-- One step more for a call. -/
theorem ends2_invoke {α : Type} {r g : Nat → Nat → Ev α} {a : α} (h : Ends2 r a)
    (e : ∀ f n, g f (n + 1) = r f n) : Ends2 g a := by
  obtain ⟨F, h⟩ := h
  refine ⟨F + 1, fun f hf n hn => ?_⟩
  obtain ⟨n', rfl⟩ : ∃ n', n = n' + 1 := ⟨n - 1, by omega⟩
  rw [e]
  exact h f (by omega) n' (by omega)

/-- The same, when a rule has to be found. -/
theorem ends2_found {α : Type} {r g : Nat → Nat → Ev α} {a : α} {p : Nat → Prop} {F : Nat} (h : Ends2 r a)
    (hp : ∀ f, F ≤ f → p f) (e : ∀ f n, p f → g f (n + 1) = r f n) : Ends2 g a := by
  obtain ⟨F', h⟩ := h
  refine ⟨max F F' + 1, fun f hf n hn => ?_⟩
  obtain ⟨n', rfl⟩ : ∃ n', n = n' + 1 := ⟨n - 1, by omega⟩
  rw [e f n' (hp f (by omega))]
  exact h f (by omega) n' (by omega)

theorem agree_weaken {φ : Focus} {L : Bindings} {b : Bool} {st : St} (h : Agree S φ L b st) : Agree S φ L true st :=
  ⟨h.node, h.last, fun hb => (by cases hb), h.stack, h.params⟩

/-- After an instruction the next one starts. -/
theorem agree_after {φ : Focus} {L : Bindings} {b m : Bool} {st st' : St} {out : List Instr} (h : Agree S φ L b st)
    (ha : After st st' out) (hm : m = false → st'.position = st.position ∧ st'.current = st.current) :
    Agree S φ L (b || m) st' := by
  refine ⟨h.node, by rw [ha.last]; exact h.last, fun hb => ?_, by rw [ha.stack]; exact h.stack,
    by rw [ha.params]; exact h.params⟩
  simp only [Bool.or_eq_false_iff] at hb
  obtain ⟨h1, h2⟩ := hm hb.2
  rw [h1, h2]
  exact h.place hb.1

theorem after_self (st : St) {sc : List (VName × XVal)} {below : List (List (VName × XVal))} (h : st.stack = sc :: below) :
    { st with stack := sc :: st.stack.tail } = st := by
  rw [h, List.tail_cons, ← h]

/-- The nodes of an ordered expression. -/
theorem ordered_nodes {e e' : Expr} {φ : Focus} {L : Bindings} {l : List XN} {ns : NodeSet} {st : St} (he : Like e e')
    (hf : Ordered S.R e) (hv : HasValue S.R S.G φ L e (.nodes l)) (h1 : ShowsNodes ns l)
    (h3 : Ends (fun f => value S.E f e' φ.node st) (.nodes ns)) : ns.nodes = l := by
  rcases hf with hf | hf
  · obtain ⟨F, hF⟩ := h3
    have := forward_same (he.forward hf) hf (hF F (Nat.le_refl F))
    rw [h1.2, this, if_pos rfl]
  · have := hf _ _ _ _ _ hv
    rw [h1.2]
    split
    · rfl
    · match l, this with
      | [], _ => rfl
      | [x], _ => rfl

/-- The nodes of an expression in the order of its sort keys. -/
theorem sortSet_ends {e e' : Expr} {φ : Focus} {L : Bindings} {b : Bool} {l l' : List XN} {ns : NodeSet} {st : St}
    {ss ss' : List SortKey} (hA : Agree S φ L b st) (he : Like e e') (hf : ss ≠ [] → Ordered S.R e)
    (hv : HasValue S.R S.G φ L e (.nodes l)) (h1 : ShowsNodes ns l) (h2 : ∀ x ∈ l, NodeIn S.E.w S.K x)
    (h3 : Ends (fun f => value S.E f e' φ.node st) (.nodes ns)) (hlike : LikeSorts ss ss') (ht : TidySorts S.R b ss)
    (hs : SortedBy S.E.w S.E.cv S.R S.G φ L ss l l') : Ends (fun f => sortSet S.E f ss' φ.node ns st) l' := by
  have hlike' := hlike
  cases hlike with
  | nil =>
    rw [sorted_none hs]
    exact ⟨0, fun f _ => by simp only; rw [sortSet, inDocumentOrder_eq S.E h1]⟩
  | cons g1 g2 g3 g4 g5 =>
    have := sort_ends hA h2 hlike' ht hs
    refine ends_congr this fun f => ?_
    rw [sortSet, ordered_nodes he (hf (by simp)) hv h1 h3]

/-- Template rules for nodes. -/
theorem applied {mode : Str} {given : Bindings} {l : List XN} {out : List Instr} {st : St}
    (ih : Claim S (.rules mode given l 1 l.length) out) (hl : ∀ y ∈ l, NodeIn S.E.w S.K y) (hc : Caller S given st) :
    ∃ st', Ends2 (fun f n => applyNodes (invoke S.E (S.M f) f n) mode l st) st' ∧ After st st' out := by
  obtain ⟨st1, h1, h2⟩ := ih { st with last := l.length } hl ⟨hc.stack, hc.params⟩ rfl
  refine ⟨{ st1 with last := st.last }, ends2_step h1 (ends2_val _) fun f n hr => ?_, rfl, h2.stack, h2.params, h2.out⟩
  rw [applyNodes, withLast, hr, Ev.bind]

theorem run_gives {t : Task} {out : List Instr} (h : Gives S.E.w S.E.cv S.R S.P S.G t out) : Claim S t out := by
  induction h with
  | text φ L s =>
    intro i' hlike
    cases hlike with | text s => ?_
    intro b st _ hA
    refine ⟨{ st with out := characters st.out s }, ?_, after_out (by rw [execs_text]), fun _ => ⟨rfl, rfl⟩⟩
    exact ⟨0, fun f _ n _ => by simp only; rw [runItem]⟩
  | valueOf φ L e v hv =>
    intro i' hlike
    cases hlike with | @valueOf _ e' he => ?_
    intro b st ht hA
    rw [TidyItem] at ht
    refine ⟨{ st with out := characters st.out (toString S.E.w S.E.cv v) }, ?_, after_out (by rw [execs_text]),
      fun _ => ⟨rfl, rfl⟩⟩
    refine ends2_step (ends2_of (evals_string hA he ht hv)) (ends2_val _) fun f n hr => ?_
    rw [runItem, hr, Ev.bind]
  | current φ L =>
    intro i' hlike
    cases hlike with | current => ?_
    intro b st ht hA
    rw [TidyItem] at ht
    refine ⟨{ st with out := characters st.out (stringValue S.E.w φ.node) }, ?_, after_out (by rw [execs_text]),
      fun _ => ⟨rfl, rfl⟩⟩
    refine ends2_step (ends2_of (stringOf_ends (E := S.E) S.hK hA.node)) (ends2_val _) fun f n hr => ?_
    rw [runItem, (hA.place ht).2, hr, Ev.bind]
  | ifTrue φ L t body v out hv hb _ ih =>
    intro i' hlike
    cases hlike with | @ifThen _ t' _ body' he hlb => ?_
    intro b st ht hA
    rw [TidyItem] at ht
    obtain ⟨c, h1, h2⟩ := evals_bool hA.chain he ht.1 hv
    obtain ⟨st', sc, h3, h4, h5, _⟩ := ih body' hlb b st.chain ht.2 hA.chain
    refine ⟨st'.pop, ?_, after_pop h4, fun hm => h5 (by rw [moves] at hm; exact hm)⟩
    refine ends2_step (ends2_of h2) (ends2_step h3 (ends2_val st'.pop) (g := fun f n =>
      (runItems S.E f (invoke S.E (S.M f) f n) body' φ.node st.chain).bind fun st => .val st.pop) fun f n hr => ?_)
      fun f n hr => ?_
    · rw [hr, Ev.bind]
    · rw [runItem, hr, Ev.bind, if_pos (h1.2 hb)]
  | ifFalse φ L t body v hv hb =>
    intro i' hlike
    cases hlike with | @ifThen _ t' _ body' he hlb => ?_
    intro b st ht hA
    rw [TidyItem] at ht
    obtain ⟨c, h1, h2⟩ := evals_bool hA.chain he ht.1 hv
    refine ⟨st.chain.pop, ?_, ⟨rfl, rfl, rfl, by rw [execs_none]; rfl⟩, fun _ => ⟨rfl, rfl⟩⟩
    refine ends2_step (ends2_of h2) (ends2_val st.chain.pop) fun f n hr => ?_
    rw [runItem, hr, Ev.bind, if_neg fun h => hb (h1.1 h)]
  | choose φ L ws out _ ih =>
    intro i' hlike
    cases hlike with | @choose _ ws' hlw => ?_
    intro b st ht hA
    rw [TidyItem] at ht
    obtain ⟨st', sc, h3, h4, h5⟩ := ih ws' hlw b st.chain ht hA.chain
    refine ⟨st'.pop, ?_, after_pop h4, fun hm => h5 (by rw [moves] at hm; exact hm)⟩
    refine ends2_step h3 (ends2_val st'.pop) fun f n hr => ?_
    rw [runItem, hr, Ev.bind]
  | forEach φ L e sorts body l l' out hv hso _ ih =>
    intro i' hlike
    cases hlike with | @forEach _ e' _ ss' _ body' he hls hlb => ?_
    intro b st ht hA
    rw [TidyItem] at ht
    obtain ⟨ns, h1, h2, h3⟩ := evals_nodes hA he ht.1 hv
    have hs := sortSet_ends hA he ht.2.2.2 hv h1 h2 h3 hls ht.2.2.1 hso
    have hA' : Agree S ⟨φ.node, φ.position, l'.length⟩ L true { st with last := l'.length } :=
      ⟨hA.node, rfl, fun hb => (by cases hb), hA.stack, hA.params⟩
    obtain ⟨st1, h4, h5⟩ := ih body' hlb { st with last := l'.length } _ ht.2.1
      (fun y hy => h2 y (sorted_nodes hso y hy)) hA' rfl
    refine ⟨{ st1 with last := st.last }, ?_, ⟨rfl, h5.stack, h5.params, h5.out⟩, fun hm => by rw [moves] at hm; cases hm⟩
    have g1 : Ends2 (fun f n => withLast l'.length (eachNode (fun y i st => (runItems S.E f (invoke S.E (S.M f) f n) body' y
        (st.chain.setPosition y i)).bind fun st => .val st.pop) l' 1) st) { st1 with last := st.last } :=
      ends2_step h4 (ends2_val _) fun f n hr => by rw [withLast, hr, Ev.bind]
    have g2 : Ends2 (fun f n => (sortSet S.E f ss' φ.node ns st).bind fun l => withLast l.length (eachNode (fun y i st =>
        (runItems S.E f (invoke S.E (S.M f) f n) body' y (st.chain.setPosition y i)).bind fun st => .val st.pop) l 1) st)
        { st1 with last := st.last } :=
      ends2_step (ends2_of hs) g1 fun f n hr => by rw [hr, Ev.bind]
    refine ends2_step (ends2_of h3) g2 fun f n hr => ?_
    rw [runItem, hr]
    rfl
  | applySelect φ L e sorts mode ps given l l' out hp hv hso _ ih =>
    intro i' hlike
    cases hlike with | @applySelect _ e' _ ss' _ _ ps' he hls hlp => ?_
    intro b st ht hA
    rw [TidyItem] at ht
    obtain ⟨st1, h1, hc, hl, ho, hpos, hcur, hst, hun⟩ := passed hA hlp ht.2.1 hp
    obtain ⟨ns, hsh⟩ := evals_nodes hA he (ht.1 e rfl).1 hv
    have hA1 : Ends (fun f => value S.E f e' φ.node st1) (.nodes ns) :=
      ends_congr hsh.2.2 (fun f => by simp only [value, hpos, hl, envOf, St.resolve, hst])
    have hs := sortSet_ends hA he (ht.1 e rfl).2 hv hsh.1 hsh.2.1 hsh.2.2 hls ht.2.2 hso
    have hs1 : Ends (fun f => sortSet S.E f ss' φ.node ns st1) l' := ends_congr hs fun f => (by
      cases ss' with
      | nil => rw [sortSet, sortSet]
      | cons s ss' => rw [sortSet, sortSet, sort_congr hl hpos hst])
    obtain ⟨st2, h4, h5⟩ := applied ih (fun y hy => hsh.2.1 y (sorted_nodes hso y hy)) hc
    obtain ⟨u1, u2, u3, u4⟩ := hun st2 h5.params
    refine ⟨unpassParams ps' st2, ?_, ⟨by rw [u2, h5.last, hl], by rw [u4, h5.stack, hst], u1,
      by rw [u3, h5.out, ho]⟩, fun hm => by rw [moves] at hm; cases hm⟩
    have h6 : Ends2 (fun f n => runApply S.E f (invoke S.E (S.M f) f n) (some e') ss' mode φ.node st1) st2 := by
      refine ends2_step (ends2_of hA1) (ends2_step (ends2_of hs1) h4 fun f n hr => ?_) (r' := fun f n =>
        (sortSet S.E f ss' φ.node ns st1).bind fun l => applyNodes (invoke S.E (S.M f) f n) mode l st1) fun f n hr => ?_
      · rw [hr, Ev.bind]
      · rw [runApply, hr]
        rfl
    refine ends2_step (ends2_of h1) (ends2_step h6 (ends2_val (unpassParams ps' st2)) (g := fun f n =>
      (runApply S.E f (invoke S.E (S.M f) f n) (some e') ss' mode φ.node st1).bind fun st => .val (unpassParams ps' st))
      fun f n hr => ?_) fun f n hr => ?_
    · rw [hr, Ev.bind]
    · rw [runItem, hr, Ev.bind]
  | applyChildren φ L sorts mode ps given l l' out hp hc' hso _ ih =>
    intro i' hlike
    cases hlike with | @applyChildren _ ss' _ _ ps' hls hlp => ?_
    intro b st ht hA
    rw [TidyItem] at ht
    obtain ⟨st1, h1, hc, hl, ho, hpos, hcur, hst, hun⟩ := passed hA hlp ht.2.1 hp
    obtain ⟨k1, k2⟩ := children_eq S.hw S.hK hA.node hc'.2 hc'.1
    have : ∃ st2, Ends2 (fun f n => runApply S.E f (invoke S.E (S.M f) f n) none ss' mode φ.node st1) st2 ∧
        After st1 st2 out := by
      obtain ⟨st2, h4, h5⟩ := applied ih (fun y hy => k2 y (sorted_nodes hso y hy)) hc
      cases ss' with
      | cons s ss' =>
        refine ⟨st2, ?_, h5⟩
        refine ends2_step (ends2_of (ends_congr (sort_ends hA k2 hls ht.2.2 hso) fun f =>
          sort_congr hl hpos hst (s :: ss') φ.node l)) h4 fun f n hr => ?_
        rw [runApply]
        simp only [k1]
        rw [hr, Ev.bind]
      | nil =>
      cases hls
      have := sorted_none hso
      subst this
      refine ⟨if l'.isEmpty then st1 else st2, ?_, ?_⟩
      · cases hle : l'.isEmpty with
        | true =>
          refine ends2_congr (ends2_val st1) fun f n => ?_
          simp only [runApply, k1, hle, if_true]
        | false =>
          refine ends2_congr h4 fun f n => ?_
          simp only [runApply, k1, hle, Bool.false_eq_true, if_false]
      · cases hle : l'.isEmpty with
        | true =>
          rw [List.isEmpty_iff] at hle
          subst hle
          obtain ⟨F, hF⟩ := h4
          have := hF F (Nat.le_refl F) F (Nat.le_refl F)
          simp only [applyNodes, withLast, eachNode, Ev.bind, Ev.val.injEq] at this
          rw [← this] at h5
          exact ⟨rfl, rfl, rfl, h5.out⟩
        | false => exact h5
    obtain ⟨st2, h4, h5⟩ := this
    obtain ⟨u1, u2, u3, u4⟩ := hun st2 h5.params
    refine ⟨unpassParams ps' st2, ?_, ⟨by rw [u2, h5.last, hl], by rw [u4, h5.stack, hst], u1,
      by rw [u3, h5.out, ho]⟩, fun hm => by rw [moves] at hm; cases hm⟩
    refine ends2_step (ends2_of h1) (ends2_step h4 (ends2_val (unpassParams ps' st2)) (g := fun f n =>
      (runApply S.E f (invoke S.E (S.M f) f n) none ss' mode φ.node st1).bind fun st => .val (unpassParams ps' st))
      fun f n hr => ?_) fun f n hr => ?_
    · rw [hr, Ev.bind]
    · rw [runItem, hr, Ev.bind]
  | call φ L name ps given t out hp hn _ ih =>
    intro i' hlike
    cases hlike with | @call _ _ ps' hlp => ?_
    intro b st ht hA
    rw [TidyItem] at ht
    obtain ⟨st1, h1, hc, hl, ho, hpos, hcur, hst, hun⟩ := passed hA hlp ht.2 hp
    have htd : TidyTemplate S.R S.free b t := by
      cases b with
      | false => exact S.hP.named name t hn
      | true => exact S.hP.free name t hn (ht.1 rfl)
    obtain ⟨t', hlt, hn'⟩ := S.hM.named name t hn
    obtain ⟨st2, h4, h5⟩ := ih t' hlt b st1 htd hA.node (by rw [hl]; exact hA.last) (by rw [hpos, hcur]; exact hA.place) hc
    obtain ⟨u1, u2, u3, u4⟩ := hun st2.pop h5.params
    refine ⟨unpassParams ps' st2.pop, ?_, ⟨by rw [u2, h5.last, hl], by rw [u4, h5.stack, hst], u1,
      by rw [u3, h5.out, ho]⟩, fun hm => by rw [moves] at hm; cases hm⟩
    have hi : Ends2 (fun f n => invoke S.E (S.M f) f n (.named name) φ.node st1) st2.pop := by
      refine ends2_invoke (ends2_step h4 (ends2_val st2.pop) (g := fun f n =>
        (runTemplate S.E f (invoke S.E (S.M f) f n) t' φ.node st1.push).bind fun st => .val st.pop) fun f n hr => ?_)
        fun f n => ?_
      · rw [hr, Ev.bind]
      · rw [invoke, hn']
    refine ends2_step (ends2_of h1) (ends2_step hi (ends2_val (unpassParams ps' st2.pop)) (g := fun f n =>
      (invoke S.E (S.M f) f n (.named name) φ.node st1).bind fun st => .val (unpassParams ps' st))
      fun f n hr => ?_) fun f n hr => ?_
    · rw [hr, Ev.bind]
    · rw [runItem, hr, Ev.bind]
  | element φ L p l u as body atts out ha _ ih =>
    intro i' hlike
    cases hlike with | @element _ _ _ _ as' _ body' hla hlb => ?_
    intro b st ht hA
    rw [TidyItem] at ht
    cases hs : (startElement st.out p l u).1 with
    | false =>
      refine ⟨{ st with out := (startElement st.out p l u).2 }, ?_, after_out ?_, fun _ => ⟨rfl, rfl⟩⟩
      · refine ends2_congr (ends2_val _) fun f n => ?_
        rw [runItem, if_neg (by rw [hs]; simp)]
      · rw [execs_one, exec, if_neg (by rw [hs]; simp)]
    | true =>
      have hA1 : Agree S φ L b { st with out := (startElement st.out p l u).2 } := hA.congr rfl rfl rfl rfl rfl
      have h1 := attributes_end as as' atts _ hla hA1 ht.1 ha
      have hA2 : Agree S φ L b { st with out := execs (startElement st.out p l u).2 (seq atts) } :=
        hA.congr rfl rfl rfl rfl rfl
      obtain ⟨st', sc, h3, h4, h5, _⟩ := ih body' hlb b _ ht.2 hA2.chain
      have h6 := after_pop h4
      refine ⟨{ st'.pop with out := endElement st'.out l u }, ?_, ⟨h6.last, h6.stack, h6.params, ?_⟩,
        fun hm => h5 (by rw [moves] at hm; exact hm)⟩
      · refine ends2_step (ends2_of h1) (ends2_step h3 (ends2_val { st'.pop with out := endElement st'.out l u })
          (g := fun f n => (runItems S.E f (invoke S.E (S.M f) f n) body' φ.node
            { st with out := execs (startElement st.out p l u).2 (seq atts) }.chain).bind fun st =>
              .val { st.pop with out := endElement st.out l u }) fun f n hr => ?_) fun f n hr => ?_
        · rw [hr, Ev.bind]
        · rw [runItem, if_pos hs, hr, Ev.bind]
      · rw [execs_one, exec, if_pos hs, execs_append]
        have := h4.out
        simp only [St.chain] at this
        rw [this]
  | «attribute» φ L p l u body out _ ih =>
    intro i' hlike
    cases hlike with | @«attribute» _ _ _ _ body' hlb => ?_
    intro b st ht hA
    rw [TidyItem] at ht
    have hA1 : Agree S φ L b { st with out := startAttribute st.out p l u } := hA.congr rfl rfl rfl rfl rfl
    obtain ⟨st', sc, h3, h4, h5, _⟩ := ih body' hlb b _ ht hA1.chain
    have h6 := after_pop h4
    refine ⟨{ st'.pop with out := endAttribute st'.out }, ?_, ⟨h6.last, h6.stack, h6.params, ?_⟩,
      fun hm => h5 (by rw [moves] at hm; exact hm)⟩
    · refine ends2_step h3 (ends2_val { st'.pop with out := endAttribute st'.out }) fun f n hr => ?_
      rw [runItem]
      have : { st.chain with out := startAttribute st.out p l u } = { st with out := startAttribute st.out p l u }.chain :=
        rfl
      simp only at this
      rw [this, hr, Ev.bind]
    · rw [execs_one, exec]
      have := h4.out
      simp only [St.chain] at this
      rw [this]
  | comment φ L body out _ ih =>
    intro i' hlike
    cases hlike with | @comment _ body' hlb => ?_
    intro b st ht hA
    rw [TidyItem] at ht
    have hA1 : Agree S φ L b { st with out := startComment st.out } := hA.congr rfl rfl rfl rfl rfl
    obtain ⟨st', sc, h3, h4, h5, h6⟩ := ih body' hlb b _ ht.1 hA1
    refine ⟨{ st' with out := endComment st'.out }, ?_, ⟨h4.last, h6 ht.2, h4.params, ?_⟩,
      fun hm => h5 (by rw [moves] at hm; exact hm)⟩
    · refine ends2_step h3 (ends2_val { st' with out := endComment st'.out }) fun f n hr => ?_
      rw [runItem, hr, Ev.bind]
    · rw [execs_one, exec, ← h4.out]
  | pi φ L t body out _ ih =>
    intro i' hlike
    cases hlike with | @pi _ _ body' hlb => ?_
    intro b st ht hA
    rw [TidyItem] at ht
    have hA1 : Agree S φ L b { st with out := startPI st.out t } := hA.congr rfl rfl rfl rfl rfl
    obtain ⟨st', sc, h3, h4, h5, h6⟩ := ih body' hlb b _ ht.1 hA1
    refine ⟨{ st' with out := endPI st'.out }, ?_, ⟨h4.last, h6 ht.2, h4.params, ?_⟩,
      fun hm => h5 (by rw [moves] at hm; exact hm)⟩
    · refine ends2_step h3 (ends2_val { st' with out := endPI st'.out }) fun f n hr => ?_
      rw [runItem, hr, Ev.bind]
    · rw [execs_one, exec, ← h4.out]
  | copyElement φ L body m out hn hk _ ih =>
    intro i' hlike
    cases hlike with | @copy _ body' hlb => ?_
    intro b st ht hA
    rw [TidyItem] at ht
    have hl := localName_eq (d := m.data) (setting_named hA.node hn [] m rfl).1
    rw [hl]
    cases hs : (startElement st.out m.data.pfx m.data.loc m.data.uri).1 with
    | false =>
      refine ⟨{ st with out := (startElement st.out m.data.pfx m.data.loc m.data.uri).2 }, ?_, after_out ?_,
        fun _ => ⟨rfl, rfl⟩⟩
      · refine ends2_congr (ends2_val _) fun f n => ?_
        rw [runItem, runCopy, hn]
        simp only [hk]
        rw [if_neg (by rw [hs]; simp)]
      · rw [execs_one, exec, if_neg (by rw [hs]; simp)]
    | true =>
      have hA1 : Agree S φ L b { st with out := (startElement st.out m.data.pfx m.data.loc m.data.uri).2 } :=
        hA.congr rfl rfl rfl rfl rfl
      obtain ⟨st', sc, h3, h4, h5, h6⟩ := ih body' hlb b _ ht.1 hA1
      refine ⟨{ st' with out := endElement st'.out m.data.loc m.data.uri }, ?_, ⟨h4.last, h6 ht.2, h4.params, ?_⟩,
        fun hm => h5 (by rw [moves] at hm; exact hm)⟩
      · refine ends2_step h3 (ends2_val { st' with out := endElement st'.out m.data.loc m.data.uri }) fun f n hr => ?_
        rw [runItem, runCopy, hn]
        simp only [hk]
        rw [if_pos hs, hr, Ev.bind]
      · rw [execs_one, exec, if_pos hs, ← h4.out]
  | copyRoot φ L body out hk _ ih =>
    intro i' hlike
    cases hlike with | @copy _ body' hlb => ?_
    intro b st ht hA
    rw [TidyItem] at ht
    obtain ⟨m, hn, hk⟩ := hk
    obtain ⟨st', sc, h3, h4, h5, h6⟩ := ih body' hlb b st ht.1 hA
    refine ⟨st', ?_, ⟨h4.last, h6 ht.2, h4.params, h4.out⟩, fun hm => h5 (by rw [moves] at hm; exact hm)⟩
    refine ends2_congr h3 fun f n => ?_
    rw [runItem, runCopy, hn]
    simp only [List.mem_cons, List.not_mem_nil, or_false] at hk
    rcases hk with hk | hk <;> simp only [hk]
  | copyOther φ L body hk =>
    intro i' hlike
    cases hlike with | @copy _ body' hlb => ?_
    intro b st ht hA
    obtain ⟨m, hn, hk⟩ := hk
    have hc : ∀ o, copyTree m o = execs o (seq (copies S.E.w [φ.node])) := by
      intro o
      have := copies_eq (S := S) (l := [φ.node]) (by simpa using hA.node) o
      simpa [List.filterMap_cons, hn, copyTrees] using this
    refine ⟨{ st with out := copyTree m st.out }, ?_, after_out (hc _), fun _ => ⟨rfl, rfl⟩⟩
    refine ends2_congr (ends2_val _) fun f n => ?_
    rw [runItem, runCopy, hn]
    obtain ⟨d, as, ks⟩ := m
    simp only [List.mem_cons, List.not_mem_nil, or_false] at hk
    have hd : (Tree.node d as ks).kind = d.kind := rfl
    rw [hd] at hk
    rcases hk with hk | hk | hk | hk | hk <;> simp only [hd, hk, copyTree, Tree.data]
  | copyNodes φ L e l hv =>
    intro i' hlike
    cases hlike with | @copyOf _ e' he => ?_
    intro b st ht hA
    rw [TidyItem] at ht
    obtain ⟨ns, h1, h2, h3⟩ := evals_nodes hA he ht.1 hv
    have hns : ns.nodes = l := ordered_nodes he ht.2 hv h1 h3
    refine ⟨{ st with out := copyTrees (ns.nodes.filterMap fun y => sub (S.E.w.tree y.1) y.2) st.out }, ?_,
      after_out (by rw [hns]; exact copies_eq h2 _), fun _ => ⟨rfl, rfl⟩⟩
    refine ends2_step (ends2_of h3) (ends2_val _) fun f n hr => ?_
    rw [runItem, runCopyOf, hr]
    rfl
  | copyValue φ L e v hv hne =>
    intro i' hlike
    cases hlike with | @copyOf _ e' he => ?_
    intro b st ht hA
    rw [TidyItem] at ht
    obtain ⟨m, h1, h2⟩ := evals hA he ht.1 hv
    refine ⟨{ st with out := characters st.out (toString S.E.w S.E.cv v) }, ?_, after_out (by rw [execs_text]),
      fun _ => ⟨rfl, rfl⟩⟩
    refine ends2_step (ends2_of h2) (ends2_step (ends2_of (string_ends (E := S.E) S.hK h1)) (ends2_val _) (g := fun f n =>
      (m.string S.E f).bind fun s => .val { st with out := characters st.out s }) fun f n hr => ?_) fun f n hr => ?_
    · rw [hr, Ev.bind]
    · rw [runItem, runCopyOf, hr]
      cases m with
      | nodes ns =>
        cases v with
        | nodes l => exact absurd rfl (hne l)
        | bool _ => exact h1.1.elim
        | num _ => exact h1.1.elim
        | str _ => exact h1.1.elim
      | bool _ => rfl
      | num _ => rfl
      | str _ => rfl
  | «variable» φ L k e rest v out hv hn _ ih =>
    intro is' hlike
    cases hlike with | @cons _ i' _ rest' hli hlr => ?_
    cases hli with | @«variable» _ _ e' he => ?_
    intro b st ht hA
    rw [TidyItems, TidyItem, moves, Bool.or_false] at ht
    obtain ⟨m, h1, F, hF⟩ := evals hA he ht.1 hv
    obtain ⟨sc, e1, hA1⟩ := declare_ends hA h1 hn
    obtain ⟨st', sc', h3, h4, h5, h6⟩ := ih rest' hlr b _ ht.2 hA1
    refine ⟨st', sc', ?_, ⟨h4.last, h4.stack, h4.params, h4.out⟩, fun hm => ?_, fun hu => ?_⟩
    · have h7 : Ends2 (fun f n => runItem S.E f (invoke S.E (S.M f) f n) (.variable k e') φ.node st)
          { st with stack := sc :: st.stack.tail } := by
        refine ⟨F, fun f hf n _ => ?_⟩
        have := hF f hf
        simp only at this ⊢
        rw [runItem, this, e1]
      refine ends2_step h7 h3 fun f n hr => ?_
      rw [runItems, hr, Ev.bind]
    · rw [movesIn, moves, Bool.false_or] at hm
      exact h5 hm
    · rw [Undeclaring] at hu
      exact absurd trivial hu.1
  | nil φ L =>
    intro i' hlike
    cases hlike with | nil => ?_
    intro b st _ hA
    obtain ⟨sc, below, g1, g2, g3⟩ := hA.stack
    refine ⟨st, sc, ⟨0, fun f _ n _ => by simp only; rw [runItems]⟩, ?_, fun _ => ⟨rfl, rfl⟩, fun _ => rfl⟩
    rw [after_self st g1]
    exact ⟨rfl, rfl, rfl, by rw [execs_none]⟩
  | cons φ L i rest a b' hnv _ _ ih1 ih2 =>
    intro i' hlike
    cases hlike with | @cons _ i' _ rest' hli hlr => ?_
    intro b st ht hA
    rw [TidyItems] at ht
    obtain ⟨st1, h1, h2, h3⟩ := ih1 i' hli b st ht.1 hA
    obtain ⟨st', sc, h4, h5, h6, h7⟩ := ih2 rest' hlr (b || moves i) st1 ht.2 (agree_after hA h2 h3)
    refine ⟨st', sc, ?_, ?_, fun hm => ?_, fun hu => ?_⟩
    · refine ends2_step h1 h4 fun f n hr => ?_
      rw [runItems, hr, Ev.bind]
    · refine ⟨by rw [h5.last]; exact h2.last, ?_, by rw [h5.params]; exact h2.params, ?_⟩
      · rw [h5.stack]; simp only [h2.stack]
      · rw [h5.out]; simp only [h2.out]; rw [execs_append]
    · rw [movesIn, Bool.or_eq_false_iff] at hm
      rw [(h6 hm.2).1, (h6 hm.2).2]
      exact h3 hm.1
    · rw [Undeclaring] at hu
      rw [h7 hu.2, h2.stack]
  | otherwise φ L body out _ ih =>
    intro i' hlike
    cases hlike with | @otherwise _ body' hlb => ?_
    intro b st ht hA
    rw [TidyWhens] at ht
    obtain ⟨st', sc, h3, h4, h5, _⟩ := ih body' hlb b st ht hA
    refine ⟨st', sc, ends2_congr h3 fun f n => by rw [runWhens], h4, fun hm => h5 (by rw [movesWhen] at hm; exact hm)⟩
  | whenTrue φ L t body rest v out hv hb _ ih =>
    intro i' hlike
    cases hlike with | @when _ t' _ body' _ rest' he hlb hlr => ?_
    intro b st ht hA
    rw [TidyWhens] at ht
    obtain ⟨c, h1, h2⟩ := evals_bool hA he ht.1 hv
    obtain ⟨st', sc, h3, h4, h5, _⟩ := ih body' hlb b st ht.2.1 hA
    refine ⟨st', sc, ?_, h4, fun hm => h5 (by rw [movesWhen, Bool.or_eq_false_iff] at hm; exact hm.1)⟩
    refine ends2_step (ends2_of h2) h3 fun f n hr => ?_
    rw [runWhens, hr, Ev.bind, if_pos (h1.2 hb)]
  | whenFalse φ L t body rest v out hv hb _ ih =>
    intro i' hlike
    cases hlike with | @when _ t' _ body' _ rest' he hlb hlr => ?_
    intro b st ht hA
    rw [TidyWhens] at ht
    obtain ⟨c, h1, h2⟩ := evals_bool hA he ht.1 hv
    obtain ⟨st', sc, h3, h4, h5⟩ := ih rest' hlr b st ht.2.2 hA
    refine ⟨st', sc, ?_, h4, fun hm => h5 (by rw [movesWhen, Bool.or_eq_false_iff] at hm; exact hm.2)⟩
    refine ends2_step (ends2_of h2) h3 fun f n hr => ?_
    rw [runWhens, hr, Ev.bind, if_neg fun h => hb (h1.1 h)]
  | eachNil L body i k =>
    intro body' hlike st φ _ _ _ _
    exact ⟨st, ⟨0, fun f _ n _ => by simp only; rw [eachNode]⟩, rfl, rfl, rfl, by rw [execs_none]⟩
  | eachCons L body y ys i k a b' _ _ ih1 ih2 =>
    intro body' hlike st φ ht hl hA hk
    have hA1 : Agree S ⟨y, i, k⟩ L false (st.chain.setPosition y i) := by
      have := hA.chain
      exact ⟨hl y (by simp), by rw [← hk]; exact this.last, fun _ => ⟨rfl, rfl⟩, this.stack, this.params⟩
    obtain ⟨st1, sc, h1, h2, _, _⟩ := ih1 body' hlike false _ ht hA1
    have h3 : After st st1.pop a := after_pop ⟨h2.last, h2.stack, h2.params, h2.out⟩
    have hA2 : Agree S φ L true st1.pop := by
      refine ⟨hA.node, by rw [h3.last]; exact hA.last, fun hb => (by cases hb), by rw [h3.stack]; exact hA.stack,
        by rw [h3.params]; exact hA.params⟩
    obtain ⟨st', h4, h5⟩ := ih2 body' hlike st1.pop φ ht (fun z hz => hl z (by simp [hz])) hA2 hk
    refine ⟨st', ?_, h3.trans h5⟩
    refine ends2_step h1 h4 fun f n hr => ?_
    rw [eachNode, hr, Ev.bind, Ev.bind]
  | rulesNil mode given i k =>
    intro st _ _ _
    exact ⟨st, ⟨0, fun f _ n _ => by simp only; rw [eachNode]⟩, rfl, rfl, rfl, by rw [execs_none]⟩
  | rulesCons mode given y ys i k a b' _ _ ih1 ih2 =>
    intro st hl hc hk
    obtain ⟨st1, h1, h2⟩ := ih1 (st.setPosition y i) (hl y (by simp)) hk rfl rfl ⟨hc.stack, hc.params⟩
    have h3 : After st st1 a := ⟨h2.last, h2.stack, h2.params, h2.out⟩
    obtain ⟨st', h4, h5⟩ := ih2 st1 (fun z hz => hl z (by simp [hz]))
      ⟨by rw [h3.stack]; exact hc.stack, by rw [h3.params]; exact hc.params⟩ (by rw [h3.last]; exact hk)
    refine ⟨st', ?_, h3.trans h5⟩
    refine ends2_step h1 h4 fun f n hr => ?_
    rw [eachNode, hr, Ev.bind]
  | template t given φ L out hb _ ih =>
    intro t' hlike b st ht hx hl hpl hc
    obtain ⟨g, tl, hp, hg⟩ := hc.params
    have hA : Agree S φ [] b st.push := by
      refine ⟨hx, hl, hpl, ⟨[], st.stack, rfl, fun n => ⟨fun v hv => (by cases hv), fun _ => rfl⟩, hc.stack⟩, ⟨st.params, rfl⟩⟩
    obtain ⟨sc, h1, h2⟩ := bound_ends hg t.params t'.params [] L st.push tl hlike.params hA (by simp [St.push, hp]) ht.1 hb
    obtain ⟨st', sc', h3, h4, _, _⟩ := ih t'.body hlike.body b _ ht.2 h2
    refine ⟨st', ?_, ?_⟩
    · refine ends2_step (ends2_of h1) h3 fun f n hr => ?_
      rw [runTemplate, hr, Ev.bind]
    · refine ⟨h4.last, ?_, ?_, h4.out⟩
      · have := h4.stack
        simp only [St.push, List.tail_cons] at this
        simp only [St.pop, this, List.tail_cons]
      · have := h4.params
        simp only [St.push] at this
        simp only [St.pop, this, List.tail_cons]
  | rule mode given φ t out hr _ ih =>
    intro st hx hl hpos hcur hc
    obtain ⟨t', hlt, F, hF⟩ := S.hM.rule mode _ t hx hr
    obtain ⟨st', h1, h2⟩ := ih t' hlt false st (S.hP.rules mode _ t hr) hx hl (fun _ => ⟨hpos, hcur⟩) hc
    refine ⟨st'.pop, ?_, h2⟩
    refine ends2_found (ends2_step h1 (ends2_val st'.pop) (g := fun f n =>
      (runTemplate S.E f (invoke S.E (S.M f) f n) t' φ.node st.push).bind fun st => .val st.pop) fun f n hr => ?_)
      hF fun f n hf => ?_
    · rw [hr, Ev.bind]
    · rw [invoke, hf]
  | builtInParent mode given φ l out hr hk hch _ ih =>
    intro st hx hl hpos hcur hc
    obtain ⟨F, hF⟩ := S.hM.builtIn mode _ hx hr
    obtain ⟨m, hn, hk⟩ := hk
    obtain ⟨k1, k2⟩ := children_eq S.hw S.hK hx hch.2 hch.1
    have hc1 : Caller S [] st.push :=
      ⟨globals_cons hc.stack, [], st.params, rfl, fun n => ⟨fun v hv => (by cases hv), fun _ => rfl⟩⟩
    obtain ⟨st1, h1, h2⟩ := applied ih k2 hc1
    refine ⟨st1.pop, ?_, ⟨h2.last, ?_, ?_, h2.out⟩⟩
    · refine ends2_found (ends2_step h1 (ends2_val st1.pop) (g := fun f n =>
        (applyNodes (invoke S.E (S.M f) f n) mode l st.push).bind fun st => .val st.pop) fun f n hr' => by rw [hr', Ev.bind])
        hF fun f n hf => ?_
      rw [invoke, hf]
      simp only [defaultAction, hn]
      simp only [List.mem_cons, List.not_mem_nil, or_false] at hk
      rcases hk with hk | hk | hk <;> simp only [hk, k1]
    · simp only [St.pop, h2.stack, St.push, List.tail_cons]
    · simp only [St.pop, h2.params, St.push, List.tail_cons]
  | builtInText mode given φ hr hk =>
    intro st hx hl hpos hcur hc
    obtain ⟨F, hF⟩ := S.hM.builtIn mode _ hx hr
    obtain ⟨m, hn, hk⟩ := hk
    refine ⟨{ st with out := characters st.out (stringValue S.E.w φ.node) }, ?_, after_out (by rw [execs_text])⟩
    refine ends2_found (ends2_val _) hF fun f n hf => ?_
    rw [invoke, hf, ← value_string S.hK hx hn hk]
    simp only [defaultAction, hn]
    simp only [List.mem_cons, List.not_mem_nil, or_false] at hk
    rcases hk with hk | hk | hk <;> simp only [hk] <;> rfl
  | builtInNothing mode given φ hr hk =>
    intro st hx hl hpos hcur hc
    obtain ⟨F, hF⟩ := S.hM.builtIn mode _ hx hr
    obtain ⟨m, hn, hk⟩ := hk
    refine ⟨st, ?_, ⟨rfl, rfl, rfl, by rw [execs_none]⟩⟩
    refine ends2_found (ends2_val _) hF fun f n hf => ?_
    rw [invoke, hf]
    simp only [defaultAction, hn]
    simp only [List.mem_cons, List.not_mem_nil, or_false] at hk
    rcases hk with hk | hk <;> simp only [hk] <;> rfl

/-- A whole transformation. -/
theorem started_ends {x : XN} {out : List Instr} {vars : List (VName × XVal)} (given : List (VName × Argument))
    (hG : SameVariables S.E.w S.K (fun u n => vars.lookup (u, n)) (fun u n => S.G (u, n))) (hx : NodeIn S.E.w S.K x)
    (h : Gives S.E.w S.E.cv S.R S.P S.G (.rules [] [] [x] 1 1) out) :
    Ends (fun f => (applyNodes (invoke S.E (S.M f) f f) [] [x] (initial (S.M f) given vars x)).bind fun st => .val st.out)
      (execs { cdata := S.P.cdata } (seq out)) := by
  have hi : ∀ f, initial (S.M f) given vars x = initial S.P given vars x := fun f => by
    rw [initial, initial, S.hM.cdata]
  obtain ⟨st', ⟨F, h1⟩, h2⟩ := applied (S := S) (st := initial S.P given vars x) (mode := []) (l := [x]) (run_gives h)
    (by simpa using hx) ⟨⟨by simp [initial], hG⟩, [], _, rfl, fun n => ⟨fun v hv => (by cases hv), fun _ => rfl⟩⟩
  refine ⟨F, fun f hf => ?_⟩
  have := h1 f hf f hf
  simp only at this ⊢
  rw [hi, this]
  simp only [Ev.bind]
  rw [h2.out]
  rfl

end

end Verif.XsltRun
