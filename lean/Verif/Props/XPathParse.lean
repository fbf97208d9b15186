import Verif.Lemmas.XPathParse
set_option autoImplicit false
/-!
# C70: strings and the XPath expressions they are compiled to
-/
namespace Verif.Props.XPathParse
open Verif.XPathParse

/-- C70, with the conditions of `Ex.Ok` and without white space where tokens are marked tight: every expression,
written with any white space between its tokens, is compiled to what it stands for. -/
theorem C70_partial (ns : Str → Option Str) (e : Ex) (hok : e.Ok ns) (s r : Str) (h : Reads (tokens false e) s r)
    (hr : r.all isWhite = true) : ∃ x, compileExpr ns s = .ok x ∧ flat x = flat (meaning ns e) :=
  compile_reads hok h hr

/-- C70: so no string has two meanings. -/
theorem C70_unambiguous_partial (ns : Str → Option Str) (e e' : Ex) (hok : e.Ok ns) (hok' : e'.Ok ns) (s r r' : Str)
    (h : Reads (tokens false e) s r) (h' : Reads (tokens false e') s r') (hr : r.all isWhite = true)
    (hr' : r'.all isWhite = true) : flat (meaning ns e) = flat (meaning ns e') := by
  obtain ⟨x, e1, e2⟩ := compile_reads hok h hr
  obtain ⟨x', e1', e2'⟩ := compile_reads hok' h' hr'
  rw [e1] at e1'
  cases e1'
  rw [← e2, ← e2']

/-! ## reading by a function -/

def nameNext : Str → Bool
  | [] => false
  | c :: _ => nameChar c

def readTok (t : Tok) (s : Str) : Option Str :=
  let m := if t.tight then s else s.dropWhile isWhite
  if t.text.isPrefixOf m then
    let r := m.drop t.text.length
    if t.isName && nameNext r then none else some r
  else none

def readToks : List Tok → Str → Option Str
  | [], s => some s
  | t :: ts, s =>
    match readTok t s with
    | none => none
    | some m => readToks ts m

theorem readToks_reads : ∀ (ts : List Tok) (s r : Str), readToks ts s = some r → Reads ts s r := by
  intro ts
  induction ts with
  | nil =>
    intro s r h
    cases h
    exact .nil _
  | cons t ts ih =>
    intro s r h
    simp only [readToks] at h
    cases hm : readTok t s with
    | none => rw [hm] at h; cases h
    | some m =>
      rw [hm] at h
      have hrest := ih m r h
      unfold readTok at hm
      simp only at hm
      by_cases hp : t.text.isPrefixOf (if t.tight then s else s.dropWhile isWhite) = true
      · rw [if_pos hp] at hm
        obtain ⟨k, hk⟩ := List.isPrefixOf_iff_prefix.1 hp
        rw [← hk, List.drop_left] at hm
        by_cases hne : (t.isName && nameNext k) = true
        · rw [if_pos hne] at hm
          cases hm
        · rw [if_neg hne] at hm
          cases hm
          have hends : t.isName = true → ∀ c u, m = c :: u → nameChar c = false := by
            intro hn c u e
            subst e
            simp only [hn, Bool.true_and, Bool.not_eq_true, nameNext] at hne
            exact hne
          by_cases ht : t.tight = true
          · rw [if_pos ht] at hk
            subst hk
            exact .cons t ts [] m r rfl (fun _ => rfl) hends hrest
          · rw [if_neg ht] at hk
            have : s = s.takeWhile isWhite ++ (t.text ++ m) := by rw [hk, List.takeWhile_append_dropWhile]
            rw [this]
            refine .cons t ts _ m r ?_ (fun h => absurd h ht) hends hrest
            rw [List.all_takeWhile]
      · rw [if_neg hp] at hm
        cases hm

/-! ## an expression -/

def noNs : Str → Option Str := fun p => if p = "p".toList then some "u".toList else none

def nm (s : String) : QName := ⟨none, s.toList⟩
def chld (s : String) (ps : Exs := .nil) : St := .step .child (.name (nm s)) ps

/-- The expression that `sampleText` is. -/
def sample : Ex :=
  .bin .minus
    (.bin .union
      (.abs false (.cons (chld "a" (.cons (.bin .eq (.rel (.one (.step .atSign (.name (nm "b")) .nil))) (.lit '\'' "c".toList)) .nil))
        true (.one (.step .child (.name ⟨some "p".toList, "d".toList⟩) .nil))))
      (.path (.call (nm "id") (.cons (.lit '"' "k".toList) .nil)) false (.one (.step (.named .followingSibling) .any .nil))))
    (.neg (.call (nm "text-of") (.cons (.bin .plus (.num "1".toList) (.bin .times (.num "2.5".toList) (.var (nm "v"))))
      (.cons (.bin .or (.rel (.cons .parent false (.one (.step .child (.type .text) .nil))))
        (.bin .div (.rel (.one (chld "x"))) (.paren (.rel (.one (chld "y")))))) .nil))))

def sampleText : Str :=
  "/a[@b='c']//p:d | id(\"k\") / following-sibling :: * - -text-of(1 + 2.5*$v,../text( ) or x div(y)) ".toList

def nameB : Str → Bool
  | [] => false
  | c :: s => nameStart c && s.all nameChar

theorem nameB_ok {s : Str} (h : nameB s = true) : NcName s := by
  cases s with
  | nil => cases h
  | cons c s => simpa [nameB, NcName] using h

theorem nm_ok {ns : Str → Option Str} {s : String} (h : nameB s.toList = true) : (nm s).Ok ns :=
  ⟨nameB_ok h, by intro p e; cases e⟩

theorem not_type {s : String} (h : ∀ t : NodeType, s.toList ≠ (typeText t).toList) : ¬ isType (nm s) :=
  fun h2 => let ⟨t, ht⟩ := h2.2; h t ht

theorem sample_ok : sample.Ok noNs := by
  have two : Num "2.5".toList := ⟨"2".toList, "5".toList, by decide, by decide, .inr (.inl ⟨rfl, by decide⟩)⟩
  have one : Num "1".toList := ⟨"1".toList, [], by decide, by decide, .inl ⟨rfl, by decide⟩⟩
  have hid : ¬ isType (nm "id") := not_type (by intro t; cases t <;> decide)
  have hto : ¬ isType (nm "text-of") := not_type (by intro t; cases t <;> decide)
  simp only [sample, chld, Ex.Ok, Exs.Ok, Exs.Apart, St.Ok, Rel.Ok, NodeTest.Ok, level, opLevel, endsInSlash, Op.nameLike,
    bareRoot, barePi, Exs.startsWithLit, bareLit, and_true, true_and]
  refine ⟨⟨⟨⟨nm_ok (by decide), ⟨nm_ok (by decide), ⟨.inr rfl, by decide⟩, by decide⟩⟩, ?_⟩, ?_⟩, ?_⟩
  · exact ⟨nameB_ok (by decide), by rintro p e; cases e; exact ⟨nameB_ok (by decide), by decide⟩⟩
  · exact ⟨⟨⟨nm_ok (by decide), hid, ⟨.inl rfl, by decide⟩, by decide⟩, by decide⟩, by decide⟩
  · exact ⟨⟨⟨nm_ok (by decide), hto, ⟨⟨one, ⟨two, nm_ok (by decide), by decide⟩, by decide⟩,
      ⟨nm_ok (by decide), nm_ok (by decide), by decide⟩, by decide⟩, by decide⟩, by decide⟩, by decide⟩

theorem sample_reads : Reads (tokens false sample) sampleText [' '] := readToks_reads _ _ _ (by decide +kernel)

/-- `C70_partial` of the sample. -/
example : ∃ x, compileExpr noNs sampleText = .ok x ∧ flat x = flat (meaning noNs sample) :=
  C70_partial noNs sample sample_ok sampleText [' '] sample_reads (by decide)

/-! ## where the code is wrong -/

/-- The tokens of an expression, with white space allowed before each of them, as XPath has it. -/
def looseTokens (e : Ex) : List Tok := (tokens false e).map fun t => { t with tight := false }

def rejected (s : String) : Prop := compileExpr noNs s.toList = .error .syntax

/-! comparing expressions by a function -/

mutual

def eqE : Expr → Expr → Bool
  | .number a, .number b => decide (a = b)
  | .string a, .string b => decide (a = b)
  | .var a b, .var c d => decide (a = c) && decide (b = d)
  | .call a b as, .call c d bs => decide (a = c) && decide (b = d) && eqEs as bs
  | .binary o a b, .binary o' a' b' => decide (o = o') && eqE a a' && eqE b b'
  | .negative a, .negative b => eqE a b
  | .path a ss, .path b ss' => decide (a = b) && eqSs ss ss'
  | _, _ => false

def eqEs : List Expr → List Expr → Bool
  | [], [] => true
  | a :: as, b :: bs => eqE a b && eqEs as bs
  | _, _ => false

def eqS : Step → Step → Bool
  | .test a t ps, .test b t' ps' => decide (a = b) && decide (t = t') && eqEs ps ps'
  | .expr e ps, .expr e' ps' => eqE e e' && eqEs ps ps'
  | _, _ => false

def eqSs : List Step → List Step → Bool
  | [], [] => true
  | a :: as, b :: bs => eqS a b && eqSs as bs
  | _, _ => false

end

mutual

theorem eqE_eq (a b : Expr) (h : eqE a b = true) : a = b := by
  cases a <;> cases b <;> simp only [eqE, Bool.and_eq_true, decide_eq_true_eq, Bool.false_eq_true] at h
  · rw [h]
  · rw [h]
  · rw [h.1, h.2]
  · rw [h.1.1, h.1.2, eqEs_eq _ _ h.2]
  · rw [h.1.1, eqE_eq _ _ h.1.2, eqE_eq _ _ h.2]
  · rw [eqE_eq _ _ h]
  · rw [h.1, eqSs_eq _ _ h.2]

theorem eqEs_eq (a b : List Expr) (h : eqEs a b = true) : a = b := by
  cases a <;> cases b <;> simp only [eqEs, Bool.and_eq_true, Bool.false_eq_true] at h
  · rfl
  · rw [eqE_eq _ _ h.1, eqEs_eq _ _ h.2]

theorem eqS_eq (a b : Step) (h : eqS a b = true) : a = b := by
  cases a <;> cases b <;> simp only [eqS, Bool.and_eq_true, decide_eq_true_eq, Bool.false_eq_true] at h
  · rw [h.1.1, h.1.2, eqEs_eq _ _ h.2]
  · rw [eqE_eq _ _ h.1, eqEs_eq _ _ h.2]

theorem eqSs_eq (a b : List Step) (h : eqSs a b = true) : a = b := by
  cases a <;> cases b <;> simp only [eqSs, Bool.and_eq_true, Bool.false_eq_true] at h
  · rfl
  · rw [eqS_eq _ _ h.1, eqSs_eq _ _ h.2]

end

def gives (r : Res Expr) (x : Expr) : Bool :=
  match r with
  | .ok y => eqE y x
  | _ => false

theorem gives_eq {r : Res Expr} {x : Expr} (h : gives r x = true) : r = .ok x := by
  cases r with
  | error e => cases h
  | ok y => rw [eqE_eq y x h]

theorem rejected_of {s : String} (h : (parseExpr s.toList).isNone = true) : rejected s := by
  unfold rejected compileExpr
  generalize parseExpr s.toList = y at h
  cases y with
  | none => rfl
  | some t => cases h

def one : Ex := .num "1".toList

theorem one_ok : one.Ok noNs := by
  simp only [one, Ex.Ok]
  exact ⟨"1".toList, [], by decide, by decide, .inl ⟨rfl, by decide⟩⟩

/-- C70 is false of `- -1`, which is refused. -/
theorem C70_violated_minus : ∃ e : Ex, e.Ok noNs ∧ Reads (looseTokens e) "- -1".toList [] ∧ rejected "- -1" :=
  ⟨.neg (.neg one), by simp only [Ex.Ok, level, and_true]; exact ⟨⟨one_ok, by decide⟩, by decide⟩,
    readToks_reads _ _ _ (by decide +kernel), rejected_of (by decide +kernel)⟩

/-- C70 is false of `.. / a` and `a/ ..`, which are refused. -/
theorem C70_violated_dots :
    (∃ e : Ex, e.Ok noNs ∧ Reads (looseTokens e) ".. / a".toList [] ∧ rejected ".. / a") ∧
    (∃ e : Ex, e.Ok noNs ∧ Reads (looseTokens e) "a/ ..".toList [] ∧ rejected "a/ ..") := by
  refine ⟨⟨.rel (.cons .parent false (.one (chld "a"))), ?_, readToks_reads _ _ _ (by decide +kernel),
      rejected_of (by decide +kernel)⟩,
    ⟨.rel (.cons (chld "a") false (.one .parent)), ?_, readToks_reads _ _ _ (by decide +kernel),
      rejected_of (by decide +kernel)⟩⟩
  · simp only [chld, Ex.Ok, Rel.Ok, St.Ok, Exs.Ok, NodeTest.Ok]
    exact ⟨trivial, nm_ok (by decide), trivial⟩
  · simp only [chld, Ex.Ok, Rel.Ok, St.Ok, Exs.Ok, NodeTest.Ok]
    exact ⟨⟨nm_ok (by decide), trivial⟩, trivial⟩

/-- C70 is false of `processing-instruction( 'x')`, which is compiled to a test without target. -/
theorem C70_violated_target : ∃ e : Ex, e.Ok noNs ∧ Reads (looseTokens e) "processing-instruction( 'x')".toList [] ∧
    meaning noNs e = .path false [.test .child (.pi (some "x".toList)) []] ∧
    compileExpr noNs "processing-instruction( 'x')".toList = .ok (.path false [.test .child (.pi none) []]) := by
  refine ⟨.rel (.one (.step .child (.target '\'' "x".toList) .nil)), ?_, readToks_reads _ _ _ (by decide +kernel), rfl,
    gives_eq (by decide +kernel)⟩
  simp only [Ex.Ok, Rel.Ok, St.Ok, Exs.Ok, NodeTest.Ok]
  exact ⟨⟨.inr rfl, by decide⟩, trivial⟩

/-- C70 is false of `f(processing-instruction(), 'x')`, whose first argument is compiled to a test for the target
given by the second. -/
theorem C70_violated_argument : ∃ e : Ex, Reads (tokens false e) "f(processing-instruction(),'x')".toList [] ∧
    meaning noNs e = .call [] "f".toList [.path false [.test .child (.pi none) []], .string "x".toList] ∧
    compileExpr noNs "f(processing-instruction(),'x')".toList =
      .ok (.call [] "f".toList [.path false [.test .child (.pi (some "x".toList)) []], .string "x".toList]) :=
  ⟨.call (nm "f") (.cons (.rel (.one (.step .child (.type .pi) .nil))) (.cons (.lit '\'' "x".toList) .nil)),
    readToks_reads _ _ _ (by decide +kernel), rfl, gives_eq (by decide +kernel)⟩

/-- C70 is false of `(/)/a`, which is compiled to a relative path. -/
theorem C70_violated_root : ∃ e : Ex, Reads (tokens false e) "(/)/a".toList [] ∧
    meaning noNs e = .path false [.expr (.path true [.test .self .root []]) [], .test .child (.name false "a".toList) []] ∧
    compileExpr noNs "(/)/a".toList = .ok (.path false [.test .child (.name false "a".toList) []]) :=
  ⟨.path (.paren .root) false (.one (chld "a")), readToks_reads _ _ _ (by decide +kernel), rfl, gives_eq (by decide +kernel)⟩

/-- What is read of an `or` stands before something that is not part of a name. -/
theorem reads_or {a b : List Tok} {s r : Str} (h : Reads (a ++ opText .or :: b) s r) :
    ∃ k, ("or".toList.isPrefixOf (s.drop k) && !nameNext (s.drop (k + 2))) = true := by
  obtain ⟨m, h1, h2⟩ := reads_append.1 h
  have suffix : ∀ {ts : List Tok} {s r : Str}, Reads ts s r → ∃ u, s = u ++ r := by
    intro ts s r h
    induction h with
    | nil r => exact ⟨[], rfl⟩
    | cons t ts w s r _ _ _ _ ih =>
      obtain ⟨u, hu⟩ := ih
      exact ⟨w ++ (t.text ++ u), by rw [hu]; simp⟩
  obtain ⟨u, rfl⟩ := suffix h1
  obtain ⟨w, m2, e1, _, _, e4, _⟩ := reads_cons h2
  refine ⟨(u ++ w).length, ?_⟩
  have e5 : u ++ m = (u ++ w) ++ ("or".toList ++ m2) := by rw [e1]; simp [opText]
  rw [e5, List.drop_left, ← List.drop_drop, List.drop_left]
  have : nameNext m2 = false := by
    cases m2 with
    | nil => rfl
    | cons c v => exact e4 rfl c v rfl
  have h6 : ("or".toList ++ m2).drop 2 = m2 := rfl
  rw [h6, this]
  simp [List.isPrefixOf_iff_prefix]

/-- C70 the other way: `a orb` is compiled, but it is no expression. -/
theorem C70_violated_name : (∃ x, compileExpr noNs "a orb".toList = .ok x) ∧
    ¬ ∃ (e : Ex) (r : Str), e.Ok noNs ∧ Reads (tokens false e) "a orb".toList r ∧ r.all isWhite = true := by
  have hc : compileExpr noNs "a orb".toList = .ok (.binary .or (.path false [.test .child (.name false "a".toList) []])
      (.path false [.test .child (.name false "b".toList) []])) := gives_eq (by decide +kernel)
  refine ⟨⟨_, hc⟩, ?_⟩
  rintro ⟨e, r, hok, h, hr⟩
  obtain ⟨x, e1, e2⟩ := C70_partial noNs e hok _ r h hr
  rw [hc] at e1
  cases e1
  simp only [flat] at e2
  cases e with
  | bin op a b =>
    simp only [meaning, flat] at e2
    have ho : op = .or := by injection e2 with h; exact h.symm
    subst ho
    simp only [tokens] at h
    obtain ⟨k, hk⟩ := reads_or h
    have : k < 6 ∨ 5 ≤ k := by omega
    rcases this with hlt | hge
    · have : ∀ k < 6, ("or".toList.isPrefixOf ("a orb".toList.drop k) && !nameNext ("a orb".toList.drop (k + 2))) = false := by
        decide
      rw [this k hlt] at hk
      cases hk
    · rw [List.drop_eq_nil_of_le (by simpa using hge)] at hk
      cases hk
  | paren e =>
    simp only [tokens, List.cons_append] at h
    obtain ⟨m, q1, _⟩ := reads_char (c := '(') rfl (by decide) h
    have q2 : skip "a orb".toList = "a orb".toList := by decide +kernel
    rw [q2] at q1
    cases q1
  | _ => simp only [meaning, flat] at e2; cases e2

end Verif.Props.XPathParse
