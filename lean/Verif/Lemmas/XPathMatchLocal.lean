import Verif.Lemmas.XPathMatchEval
set_option autoImplicit false
set_option linter.unusedSimpArgs false
set_option linter.unusedVariables false
namespace Verif.XPathMatch
open Verif.XPathParse (Expr Str Exs flat flats meaning meanings testMeaning Op Test)
open Verif.XTree (World XN Pred PathStep Ref Holds sub)
open Verif.Spec.XPathAxes Verif.Spec.XPathPath Verif.Spec.XPathMatch

variable {w : World} {ev : Expr → Pred} {fnNum : Str → Str → Bool}

/-! ## values -/

theorem values_eq (ps : List MPred) : values w ev ps = ps.map (MPred.value w ev) := by
  induction ps with
  | nil => rw [values]; rfl
  | cons p ps ih => rw [values, ih]; rfl

theorem values_append (ps qs : List MPred) : values w ev (ps ++ qs) = values w ev ps ++ values w ev qs := by
  simp [values_eq]

theorem values_expr (xs : List Expr) : values w ev (xs.map .expr) = xs.map ev := by
  rw [values_eq, List.map_map]
  apply List.map_congr_left
  intro e _
  simp [MPred.value]

/-! ## rewriting keeps what the predicates select -/

section
variable {k : Nat} {up : Ref} {l : List Ref} {test : Verif.XTree.NodeTest}

/-- The children of `up` that pass the test. -/
def passing (w : World) (k : Nat) (l : List Ref) (test : Verif.XTree.NodeTest) : List XN :=
  (l.filter (test.at (w.tree k))).map fun r => (k, r)

theorem passing_nodup (hl : l.Nodup) : (passing w k l test).Nodup := by
  rw [passing]
  have h1 : (l.filter (test.at (w.tree k))).Nodup := hl.filter _
  rw [List.nodup_iff_pairwise_ne] at *
  rw [List.pairwise_map]
  refine h1.imp ?_
  intro a b h e
  exact h (Prod.mk.inj e).2

theorem mem_passing {y : XN} : y ∈ passing w k l test ↔ y.1 = k ∧ y.2 ∈ l ∧ test.at (w.tree k) y.2 = true := by
  obtain ⟨j, r⟩ := y
  simp only [passing, List.mem_map, List.mem_filter, Prod.mk.injEq]
  constructor
  · rintro ⟨r', ⟨h1, h2⟩, rfl, rfl⟩; exact ⟨rfl, h1, h2⟩
  · rintro ⟨rfl, h1, h2⟩; exact ⟨r, ⟨h1, h2⟩, rfl, rfl⟩

theorem among_steady (ps : List MPred) : Steady (MPred.value w ev (.among test ps)) := by
  intro x i n j m
  simp [MPred.value]

theorem filtered_among (hl : IsAxis (w.tree k) up .child l)
    (hf : ∃ f, Verif.XTree.enumerate (w.tree k) up .child f = .done l) {ps : List MPred} {m : List XN}
    (hm : FilteredBy (values w ev ps) (passing w k l test) m) :
    Filtered (MPred.value w ev (.among test ps)) (passing w k l test) m := by
  have h1 := Verif.XTree.filtered_loop (MPred.value w ev (.among test ps)) (passing w k l test)
  have h2 : m = Verif.XTree.predicateLoop (MPred.value w ev (.among test ps)) (passing w k l test).length 1
      (passing w k l test) := by
    refine Verif.XTree.sublist_eq_of_mem (passing_nodup (Verif.XTree.axisList_nodup hl))
      (Verif.XTree.filteredBy_sublist hm) (Verif.XTree.filtered_sublist h1) fun y => ?_
    rw [Verif.XTree.filtered_steady (among_steady ps) h1]
    have key : ∀ z ∈ passing w k l test, (Holds (MPred.value w ev (.among test ps)) z ↔ z ∈ m) := by
      intro z hz
      obtain ⟨e, h3, h4⟩ := mem_passing.1 hz
      obtain ⟨i, hi⟩ := ((hl.1 z.2).1 h3).2
      subst e
      have := Verif.XTree.isAmong_iff (w := w) (test := test) (ps := values w ev ps) hi hl hf hm
      rw [← this]
      simp [Holds, MPred.value, Keeps]
    constructor
    · intro hy
      have h3 := Verif.XTree.filteredBy_mem hm hy
      exact ⟨h3, (key y h3).2 hy⟩
    · rintro ⟨h3, h4⟩
      exact (key y h3).1 h4
  rw [h2]
  exact h1

theorem mem_takeWhile {p : MPred → Bool} {ps : List MPred} {x : MPred} (h : x ∈ ps.takeWhile p) : p x = true := by
  induction ps with
  | nil => cases h
  | cons a as ih =>
    rw [List.takeWhile_cons] at h
    by_cases ha : p a = true
    · rw [if_pos ha] at h
      rcases List.mem_cons.1 h with rfl | h
      · exact ha
      · exact ih h
    · rw [if_neg ha] at h
      cases h

theorem dropWhile_nil {p : MPred → Bool} {ps : List MPred} (h : ∀ x ∈ ps, p x = true) : ps.dropWhile p = [] := by
  induction ps with
  | nil => rfl
  | cons a as ih =>
    rw [List.dropWhile_cons, if_pos (h a (List.mem_cons_self ..))]
    exact ih fun x hx => h x (List.mem_cons_of_mem _ hx)

theorem takeDrop (p : MPred → Bool) (ps : List MPred) : ps = ps.takeWhile p ++ ps.dropWhile p :=
  (List.takeWhile_append_dropWhile (p := p) (l := ps)).symm

theorem rewrite_filtered (hl : IsAxis (w.tree k) up .child l)
    (hf : ∃ f, Verif.XTree.enumerate (w.tree k) up .child f = .done l) (n : Nat) {ps : List MPred} {m : List XN}
    (hm : FilteredBy (values w ev ps) (passing w k l test) m) :
    FilteredBy (values w ev (rewriteLoop fnNum test n ps)) (passing w k l test) m := by
  induction n generalizing ps with
  | zero => rw [rewriteLoop]; exact hm
  | succ n ih =>
    rw [rewriteLoop]
    cases hd : ps.dropWhile fun p => !shouldRewrite fnNum p with
    | nil => exact hm
    | cons q post =>
      simp only
      apply ih
      have he := takeDrop (fun p => !shouldRewrite fnNum p) ps
      rw [hd] at he
      have e2 : ps = (ps.takeWhile (fun p => !shouldRewrite fnNum p) ++ [q]) ++ post := by
        rw [List.append_assoc]
        exact he
      rw [e2, values_append, Verif.XTree.filteredBy_append] at hm
      obtain ⟨a, h1, h2⟩ := hm
      rw [values]
      exact ⟨a, filtered_among hl hf h1, h2⟩

end

/-- After enough rounds nothing is left to rewrite. -/
theorem rewrite_done {test : Verif.XTree.NodeTest} (n : Nat) (ps : List MPred)
    (hn : ps.countP (shouldRewrite fnNum) ≤ n) : ∀ p ∈ rewriteLoop fnNum test n ps, shouldRewrite fnNum p = false := by
  induction n generalizing ps with
  | zero =>
    rw [rewriteLoop]
    intro p hp
    have h0 : ps.countP (shouldRewrite fnNum) = 0 := by omega
    rw [List.countP_eq_zero] at h0
    simpa using h0 p hp
  | succ n ih =>
    rw [rewriteLoop]
    have he := takeDrop (fun p => !shouldRewrite fnNum p) ps
    have ht : ∀ p ∈ ps.takeWhile (fun p => !shouldRewrite fnNum p), shouldRewrite fnNum p = false := by
      intro p hp
      have := mem_takeWhile hp
      simpa using this
    cases hd : ps.dropWhile fun p => !shouldRewrite fnNum p with
    | nil =>
      rw [hd, List.append_nil] at he
      intro p hp
      simp only at hp
      rw [he] at hp
      exact ht p hp
    | cons q post =>
      simp only
      apply ih
      have hq : shouldRewrite fnNum q = true := by
        have := List.head?_dropWhile_not (fun p => !shouldRewrite fnNum p) ps
        rw [hd] at this
        simpa using this
      rw [hd] at he
      rw [he, List.countP_append, List.countP_cons, if_pos hq] at hn
      rw [List.countP_cons]
      simp only [shouldRewrite, Bool.false_eq_true, if_false]
      omega

theorem rewrite_mem {test : Verif.XTree.NodeTest} (n : Nat) (ps : List MPred) :
    ∀ p ∈ rewriteLoop fnNum test n ps, p ∈ ps ∨ ∃ t qs, p = .among t qs := by
  induction n generalizing ps with
  | zero => rw [rewriteLoop]; exact fun p hp => .inl hp
  | succ n ih =>
    rw [rewriteLoop]
    cases hd : ps.dropWhile fun p => !shouldRewrite fnNum p with
    | nil => exact fun p hp => .inl hp
    | cons q post =>
      simp only
      intro p hp
      have hsub : ∀ x ∈ q :: post, x ∈ ps := by
        intro x hx
        rw [← hd] at hx
        exact (List.dropWhile_sublist _).subset hx
      rcases ih _ p hp with h | h
      · rcases List.mem_cons.1 h with h | h
        · exact .inr ⟨_, _, h⟩
        · exact .inl (hsub p (List.mem_cons_of_mem _ h))
      · exact .inr h

theorem rewrite_none {test : Verif.XTree.NodeTest} (n : Nat) {ps : List MPred}
    (h : ∀ p ∈ ps, shouldRewrite fnNum p = false) : rewriteLoop fnNum test n ps = ps := by
  cases n with
  | zero => rw [rewriteLoop]
  | succ n =>
    rw [rewriteLoop]
    have : ps.dropWhile (fun p => !shouldRewrite fnNum p) = [] := by
      apply dropWhile_nil
      intro p hp
      simp [h p hp]
    rw [this]

/-! ## which predicates are rewritten -/

theorem typeNumber_iff (e : Expr) : typeNumber fnNum e = true ↔ Numeric fnNum e := by
  cases e with
  | binary op a b => cases op <;> simp [typeNumber, Numeric]
  | _ => simp [typeNumber, Numeric]

theorem scanPosition_iff : ∀ e : Expr, scanPosition e = true ↔ Positional e
  | .number _ => by simp [scanPosition, Positional]
  | .string _ => by simp [scanPosition, Positional]
  | .var _ _ => by simp [scanPosition, Positional]
  | .path _ _ => by simp [scanPosition, Positional]
  | .call u n _ => by simp [scanPosition, Positional, List.isEmpty_iff]
  | .negative e => by
    rw [scanPosition, Positional]
    exact scanPosition_iff e
  | .binary _ a b => by
    rw [scanPosition, Positional, Bool.or_eq_true, scanPosition_iff a, scanPosition_iff b]

theorem shouldRewrite_iff (e : Expr) : shouldRewrite fnNum (.expr e) = true ↔ Counted fnNum e := by
  rw [shouldRewrite, Bool.or_eq_true, typeNumber_iff, scanPosition_iff, Counted]

theorem numeric_flat (e : Expr) : Numeric fnNum (flat e) ↔ Numeric fnNum e := by
  cases e <;> simp [flat, Numeric]

theorem positional_flat : ∀ e : Expr, Positional (flat e) ↔ Positional e
  | .number _ => by simp [flat, Positional]
  | .string _ => by simp [flat, Positional]
  | .var _ _ => by simp [flat, Positional]
  | .path _ _ => by simp [flat, Positional]
  | .call u n _ => by simp [flat, Positional]
  | .negative e => by
    rw [flat, Positional, Positional]
    exact positional_flat e
  | .binary _ a b => by
    rw [flat, Positional, Positional, positional_flat a, positional_flat b]

theorem counted_flat {e e' : Expr} (h : flat e = flat e') : Counted fnNum e ↔ Counted fnNum e' := by
  rw [Counted, Counted, ← numeric_flat e, ← numeric_flat e', ← positional_flat e, ← positional_flat e', h]

theorem flats_map {xs es : List Expr} (h : flats xs = flats es) (hev : ∀ e e', flat e = flat e' → ev e = ev e') :
    xs.map ev = es.map ev := by
  induction xs generalizing es with
  | nil =>
    cases es with
    | nil => rfl
    | cons e es => rw [flats, flats] at h; cases h
  | cons x xs ih =>
    cases es with
    | nil => rw [flats, flats] at h; cases h
    | cons e es =>
      rw [flats, flats] at h
      injection h with h1 h2
      rw [List.map_cons, List.map_cons, hev _ _ h1, ih h2]

theorem flats_all {xs es : List Expr} (h : flats xs = flats es) {Q : Expr → Prop}
    (hQ : ∀ e e', flat e = flat e' → Q e → Q e') (he : ∀ e ∈ es, Q e) : ∀ x ∈ xs, Q x := by
  induction xs generalizing es with
  | nil => intro x hx; cases hx
  | cons x xs ih =>
    cases es with
    | nil => rw [flats, flats] at h; cases h
    | cons e es =>
      rw [flats, flats] at h
      injection h with h1 h2
      intro y hy
      rcases List.mem_cons.1 hy with rfl | hy
      · exact hQ _ _ h1.symm (he e (List.mem_cons_self ..))
      · exact ih h2 (fun z hz => he z (List.mem_cons_of_mem _ hz)) y hy

end Verif.XPathMatch
