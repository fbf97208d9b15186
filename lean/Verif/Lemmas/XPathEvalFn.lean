import Verif.Lemmas.XPathEvalValue
set_option autoImplicit false
set_option linter.unusedSimpArgs false
set_option linter.unusedVariables false
namespace Verif.XPathEval
open Verif.XTree Verif.XPath
open Verif.Spec.XPathAxes Verif.Spec.XPathNodeSet Verif.Spec.XPathPath Verif.Spec.XPath Verif.Spec.XPathEval

/-! ## Sums -/

theorem add_assoc' (a b c : Num) : (a.add b).add c = a.add (b.add c) := by
  cases a <;> cases b <;> cases c <;> simp [Num.add, Rat.add_assoc]

theorem add_comm' (a b : Num) : a.add b = b.add a := by
  cases a <;> cases b <;> simp [Num.add, Rat.add_comm]

theorem zero_add' (a : Num) : (Num.fin 0).add a = a := by
  cases a <;> simp [Num.add, Rat.zero_add]

theorem foldl_sum {α : Type} (g : α → Num) (l : List α) (s : Num) :
    l.foldl (fun a y => a.add (g y)) s = s.add ((l.map g).foldr Num.add (.fin 0)) := by
  induction l generalizing s with
  | nil => simp [add_comm' s, zero_add']
  | cons x l ih => rw [List.foldl_cons, ih, List.map_cons, List.foldr_cons, add_assoc']

theorem foldr_append (g : XN → Num) (l m : List XN) :
    ((l ++ m).map g).foldr Num.add (.fin 0) =
      ((l.map g).foldr Num.add (.fin 0)).add ((m.map g).foldr Num.add (.fin 0)) := by
  induction l with
  | nil => simp [zero_add']
  | cons x l ih => simp only [List.cons_append, List.map_cons, List.foldr_cons, ih, add_assoc']

theorem foldr_reverse (g : XN → Num) (l : List XN) :
    (l.reverse.map g).foldr Num.add (.fin 0) = (l.map g).foldr Num.add (.fin 0) := by
  induction l with
  | nil => rfl
  | cons x l ih =>
    rw [List.reverse_cons, foldr_append, ih, add_comm']
    simp [add_comm' _ (Num.fin 0), zero_add']

section
variable {E : Env} {K : Nat → Prop}

theorem sumLoop_ends (hK : Documents E.w K) {l : List XN} (hl : ∀ x ∈ l, NodeIn E.w K x) (s : Num) :
    Ends (fun f => sumLoop E f s l) (l.foldl (fun a y => a.add (E.cv.number (stringValue E.w y))) s) := by
  induction l generalizing s with
  | nil => exact ends_val _
  | cons x xs ih =>
    refine ends_congr ?_ (fun f => by rw [sumLoop])
    exact ends_bind (stringOf_ends hK (hl x (by simp))) (ih (fun y hy => hl y (by simp [hy])) _)

/-! ## Arguments -/

/-- Values one by one. -/
def Reps (w : World) (K : Nat → Prop) : List XVal → List Val → Prop
  | [], [] => True
  | m :: ms, v :: vs => Rep w K m v ∧ Reps w K ms vs
  | _, _ => False

theorem reps_nil {ms : List XVal} (h : Reps E.w K ms []) : ms = [] := by
  cases ms with
  | nil => rfl
  | cons => exact absurd h (by simp [Reps])

theorem reps_cons {ms : List XVal} {v : Val} {vs : List Val} (h : Reps E.w K ms (v :: vs)) :
    ∃ m ms', ms = m :: ms' ∧ Rep E.w K m v ∧ Reps E.w K ms' vs := by
  cases ms with
  | nil => exact absurd h (by simp [Reps])
  | cons m ms => exact ⟨m, ms, rfl, h.1, h.2⟩

theorem reps_one {ms : List XVal} {v : Val} (h : Reps E.w K ms [v]) : ∃ m, ms = [m] ∧ Rep E.w K m v := by
  obtain ⟨m, ms', rfl, h1, h2⟩ := reps_cons h
  exact ⟨m, by rw [reps_nil h2], h1⟩

theorem reps_two {ms : List XVal} {v v' : Val} (h : Reps E.w K ms [v, v']) :
    ∃ m m', ms = [m, m'] ∧ Rep E.w K m v ∧ Rep E.w K m' v' := by
  obtain ⟨m, ms', rfl, h1, h2⟩ := reps_cons h
  obtain ⟨m', rfl, h3⟩ := reps_one h2
  exact ⟨m, m', rfl, h1, h3⟩

theorem reps_three {ms : List XVal} {v v' v'' : Val} (h : Reps E.w K ms [v, v', v'']) :
    ∃ m m' m'', ms = [m, m', m''] ∧ Rep E.w K m v ∧ Rep E.w K m' v' ∧ Rep E.w K m'' v'' := by
  obtain ⟨m, ms', rfl, h1, h2⟩ := reps_cons h
  obtain ⟨m', m'', rfl, h3, h4⟩ := reps_two h2
  exact ⟨m, m', m'', rfl, h1, h3, h4⟩

theorem rep_nodes {m : XVal} {l : List XN} (h : Rep E.w K m (.nodes l)) :
    ∃ ns, m = .nodes ns ∧ ShowsNodes ns l ∧ InOrder E.w l ∧ ∀ x ∈ l, NodeIn E.w K x := by
  rcases rep_cases h with ⟨b, _, e⟩ | ⟨n, _, e⟩ | ⟨s, _, e⟩ | ⟨ns, l', rfl, e, hs, h1, h2⟩
  · cases e
  · cases e
  · cases e
  · cases e
    exact ⟨ns, rfl, hs, h1, h2⟩

theorem argStrings_ends (hK : Documents E.w K) {ms : List XVal} {vs : List Val} (h : Reps E.w K ms vs) :
    Ends (fun f => argStrings E f (ms.map Ev.val)) (vs.map (toString E.w E.cv)) := by
  induction vs generalizing ms with
  | nil => rw [reps_nil h]; exact ends_val _
  | cons v vs ih =>
    obtain ⟨m, ms', rfl, h1, h2⟩ := reps_cons h
    refine ends_congr ?_ (fun f => by rw [List.map_cons, argStrings])
    exact ends_bind (r := fun f => argString E f (.val m)) (string_ends hK h1) (ends_bind (ih h2) (ends_val _))

theorem ends_num {r : Nat → Ev Num} {n : Num} (h : Ends r n) : Ends (fun f => Ev.num (r f)) (.num n) :=
  ends_bind h (ends_val _)
theorem ends_bool {r : Nat → Ev Bool} {n : Bool} (h : Ends r n) : Ends (fun f => Ev.bool (r f)) (.bool n) :=
  ends_bind h (ends_val _)
theorem ends_str {r : Nat → Ev (List Char)} {n : List Char} (h : Ends r n) : Ends (fun f => Ev.str (r f)) (.str n) :=
  ends_bind h (ends_val _)

theorem concat_flatten (l : List (List Char)) : concatFn l = l.flatten := by
  induction l with
  | nil => rfl
  | cons a as ih => rw [concatFn, ih]; rfl

/-! ## Names -/

theorem localName_eq (y : XN) : localNameOf (dataOf E y) = localPart E.w y := by
  simp only [localPart, named, dataOf]
  cases sub (E.w.tree y.1) y.2 with
  | none => rfl
  | some n =>
    have e : n.kind = n.data.kind := rfl
    simp only [Option.map_some, localNameOf, e]
    by_cases h1 : n.data.kind = .attribute <;> by_cases h2 : n.data.kind = .element <;> by_cases h3 : n.data.kind = .pi <;>
      simp [h1, h2, h3, List.isEmpty_iff] <;> simp_all [List.isEmpty_iff]

theorem namespaceUri_eq (y : XN) : namespaceUriOf (dataOf E y) = namespaceName E.w y := by
  simp only [namespaceName, named, dataOf]
  cases sub (E.w.tree y.1) y.2 with
  | none => rfl
  | some n =>
    have e : n.kind = n.data.kind := rfl
    simp only [Option.map_some, namespaceUriOf, e]
    by_cases h1 : n.data.kind = .attribute <;> by_cases h2 : n.data.kind = .element <;> by_cases h3 : n.data.kind = .pi <;>
      simp [h1, h2, h3] <;> simp_all

theorem name_eq (y : XN) : nameOf (dataOf E y) = qualifiedName E.w y := by
  simp only [qualifiedName, named, dataOf]
  cases sub (E.w.tree y.1) y.2 with
  | none => rfl
  | some n =>
    have e : n.kind = n.data.kind := rfl
    simp only [Option.map_some, nameOf, e]
    by_cases h1 : n.data.kind = .attribute <;> by_cases h2 : n.data.kind = .element <;> by_cases h3 : n.data.kind = .pi <;>
      simp [h1, h2, h3] <;> simp_all

theorem ofNode_ends {x : XN} {g : Option Data → List Char} {g' : XN → List Char} (hg : ∀ y, g (dataOf E y) = g' y)
    (h0 : g none = []) {vs : List Val} {ms : List XVal} (hs : vs = [] ∨ ∃ l, vs = [.nodes l]) (hr : Reps E.w K ms vs) :
    ∃ v m, OfNode x g' vs v ∧ Rep E.w K m v ∧
      Ends (fun _ => Ev.str ((namedNode E x (ms.map Ev.val)).bind fun d => .val (g d))) m := by
  rcases hs with rfl | ⟨l, rfl⟩
  · rw [reps_nil hr]
    exact ⟨.str (g' x), .str (g' x), rfl, rep_str _, ⟨0, fun _ _ => by simp [namedNode, optArg, Ev.str, hg]⟩⟩
  · obtain ⟨m, rfl, h1⟩ := reps_one hr
    obtain ⟨ns, rfl, h2, _, _⟩ := rep_nodes h1
    cases l with
    | nil =>
      refine ⟨.str [], .str [], rfl, rep_str _, ⟨0, fun _ _ => ?_⟩⟩
      have := shows_empty h2
      simp only [List.map_cons, List.map_nil, namedNode, optArg, argNodes, bind_val, XVal.nodeSet, this, Ev.str]
      rw [if_pos (by rfl)]
      simp [h0]
    | cons y l =>
      refine ⟨.str (g' y), .str (g' y), rfl, rep_str _, ⟨0, fun _ _ => ?_⟩⟩
      have := shows_empty h2
      simp only [List.map_cons, List.map_nil, namedNode, optArg, argNodes, bind_val, XVal.nodeSet, this, Ev.str]
      rw [if_neg (by simp), shows_top h2]
      simp [Ev.ofOption, hg]

/-! ## Strings -/

theorem ofString_ends (hK : Documents E.w K) {x : XN} (hx : NodeIn E.w K x) {vs : List Val} {ms : List XVal}
    (hs : vs = [] ∨ ∃ a, vs = [a]) (hr : Reps E.w K ms vs) :
    ∃ s, Ends (fun f => optArg (stringOf E f x) (argString E f) (ms.map Ev.val)) s ∧
      ∀ g : List Char → Val, OfString E.w E.cv x g vs (g s) := by
  rcases hs with rfl | ⟨a, rfl⟩
  · rw [reps_nil hr]
    exact ⟨_, stringOf_ends hK hx, fun g => rfl⟩
  · obtain ⟨m, rfl, h1⟩ := reps_one hr
    exact ⟨_, string_ends hK h1, fun g => rfl⟩

theorem ofStrings_ends (hK : Documents E.w K) {vs : List Val} {ms : List XVal}
    (hs : ∃ a b, vs = [a, b]) (hr : Reps E.w K ms vs) :
    ∃ s t, (∀ {α : Type} (g : List Char → List Char → Ev α) (r : α), g s t = .val r →
        Ends (fun f => twoStrings E f g (ms.map Ev.val)) r) ∧
      ∀ (p : List Char → List Char → Val → Prop) v, p s t v → OfStrings E.w E.cv p vs v := by
  obtain ⟨a, b, rfl⟩ := hs
  obtain ⟨m, m', rfl, h1, h2⟩ := reps_two hr
  refine ⟨_, _, fun g r hg => ?_, fun p v hv => hv⟩
  refine ends_congr (r := fun f => (argString E f (.val m)).bind fun s => (argString E f (.val m')).bind fun t => g s t)
    ?_ (fun f => rfl)
  refine ends_bind (string_ends hK h1) (ends_bind (string_ends hK h2) ⟨0, fun _ _ => hg⟩)

theorem ofNumber_ends (hK : Documents E.w K) {vs : List Val} {ms : List XVal} {g : Num → Num} {p : Num → Num → Prop}
    (hp : ∀ n, p n (g n)) (hs : ∃ a, vs = [a]) (hr : Reps E.w K ms vs) :
    ∃ v m, OfNumber E.w E.cv p vs v ∧ Rep E.w K m v ∧
      Ends (fun f => Ev.num (oneArg (fun a => (argNumber E f a).bind fun n => .val (g n)) (ms.map Ev.val))) m := by
  obtain ⟨a, rfl⟩ := hs
  obtain ⟨m, rfl, h1⟩ := reps_one hr
  refine ⟨_, _, ⟨_, rfl, hp _⟩, rep_num _, ends_num ?_⟩
  exact ends_bind (r := fun f => argNumber E f (.val m)) (number_ends hK h1) (ends_val _)

theorem substring_empty (sel : Nat → Bool) (n : Nat) : pick sel n [] = [] := rfl

theorem ofBool_iff {p : Prop} {b : Bool} (h : b = true ↔ p) : IsBool (.bool b) p := ⟨b, rfl, h⟩

theorem before_exists (s t : List Char) : ∃ r, substringBeforeFn s t = .val r ∧ IsBefore s t r := by
  have := Verif.Props.XPathValue.C40_before s t
  cases h : substringBeforeFn s t with
  | val r => exact ⟨r, rfl, (this r).1 h⟩
  | outOfRange =>
    exfalso
    by_cases hc : Contains s t
    · obtain ⟨i, hi⟩ : ∃ i, find s t = some i := by
        have := (contains_iff s t).2 hc
        exact Option.isSome_iff_exists.1 this
      rw [substringBeforeFn, hi] at h
      simp only [substr] at h
      split at h
      · omega
      · split at h <;> cases h
    · have := (this []).2 (.inr ⟨hc, rfl⟩)
      rw [h] at this; cases this
  | ub =>
    exfalso
    rw [substringBeforeFn] at h
    split at h
    · cases h
    · simp only [substr] at h
      split at h
      · cases h
      · split at h <;> cases h

theorem after_exists (s t : List Char) : ∃ r, substringAfterFn s t = .val r ∧ IsAfter s t r := by
  have := Verif.Props.XPathValue.C40_after s t
  cases h : substringAfterFn s t with
  | val r => exact ⟨r, rfl, (this r).1 h⟩
  | outOfRange =>
    exfalso
    rw [substringAfterFn] at h
    split at h
    · cases h
    · split at h
      · cases h
      · simp only [substr] at h
        split at h
        · omega
        · split at h <;> cases h
  | ub =>
    exfalso
    rw [substringAfterFn] at h
    split at h
    · cases h
    · split at h
      · cases h
      · simp only [substr] at h
        split at h
        · cases h
        · split at h <;> cases h

theorem substringCall_ends (hK : Documents E.w K) {vs : List Val} {ms : List XVal}
    (hs : FnSafe E.w E.cv .substring vs) (hr : Reps E.w K ms vs) :
    ∃ s, OfSubstring E.w E.cv vs (.str s) ∧ Ends (fun f => substringCall E f (ms.map Ev.val)) s := by
  rcases hs with ⟨a, b, rfl, h1, h2, h3, h4⟩ | ⟨a, b, c, rfl, h1, h2, h3, h4⟩
  · obtain ⟨m, m', rfl, r1, r2⟩ := reps_two hr
    obtain ⟨rs, rl, g1, g2, g3⟩ := Verif.Props.XPathValue.C40_substring_partial _ _ _ h1 h2 h3 h4
    have e : rl = none := by rcases g2 with ⟨_, h⟩ | ⟨_, _, h, _⟩; · exact h
                             · cases h
    subst e
    refine ⟨_, ⟨rs, g1, rfl⟩, ?_⟩
    refine ends_congr (r := fun f => (argString E f (.val m)).bind fun s =>
      if s.isEmpty then .val []
      else (argNumber E f (.val m')).bind fun n => Ev.ofRes (substringFn s n none)) ?_ (fun f => rfl)
    refine ends_bind (string_ends hK r1) ?_
    by_cases h0 : toString E.w E.cv a = []
    · refine ⟨0, fun f _ => ?_⟩
      simp only [h0]
      rfl
    · refine ends_congr ?_ (fun f => by rw [if_neg (by simpa using h0)])
      exact ends_bind (r := fun f => argNumber E f (.val m')) (number_ends hK r2) ⟨0, fun _ _ => by simp only [g3, Ev.ofRes]⟩
  · obtain ⟨m, m', m'', rfl, r1, r2, r3⟩ := reps_three hr
    obtain ⟨rs, rl, g1, g2, g3⟩ := Verif.Props.XPathValue.C40_substring_partial _ _ _ h1 h2 h3 h4
    rcases g2 with ⟨h, _⟩ | ⟨l, r, h, rfl, g2⟩
    · cases h
    cases h
    refine ⟨_, ⟨rs, r, g1, g2, rfl⟩, ?_⟩
    refine ends_congr (r := fun f => (argString E f (.val m)).bind fun s =>
      if s.isEmpty then .val []
      else (argNumber E f (.val m')).bind fun n => (argNumber E f (.val m'')).bind fun l => Ev.ofRes (substringFn s n (some l)))
      ?_ (fun f => rfl)
    refine ends_bind (string_ends hK r1) ?_
    by_cases h0 : toString E.w E.cv a = []
    · refine ⟨0, fun f _ => ?_⟩
      simp only [h0]
      rfl
    · refine ends_congr ?_ (fun f => by rw [if_neg (by simpa using h0)])
      refine ends_bind (r := fun f => argNumber E f (.val m')) (number_ends hK r2) ?_
      exact ends_bind (r := fun f => argNumber E f (.val m'')) (number_ends hK r3) ⟨0, fun _ _ => by simp only [g3, Ev.ofRes]⟩

/-! ## All functions -/

theorem callFn_ends (hK : Documents E.w K) {x : XN} (hx : NodeIn E.w K x) (i k : Int) {fn : Fn} {vs : List Val}
    {ms : List XVal} (hs : FnSafe E.w E.cv fn vs) (hr : Reps E.w K ms vs) :
    ∃ v m, FnMeans E.w E.cv x i k fn vs v ∧ Rep E.w K m v ∧ Ends (fun f => callFn E f x i k fn (ms.map Ev.val)) m := by
  cases fn with
  | last =>
    cases (show vs = [] from hs)
    rw [reps_nil hr]
    exact ⟨_, _, ⟨rfl, rfl⟩, rep_num _, ends_val _⟩
  | position =>
    cases (show vs = [] from hs)
    rw [reps_nil hr]
    exact ⟨_, _, ⟨rfl, rfl⟩, rep_num _, ends_val _⟩
  | true =>
    cases (show vs = [] from hs)
    rw [reps_nil hr]
    exact ⟨_, _, ⟨rfl, rfl⟩, rep_bool _, ends_val _⟩
  | false =>
    cases (show vs = [] from hs)
    rw [reps_nil hr]
    exact ⟨_, _, ⟨rfl, rfl⟩, rep_bool _, ends_val _⟩
  | count =>
    obtain ⟨l, rfl⟩ := (show ∃ l, vs = [.nodes l] from hs)
    obtain ⟨m, rfl, h1⟩ := reps_one hr
    obtain ⟨ns, rfl, h2, _, _⟩ := rep_nodes h1
    refine ⟨_, _, ⟨l, rfl, rfl⟩, rep_num _, ⟨0, fun f _ => ?_⟩⟩
    rw [← shows_length h2]
    rfl
  | sum =>
    obtain ⟨l, rfl⟩ := (show ∃ l, vs = [.nodes l] from hs)
    obtain ⟨m, rfl, h1⟩ := reps_one hr
    obtain ⟨ns, rfl, h2, _, h4⟩ := rep_nodes h1
    refine ⟨_, _, ⟨l, rfl, rfl⟩, rep_num _, ends_num ?_⟩
    have e : (l.map fun y => E.cv.number (stringValue E.w y)).foldr Num.add (.fin 0) =
        ns.nodes.foldl (fun a y => a.add (E.cv.number (stringValue E.w y))) (.fin 0) := by
      rw [foldl_sum (fun y => E.cv.number (stringValue E.w y)), zero_add', h2.2]
      split
      · rfl
      · rw [foldr_reverse]
    rw [e]
    exact sumLoop_ends hK (fun y hy => h4 y ((shows_mem h2 y).1 hy)) _
  | localName => exact ofNode_ends localName_eq rfl hs hr
  | namespaceUri => exact ofNode_ends namespaceUri_eq rfl hs hr
  | name => exact ofNode_ends name_eq rfl hs hr
  | string =>
    obtain ⟨s, h1, h2⟩ := ofString_ends hK hx hs hr
    exact ⟨_, _, h2 .str, rep_str _, ends_str h1⟩
  | stringLength =>
    obtain ⟨s, h1, h2⟩ := ofString_ends hK hx hs hr
    exact ⟨_, _, h2 (fun s => .num (.fin s.length)), rep_num _, ends_num (ends_bind h1 (ends_val _))⟩
  | normalizeSpace =>
    obtain ⟨s, h1, h2⟩ := ofString_ends hK hx hs hr
    refine ⟨_, _, h2 (fun s => .str (Spec.Text.joinSpace (Spec.Text.words s))), rep_str _, ends_str (ends_bind h1 ?_)⟩
    refine ⟨0, fun _ _ => ?_⟩
    rw [← (Verif.Props.XPathValue.C40_simple [] s).2.2]
  | number =>
    rcases (show vs = [] ∨ ∃ a, vs = [a] from hs) with rfl | ⟨a, rfl⟩
    · rw [reps_nil hr]
      exact ⟨_, _, .inl ⟨rfl, rfl⟩, rep_num _, ends_num (ends_bind (stringOf_ends hK hx) (ends_val _))⟩
    · obtain ⟨m, rfl, h1⟩ := reps_one hr
      exact ⟨_, _, .inr ⟨a, rfl, rfl⟩, rep_num _, ends_num (number_ends hK h1)⟩
  | concat =>
    obtain ⟨a, b, rest, rfl⟩ := (show ∃ a b rest, vs = a :: b :: rest from hs)
    have hh := argStrings_ends hK hr
    obtain ⟨m, ms', rfl, h1, h2⟩ := reps_cons hr
    obtain ⟨m', ms'', rfl, h3, h4⟩ := reps_cons h2
    refine ⟨.str ((a :: b :: rest).map (toString E.w E.cv)).flatten, _, rfl, rep_str _, ends_str ?_⟩
    rw [← concat_flatten]
    exact ends_bind hh (ends_val _)
  | startsWith =>
    obtain ⟨s, t, h1, h2⟩ := ofStrings_ends hK hs hr
    exact ⟨.bool (startsWithFn s t), _, h2 (fun s t v => IsBool v (∃ r, s = t ++ r)) _ (ofBool_iff (startsWith_iff s t)), rep_bool _, ends_bool (h1 _ _ rfl)⟩
  | contains =>
    obtain ⟨s, t, h1, h2⟩ := ofStrings_ends hK hs hr
    exact ⟨.bool (containsFn s t), _, h2 (fun s t v => IsBool v (Contains s t)) _ (ofBool_iff (contains_iff s t)), rep_bool _, ends_bool (h1 _ _ rfl)⟩
  | substringBefore =>
    obtain ⟨s, t, h1, h2⟩ := ofStrings_ends hK hs hr
    obtain ⟨r, h3, h4⟩ := before_exists s t
    exact ⟨.str r, _, h2 (fun s t v => ∃ r, v = .str r ∧ IsBefore s t r) _ ⟨r, rfl, h4⟩, rep_str _, ends_str (h1 _ r (by rw [h3]; rfl))⟩
  | substringAfter =>
    obtain ⟨s, t, h1, h2⟩ := ofStrings_ends hK hs hr
    obtain ⟨r, h3, h4⟩ := after_exists s t
    exact ⟨.str r, _, h2 (fun s t v => ∃ r, v = .str r ∧ IsAfter s t r) _ ⟨r, rfl, h4⟩, rep_str _, ends_str (h1 _ r (by rw [h3]; rfl))⟩
  | substring =>
    obtain ⟨s, h1, h2⟩ := substringCall_ends hK hs hr
    exact ⟨_, _, h1, rep_str _, ends_str h2⟩
  | translate =>
    obtain ⟨a, b, c, rfl, p, q, e, h1, h2⟩ := (show ∃ a b c, vs = [a, b, c] ∧ SafeTranslate _ _ _ from hs)
    obtain ⟨m, m', m'', rfl, r1, r2, r3⟩ := reps_three hr
    refine ⟨_, _, ⟨a, b, c, rfl, rfl⟩, rep_str _, ends_str ?_⟩
    refine ends_congr (r := fun f => (argString E f (.val m)).bind fun s => (argString E f (.val m')).bind fun t =>
      (argString E f (.val m'')).bind fun u => .val (translateFn s t u)) ?_ (fun f => rfl)
    refine ends_bind (string_ends hK r1) (ends_bind (string_ends hK r2) (ends_bind (string_ends hK r3) ?_))
    rw [e, Verif.Props.XPathValue.C40_translate_partial p q _ _ h1 h2]
    exact ends_val _
  | boolean =>
    obtain ⟨a, rfl⟩ := (show ∃ a, vs = [a] from hs)
    obtain ⟨m, rfl, h1⟩ := reps_one hr
    exact ⟨.bool m.isTrue, _, ⟨a, rfl, ofBool_iff (isTrue_iff h1)⟩, rep_bool _, ends_val _⟩
  | not =>
    obtain ⟨a, rfl⟩ := (show ∃ a, vs = [a] from hs)
    obtain ⟨m, rfl, h1⟩ := reps_one hr
    refine ⟨.bool (!m.isTrue), _, ⟨a, rfl, ofBool_iff ?_⟩, rep_bool _, ends_val _⟩
    rw [← isTrue_iff h1]
    simp
  | floor => exact ofNumber_ends hK (fun n => (Verif.Props.XPathValue.C43_rounding n).2.1) hs hr
  | ceiling => exact ofNumber_ends hK (fun n => (Verif.Props.XPathValue.C43_rounding n).2.2) hs hr
  | round => exact ofNumber_ends hK (fun n => (Verif.Props.XPathValue.C43_rounding n).1) hs hr

/-! ## Operators -/

theorem mul_ok (a b : Num) : IsProduct a b (mulNum a b) := by
  cases a <;> cases b <;> simp only [IsProduct, mulNum]
  all_goals simp only [Num.lt, Num.fin.injEq, reduceCtorEq, decide_eq_true_eq, false_or, or_false, if_false]
  all_goals
    first
    | rfl
    | (rename_i q
       by_cases h0 : q = 0
       · simp [h0]
       · by_cases h1 : q < 0 <;> simp [h0, h1])
    | simp

theorem div_ok (a b : Num) : IsQuotient a b (divNum a b) := by
  cases a <;> cases b <;> simp only [IsQuotient, divNum]
  case fin.fin a b =>
    by_cases h0 : b = 0
    · rw [if_pos h0, if_pos h0]
      by_cases h1 : a = 0
      · simp [h1]
      · rw [if_neg h1, if_neg h1]
        by_cases h2 : a < 0
        · rw [if_neg (fun h => by grind), if_pos h2]
        · rw [if_pos (by grind), if_neg h2]
    · rw [if_neg h0, if_neg h0]
      exact ⟨_, rfl, Rat.div_mul_cancel h0⟩
  all_goals
    first
    | rfl
    | (rename_i q
       by_cases h1 : q < 0 <;> simp [h1])
    | simp

theorem inv_of_rep {ns : NodeSet} {l : List XN} (h : Rep E.w K (.nodes ns) (.nodes l)) :
    NSInv E.w (NodeIn E.w K) ns := by
  obtain ⟨_, e, h1, h2, h3⟩ := rep_nodes h
  cases e
  refine ⟨fun x hx => h3 x ((shows_mem h1 x).1 hx), fun _ => ?_⟩
  rw [Ordered, h1.2]
  by_cases hf : ns.forward = true
  · rw [if_pos hf, if_pos hf]; exact h2
  · rw [if_neg hf, if_neg hf, List.pairwise_reverse]; exact h2

theorem rep_of_inv {ns : NodeSet} (h : NSInv E.w (NodeIn E.w K) ns) (hs : ns.sorted = true) :
    ∃ l, Rep E.w K (.nodes ns) (.nodes l) ∧ InOrder E.w l ∧ ∀ x, x ∈ l ↔ x ∈ ns.nodes := by
  have ho := h.ord hs
  rw [Ordered] at ho
  by_cases hf : ns.forward = true
  · rw [if_pos hf] at ho
    refine ⟨ns.nodes, ⟨⟨hs, by rw [if_pos hf]⟩, ?_⟩, ho, fun x => Iff.rfl⟩
    intro l e
    cases e
    exact ⟨ho, h.all⟩
  · rw [if_neg hf] at ho
    have h2 : InOrder E.w ns.nodes.reverse := List.pairwise_reverse.2 ho
    refine ⟨ns.nodes.reverse, ⟨⟨hs, by rw [if_neg hf, List.reverse_reverse]⟩, ?_⟩, h2, fun x => by simp⟩
    intro l e
    cases e
    exact ⟨h2, fun x hx => h.all x (by simpa using hx)⟩

theorem union_rep (hw : Forest E.w) (hK : Documents E.w K) (hsrt : StdSort (nodesLessThan E.w) E.srt) {n1 n2 : NodeSet}
    {l1 l2 : List XN} (h1 : Rep E.w K (.nodes n1) (.nodes l1)) (h2 : Rep E.w K (.nodes n2) (.nodes l2)) :
    ∃ u, InOrder E.w u ∧ (∀ y, y ∈ u ↔ y ∈ l1 ∨ y ∈ l2) ∧ Rep E.w K (.nodes (union E.srt n1 n2)) (.nodes u) := by
  obtain ⟨_, e1, s1, o1, k1⟩ := rep_nodes h1
  obtain ⟨_, e2, s2, o2, k2⟩ := rep_nodes h2
  cases e1
  cases e2
  rw [union, shows_empty s1, shows_empty s2]
  by_cases c1 : l1 = []
  · subst c1
    exact ⟨l2, o2, by simp, h2⟩
  rw [if_neg (by simpa using c1)]
  by_cases c2 : l2 = []
  · subst c2
    exact ⟨l1, o1, by simp, h1⟩
  rw [if_neg (by simpa using c2)]
  obtain ⟨i1, i2⟩ := inv_step hw (usual hK) hsrt (inv_of_rep h1) (.insert (n1.nodes.length - 1) n2.nodes)
    (by simp only [added, List.append_nil]; exact (inv_of_rep h2).all)
  simp only [NodeSet.step] at i1 i2
  obtain ⟨d1, d2, d3, d4⟩ := docOrder_spec hw (usual hK) hsrt i1
  refine ⟨_, d3, fun y => ?_, ⟨⟨d2, by rw [if_pos d1]⟩, ?_⟩⟩
  · rw [d4, i2, shows_mem s1]
    simp only [added, List.append_nil, shows_mem s2]
  · intro l e
    cases e
    exact ⟨d3, fun x hx => i1.all x ((d4 x).1 hx)⟩

theorem relation_ends (hK : Documents E.w K) {u v : XVal} {a b : Val} (hu : Rep E.w K u a) (hv : Rep E.w K v b)
    {f : Value → Value → Ev Bool} {r : Bool} (hf : f (setValue E.w u) (setValue E.w v) = .val r) :
    Ends (fun n => relation E n f (.val u) (.val v)) (.bool r) := by
  refine ends_bool (r := fun n => (u.value E n).bind fun l => (v.value E n).bind fun r => f l r) ?_
  exact ends_bind (value_ends hK hu) (ends_bind (value_ends hK hv) ⟨0, fun _ _ => hf⟩)

theorem arith_ends (hK : Documents E.w K) {u v : XVal} {a b : Val} (hu : Rep E.w K u a) (hv : Rep E.w K v b)
    {f : Num → Num → Ev Num} {r : Num} (hf : f (toNumber E.w E.cv a) (toNumber E.w E.cv b) = .val r) :
    Ends (fun n => arith E n f (.val u) (.val v)) (.num r) := by
  refine ends_num ?_
  exact ends_bind (r := fun f => argNumber E f (.val u)) (number_ends hK hu)
    (ends_bind (r := fun f => argNumber E f (.val v)) (number_ends hK hv) ⟨0, fun _ _ => hf⟩)

theorem mod_ok {m n : Num} (h : SafeMod m n) : ∃ r, modulus m n = some r ∧ IsMod m n r := by
  rcases h with h | h | ⟨a, b, rfl, rfl, h1, h2, h3, h4⟩
  · exact ⟨_, Verif.Props.XPathValue.C43_nan m n (.inl h)⟩
  · exact ⟨_, Verif.Props.XPathValue.C43_nan m n (.inr h)⟩
  · exact Verif.Props.XPathValue.C43_partial a b h1 h2 h3 h4

theorem binaryOp_ends (hw : Forest E.w) (hK : Documents E.w K) (hsrt : StdSort (nodesLessThan E.w) E.srt)
    {op : Verif.XPathParse.Op} {u v : XVal} {a b : Val} {B : Val → Prop} (hu : Rep E.w K u a) (hv : Rep E.w K v b)
    (hB : B b) (hs : OpSafe E.w E.cv op a b) :
    ∃ r m, OpMeans E.w E.cv op a B r ∧ Rep E.w K m r ∧ Ends (fun f => binaryOp E f op (.val u) (.val v)) m := by
  have same : ∀ c : Cmp, Holds E.cv c (setValue E.w u) (setValue E.w v) ↔ Holds E.cv c (a.plain E.w) (b.plain E.w) :=
    fun c => holds_same (sameStrings_rep hu) (sameStrings_rep hv) E.cv c
  have less : ∀ {c : Cmp} {f : Conv → Value → Value → Option Bool},
      (∃ r, f E.cv (setValue E.w u) (setValue E.w v) = some r ∧ (r = true ↔ Holds E.cv c (setValue E.w u) (setValue E.w v))) →
      ∃ r m, (∃ b, B b ∧ IsBool r (Holds E.cv c (a.plain E.w) (b.plain E.w))) ∧ Rep E.w K m r ∧
        Ends (fun n => relation E n (fun l r => Ev.ofOption (f E.cv l r)) (.val u) (.val v)) m := by
    rintro c f ⟨r, h1, h2⟩
    exact ⟨.bool r, _, ⟨b, hB, ofBool_iff (h2.trans (same c))⟩, rep_bool _, relation_ends hK hu hv (by rw [h1]; rfl)⟩
  cases op with
  | or =>
    by_cases h : u.isTrue = true
    · refine ⟨.bool true, _, .inl ⟨(isTrue_iff hu).1 h, rfl⟩, rep_bool _, ⟨0, fun f _ => ?_⟩⟩
      simp [binaryOp, Ev.bool, h]
    · refine ⟨.bool v.isTrue, _, .inr ⟨fun h' => h ((isTrue_iff hu).2 h'), b, hB, ofBool_iff (isTrue_iff hv)⟩, rep_bool _,
        ⟨0, fun f _ => ?_⟩⟩
      simp [binaryOp, Ev.bool, h]
  | and =>
    by_cases h : u.isTrue = true
    · refine ⟨.bool v.isTrue, _, .inr ⟨(isTrue_iff hu).1 h, b, hB, ofBool_iff (isTrue_iff hv)⟩, rep_bool _,
        ⟨0, fun f _ => ?_⟩⟩
      simp [binaryOp, Ev.bool, h]
    · refine ⟨.bool false, _, .inl ⟨fun h' => h ((isTrue_iff hu).2 h'), rfl⟩, rep_bool _, ⟨0, fun f _ => ?_⟩⟩
      simp [binaryOp, Ev.bool, h]
  | eq =>
    exact ⟨.bool _, _, ⟨b, hB, ofBool_iff ((Verif.Props.XPathValue.C39_equal E.cv _ _).trans (same .eq))⟩, rep_bool _,
      relation_ends hK hu hv rfl⟩
  | ne =>
    exact ⟨.bool _, _, ⟨b, hB, ofBool_iff ((Verif.Props.XPathValue.C39_not_equal E.cv _ _).trans (same .ne))⟩, rep_bool _,
      relation_ends hK hu hv rfl⟩
  | lt =>
    obtain ⟨l1, l2, l3⟩ := safeLess_same hu hv hs
    exact less (Verif.Props.XPathValue.C39_less_partial E.cv _ _ l1 l2 l3).1
  | le =>
    obtain ⟨l1, l2, l3⟩ := safeLess_same hu hv hs
    exact less (Verif.Props.XPathValue.C39_less_partial E.cv _ _ l1 l2 l3).2.1
  | gt =>
    obtain ⟨l1, l2, l3⟩ := safeLess_same hu hv hs
    exact less (Verif.Props.XPathValue.C39_less_partial E.cv _ _ l1 l2 l3).2.2.1
  | ge =>
    obtain ⟨l1, l2, l3⟩ := safeLess_same hu hv hs
    exact less (Verif.Props.XPathValue.C39_less_partial E.cv _ _ l1 l2 l3).2.2.2
  | plus => exact ⟨.num _, _, ⟨b, hB, _, rfl, rfl⟩, rep_num _, arith_ends hK hu hv rfl⟩
  | minus => exact ⟨.num _, _, ⟨b, hB, _, rfl, rfl⟩, rep_num _, arith_ends hK hu hv rfl⟩
  | times => exact ⟨.num _, _, ⟨b, hB, _, rfl, mul_ok _ _⟩, rep_num _, arith_ends hK hu hv rfl⟩
  | div => exact ⟨.num _, _, ⟨b, hB, _, rfl, div_ok _ _⟩, rep_num _, arith_ends hK hu hv rfl⟩
  | mod =>
    obtain ⟨r, h1, h2⟩ := mod_ok hs
    exact ⟨.num r, _, ⟨b, hB, _, rfl, h2⟩, rep_num _, arith_ends hK hu hv (by rw [h1]; rfl)⟩
  | union =>
    obtain ⟨⟨l, rfl⟩, m, rfl⟩ := hs
    obtain ⟨n1, rfl, _⟩ := rep_nodes hu
    obtain ⟨n2, rfl, _⟩ := rep_nodes hv
    obtain ⟨w, h1, h2, h3⟩ := union_rep hw hK hsrt hu hv
    exact ⟨.nodes w, _, ⟨l, m, w, rfl, hB, rfl, h1, h2⟩, h3, ⟨0, fun _ _ => rfl⟩⟩

end

end Verif.XPathEval
