import Verif.Lemmas.XPathEvalFn
set_option autoImplicit false
set_option linter.unusedSimpArgs false
set_option linter.unusedVariables false
namespace Verif.XPathEval
open Verif.XTree Verif.XPath
open Verif.Spec.XPathAxes Verif.Spec.XPathNodeSet Verif.Spec.XPathPath Verif.Spec.XPath Verif.Spec.XPathEval
open Verif.XPathParse (Expr)

/-! ## Numbers -/

theorem lt_of_sq {s B : Rat} (hs : 0 ≤ s) (hB : 0 ≤ B) (h : s * s < B * B) : s < B := by
  by_cases hc : s < B
  · exact hc
  · exfalso
    have h1 : B ≤ s := Rat.not_lt.1 hc
    have h2 : B * B ≤ s * s := Rat.le_trans (Rat.mul_le_mul_of_nonneg_left h1 hB) (Rat.mul_le_mul_of_nonneg_right h1 hs)
    exact Rat.not_lt.2 h2 h

theorem nonneg_of_mul {a s : Rat} (ha : 0 < a) (h : 0 ≤ a * s) : 0 ≤ s := by
  by_cases hc : s < 0
  · exfalso
    have := Rat.mul_pos ha (show 0 < -s by grind)
    grind
  · exact Rat.not_lt.1 hc

/-- Two remainders that are not negative. -/
theorem rem_same {B s s' : Rat} {d : Int} (hB : 0 < B) (hs : 0 ≤ s) (hs' : 0 ≤ s') (h : s < B) (h' : s' < B)
    (e : s' = s + B * d) : s = s' := by
  have hd : d = 0 := by
    rcases Int.lt_trichotomy d 0 with hd | hd | hd
    · exfalso
      have h1 : (d : Rat) ≤ ((-1 : Int) : Rat) := Rat.intCast_le_intCast.2 (by omega)
      have := Rat.mul_le_mul_of_nonneg_left h1 (Rat.le_of_lt hB)
      grind
    · exact hd
    · exfalso
      have h1 : (1 : Rat) ≤ d := by exact_mod_cast (show 1 ≤ d by omega)
      have := Rat.mul_le_mul_of_nonneg_left h1 (Rat.le_of_lt hB)
      grind
  rw [e, hd]
  simp [Rat.add_zero]

theorem rem_pos {a b s s' : Rat} {k k' : Int} (hs : 0 ≤ s) (hs' : 0 ≤ s') (hb : b ≠ 0) (h : a = b * k + s)
    (h' : a = b * k' + s') (hlt : s * s < b * b) (hlt' : s' * s' < b * b) : s = s' := by
  by_cases hb0 : 0 < b
  · refine rem_same (d := k - k') hb0 hs hs' (lt_of_sq hs (Rat.le_of_lt hb0) hlt) (lt_of_sq hs' (Rat.le_of_lt hb0) hlt') ?_
    rw [Rat.intCast_sub]
    grind
  · have hb1 : 0 < -b := by grind
    refine rem_same (d := k' - k) hb1 hs hs' (lt_of_sq hs (Rat.le_of_lt hb1) (by grind)) (lt_of_sq hs' (Rat.le_of_lt hb1) (by grind)) ?_
    rw [Rat.intCast_sub]
    grind

theorem rem_unique {a b s s' : Rat} {k k' : Int} (hb : b ≠ 0) (h : a = b * k + s)
    (h' : a = b * k' + s') (hs : 0 ≤ a * s) (hs' : 0 ≤ a * s') (hlt : s * s < b * b) (hlt' : s' * s' < b * b) : s = s' := by
  have sq_pos : 0 < b * b := by
    by_cases hh : 0 < b
    · exact Rat.mul_pos hh hh
    · have := Rat.mul_pos (show 0 < -b by grind) (show 0 < -b by grind)
      grind
  have zero : ∀ {s : Rat} {k : Int}, 0 = b * k + s → s * s < b * b → s = 0 := by
    intro s k e hl
    by_cases h0 : 0 ≤ s
    · exact rem_pos (a := 0) (k := k) (k' := 0) h0 (by decide) hb e (by simp [Rat.add_zero]) hl (by
        have := sq_pos
        grind)
    · have : -s = 0 := rem_pos (a := 0) (b := b) (k := -k) (k' := 0) (by grind) (by decide) hb
        (by rw [Rat.intCast_neg]; grind) (by simp [Rat.add_zero]) (by grind) (by
        have := sq_pos
        grind)
      grind
  by_cases h0 : a = 0
  · subst h0
    rw [zero h hlt, zero h' hlt']
  · by_cases hp : 0 < a
    · exact rem_pos (nonneg_of_mul hp hs) (nonneg_of_mul hp hs') hb h h' hlt hlt'
    · have hn : 0 < -a := by grind
      have := rem_pos (a := -a) (b := b) (s := -s) (s' := -s') (k := -k) (k' := -k')
        (nonneg_of_mul hn (by grind)) (nonneg_of_mul hn (by grind)) hb (by rw [Rat.intCast_neg]; grind)
        (by rw [Rat.intCast_neg]; grind) (by grind) (by grind)
      grind

theorem mod_unique {a b r r' : Num} (h : IsMod a b r) (h' : IsMod a b r') : r = r' := by
  cases a <;> cases b <;> simp only [IsMod] at h h'
  case fin.fin a b =>
    by_cases hb : b = 0
    · rw [if_pos hb] at h h'
      rw [h, h']
    · rw [if_neg hb] at h h'
      obtain ⟨s, k, rfl, h1, h2, h3⟩ := h
      obtain ⟨s', k', rfl, h1', h2', h3'⟩ := h'
      rw [rem_unique hb h1 h1' h2 h2' h3 h3']
  all_goals rw [h, h']

theorem product_unique {a b r r' : Num} (h : IsProduct a b r) (h' : IsProduct a b r') : r = r' := by
  cases a <;> cases b <;> simp only [IsProduct] at h h' <;> (repeat' (split at h <;> simp_all)) <;> rw [h, h']

theorem quotient_unique {a b r r' : Num} (h : IsQuotient a b r) (h' : IsQuotient a b r') : r = r' := by
  cases a <;> cases b <;> simp only [IsQuotient] at h h'
  case fin.fin a b =>
    by_cases hb : b = 0
    · rw [if_pos hb] at h h'
      repeat' (split at h <;> simp_all)
    · rw [if_neg hb] at h h'
      obtain ⟨q, rfl, h1⟩ := h
      obtain ⟨q', rfl, h2⟩ := h'
      have : q * b * b⁻¹ = q' * b * b⁻¹ := by rw [h1, h2]
      rw [Rat.mul_assoc, Rat.mul_assoc, Rat.mul_inv_cancel b hb, Rat.mul_one, Rat.mul_one] at this
      rw [this]
  all_goals (repeat' (split at h <;> simp_all)) <;> rw [h, h']

theorem floor_unique' {a r r' : Num} (h : IsFloor a r) (h' : IsFloor a r') : r = r' := by
  cases a <;> simp only [IsFloor] at h h'
  case fin q =>
    obtain ⟨n, rfl, h1, h2⟩ := h
    obtain ⟨n', rfl, h1', h2'⟩ := h'
    have : n = n' := Int.le_antisymm (h2' n h1) (h2 n' h1')
    rw [this]
  all_goals rw [h, h']

theorem ceiling_unique' {a r r' : Num} (h : IsCeiling a r) (h' : IsCeiling a r') : r = r' := by
  cases a <;> simp only [IsCeiling] at h h'
  case fin q =>
    obtain ⟨n, rfl, h1, h2⟩ := h
    obtain ⟨n', rfl, h1', h2'⟩ := h'
    have : n = n' := Int.le_antisymm (h2 n' h1') (h2' n h1)
    rw [this]
  all_goals rw [h, h']

theorem isBefore_unique {s t r r' : List Char} (h : IsBefore s t r) (h' : IsBefore s t r') : r = r' := by
  have h1 := (Verif.Props.XPathValue.C40_before s t r).2 h
  have h2 := (Verif.Props.XPathValue.C40_before s t r').2 h'
  rw [h1] at h2
  cases h2
  rfl

theorem isAfter_unique {s t r r' : List Char} (h : IsAfter s t r) (h' : IsAfter s t r') : r = r' := by
  have h1 := (Verif.Props.XPathValue.C40_after s t r).2 h
  have h2 := (Verif.Props.XPathValue.C40_after s t r').2 h'
  rw [h1] at h2
  cases h2
  rfl

theorem isBool_unique {v v' : Val} {p : Prop} (h : IsBool v p) (h' : IsBool v' p) : v = v' := by
  obtain ⟨b, rfl, h1⟩ := h
  obtain ⟨b', rfl, h2⟩ := h'
  have := h1.trans h2.symm
  cases b <;> cases b' <;> simp_all

/-! ## Functions -/

section
variable {w : World} {cv : Conv}

theorem ofNode_unique {x : XN} {f : XN → List Char} {vs : List Val} {v v' : Val} (h : OfNode x f vs v)
    (h' : OfNode x f vs v') : v = v' := by
  revert h h'
  rw [OfNode.eq_def]
  split <;> intro h h'
  · rw [h]; exact h'.symm
  · rw [h]; exact h'.symm
  · rw [h]; exact h'.symm
  · exact absurd h id

theorem ofString_unique {x : XN} {f : List Char → Val} {vs : List Val} {v v' : Val} (h : OfString w cv x f vs v)
    (h' : OfString w cv x f vs v') : v = v' := by
  revert h h'
  rw [OfString.eq_def]
  split <;> intro h h'
  · rw [h]; exact h'.symm
  · rw [h]; exact h'.symm
  · exact absurd h id

theorem ofNumber_unique {f : Num → Num → Prop} (hf : ∀ {a r r'}, f a r → f a r' → r = r') {vs : List Val} {v v' : Val}
    (h : OfNumber w cv f vs v) (h' : OfNumber w cv f vs v') : v = v' := by
  revert h h'
  rw [OfNumber.eq_def]
  split <;> intro h h'
  · obtain ⟨n, rfl, h1⟩ := h
    obtain ⟨n', rfl, h2⟩ := h'
    rw [hf h1 h2]
  · exact absurd h id

theorem ofStrings_unique {f : List Char → List Char → Val → Prop} (hf : ∀ {s t v v'}, f s t v → f s t v' → v = v')
    {vs : List Val} {v v' : Val} (h : OfStrings w cv f vs v) (h' : OfStrings w cv f vs v') : v = v' := by
  revert h h'
  rw [OfStrings.eq_def]
  split <;> intro h h'
  · exact hf h h'
  · exact absurd h id

theorem ofSubstring_unique {vs : List Val} {v v' : Val} (h : OfSubstring w cv vs v) (h' : OfSubstring w cv vs v') :
    v = v' := by
  revert h h'
  rw [OfSubstring.eq_def]
  split <;> intro h h'
  · obtain ⟨r, h1, rfl⟩ := h
    obtain ⟨r', h1', rfl⟩ := h'
    rw [round_unique _ _ _ h1 h1']
  · obtain ⟨r, l, h1, h2, rfl⟩ := h
    obtain ⟨r', l', h1', h2', rfl⟩ := h'
    rw [round_unique _ _ _ h1 h1', round_unique _ _ _ h2 h2']
  · exact absurd h id

theorem ofConcat_unique {vs : List Val} {v v' : Val} (h : OfConcat w cv vs v) (h' : OfConcat w cv vs v') : v = v' := by
  revert h h'
  rw [OfConcat.eq_def]
  split <;> intro h h'
  · rw [h]; exact h'.symm
  · exact absurd h id

theorem fnMeans_unique {x : XN} {i k : Int} {fn : Fn} {vs : List Val} {v v' : Val} (h : FnMeans w cv x i k fn vs v)
    (h' : FnMeans w cv x i k fn vs v') : v = v' := by
  cases fn with
  | last => rw [h.2, h'.2]
  | position => rw [h.2, h'.2]
  | true => rw [h.2, h'.2]
  | false => rw [h.2, h'.2]
  | count => obtain ⟨l, rfl, rfl⟩ := h; obtain ⟨l', e, rfl⟩ := h'; cases e; rfl
  | sum => obtain ⟨l, rfl, rfl⟩ := h; obtain ⟨l', e, rfl⟩ := h'; cases e; rfl
  | translate => obtain ⟨a, b, c, rfl, rfl⟩ := h; obtain ⟨_, _, _, e, rfl⟩ := h'; cases e; rfl
  | localName => exact ofNode_unique h h'
  | namespaceUri => exact ofNode_unique h h'
  | name => exact ofNode_unique h h'
  | string => exact ofString_unique h h'
  | stringLength => exact ofString_unique (f := fun s => .num (.fin s.length)) h h'
  | normalizeSpace => exact ofString_unique (f := fun s => .str (Spec.Text.joinSpace (Spec.Text.words s))) h h'
  | concat => exact ofConcat_unique h h'
  | startsWith => exact ofStrings_unique (f := fun s t v => IsBool v (∃ r, s = t ++ r)) isBool_unique h h'
  | contains => exact ofStrings_unique (f := fun s t v => IsBool v (Contains s t)) isBool_unique h h'
  | substringBefore =>
    refine ofStrings_unique (f := fun s t v => ∃ r, v = .str r ∧ IsBefore s t r) ?_ h h'
    rintro s t v v' ⟨r, rfl, h1⟩ ⟨r', rfl, h2⟩
    rw [isBefore_unique h1 h2]
  | substringAfter =>
    refine ofStrings_unique (f := fun s t v => ∃ r, v = .str r ∧ IsAfter s t r) ?_ h h'
    rintro s t v v' ⟨r, rfl, h1⟩ ⟨r', rfl, h2⟩
    rw [isAfter_unique h1 h2]
  | substring => exact ofSubstring_unique h h'
  | boolean => obtain ⟨a, rfl, h⟩ := h; obtain ⟨_, e, h'⟩ := h'; cases e; exact isBool_unique h h'
  | not => obtain ⟨a, rfl, h⟩ := h; obtain ⟨_, e, h'⟩ := h'; cases e; exact isBool_unique h h'
  | number =>
    rcases h with ⟨rfl, rfl⟩ | ⟨a, rfl, rfl⟩ <;> rcases h' with ⟨e, rfl⟩ | ⟨_, e, rfl⟩ <;> cases e <;> rfl
  | floor => exact ofNumber_unique (f := IsFloor) floor_unique' h h'
  | ceiling => exact ofNumber_unique (f := IsCeiling) ceiling_unique' h h'
  | round => exact ofNumber_unique (f := IsRound) (round_unique _ _ _) h h'

theorem function_found (fn : Fn) : standardFunction (fnText fn).toList = some fn := by
  cases fn <;> decide +kernel

theorem fnText_inj {a b : Fn} (h : (fnText a).toList = (fnText b).toList) : a = b := by
  have h1 := function_found a
  rw [h, function_found b] at h1
  cases h1
  rfl

/-! ## Operators -/

theorem inOrder_unique (hw : Forest w) {l m : List XN} (h : InOrder w l) (h' : InOrder w m) (e : ∀ y, y ∈ l ↔ y ∈ m) :
    l = m := by
  refine sorted_unique (lt := DocBefore w) ?_ ?_ h h' e
  · intro a ha
    rw [DocBefore, if_pos rfl] at ha
    exact before_irrefl _ ha
  · intro a b h1 h2
    rw [DocBefore] at h1 h2
    by_cases h3 : a.1 = b.1
    · rw [if_pos h3] at h1
      rw [if_pos h3.symm] at h2
      exact before_asymm h1 h2
    · rw [if_neg h3] at h1
      rw [if_neg (Ne.symm h3)] at h2
      by_cases h4 : w.home a.1 = w.home b.1
      · rw [if_pos h4] at h1
        rw [if_pos h4.symm] at h2
        rw [hw.doc _ h1, hw.doc _ h2] at h4
        exact h3 h4
      · rw [if_neg h4] at h1
        rw [if_neg (Ne.symm h4)] at h2
        omega

theorem opMeans_unique (hw : Forest w) {op : Verif.XPathParse.Op} {a v v' : Val} {B : Val → Prop}
    (hB : ∀ {b b'}, B b → B b' → b = b') (h : OpMeans w cv op a B v) (h' : OpMeans w cv op a B v') : v = v' := by
  have bools : ∀ {P : Val → Prop} {v v' : Val}, (∃ b, B b ∧ IsBool v (P b)) → (∃ b, B b ∧ IsBool v' (P b)) → v = v' := by
    rintro P v v' ⟨b, h1, h2⟩ ⟨b', h3, h4⟩
    cases hB h1 h3
    exact isBool_unique h2 h4
  have nums : ∀ {f : Num → Num → Num → Prop} {v v' : Val}, (∀ {a b r r'}, f a b r → f a b r' → r = r') →
      (∃ b, B b ∧ Arith w cv f a b v) → (∃ b, B b ∧ Arith w cv f a b v') → v = v' := by
    rintro f v v' hf ⟨b, h1, n, rfl, h2⟩ ⟨b', h3, n', rfl, h4⟩
    cases hB h1 h3
    rw [hf h2 h4]
  cases op with
  | or =>
    rcases h with ⟨h1, rfl⟩ | ⟨h1, h2⟩ <;> rcases h' with ⟨h1', rfl⟩ | ⟨h1', h2'⟩
    · rfl
    · exact absurd h1 h1'
    · exact absurd h1' h1
    · exact bools h2 h2'
  | and =>
    rcases h with ⟨h1, rfl⟩ | ⟨h1, h2⟩ <;> rcases h' with ⟨h1', rfl⟩ | ⟨h1', h2'⟩
    · rfl
    · exact absurd h1' h1
    · exact absurd h1 h1'
    · exact bools h2 h2'
  | eq => exact bools h h'
  | ne => exact bools h h'
  | lt => exact bools h h'
  | le => exact bools h h'
  | gt => exact bools h h'
  | ge => exact bools h h'
  | plus => exact nums (fun h h' => by rw [h]; exact h'.symm) h h'
  | minus => exact nums (fun h h' => by rw [h]; exact h'.symm) h h'
  | times => exact nums (f := IsProduct) product_unique h h'
  | div => exact nums (f := IsQuotient) quotient_unique h h'
  | mod => exact nums (f := IsMod) mod_unique h h'
  | union =>
    obtain ⟨l, m, u, rfl, h1, rfl, h2, h3⟩ := h
    obtain ⟨l', m', u', e, h1', rfl, h2', h3'⟩ := h'
    cases e
    cases hB h1 h1'
    rw [inOrder_unique hw h2 h2' fun y => (h3 y).trans (h3' y).symm]

/-! ## Expressions -/

variable {vars : List Char → List Char → Option Val}

mutual

theorem means_unique (hw : Forest w) : ∀ (e : Expr) {x : XN} {i k : Int} {v v' : Val}, Means w cv vars e x i k v →
    Means w cv vars e x i k v' → v = v'
  | .number t, _, _, _, _, _, h, h' => by
    rw [Means] at h h'
    rw [h, h']
  | .string t, _, _, _, _, _, h, h' => by
    rw [Means] at h h'
    rw [h, h']
  | .var u n, _, _, _, _, _, h, h' => by
    rw [Means] at h h'
    rw [h] at h'
    exact Option.some.inj h'
  | .call u n args, _, _, _, _, _, h, h' => by
    rw [Means] at h h'
    obtain ⟨_, fn, vs, h1, h2, h3⟩ := h
    obtain ⟨_, fn', vs', h1', h2', h3'⟩ := h'
    cases fnText_inj (h1.symm.trans h1')
    cases argsMean_unique hw args h2 h2'
    exact fnMeans_unique h3 h3'
  | .binary op a b, _, _, _, _, _, h, h' => by
    rw [Means] at h h'
    obtain ⟨va, h1, h2⟩ := h
    obtain ⟨va', h1', h2'⟩ := h'
    cases means_unique hw a h1 h1'
    exact opMeans_unique hw (fun hb hb' => means_unique hw b hb hb') h2 h2'
  | .negative a, _, _, _, _, _, h, h' => by
    rw [Means] at h h'
    obtain ⟨va, h1, rfl⟩ := h
    obtain ⟨va', h1', rfl⟩ := h'
    rw [means_unique hw a h1 h1']
  | .path b ss, _, _, _, _, _, h, h' => by
    rw [Means] at h h'
    obtain ⟨l, rfl, h1, h2⟩ := h
    obtain ⟨l', rfl, h1', h2'⟩ := h'
    rw [inOrder_unique hw h1 h1' fun y => (h2 y).trans (h2' y).symm]

theorem argsMean_unique (hw : Forest w) : ∀ (es : List Expr) {x : XN} {i k : Int} {vs vs' : List Val},
    ArgsMean w cv vars es x i k vs → ArgsMean w cv vars es x i k vs' → vs = vs'
  | [], _, _, _, _, _, h, h' => by
    rw [ArgsMean] at h h'
    rw [h, h']
  | e :: es, _, _, _, _, _, h, h' => by
    rw [ArgsMean] at h h'
    obtain ⟨v, rest, rfl, h1, h2⟩ := h
    obtain ⟨v', rest', rfl, h1', h2'⟩ := h'
    rw [means_unique hw e h1 h1', argsMean_unique hw es h2 h2']

end

theorem kept_unique {p : XN → Int → Int → Val → Prop} (hp : ∀ {x i k v v'}, p x i k v → p x i k v' → v = v')
    {l a b : List XN} (ha : Kept w p l a) (hb : Kept w p l b) : a = b := by
  obtain ⟨k, h1, h2, h3⟩ := ha
  obtain ⟨k', h1', h2', h3'⟩ := hb
  have val : ∀ (k : List Nat) (a : List XN), a.map some = k.map (fun i => l[i]?) → ∀ i ∈ k, ∃ x, l[i]? = some x := by
    intro k a h i hi
    have : l[i]? ∈ a.map some := by rw [h]; exact List.mem_map.2 ⟨i, hi, rfl⟩
    obtain ⟨x, _, hx⟩ := List.mem_map.1 this
    exact ⟨x, hx.symm⟩
  have both : ∀ i x, l[i]? = some x → (i ∈ k ↔ i ∈ k') := by
    intro i x hx
    obtain ⟨v, g1, g2⟩ := h3 i x hx
    obtain ⟨v', g1', g2'⟩ := h3' i x hx
    cases hp g1 g1'
    exact g2.trans g2'.symm
  have e : k = k' := by
    refine sorted_unique (fun a => by omega) (fun a b => by omega) h1 h1' fun i => ?_
    constructor
    · intro hi
      obtain ⟨x, hx⟩ := val k a h2 i hi
      exact (both i x hx).1 hi
    · intro hi
      obtain ⟨x, hx⟩ := val k' b h2' i hi
      exact (both i x hx).2 hi
  subst e
  rw [← h2'] at h2
  have inj : ∀ a b : List XN, a.map some = b.map some → a = b := by
    intro a b h
    have := congrArg (List.filterMap id) h
    simpa [List.filterMap_map] using this
  exact inj _ _ h2

theorem kept_mem {p : XN → Int → Int → Val → Prop} {l a : List XN} (h : Kept w p l a) {x : XN} (hx : x ∈ a) : x ∈ l := by
  obtain ⟨k, h1, h2, h3⟩ := h
  have : some x ∈ a.map some := List.mem_map.2 ⟨x, hx, rfl⟩
  rw [h2] at this
  obtain ⟨i, _, hi⟩ := List.mem_map.1 this
  exact List.mem_of_getElem? hi

theorem predsMean_unique (hw : Forest w) : ∀ (ps : List Expr) {l a b : List XN}, PredsMean w cv vars ps l a →
    PredsMean w cv vars ps l b → a = b
  | [], _, _, _, h, h' => by
    rw [PredsMean] at h h'
    rw [h, h']
  | p :: ps, _, _, _, h, h' => by
    rw [PredsMean] at h h'
    obtain ⟨m, h1, h2⟩ := h
    obtain ⟨m', h1', h2'⟩ := h'
    cases kept_unique (p := fun x i k v => Means w cv vars p x i k v) (fun g g' => means_unique hw p g g') h1 h1'
    exact predsMean_unique hw ps h2 h2'

theorem predsMean_mem : ∀ (ps : List Expr) {l a : List XN}, PredsMean w cv vars ps l a → ∀ x ∈ a, x ∈ l
  | [], _, _, h, x, hx => by
    rw [PredsMean] at h
    rw [← h]; exact hx
  | p :: ps, _, _, h, x, hx => by
    rw [PredsMean] at h
    obtain ⟨m, h1, h2⟩ := h
    exact kept_mem h1 (predsMean_mem ps h2 x hx)

theorem candidates_unique {a : Verif.XPathParse.Axis} {t : Verif.XPathParse.Test} {x : XN} {l m : List XN}
    (h : Candidates w a t x l) (h' : Candidates w a t x m) : l = m := by
  obtain ⟨ax, n, p, h1, h2, h3, h4, rfl⟩ := h
  obtain ⟨ax', n', p', h1', h2', h3', h4', rfl⟩ := h'
  cases Option.some.inj (h1.symm.trans h1')
  cases axisList_unique h2 h2'
  have e : ∀ {p : List Ref}, p.Sublist n →
      (∀ r ∈ n, r ∈ p ↔ ∃ d, sub (w.tree x.1) r = some d ∧ Passes d.data (Verif.Spec.XPathMatch.treeTest t)) →
      p = n.filter ((Verif.Spec.XPathMatch.treeTest t).at (w.tree x.1)) := fun h3 h4 =>
    sublist_filter (axisList_nodup h2) h3 fun r hr => (h4 r hr).trans at_iff.symm
  rw [e h3 h4, e h3' h4']

end

end Verif.XPathEval
