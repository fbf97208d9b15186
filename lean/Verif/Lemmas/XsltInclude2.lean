import Verif.Lemmas.XsltInclude
import Verif.Lemmas.XsltGlobals
set_option autoImplicit false
set_option linter.unusedSimpArgs false
set_option linter.unusedVariables false
namespace Verif.XsltInclude
open Verif.Xslt (Precedence initialPrecedence nextGeneration precLt precLt_append precLt_cons precLt_nil_right)
open Verif.Spec.XsltInclude (Piece under Inlines ITree ITrees declsOf importsOf Imports Sheet postorder postorders
  Bare Only)

variable {R : Str → Str → Str} {files : Str → Option File}

mutual
/-- The stylesheets of a tree in the order they are read, with their precedence. -/
def groupsT (p : Precedence) : ITree → List (List (Nat × Str) × List Int)
  | .mk ds ts => (ds, p.prec) :: groupsTs p ts
def groupsTs (p : Precedence) : ITrees → List (List (Nat × Str) × List Int)
  | .nil => []
  | .cons t ts => groupsTs (nextGeneration p).1 ts ++ groupsT (nextGeneration p).2 t
end

def flat (g : List (List (Nat × Str) × List Int)) : List (Nat × List Int × Str) := g.flatMap fun x => marked x.2 x.1

mutual
theorem groups_below (p : Precedence) (t : ITree) : ∀ x ∈ groupsT p t, ∃ c, x.2 = p.prec ++ c := by
  cases t with
  | mk ds ts =>
    intro x hx
    rw [groupsT] at hx
    rcases List.mem_cons.mp hx with rfl | hx
    · exact ⟨[], by simp⟩
    · obtain ⟨k, c, _, h⟩ := groupss_below p ts x hx
      exact ⟨_, h⟩
theorem groupss_below (p : Precedence) (ts : ITrees) :
    ∀ x ∈ groupsTs p ts, ∃ k c, p.children < k ∧ x.2 = p.prec ++ k :: c := by
  cases ts with
  | nil => intro x hx; simp [groupsTs] at hx
  | cons t ts =>
    intro x hx
    rw [groupsTs] at hx
    rcases List.mem_append.mp hx with hx | hx
    · obtain ⟨k, c, hk, h⟩ := groupss_below (nextGeneration p).1 ts x hx
      exact ⟨k, c, by simp [nextGeneration] at hk; omega, h⟩
    · obtain ⟨c, h⟩ := groups_below (nextGeneration p).2 t x hx
      refine ⟨p.children + 1, c, by omega, ?_⟩
      rw [h]; simp [nextGeneration]
end

mutual
theorem groups_sorted (p : Precedence) (t : ITree) :
    (groupsT p t).Pairwise (fun a b => precLt b.2 a.2 = true) := by
  cases t with
  | mk ds ts =>
    rw [groupsT, List.pairwise_cons]
    refine ⟨?_, groupss_sorted p ts⟩
    intro x hx
    obtain ⟨k, c, _, h⟩ := groupss_below p ts x hx
    rw [h]
    have := precLt_append p.prec (k :: c) []
    rw [List.append_nil] at this
    rw [this]
    exact precLt_nil_right _ _
theorem groupss_sorted (p : Precedence) (ts : ITrees) :
    (groupsTs p ts).Pairwise (fun a b => precLt b.2 a.2 = true) := by
  cases ts with
  | nil => simp [groupsTs]
  | cons t ts =>
    rw [groupsTs, List.pairwise_append]
    refine ⟨groupss_sorted _ ts, groups_sorted _ t, ?_⟩
    intro a ha b hb
    obtain ⟨k, c, hk, h⟩ := groupss_below _ ts a ha
    obtain ⟨d, h'⟩ := groups_below _ t b hb
    rw [h, h']
    simp only [nextGeneration, List.append_assoc, List.singleton_append] at hk ⊢
    rw [precLt_append, precLt_cons]
    exact Or.inl hk
end

mutual
theorem groups_postorder (p : Precedence) (t : ITree) : (groupsT p t).map Prod.fst = (postorder t).reverse := by
  cases t with
  | mk ds ts => rw [groupsT, postorder]; simp [groupss_postorder p ts]
theorem groupss_postorder (p : Precedence) (ts : ITrees) :
    (groupsTs p ts).map Prod.fst = (postorders ts).reverse := by
  cases ts with
  | nil => rfl
  | cons t ts =>
    rw [groupsTs, postorders, List.map_append, groupss_postorder _ ts, groups_postorder _ t, List.reverse_append]
end

/-- What is on the stack from `S` up is read. -/
theorem usound (hb : Bares files) : ∀ (n : Nat) (B : List (Str × List Str)) (p : Precedence)
    (S : List (Str × Precedence × List Str)) (st st' : St), st.imports = S ++ stamps p B →
    unwind R files n st = .done st' →
    ∃ ts m st1, m ≤ n ∧ Imports R files B ts ∧ unwind R files m st1 = .done st' ∧ st1.imports = S ∧
      st1.out = st.out ++ flat (groupsTs p ts) := by
  intro n
  induction n using Nat.strongRecOn with
  | ind n ihn =>
    intro B
    induction B with
    | nil =>
      intro p S st st' hi h
      exact ⟨.nil, n, st, Nat.le_refl _, .nil, h, by simpa [stamps] using hi, by simp [groupsTs, flat]⟩
    | cons x rest ihB =>
      obtain ⟨u, path⟩ := x
      intro p S st st' hi h
      rw [stamps, List.append_cons] at hi
      obtain ⟨us, m, st1, hm, h1, h2, h3, h4⟩ := ihB _ _ _ _ hi h
      cases m with
      | zero => simp [unwind] at h2
      | succ m =>
        rw [unwind_some _ h3] at h2
        split at h2
        · cases h2
        · rename_i hu
          split at h2
          · cases h2
          · rename_i f hf
            split at h2
            · rename_i st2 hr
              split at h2
              · exact absurd h2 (fails_done _ _)
              · rename_i hbr
                obtain ⟨ps, i1, g1, a1⟩ := sound hb _ _ _ _ _ _ _ (hb _ _ hf)
                  (enter_G u (nextGeneration p).2 f (st := { st1 with includes := path }) rfl) hr
                have e := enter_fields R u (nextGeneration p).2 f { st1 with includes := path }
                have hi2 : st2.imports.eraseIdx S.length = S ++ stamps (nextGeneration p).2 (importsOf ps) := by
                  rw [a1.imports, e.2.2.1, e.1]
                  simp only [h3, List.append_assoc, List.singleton_append]
                  rw [List.eraseIdx_append_of_length_le (Nat.le_refl _)]
                  simp
                obtain ⟨ts, m', st3, hm', j1, j2, j3, j4⟩ := ihn m (by omega) (importsOf ps) (nextGeneration p).2 S _ _ hi2 h2
                refine ⟨.cons (.mk (declsOf ps) ts) us, m', st3, by omega,
                  .cons u path rest f ps ts us hu hf (by simpa using hbr) i1 j1 h1, j2, j3, ?_⟩
                rw [j4]
                show (leave (top (locate { st1 with includes := path })) st2).out ++ _ = _
                rw [(leave_fields _ st2).2.2.2.1, a1.out, e.2.2.2.1, e.1]
                simp only [h4, groupsTs, groupsT, flat, List.flatMap_append, List.flatMap_cons, List.append_assoc]
            · cases h2
            · cases h2
            · cases h2

theorem complete (hb : Bares files) {path : List Str} {base : Str} {items : List Item} {ps : List Piece}
    (h : Inlines R files path base items ps) : ∀ (first : Bool) (st : St), Bare items → G first st base path →
    ∃ n st', runItems R files first n st items = .done st' := by
  induction h with
  | nil path base => intro first st _ _; exact ⟨1, st, by rw [runItems]⟩
  | decl path base k rest ps _ ih =>
    intro first st hi g
    obtain ⟨n, st', h⟩ := ih first _ (bare_tail hi) (emit_G k g).1
    exact ⟨n + 1, st', by rw [runItems]; exact h⟩
  | impt path base hr b rest ps _ ih =>
    intro first st hi g
    obtain rfl := hi.2 hr b List.mem_cons_self
    obtain ⟨n, st', h⟩ := ih first _ (bare_tail hi) (afterImport_G hr g).1
    exact ⟨n + 1, st', by rw [run_impt]; exact h⟩
  | incl path base hr b rest qs ps f hu hf hbr i1 i2 ih1 ih2 =>
    intro first st hi g
    obtain rfl := hi.1 hr b List.mem_cons_self
    simp only [under] at hu hf i1 ih1
    have p := prep_fields R first none st
    have e := prep_base R first st
    have ge := enter_G (R := R) (R base hr) (prep R first none st).prec f (st := prep R first none st) (by rw [p.2.1, g.incl])
    obtain ⟨n1, st1, h1⟩ := ih1 false _ (hb _ _ hf) ge
    obtain ⟨qs', j1, g1, a1⟩ := sound hb _ _ _ _ _ _ _ (hb _ _ hf) ge h1
    obtain ⟨g2, a2⟩ := leave_G g g1 a1
    obtain ⟨n2, st2, h2⟩ := ih2 first _ (bare_tail hi) g2
    refine ⟨max n1 n2 + 1, st2, ?_⟩
    rw [run_incl, e, g.base, p.2.1, g.incl, if_neg hu, hf]
    simp only []
    rw [mono (Nat.le_max_left n1 n2) h1 (by simp)]
    simp only [hbr, Bool.false_eq_true, if_false]
    rw [e, g.base] at h2
    exact mono (Nat.le_max_right n1 n2) h2 (by simp)

theorem inlines_det {path : List Str} {base : Str} {items : List Item} {ps qs : List Piece}
    (h : Inlines R files path base items ps) (h' : Inlines R files path base items qs) : ps = qs := by
  induction h generalizing qs with
  | nil path base => cases h'; rfl
  | decl path base k rest ps _ ih => cases h'; rw [ih (by assumption)]
  | impt path base hr b rest ps _ ih => cases h'; rw [ih (by assumption)]
  | incl path base hr b rest qs ps f hu hf hbr i1 i2 ih1 ih2 =>
    cases h' with
    | incl _ _ _ _ _ qs' ps' f' hu' hf' hbr' i1' i2' =>
      rw [hf] at hf'
      cases hf'
      rw [ih1 i1', ih2 i2']

theorem imports_det {B : List (Str × List Str)} {ts us : ITrees} (h : Imports R files B ts)
    (h' : Imports R files B us) : ts = us := by
  induction h generalizing us with
  | nil => cases h'; rfl
  | cons u path rest f ps ts vs hu hf hbr i1 _ _ ih1 ih2 =>
    cases h' with
    | cons _ _ _ f' ps' ts' vs' hu' hf' hbr' i1' j1 j2 =>
      rw [hf] at hf'
      cases hf'
      obtain rfl := inlines_det i1 i1'
      rw [ih1 j1, ih2 j2]

theorem sheet_det {base : Str} {items : List Item} {t u : ITree} (h : Sheet R files base items t)
    (h' : Sheet R files base items u) : t = u := by
  obtain ⟨ps, ts, h1, h2, rfl⟩ := h
  obtain ⟨qs, us, g1, g2, rfl⟩ := h'
  obtain rfl := inlines_det h1 g1
  rw [imports_det h2 g2]

theorem ucomplete (hb : Bares files) {B : List (Str × List Str)} {ts : ITrees} (h : Imports R files B ts) :
    ∀ (p : Precedence) (S : List (Str × Precedence × List Str)) (st : St), st.imports = S ++ stamps p B →
      (∀ st1 : St, st1.imports = S → ∃ n st', unwind R files n st1 = .done st') →
      ∃ n st', unwind R files n st = .done st' := by
  induction h with
  | nil => intro p S st hi hk; exact hk st (by simpa [stamps] using hi)
  | cons u path rest f ps ts us hu hf hbr i1 i2 _ ih1 ih2 =>
    intro p S st hi hk
    rw [stamps, List.append_cons] at hi
    refine ih2 _ _ _ hi fun st1 h1 => ?_
    have ge := enter_G (R := R) u (nextGeneration p).2 f (st := { st1 with includes := path }) rfl
    have e := enter_fields R u (nextGeneration p).2 f { st1 with includes := path }
    obtain ⟨n1, st2, h2⟩ := complete hb i1 false _ (hb _ _ hf) ge
    obtain ⟨ps', i1', g1, a1⟩ := sound hb _ _ _ _ _ _ _ (hb _ _ hf) ge h2
    obtain rfl := inlines_det i1 i1'
    have hi2 : st2.imports.eraseIdx S.length = S ++ stamps (nextGeneration p).2 (importsOf ps) := by
      rw [a1.imports, e.2.2.1, e.1]
      simp only [h1, List.append_assoc, List.singleton_append]
      rw [List.eraseIdx_append_of_length_le (Nat.le_refl _)]
      simp
    obtain ⟨n2, st', h3⟩ := ih1 (nextGeneration p).2 S { leave (top (locate { st1 with includes := path })) st2 with
                imports := st2.imports.eraseIdx S.length } hi2 hk
    refine ⟨max n1 n2 + 1, st', ?_⟩
    rw [unwind_some _ h1, if_neg hu, hf]
    simp only []
    rw [mono (Nat.le_max_left n1 n2) h2 (by simp)]
    simp only [hbr, Bool.false_eq_true, if_false]
    exact umono (Nat.le_max_right n1 n2) h3 (by simp)

/-- The first file. -/
theorem first_G (system : Str) {f : File} (h : f.base = none) :
    G true (openElement R f.base { system := system }) system [] := by
  rw [h]
  exact ⟨rfl, rfl, fun _ => ⟨by simp [openElement], by simp [openElement]⟩⟩

theorem compile_sound (hb : Bares files) (n : Nat) (system : Str) (f : File) (hf : f.base = none) (hi : Bare f.items)
    (out : List (Nat × List Int × Str)) (h : compile R files n system f = .done out) :
    ∃ t, Sheet R files system f.items t ∧ out = flat (groupsT initialPrecedence t) := by
  unfold compile at h
  split at h
  · rename_i st h1
    obtain ⟨ps, i1, g1, a1⟩ := sound hb _ _ _ _ _ _ _ hi (first_G system hf) h1
    split at h
    · rename_i st' h2
      have c := close_fields st
      have hs : (closeElement st).imports = [] ++ stamps initialPrecedence (importsOf ps) := by
        rw [c.2.2.1, a1.imports, hf]; rfl
      obtain ⟨ts, m, st1, _, j1, j2, j3, j4⟩ := usound hb _ _ _ _ _ _ hs h2
      cases m with
      | zero => simp [unwind] at j2
      | succ m =>
        rw [unwind_none _ j3] at j2
        cases j2
        cases h
        refine ⟨.mk (declsOf ps) ts, ⟨ps, ts, i1, j1, rfl⟩, ?_⟩
        rw [j4, c.2.2.2.1, a1.out, hf]
        simp [openElement, groupsT, flat, initialPrecedence]
    · cases h
    · cases h
    · cases h
  · cases h
  · cases h
  · cases h

theorem compile_complete (hb : Bares files) (system : Str) (f : File) (hf : f.base = none) (hi : Bare f.items)
    (t : ITree) (h : Sheet R files system f.items t) :
    ∃ n, compile R files n system f = .done (flat (groupsT initialPrecedence t)) := by
  have h0 := h
  obtain ⟨ps, ts, i1, i2, rfl⟩ := h
  obtain ⟨n1, st, h1⟩ := complete hb i1 true _ hi (first_G system hf)
  obtain ⟨ps', i1', g1, a1⟩ := sound hb _ _ _ _ _ _ _ hi (first_G system hf) h1
  obtain rfl := inlines_det i1 i1'
  have c := close_fields st
  have hs : (closeElement st).imports = [] ++ stamps initialPrecedence (importsOf ps) := by
    rw [c.2.2.1, a1.imports, hf]; rfl
  obtain ⟨n2, st', h2⟩ := ucomplete hb i2 _ _ _ hs (fun st1 h => ⟨1, st1, unwind_none 0 h⟩)
  have hc : compile R files (max n1 n2) system f = .done st'.out := by
    unfold compile
    rw [mono (Nat.le_max_left n1 n2) h1 (by simp)]
    simp only []
    rw [umono (Nat.le_max_right n1 n2) h2 (by simp)]
  obtain ⟨t', k1, k2⟩ := compile_sound hb _ _ _ hf hi _ hc
  rw [sheet_det h0 k1]
  exact ⟨_, by rw [hc, k2]⟩

end Verif.XsltInclude
