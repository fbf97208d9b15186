import Verif.Lemmas.XsltInclude2
set_option autoImplicit false
set_option linter.unusedSimpArgs false
set_option linter.unusedVariables false
namespace Verif.XsltInclude
open Verif.Xslt (Precedence initialPrecedence nextGeneration nodup_length)
open Verif.Spec.XsltInclude (Only)

variable {R : Str → Str → Str} {files : Str → Option File}

/-- A way without repetition through the files there are. -/
def Good (l : List Str) (p : List Str) : Prop := p.Nodup ∧ ∀ x ∈ p, x ∈ l

theorem good_step {l p : List Str} {u : Str} (h : Good l p) (hu : u ∉ p) (hl : u ∈ l) : Good l (p ++ [u]) := by
  refine ⟨?_, ?_⟩
  · rw [List.nodup_append]
    refine ⟨h.1, by simp, ?_⟩
    intro a ha b hb
    simp at hb
    rintro rfl
    exact hu (hb ▸ ha)
  · intro x hx
    rcases List.mem_append.mp hx with hx | hx
    · exact h.2 x hx
    · simp at hx; rw [hx]; exact hl

theorem good_length {l p : List Str} (h : Good l p) : p.length ≤ l.length := nodup_length p l h.1 h.2

theorem afterImport_incl (first : Bool) (h : Str) (b : Option Str) (st : St) :
    (afterImport R first h b st).includes = st.includes ∧
    ∃ u p, (afterImport R first h b st).imports = st.imports ++ [(u, p, st.includes)] := by
  have p := prep_fields R first b st
  have c := fin_fields first { prep R first b st with
      prec := (nextGeneration (prep R first b st).prec).1
      imports := (prep R first b st).imports ++ [(R (top (prep R first b st)) h,
        (nextGeneration (prep R first b st).prec).2, (prep R first b st).includes)] }
  unfold afterImport
  refine ⟨by rw [c.2.1]; exact p.2.1, R (top (prep R first b st)) h,
    (nextGeneration (prep R first b st).prec).2, ?_⟩
  rw [c.2.2.1]
  simp only [p.2.2.1, p.2.1]

theorem kept {l : List Str} (ho : Only files l) : ∀ (n : Nat) (first : Bool) (st : St) (items : List Item) (st' : St),
    Good l st.includes → runItems R files first n st items = .done st' →
    st'.includes = st.includes ∧ ∃ new, st'.imports = st.imports ++ new ∧
      ∀ x ∈ new, Good l x.2.2 ∧ st.includes.length ≤ x.2.2.length := by
  intro n
  induction n with
  | zero => intro first st items st' _ h; simp [runItems] at h
  | succ n ih =>
    intro first st items st' hg h
    cases items with
    | nil =>
      simp only [runItems, Res.done.injEq] at h
      subst h
      exact ⟨rfl, [], by simp, by simp⟩
    | cons x rest =>
      cases x with
      | decl k =>
        rw [runItems] at h
        exact ih first { st with out := st.out ++ [(k, st.prec.prec, top (locate st))] } _ _ hg h
      | impt hr b =>
        rw [run_impt] at h
        obtain ⟨e1, u, p, e2⟩ := afterImport_incl (R := R) first hr b st
        obtain ⟨h1, new, h2, h3⟩ := ih _ _ _ _ (by rw [e1]; exact hg) h
        rw [e1] at h1 h3
        refine ⟨h1, (u, p, st.includes) :: new, by rw [h2, e2]; simp, ?_⟩
        intro x hx
        rcases List.mem_cons.mp hx with rfl | hx
        · exact ⟨hg, Nat.le_refl _⟩
        · exact h3 x hx
      | incl hr b =>
        have p := prep_fields R first b st
        rw [run_incl, p.2.1] at h
        split at h
        · cases h
        · rename_i hu
          split at h
          · cases h
          · rename_i f hf
            split at h
            · rename_i st1 h1
              split at h
              · exact absurd h (fails_done _ _)
              · have e := enter_fields R (R (top (prep R first b st)) hr) (prep R first b st).prec f (prep R first b st)
                have l1 := leave_fields (top (prep R first b st)) st1
                have c := fin_fields first (leave (top (prep R first b st)) st1)
                have hg' : Good l (st.includes ++ [R (top (prep R first b st)) hr]) :=
                  good_step hg hu (ho _ (by rw [hf]; simp))
                obtain ⟨a1, new1, a2, a3⟩ := ih _ _ _ _ (by rw [e.2.1, p.2.1]; exact hg') h1
                rw [e.2.1, p.2.1] at a1 a3
                rw [e.2.2.1, p.2.2.1] at a2
                have hin : (fin first (leave (top (prep R first b st)) st1)).includes = st.includes := by
                  rw [c.2.1, l1.2.1, a1]; simp
                have him : (fin first (leave (top (prep R first b st)) st1)).imports = st.imports ++ new1 := by
                  rw [c.2.2.1, l1.2.2.1, a2]
                obtain ⟨b1, new2, b2, b3⟩ := ih _ _ _ _ (by rw [hin]; exact hg) h
                rw [hin] at b1 b3
                rw [him] at b2
                refine ⟨b1, new1 ++ new2, by rw [b2]; simp, ?_⟩
                intro x hx
                rcases List.mem_append.mp hx with hx | hx
                · refine ⟨(a3 x hx).1, ?_⟩
                  have := (a3 x hx).2
                  simp only [List.length_append, List.length_cons, List.length_nil] at this
                  omega
                · exact b3 x hx
            · cases h
            · cases h
            · cases h

theorem run_ends {l : List Str} (ho : Only files l) : ∀ (k : Nat) (items : List Item) (first : Bool) (st : St),
    Good l st.includes → l.length ≤ st.includes.length + k → ∃ n, runItems R files first n st items ≠ .more := by
  intro k
  induction k with
  | zero =>
    intro items
    induction items with
    | nil => intro first st _ _; exact ⟨1, by simp [runItems]⟩
    | cons x rest ih =>
      intro first st hg hk
      cases x with
      | decl j =>
        obtain ⟨n, h⟩ := ih first { st with out := st.out ++ [(j, st.prec.prec, top (locate st))] } hg hk
        exact ⟨n + 1, by rw [runItems]; exact h⟩
      | impt hr b =>
        obtain ⟨e1, _⟩ := afterImport_incl (R := R) first hr b st
        obtain ⟨n, h⟩ := ih first (afterImport R first hr b st) (by rw [e1]; exact hg) (by rw [e1]; exact hk)
        exact ⟨n + 1, by rw [run_impt]; exact h⟩
      | incl hr b =>
        have p := prep_fields R first b st
        refine ⟨1, ?_⟩
        rw [run_incl, p.2.1]
        split
        · simp
        · rename_i hu
          split
          · simp
          · rename_i f hf
            have := good_length (good_step hg hu (ho _ (by rw [hf]; simp)))
            simp only [List.length_append, List.length_cons, List.length_nil] at this
            omega
  | succ k ihk =>
    intro items
    induction items with
    | nil => intro first st _ _; exact ⟨1, by simp [runItems]⟩
    | cons x rest ih =>
      intro first st hg hk
      cases x with
      | decl j =>
        obtain ⟨n, h⟩ := ih first { st with out := st.out ++ [(j, st.prec.prec, top (locate st))] } hg hk
        exact ⟨n + 1, by rw [runItems]; exact h⟩
      | impt hr b =>
        obtain ⟨e1, _⟩ := afterImport_incl (R := R) first hr b st
        obtain ⟨n, h⟩ := ih first (afterImport R first hr b st) (by rw [e1]; exact hg) (by rw [e1]; exact hk)
        exact ⟨n + 1, by rw [run_impt]; exact h⟩
      | incl hr b =>
        have p := prep_fields R first b st
        by_cases hu : R (top (prep R first b st)) hr ∈ st.includes
        · exact ⟨1, by rw [run_incl, p.2.1, if_pos hu]; simp⟩
        · cases hf : files (R (top (prep R first b st)) hr) with
          | none => exact ⟨1, by rw [run_incl, p.2.1, if_neg hu, hf]; simp⟩
          | some f =>
            have hg' := good_step hg hu (ho _ (by rw [hf]; simp))
            have e := enter_fields R (R (top (prep R first b st)) hr) (prep R first b st).prec f (prep R first b st)
            have he : Good l (enter R (R (top (prep R first b st)) hr) (prep R first b st).prec f
                (prep R first b st)).includes := by rw [e.2.1, p.2.1]; exact hg'
            obtain ⟨n1, h1⟩ := ihk f.items false _ he (by rw [e.2.1, p.2.1]; simp; omega)
            cases hq : runItems R files false n1 (enter R (R (top (prep R first b st)) hr) (prep R first b st).prec f
                (prep R first b st)) f.items with
            | more => exact absurd hq h1
            | error => exact ⟨n1 + 1, by rw [run_incl, p.2.1, if_neg hu, hf]; simp [hq]⟩
            | undefined => exact ⟨n1 + 1, by rw [run_incl, p.2.1, if_neg hu, hf]; simp [hq]⟩
            | done st1 =>
              have hin : (fin first (leave (top (prep R first b st)) st1)).includes = st.includes := by
                rw [(fin_fields _ _).2.1, (leave_fields _ _).2.1, (kept ho _ _ _ _ _ he hq).1, e.2.1, p.2.1]; simp
              obtain ⟨n2, h2⟩ := ih first (fin first (leave (top (prep R first b st)) st1))
                (by rw [hin]; exact hg) (by rw [hin]; exact hk)
              refine ⟨max n1 n2 + 1, ?_⟩
              rw [run_incl, p.2.1, if_neg hu, hf]
              simp only []
              rw [mono (Nat.le_max_left n1 n2) hq (by simp)]
              simp only []
              split
              · exact fails_more _
              · rw [mono (Nat.le_max_right n1 n2) rfl h2]
                exact h2

theorem unwind_ends {l : List Str} (ho : Only files l) : ∀ (k : Nat) (B : List (Str × Precedence × List Str)),
    (∀ x ∈ B, Good l x.2.2 ∧ l.length ≤ x.2.2.length + k) →
    ∀ (S : List (Str × Precedence × List Str)) (st : St), st.imports = S ++ B →
      (∀ st1 : St, st1.imports = S → ∃ n, unwind R files n st1 ≠ .more) → ∃ n, unwind R files n st ≠ .more := by
  intro k
  induction k with
  | zero =>
    intro B
    induction B with
    | nil => intro _ S st hi hk; exact hk st (by simpa using hi)
    | cons x rest ih =>
      obtain ⟨u, p, path⟩ := x
      intro hB S st hi hk
      rw [List.append_cons] at hi
      refine ih (fun x hx => hB x (List.mem_cons_of_mem _ hx)) _ _ hi fun st1 h1 => ?_
      refine ⟨1, ?_⟩
      rw [unwind_some _ h1]
      have hx := hB _ List.mem_cons_self
      split
      · simp
      · rename_i hu
        split
        · simp
        · rename_i f hf
          have := good_length (good_step hx.1 hu (ho _ (by rw [hf]; simp)))
          have := hx.2
          simp only [List.length_append, List.length_cons, List.length_nil] at *
          omega
  | succ k ihk =>
    intro B
    induction B with
    | nil => intro _ S st hi hk; exact hk st (by simpa using hi)
    | cons x rest ih =>
      obtain ⟨u, p, path⟩ := x
      intro hB S st hi hk
      rw [List.append_cons] at hi
      refine ih (fun x hx => hB x (List.mem_cons_of_mem _ hx)) _ _ hi fun st1 h1 => ?_
      have hx := hB _ List.mem_cons_self
      by_cases hu : u ∈ path
      · exact ⟨1, by rw [unwind_some _ h1, if_pos hu]; simp⟩
      · cases hf : files u with
        | none => exact ⟨1, by rw [unwind_some _ h1, if_neg hu, hf]; simp⟩
        | some f =>
          have hg' := good_step hx.1 hu (ho _ (by rw [hf]; simp))
          have e := enter_fields R u p f { st1 with includes := path }
          have he : Good l (enter R u p f { st1 with includes := path }).includes := by rw [e.2.1]; exact hg'
          obtain ⟨n1, g1⟩ := run_ends (R := R) ho (k + 1) f.items false _ he (by
            have := hx.2
            rw [e.2.1]; simp at *; omega)
          cases hq : runItems R files false n1 (enter R u p f { st1 with includes := path }) f.items with
          | more => exact absurd hq g1
          | error => exact ⟨n1 + 1, by rw [unwind_some _ h1, if_neg hu, hf]; simp [hq]⟩
          | undefined => exact ⟨n1 + 1, by rw [unwind_some _ h1, if_neg hu, hf]; simp [hq]⟩
          | done st2 =>
            obtain ⟨a1, new, a2, a3⟩ := kept ho _ _ _ _ _ he hq
            rw [e.2.1] at a3
            have hi2 : st2.imports.eraseIdx S.length = S ++ new := by
              rw [a2, e.2.2.1]
              simp only [h1, List.append_assoc, List.singleton_append]
              rw [List.eraseIdx_append_of_length_le (Nat.le_refl _)]
              simp
            obtain ⟨n2, g2⟩ := ihk new (fun y hy => ⟨(a3 y hy).1, by
                have h1 := (a3 y hy).2
                have h2 := hx.2
                simp only [List.length_append, List.length_cons, List.length_nil] at h1 h2
                omega⟩) S
              { leave (top (locate { st1 with includes := path })) st2 with
                imports := st2.imports.eraseIdx S.length } hi2 hk
            refine ⟨max n1 n2 + 1, ?_⟩
            rw [unwind_some _ h1, if_neg hu, hf]
            simp only []
            rw [mono (Nat.le_max_left n1 n2) hq (by simp)]
            simp only []
            split
            · exact fails_more _
            · rw [umono (Nat.le_max_right n1 n2) rfl g2]
              exact g2

theorem compile_ends {l : List Str} (ho : Only files l) (system : Str) (f : File) :
    ∃ n, compile R files n system f ≠ .more := by
  have o := open_fields R f.base { system := system }
  have hg : Good l (openElement R f.base { system := system }).includes := by
    rw [o.2.1]; exact ⟨List.nodup_nil, by simp⟩
  obtain ⟨n1, h1⟩ := run_ends (R := R) ho l.length f.items true _ hg (by omega)
  cases hq : runItems R files true n1 (openElement R f.base { system := system }) f.items with
  | more => exact absurd hq h1
  | error => exact ⟨n1, by simp [compile, hq]⟩
  | undefined => exact ⟨n1, by simp [compile, hq]⟩
  | done st =>
    obtain ⟨a1, new, a2, a3⟩ := kept ho _ _ _ _ _ hg hq
    have c := close_fields st
    have hs : (closeElement st).imports = [] ++ new := by
      rw [c.2.2.1, a2, o.2.2.1]
    obtain ⟨n2, h2⟩ := unwind_ends (R := R) ho l.length new (fun y hy => ⟨(a3 y hy).1, by omega⟩) [] _ hs
      (fun st1 h => ⟨1, by rw [unwind_none 0 h]; simp⟩)
    refine ⟨max n1 n2, ?_⟩
    unfold compile
    rw [mono (Nat.le_max_left n1 n2) hq (by simp)]
    simp only []
    rw [umono (Nat.le_max_right n1 n2) rfl h2]
    cases hr : unwind R files n2 (closeElement st) <;> simp
    exact h2 hr

/-- No file is broken. -/
theorem run_defined (hb : ∀ u f, files u = some f → f.broken = false) : ∀ (n : Nat) (first : Bool) (st : St)
    (items : List Item), runItems R files first n st items ≠ .undefined := by
  intro n
  induction n with
  | zero => intro first st items; simp [runItems]
  | succ n ih =>
    intro first st items
    cases items with
    | nil => simp [runItems]
    | cons x rest =>
      cases x with
      | decl k => rw [runItems]; exact ih _ _ _
      | impt hr b => rw [run_impt]; exact ih _ _ _
      | incl hr b =>
        rw [run_incl]
        split
        · simp
        · split
          · simp
          · rename_i f hf
            split
            · rw [hb _ _ hf]; exact ih _ _ _
            · simp
            · rename_i h; exact absurd h (ih _ _ _)
            · simp

theorem unwind_defined (hb : ∀ u f, files u = some f → f.broken = false) : ∀ (n : Nat) (st : St),
    unwind R files n st ≠ .undefined := by
  intro n
  induction n with
  | zero => intro st; simp [unwind]
  | succ n ih =>
    intro st
    rcases List.eq_nil_or_concat st.imports with he | ⟨S, ⟨u, p, path⟩, he⟩
    · rw [unwind_none _ he]; simp
    · rw [List.concat_eq_append] at he
      rw [unwind_some _ he]
      split
      · simp
      · split
        · simp
        · rename_i f hf
          split
          · rw [hb _ _ hf]; exact ih _
          · simp
          · rename_i h; exact absurd h (run_defined hb _ _ _ _)
          · simp

theorem compile_defined (hb : ∀ u f, files u = some f → f.broken = false) (n : Nat) (system : Str) (f : File) :
    compile R files n system f ≠ .undefined := by
  unfold compile
  split
  · split
    · simp
    · simp
    · rename_i h; exact absurd h (unwind_defined hb _ _)
    · simp
  · simp
  · rename_i h; exact absurd h (run_defined hb _ _ _ _)
  · simp

end Verif.XsltInclude
