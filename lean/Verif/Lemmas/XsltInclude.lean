import Verif.Spec.XsltInclude
import Verif.Lemmas.XsltPrecedence
set_option autoImplicit false
set_option linter.unusedSimpArgs false
set_option linter.unusedVariables false
namespace Verif.XsltInclude
open Verif.Xslt (Precedence initialPrecedence nextGeneration precLt precLt_append precLt_cons precLt_nil_right)
open Verif.Spec.XsltInclude (Piece under Inlines ITree ITrees declsOf importsOf Imports Sheet postorder postorders
  Bare Only)

def curBase (st : St) : Str := top (locate st)

theorem locate_locate (st : St) : locate (locate st) = locate st := by
  unfold locate; split <;> simp_all

theorem curBase_locate (st : St) : curBase (locate st) = curBase st := by
  unfold curBase; rw [locate_locate]

theorem locate_fields (st : St) : (locate st).prec = st.prec ∧ (locate st).includes = st.includes ∧
    (locate st).imports = st.imports ∧ (locate st).out = st.out ∧ (locate st).depth = st.depth ∧
    (locate st).baseSet = true := by
  unfold locate; split <;> simp_all

theorem locate_set {st : St} (h : st.baseSet = true) : locate st = st := by simp [locate, h]

theorem open_fields (R : Str → Str → Str) (b : Option Str) (st : St) :
    (openElement R b st).prec = st.prec ∧ (openElement R b st).includes = st.includes ∧
    (openElement R b st).imports = st.imports ∧ (openElement R b st).out = st.out ∧
    (openElement R b st).depth = st.depth + 1 ∧ (openElement R b st).baseSet = st.baseSet ∧
    top (openElement R b st) = under R (top st) b := by
  unfold openElement
  cases b with
  | none => simp [under, top]
  | some b => by_cases h : b = [] <;> simp [h, under, top]

theorem close_fields (st : St) :
    (closeElement st).prec = st.prec ∧ (closeElement st).includes = st.includes ∧
    (closeElement st).imports = st.imports ∧ (closeElement st).out = st.out ∧
    (closeElement st).depth = st.depth - 1 ∧ (closeElement st).baseSet = st.baseSet := by
  unfold closeElement
  split
  · simp
  · split <;> simp

theorem close_bases {st : St} (h : ∀ x, st.bases.head? = some x → x.1 ≠ st.depth) :
    (closeElement st).bases = st.bases := by
  unfold closeElement
  cases hb : st.bases with
  | nil => simp [hb]
  | cons x xs => have := h x (by simp [hb]); simp [this]

theorem enter_fields (R : Str → Str → Str) (u : Str) (p : Precedence) (f : File) (st : St) :
    (enter R u p f st).prec = p ∧ (enter R u p f st).includes = st.includes ++ [u] ∧
    (enter R u p f st).imports = st.imports ∧ (enter R u p f st).out = st.out ∧
    (enter R u p f st).depth = st.depth + 1 ∧ curBase (enter R u p f st) = under R u f.base := by
  have h := open_fields R f.base { setBase u (locate st) with includes := st.includes ++ [u], prec := p }
  have l := locate_fields st
  unfold enter
  refine ⟨h.1, h.2.1, ?_, ?_, ?_, ?_⟩
  · rw [h.2.2.1]; exact l.2.2.1
  · rw [h.2.2.2.1]; exact l.2.2.2.1
  · rw [h.2.2.2.2.1]; show (locate st).depth + 1 = _; rw [l.2.2.2.2.1]
  · unfold curBase
    rw [locate_set (by rw [h.2.2.2.2.2.1]; rfl), h.2.2.2.2.2.2]
    rfl

theorem leave_fields (prev : Str) (st : St) :
    (leave prev st).prec = st.prec ∧ (leave prev st).includes = st.includes.dropLast ∧
    (leave prev st).imports = st.imports ∧ (leave prev st).out = st.out ∧
    (leave prev st).depth = st.depth - 1 ∧ (leave prev st).baseSet = true ∧
    (leave prev st).bases.head? = some (-1, prev) := by
  have c := close_fields st
  have l := locate_fields (closeElement st)
  unfold leave
  simp only [setBase]
  refine ⟨by rw [l.1, c.1], by rw [c.2.1], by rw [l.2.2.1, c.2.2.1], by rw [l.2.2.2.1, c.2.2.2.1], by rw [l.2.2.2.2.1, c.2.2.2.2.1], trivial, rfl⟩

theorem leave_imports (prev : Str) (st : St) : (leave prev st).imports = st.imports := (leave_fields prev st).2.2.1

theorem top_head {st : St} {x : Int × Str} (h : st.bases.head? = some x) : top st = x.2 := by
  unfold top
  cases hb : st.bases with
  | nil => rw [hb] at h; cases h
  | cons y ys => rw [hb] at h; simp at h; rw [h]

/-- The state between items of a file with this base and this path. -/
structure G (first : Bool) (st : St) (base : Str) (path : List Str) : Prop where
  base : curBase st = base
  incl : st.includes = path
  deep : first = true → 0 ≤ st.depth ∧ ∀ x, st.bases.head? = some x → x.1 < 0

def prep (R : Str → Str → Str) (first : Bool) (b : Option Str) (st : St) : St :=
  locate (if first then openElement R b st else st)

def fin (first : Bool) (st : St) : St := if first then closeElement st else st

theorem prep_fields (R : Str → Str → Str) (first : Bool) (b : Option Str) (st : St) :
    (prep R first b st).prec = st.prec ∧ (prep R first b st).includes = st.includes ∧
    (prep R first b st).imports = st.imports ∧ (prep R first b st).out = st.out ∧
    (prep R first b st).depth = (if first then st.depth + 1 else st.depth) ∧ (prep R first b st).baseSet = true := by
  unfold prep
  cases first with
  | true =>
    have l := locate_fields (openElement R b st)
    have o := open_fields R b st
    simp only [if_true]
    exact ⟨by rw [l.1, o.1], by rw [l.2.1, o.2.1], by rw [l.2.2.1, o.2.2.1], by rw [l.2.2.2.1, o.2.2.2.1],
      by rw [l.2.2.2.2.1, o.2.2.2.2.1], l.2.2.2.2.2⟩
  | false => simpa using locate_fields st

theorem prep_base (R : Str → Str → Str) (first : Bool) (st : St) : top (prep R first none st) = curBase st := by
  cases first with
  | false => rfl
  | true =>
    simp only [prep, if_true, openElement, curBase, locate]
    split <;> rfl

theorem prep_head (R : Str → Str → Str) (st : St) (h : ∀ x, st.bases.head? = some x → x.1 < 0) :
    ∀ x, (prep R true none st).bases.head? = some x → x.1 < 0 := by
  simp only [prep, if_true, openElement, locate]
  split
  · exact h
  · intro x hx
    simp at hx
    rw [← hx]; exact (by decide : (-1 : Int) < 0)

theorem fin_fields (first : Bool) (st : St) :
    (fin first st).prec = st.prec ∧ (fin first st).includes = st.includes ∧
    (fin first st).imports = st.imports ∧ (fin first st).out = st.out ∧
    (fin first st).depth = (if first then st.depth - 1 else st.depth) ∧ (fin first st).baseSet = st.baseSet := by
  unfold fin
  cases first with
  | true => simpa using close_fields st
  | false => simp

/-- Closing leaves the base when it was not set by the element. -/
theorem fin_G {first : Bool} {st : St} {base : Str} {path : List Str} (hs : st.baseSet = true) (ht : top st = base)
    (hp : st.includes = path) (hd : first = true → 1 ≤ st.depth ∧ ∀ x, st.bases.head? = some x → x.1 < 0) :
    G first (fin first st) base path := by
  have c := fin_fields first st
  have hb : (fin first st).bases = st.bases := by
    unfold fin
    split
    · rename_i h
      refine close_bases fun x hx => ?_
      have := hd h
      have := this.2 x hx
      omega
    · rfl
  refine ⟨?_, by rw [c.2.1, hp], fun h => ?_⟩
  · unfold curBase
    rw [locate_set (by rw [c.2.2.2.2.2, hs]), ← ht]
    unfold top; rw [hb]
  · have := hd h
    rw [hb, c.2.2.2.2.1, if_pos h]
    exact ⟨by omega, this.2⟩

/-- The stack entries for some imports. -/
def stamps (p : Precedence) : List (Str × List Str) → List (Str × Precedence × List Str)
  | [] => []
  | (u, path) :: r => (u, (nextGeneration p).2, path) :: stamps (nextGeneration p).1 r

def later (p : Precedence) (n : Nat) : Precedence := ⟨p.prec, p.children + n⟩

theorem stamps_append (p : Precedence) (a b : List (Str × List Str)) :
    stamps p (a ++ b) = stamps p a ++ stamps (later p a.length) b := by
  induction a generalizing p with
  | nil => simp [stamps, later]
  | cons x a ih =>
    obtain ⟨u, path⟩ := x
    simp only [List.cons_append, stamps, ih, List.length_cons]
    congr 3
    simp only [later, nextGeneration]
    congr 1
    omega

theorem declsOf_append (a b : List Piece) : declsOf (a ++ b) = declsOf a ++ declsOf b := by
  induction a with
  | nil => rfl
  | cons x a ih => cases x <;> simp [declsOf, ih]

theorem importsOf_append (a b : List Piece) : importsOf (a ++ b) = importsOf a ++ importsOf b := by
  induction a with
  | nil => rfl
  | cons x a ih => cases x <;> simp [importsOf, ih]

def marked (p : List Int) (ds : List (Nat × Str)) : List (Nat × List Int × Str) := ds.map fun d => (d.1, p, d.2)

structure After (st st' : St) (ps : List Piece) : Prop where
  out : st'.out = st.out ++ marked st.prec.prec (declsOf ps)
  prec : st'.prec = later st.prec (importsOf ps).length
  imports : st'.imports = st.imports ++ stamps st.prec (importsOf ps)
  depth : st'.depth = st.depth

theorem After.comp {a b c : St} {ps qs : List Piece} (h1 : After a b ps) (h2 : After b c qs) :
    After a c (ps ++ qs) := by
  refine ⟨?_, ?_, ?_, by rw [h2.depth, h1.depth]⟩
  · rw [h2.out, h1.out, h1.prec, declsOf_append]
    simp [marked, later]
  · rw [h2.prec, h1.prec, importsOf_append]
    simp only [later, List.length_append]
    congr 1; omega
  · rw [h2.imports, h1.imports, h1.prec, importsOf_append, stamps_append, List.append_assoc]

variable {R : Str → Str → Str} {files : Str → Option File}

theorem bare_tail {x : Item} {r : List Item} (h : Bare (x :: r)) : Bare r :=
  ⟨fun a b hm => h.1 a b (List.mem_cons_of_mem _ hm), fun a b hm => h.2 a b (List.mem_cons_of_mem _ hm)⟩

def Bares (files : Str → Option File) : Prop := ∀ u f, files u = some f → Bare f.items

def afterImport (R : Str → Str → Str) (first : Bool) (h : Str) (b : Option Str) (st : St) : St :=
  let st := prep R first b st
  fin first { st with
      prec := (nextGeneration st.prec).1
      imports := st.imports ++ [(R (top st) h, (nextGeneration st.prec).2, st.includes)] }

theorem run_impt (first : Bool) (n : Nat) (st : St) (h : Str) (b : Option Str) (rest : List Item) :
    runItems R files first (n + 1) st (.impt h b :: rest)
      = runItems R files first n (afterImport R first h b st) rest := by
  rw [runItems]; rfl

theorem afterImport_G {first : Bool} {st : St} {base : Str} {path : List Str} (h : Str) (g : G first st base path) :
    G first (afterImport R first h none st) base path ∧
      After st (afterImport R first h none st) [.impt (R base h) path] := by
  have p := prep_fields R first none st
  unfold afterImport
  simp only []
  refine ⟨fin_G p.2.2.2.2.2 (by rw [← g.base]; exact prep_base R first st) (by rw [← g.incl]; exact p.2.1) ?_, ?_⟩
  · intro hf
    subst hf
    refine ⟨?_, prep_head R st (g.deep rfl).2⟩
    show 1 ≤ (prep R true none st).depth
    rw [p.2.2.2.2.1]
    have := (g.deep rfl).1
    simp; omega
  · have c := fin_fields first { prep R first none st with
      prec := (nextGeneration (prep R first none st).prec).1
      imports := (prep R first none st).imports ++ [(R (top (prep R first none st)) h,
        (nextGeneration (prep R first none st).prec).2, (prep R first none st).includes)] }
    refine ⟨?_, ?_, ?_, ?_⟩
    · rw [c.2.2.2.1]; simp [declsOf, marked, p.2.2.2.1]
    · rw [c.1]; simp [p.1, importsOf, later, nextGeneration]
    · rw [c.2.2.1]
      simp only [p.2.2.1, p.1, p.2.1, prep_base, g.base, g.incl, importsOf, stamps]
    · rw [c.2.2.2.2.1]
      simp only [p.2.2.2.2.1]
      cases first <;> simp

/-- After an included file. -/
theorem leave_G {first : Bool} {st st1 : St} {base : Str} {path : List Str} {u : Str} {f : File} {qs : List Piece}
    (g : G first st base path) (hp : G false st1 (under R u f.base) (path ++ [u]))
    (h : After (enter R u (prep R first none st).prec f (prep R first none st)) st1 qs) :
    G first (fin first (leave (top (prep R first none st)) st1)) base path ∧
      After st (fin first (leave (top (prep R first none st)) st1)) qs := by
  have p := prep_fields R first none st
  have l := leave_fields (top (prep R first none st)) st1
  have e := enter_fields R u (prep R first none st).prec f (prep R first none st)
  have c := fin_fields first (leave (top (prep R first none st)) st1)
  have hd : (leave (top (prep R first none st)) st1).depth = if first then st.depth + 1 else st.depth := by
    rw [l.2.2.2.2.1, h.depth, e.2.2.2.2.1, p.2.2.2.2.1]
    cases first <;> simp <;> omega
  refine ⟨fin_G l.2.2.2.2.2.1 ?_ ?_ ?_, ?_, ?_, ?_, ?_⟩
  · rw [top_head l.2.2.2.2.2.2, prep_base, g.base]
  · rw [l.2.1, hp.incl]; simp
  · intro hf
    subst hf
    refine ⟨?_, ?_⟩
    · rw [hd]; have := (g.deep rfl).1; simp; omega
    · intro x hx; rw [l.2.2.2.2.2.2] at hx; cases hx; exact (by decide : (-1 : Int) < 0)
  · rw [c.2.2.2.1, l.2.2.2.1, h.out, e.2.2.2.1, p.2.2.2.1, e.1, p.1]
  · rw [c.1, l.1, h.prec, e.1, p.1]
  · rw [c.2.2.1, l.2.2.1, h.imports, e.2.2.1, p.2.2.1, e.1, p.1]
  · rw [c.2.2.2.2.1, hd]; cases first <;> simp

theorem enter_G (u : Str) (p : Precedence) (f : File) {st : St} {path : List Str} (h : st.includes = path) :
    G false (enter R u p f st) (under R u f.base) (path ++ [u]) := by
  have e := enter_fields R u p f st
  exact ⟨e.2.2.2.2.2, by rw [e.2.1, h], fun h => by cases h⟩

theorem run_incl (first : Bool) (n : Nat) (st : St) (h : Str) (b : Option Str) (rest : List Item) :
    runItems R files first (n + 1) st (.incl h b :: rest)
      = (if R (top (prep R first b st)) h ∈ (prep R first b st).includes then .error else
          match files (R (top (prep R first b st)) h) with
          | none => .error
          | some f =>
            match runItems R files false n
                (enter R (R (top (prep R first b st)) h) (prep R first b st).prec f (prep R first b st)) f.items with
            | .done st' =>
              if f.broken then fails (hasIncl f.items) else
              runItems R files first n (fin first (leave (top (prep R first b st)) st')) rest
            | .error => .error
            | .undefined => .undefined
            | .more => .more) := by
  rw [runItems]; rfl

theorem fails_done {α : Type} (b : Bool) (a : α) : fails b ≠ Res.done a := by
  unfold fails; split <;> simp

theorem fails_more {α : Type} (b : Bool) : (fails b : Res α) ≠ .more := by
  unfold fails; split <;> simp

theorem emit_G {first : Bool} {st : St} {base : Str} {path : List Str} (n : Nat) (g : G first st base path) :
    G first { st with out := st.out ++ [(n, st.prec.prec, top (locate st))] } base path ∧
      After st { st with out := st.out ++ [(n, st.prec.prec, top (locate st))] } [.decl n base] := by
  refine ⟨⟨?_, g.incl, g.deep⟩, ?_, ?_, ?_, rfl⟩
  · rw [← g.base]
    simp only [curBase, locate]
    split <;> rfl
  · have := g.base
    simp only [curBase] at this
    simp [declsOf, marked, this]
  · simp [importsOf, later]
  · simp [importsOf, stamps]

theorem sound (hb : Bares files) : ∀ (n : Nat) (first : Bool) (st : St) (items : List Item) (st' : St) (base : Str)
    (path : List Str), Bare items → G first st base path → runItems R files first n st items = .done st' →
    ∃ ps, Inlines R files path base items ps ∧ G first st' base path ∧ After st st' ps := by
  intro n
  induction n with
  | zero => intro first st items st' base path _ _ h; simp [runItems] at h
  | succ n ih =>
    intro first st items st' base path hi g h
    cases items with
    | nil =>
      simp only [runItems, Res.done.injEq] at h
      subst h
      exact ⟨[], .nil _ _, g, by simp [declsOf, marked], by simp [importsOf, later], by simp [importsOf, stamps], rfl⟩
    | cons x rest =>
      have hi' := bare_tail hi
      cases x with
      | decl k =>
        rw [runItems] at h
        obtain ⟨g1, a1⟩ := emit_G k g
        obtain ⟨ps, h1, h2, h3⟩ := ih _ _ _ _ _ _ hi' g1 h
        exact ⟨.decl k base :: ps, .decl _ _ _ _ _ h1, h2, a1.comp h3⟩
      | impt hr b =>
        obtain rfl := hi.2 hr b List.mem_cons_self
        rw [run_impt] at h
        obtain ⟨g1, a1⟩ := afterImport_G hr g
        obtain ⟨ps, h1, h2, h3⟩ := ih _ _ _ _ _ _ hi' g1 h
        exact ⟨.impt (R base hr) path :: ps, .impt _ _ _ none _ _ h1, h2, a1.comp h3⟩
      | incl hr b =>
        obtain rfl := hi.1 hr b List.mem_cons_self
        have p := prep_fields R first none st
        have e := prep_base R first st
        rw [run_incl, e, g.base, p.2.1, g.incl] at h
        split at h
        · cases h
        · rename_i hu
          split at h
          · cases h
          · rename_i f hf
            split at h
            · rename_i st1 h1
              split at h
              · exact absurd h (fails_done _ _)
              · rename_i hbr
                obtain ⟨qs, i1, g1, a1⟩ := ih _ _ _ _ _ _ (hb _ _ hf) (enter_G _ _ f (by rw [p.2.1, g.incl])) h1
                obtain ⟨g2, a2⟩ := leave_G g g1 a1
                rw [e, g.base] at g2 a2
                obtain ⟨ps, i2, g3, a3⟩ := ih _ _ _ _ _ _ hi' g2 h
                exact ⟨qs ++ ps, .incl path base hr none rest qs ps f hu hf (by simpa using hbr) i1 i2, g3, a2.comp a3⟩
            · cases h
            · cases h
            · cases h

theorem mono1 : ∀ (n : Nat) (first : Bool) (st : St) (items : List Item) (r : Res St),
    runItems R files first n st items = r → r ≠ .more → runItems R files first (n + 1) st items = r := by
  intro n
  induction n with
  | zero => intro first st items r h hr; rw [runItems] at h; exact absurd h.symm hr
  | succ n ih =>
    intro first st items r h hr
    cases items with
    | nil => rw [runItems] at h ⊢; exact h
    | cons x rest =>
      cases x with
      | decl k => rw [runItems] at h ⊢; exact ih _ _ _ _ h hr
      | impt hr' b => rw [run_impt] at h ⊢; exact ih _ _ _ _ h hr
      | incl hr' b =>
        rw [run_incl] at h ⊢
        split
        · rename_i hu; rw [if_pos hu] at h; exact h
        · rename_i hu
          rw [if_neg hu] at h
          split
          · rename_i hf; rw [hf] at h; exact h
          · rename_i f hf
            rw [hf] at h
            simp only [] at h
            cases hq : runItems R files false n (enter R (R (top (prep R first b st)) hr') (prep R first b st).prec f
                (prep R first b st)) f.items with
            | more => rw [hq] at h; exact absurd h.symm hr
            | done st1 =>
              rw [ih _ _ _ _ hq (by simp)]
              rw [hq] at h
              simp only [] at h ⊢
              split
              · rename_i hbr; rw [if_pos hbr] at h; exact h
              · rename_i hbr; rw [if_neg hbr] at h; exact ih _ _ _ _ h hr
            | error => rw [ih _ _ _ _ hq (by simp)]; rw [hq] at h; exact h
            | undefined => rw [ih _ _ _ _ hq (by simp)]; rw [hq] at h; exact h

theorem mono {n m : Nat} (hnm : n ≤ m) {first : Bool} {st : St} {items : List Item} {r : Res St}
    (h : runItems R files first n st items = r) (hr : r ≠ .more) : runItems R files first m st items = r := by
  induction hnm with
  | refl => exact h
  | step _ ih => exact mono1 _ _ _ _ _ ih hr

theorem unwind_none (n : Nat) {st : St} (h : st.imports = []) : unwind R files (n + 1) st = .done st := by
  rw [unwind]; simp [h]

/-- One import. -/
theorem unwind_some (n : Nat) {st : St} {S : List (Str × Precedence × List Str)} {u : Str} {p : Precedence}
    {path : List Str} (h : st.imports = S ++ [(u, p, path)]) :
    unwind R files (n + 1) st
      = (if u ∈ path then .error else
          match files u with
          | none => .error
          | some f =>
            match runItems R files false n (enter R u p f { st with includes := path }) f.items with
            | .done st' =>
              if f.broken then fails (decide (st.imports.length < st'.imports.length)) else
              unwind R files n { leave (top (locate { st with includes := path })) st' with
                imports := st'.imports.eraseIdx S.length }
            | .error => .error
            | .undefined => .undefined
            | .more => .more) := by
  have hl : st.imports.getLast? = some (u, p, path) := by rw [h]; simp
  have hn : st.imports.length - 1 = S.length := by rw [h]; simp
  rw [unwind]
  simp only [hl, hn, leave_imports]
  rfl

theorem umono1 : ∀ (n : Nat) (st : St) (r : Res St),
    unwind R files n st = r → r ≠ .more → unwind R files (n + 1) st = r := by
  intro n
  induction n with
  | zero => intro st r h hr; rw [unwind] at h; exact absurd h.symm hr
  | succ n ih =>
    intro st r h hr
    rcases List.eq_nil_or_concat st.imports with he | ⟨S, ⟨u, p, path⟩, he⟩
    · rw [unwind_none _ he] at h ⊢; exact h
    · rw [List.concat_eq_append] at he
      rw [unwind_some _ he] at h ⊢
      split
      · rename_i hu; rw [if_pos hu] at h; exact h
      · rename_i hu
        rw [if_neg hu] at h
        split
        · rename_i hf; rw [hf] at h; exact h
        · rename_i f hf
          rw [hf] at h
          simp only [] at h
          cases hq : runItems R files false n (enter R u p f { st with includes := path }) f.items with
          | more => rw [hq] at h; exact absurd h.symm hr
          | done st1 =>
            rw [mono1 _ _ _ _ _ hq (by simp)]
            rw [hq] at h
            simp only [] at h ⊢
            split
            · rename_i hbr; rw [if_pos hbr] at h; exact h
            · rename_i hbr; rw [if_neg hbr] at h; exact ih _ _ h hr
          | error => rw [mono1 _ _ _ _ _ hq (by simp)]; rw [hq] at h; exact h
          | undefined => rw [mono1 _ _ _ _ _ hq (by simp)]; rw [hq] at h; exact h

theorem umono {n m : Nat} (hnm : n ≤ m) {st : St} {r : Res St}
    (h : unwind R files n st = r) (hr : r ≠ .more) : unwind R files m st = r := by
  induction hnm with
  | refl => exact h
  | step _ ih => exact umono1 _ _ _ ih hr

end Verif.XsltInclude
