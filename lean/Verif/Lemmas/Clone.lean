import Verif.Spec.Clone
import Verif.Lemmas.Dom8
set_option autoImplicit false
set_option linter.unusedSimpArgs false
set_option linter.unusedVariables false
namespace Verif.Clone
open Verif.Dom (Str Kind Err upd upd_ne upd_same)
open Verif.DomNames (NsName plain)
open Verif.Spec.Dom (Anc)

/-! ## states -/

/-- The name of a node was made by one of the calls that check names. -/
def Made (C : Chars) (k : Kind) (ns : Bool) (r : NsName) : Prop :=
  match k with
  | .element => if ns then DomNames.createElementNS C.name r.uri r.name = .ok r
      else DomNames.createElement C.name r.name = .ok r
  | .attr => if ns then DomNames.createAttributeNS C.name r.uri r.name = .ok r
      else DomNames.createElement C.name r.name = .ok r
  | .pi | .entityRef => DomNames.checkName C.name r.name = true
  | _ => True

/-- What holds after every history. -/
structure Good (C : Chars) (s : St) : Prop where
  dom : Dom.Inv2 s.base
  live : ∀ n, s.base.freed n = false
  attr : ∀ e a, a ∈ s.attrs e → e < s.base.size ∧ a < s.base.size ∧ s.base.kind e = .element ∧
    s.base.kind a = .attr ∧ s.base.doc a = s.base.doc e
  made : ∀ n, n < s.base.size → Made C (s.base.kind n) (s.isNS n) (s.nm n)
  dt : ∀ d t, s.base.dtype d = some t → d < s.base.size ∧ t < s.base.size
  root : ∀ d t, s.base.root d = some t → d < s.base.size
  ent : ∀ t e, e ∈ s.entities t → t < s.base.size ∧ e < s.base.size ∧ s.base.kind e = .entity

/-- The nodes below `lo` are as they were. -/
def Upto (lo : Nat) (s s' : St) : Prop := ∀ i, i < lo → node s' i = node s i

/-- From `lo` on children and attributes have higher numbers. -/
def Up (lo : Nat) (s : St) : Prop := ∀ i j, lo ≤ i → j ∈ s.base.kids i ∨ j ∈ s.attrs i → i < j

/-- What a tree shows of a node. -/
structure View where
  kind : Kind
  nm : NsName
  data : Str
  ids : List Str
  attrs : List Nat
  kids : List Nat
  specified : Bool

def view (s : St) (n : Nat) : View :=
  ⟨s.base.kind n, s.nm n, s.base.data n, s.ids n, s.attrs n, s.base.kids n, s.specified n⟩

theorem view_of_node {s s' : St} {i : Nat} (h : node s' i = node s i) : view s' i = view s i := by
  simp only [node, Node.mk.injEq] at h
  obtain ⟨h1, _, _, _, _, h6, _, _, _, h10, _, _, h13, _, h15, _, h17, h18, _⟩ := h
  simp only [view, View.mk.injEq]
  exact ⟨h1, h13, h10, h18, h15, h6, h17⟩

/-- A node without its children and attributes. -/
def bare (n : Node) : Node := { n with kids := [], attrs := [] }

theorem Upto.refl (lo : Nat) (s : St) : Upto lo s s := fun _ _ => rfl

theorem Upto.trans {lo : Nat} {a b c : St} (h : Upto lo a b) (k : Upto lo b c) : Upto lo a c :=
  fun i hi => (k i hi).trans (h i hi)

theorem Upto.mono {lo lo' : Nat} {a b : St} (h : Upto lo a b) (hl : lo' ≤ lo) : Upto lo' a b :=
  fun i hi => h i (Nat.lt_of_lt_of_le hi hl)

/-! ## trees shown -/

mutual

theorem shows_congr {X : Nat → Prop} {s s' : St} (hc : ∀ i, X i → ∀ j, j ∈ s.base.kids i ∨ j ∈ s.attrs i → X j)
    (hv : ∀ i, X i → view s' i = view s i) : (t : Tree) → (n : Nat) → X n → Shows s t n → Shows s' t n
  | .node k r v i as ks, n, hx, h => by
    rw [Shows] at h ⊢
    obtain ⟨h1, h2, h3, h4, h5, h6⟩ := h
    have e := hv n hx
    simp only [view, View.mk.injEq] at e
    obtain ⟨e1, e2, e3, e4, e5, e6, e7⟩ := e
    have ea : attrsOf s' n = attrsOf s n := by
      unfold attrsOf
      rw [e5]
      apply List.filter_congr
      intro a ha
      have := hv a (hc n hx a (.inr ha))
      simp only [view, View.mk.injEq] at this
      exact this.2.2.2.2.2.2
    refine ⟨by rw [e1]; exact h1, ?_, ?_, ?_, ?_, ?_⟩
    · unfold nameOf at h2 ⊢; rw [e1, e2]; exact h2
    · unfold valueOf at h3 ⊢; rw [e1, e3]; exact h3
    · unfold idsOf at h4 ⊢; rw [e1, e4]; exact h4
    · rw [ea]
      refine showsAll_congr hc hv as _ ?_ h5
      intro j hj
      exact hc n hx j (.inr (List.mem_filter.mp hj).1)
    · rw [e6]
      exact showsAll_congr hc hv ks _ (fun j hj => hc n hx j (.inl hj)) h6

theorem showsAll_congr {X : Nat → Prop} {s s' : St} (hc : ∀ i, X i → ∀ j, j ∈ s.base.kids i ∨ j ∈ s.attrs i → X j)
    (hv : ∀ i, X i → view s' i = view s i) :
    (ts : List Tree) → (ns : List Nat) → (∀ j ∈ ns, X j) → ShowsAll s ts ns → ShowsAll s' ts ns
  | [], [], _, _ => trivial
  | [], _ :: _, _, h => by simp only [ShowsAll] at h
  | _ :: _, [], _, h => by simp only [ShowsAll] at h
  | t :: ts, n :: ns, hx, h => by
    rw [ShowsAll] at h ⊢
    exact ⟨shows_congr hc hv t n (hx n List.mem_cons_self) h.1,
      showsAll_congr hc hv ts ns (fun j hj => hx j (List.mem_cons_of_mem _ hj)) h.2⟩

end

theorem showsAll_append {s : St} : ∀ {ts us : List Tree} {ns ms : List Nat}, ShowsAll s ts ns → ShowsAll s us ms →
    ShowsAll s (ts ++ us) (ns ++ ms)
  | [], us, [], ms, _, h => h
  | [], us, _ :: _, ms, h, _ => by simp only [ShowsAll] at h
  | _ :: _, us, [], ms, h, _ => by simp only [ShowsAll] at h
  | t :: ts, us, n :: ns, ms, h, k => by
    rw [ShowsAll] at h
    rw [List.cons_append, List.cons_append, ShowsAll]
    exact ⟨h.1, showsAll_append h.2 k⟩

theorem Good.closed {C : Chars} {s : St} (h : Good C s) :
    ∀ i, i < s.base.size → ∀ j, j ∈ s.base.kids i ∨ j ∈ s.attrs i → j < s.base.size := by
  intro i hi j hj
  rcases hj with hj | hj
  · exact (h.dom.inv.lt i j hj).1
  · exact (h.attr i j hj).2.1

/-- Old nodes go on showing what they showed. -/
theorem Good.shows_upto {C : Chars} {s s' : St} (h : Good C s) (hu : Upto s.base.size s s') {t : Tree} {n : Nat}
    (hn : n < s.base.size) (hs : Shows s t n) : Shows s' t n :=
  shows_congr (X := (· < s.base.size)) h.closed (fun i hi => view_of_node (hu i hi)) t n hn hs

theorem Good.showsAll_upto {C : Chars} {s s' : St} (h : Good C s) (hu : Upto s.base.size s s') {ts : List Tree}
    {ns : List Nat} (hn : ∀ n ∈ ns, n < s.base.size) (hs : ShowsAll s ts ns) : ShowsAll s' ts ns :=
  showsAll_congr (X := (· < s.base.size)) h.closed (fun i hi => view_of_node (hu i hi)) ts ns hn hs

/-! ## new nodes -/

theorem node_new {s : St} {k : Kind} {d : Option Nat} {r : NsName} {ns : Bool} {data : Str} {ids : List Str} {o : Bool}
    {i : Nat} (hi : i ≠ s.base.size) : node (new s k d r ns data ids o) i = node s i := by
  simp only [node, new, Dom.alloc, upd_ne _ _ hi]

theorem Good.no_kids {C : Chars} {s : St} (h : Good C s) : s.base.kids s.base.size = [] := by
  cases hk : s.base.kids s.base.size with
  | nil => rfl
  | cons a l =>
    have := (h.dom.inv.lt s.base.size a (by rw [hk]; exact List.mem_cons_self)).2
    exact absurd this (Nat.lt_irrefl _)

theorem Good.no_attrs {C : Chars} {s : St} (h : Good C s) : s.attrs s.base.size = [] := by
  cases hk : s.attrs s.base.size with
  | nil => rfl
  | cons a l =>
    have := (h.attr s.base.size a (by rw [hk]; exact List.mem_cons_self)).1
    exact absurd this (Nat.lt_irrefl _)

theorem node_fresh {C : Chars} {s : St} (h : Good C s) {k : Kind} {d : Option Nat} {r : NsName} {ns : Bool} {data : Str}
    {ids : List Str} {o : Bool} : node (new s k d r ns data ids o) s.base.size =
      ⟨k, d, none, none, none, [], false, o, false, data, none, none, r, ns, [], none, true, ids, []⟩ := by
  have hp := h.dom.inv.fresh_parent
  have ho := h.dom.inv.wf.orph _ hp
  have hk := h.no_kids
  have hr : s.base.root s.base.size = none := by
    cases e : s.base.root s.base.size with
    | none => rfl
    | some t => exact absurd (h.root _ t e) (Nat.lt_irrefl _)
  have hd : s.base.dtype s.base.size = none := by
    cases e : s.base.dtype s.base.size with
    | none => rfl
    | some t => exact absurd (h.dt _ t e).1 (Nat.lt_irrefl _)
  have hf := h.live s.base.size
  simp only [node, new, Dom.alloc, upd_same, hp, ho.1, ho.2, hk, hr, hd, hf]

theorem new_size {s : St} {k : Kind} {d : Option Nat} {r : NsName} {ns : Bool} {data : Str} {ids : List Str} {o : Bool} :
    (new s k d r ns data ids o).base.size = s.base.size + 1 := rfl

/-- A new node of a document. -/
theorem Good.new {C : Chars} {s : St} (h : Good C s) {k : Kind} {d : Option Nat} {r : NsName} {ns : Bool} {data : Str}
    {ids : List Str} {o : Bool} (h1 : d = none → k = .doctype) (h2 : k = .document → d = some s.base.size)
    (h3 : ∀ e, d = some e → (e = s.base.size ∧ k = .document) ∨ (e < s.base.size ∧ s.base.kind e = .document))
    (h4 : Made C k ns r) : Good C (new s k d r ns data ids o) := by
  have hi := Dom.alloc_inv h.dom.inv k d data o false h1 h2 h3
  refine ⟨Dom.alloc_inv2 h.dom k d data o false hi, h.live, ?_, ?_, ?_, ?_, ?_⟩
  · intro e a ha
    have ha : a ∈ upd s.attrs s.base.size [] e := ha
    by_cases he : e = s.base.size
    · subst he; rw [upd_same] at ha; cases ha
    · rw [upd_ne _ _ he] at ha
      obtain ⟨a1, a2, a3, a4, a5⟩ := h.attr e a ha
      have ea : a ≠ s.base.size := Nat.ne_of_lt a2
      refine ⟨Nat.lt_succ_of_lt a1, Nat.lt_succ_of_lt a2, ?_, ?_, ?_⟩
      · show upd s.base.kind s.base.size k e = _; rw [upd_ne _ _ he]; exact a3
      · show upd s.base.kind s.base.size k a = _; rw [upd_ne _ _ ea]; exact a4
      · show upd s.base.doc s.base.size d a = upd s.base.doc s.base.size d e
        rw [upd_ne _ _ ea, upd_ne _ _ he]; exact a5
  · intro n hn
    show Made C (upd s.base.kind s.base.size k n) (upd s.isNS s.base.size ns n) (upd s.nm s.base.size r n)
    by_cases he : n = s.base.size
    · subst he; simp only [upd_same]; exact h4
    · rw [upd_ne _ _ he, upd_ne _ _ he, upd_ne _ _ he]
      have hn : n < s.base.size + 1 := hn
      exact h.made n (by omega)
  · intro d t hd
    have := h.dt d t hd
    exact ⟨Nat.lt_succ_of_lt this.1, Nat.lt_succ_of_lt this.2⟩
  · intro d t hd; exact Nat.lt_succ_of_lt (h.root d t hd)
  · intro t e he
    have he : e ∈ upd s.entities s.base.size [] t := he
    by_cases ht : t = s.base.size
    · subst ht; rw [upd_same] at he; cases he
    · rw [upd_ne _ _ ht] at he
      obtain ⟨a1, a2, a3⟩ := h.ent t e he
      refine ⟨Nat.lt_succ_of_lt a1, Nat.lt_succ_of_lt a2, ?_⟩
      show upd s.base.kind s.base.size k e = _
      rw [upd_ne _ _ (Nat.ne_of_lt a2)]; exact a3

theorem Good.with_base {C : Chars} {s : St} (h : Good C s) {b : Dom.St} (h2 : Dom.Inv2 b) (hs : b.size = s.base.size)
    (hk : b.kind = s.base.kind) (hf : b.freed = s.base.freed) (hd : ∀ n, s.base.doc n ≠ none → b.doc n = s.base.doc n)
    (hdt : b.dtype = s.base.dtype) (hr : b.root = s.base.root) : Good C { s with base := b } := by
  refine ⟨h2, ?_, ?_, ?_, ?_, ?_, ?_⟩
  · intro n; show b.freed n = false; rw [hf]; exact h.live n
  · intro e a ha
    obtain ⟨a1, a2, a3, a4, a5⟩ := h.attr e a ha
    show e < b.size ∧ a < b.size ∧ b.kind e = _ ∧ b.kind a = _ ∧ b.doc a = b.doc e
    rw [hs, hk]
    have n1 : s.base.doc a ≠ none := by intro e; have := h.dom.inv.nodoc a a2 e; rw [this] at a4; cases a4
    refine ⟨a1, a2, a3, a4, ?_⟩
    rw [hd a n1, hd e (by rw [← a5]; exact n1), a5]
  · intro n hn
    show Made C (b.kind n) (s.isNS n) (s.nm n)
    rw [hk]
    have hn : n < b.size := hn
    exact h.made n (by omega)
  · intro d t e
    show d < b.size ∧ t < b.size
    have e : b.dtype d = some t := e
    rw [hdt] at e; rw [hs]; exact h.dt d t e
  · intro d t e
    show d < b.size
    have e : b.root d = some t := e
    rw [hr] at e; rw [hs]; exact h.root d t e
  · intro t e he
    show t < b.size ∧ e < b.size ∧ b.kind e = _
    rw [hs, hk]; exact h.ent t e he

end Verif.Clone
