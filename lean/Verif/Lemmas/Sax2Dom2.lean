import Verif.Lemmas.Sax2Dom
set_option autoImplicit false
set_option linter.unusedSimpArgs false
set_option linter.unusedVariables false
namespace Verif.Sax2Dom
open Verif.Dom (Str Kind Err upd upd_ne upd_same)
open Verif.DomNames (NsName plain)
open Verif.Clone
open Verif.SaxFilter (Ev run coalesce flush)

/-! ## streams of events -/

theorem run_append {σ : Type} (f : σ → Ev → σ × List Ev) : ∀ (x y : List Ev) (a : σ),
    run f a (x ++ y) = ((run f (run f a x).1 y).1, (run f a x).2 ++ (run f (run f a x).1 y).2)
  | [], y, a => by simp [run]
  | e :: x, y, a => by simp [run, run_append f x y, List.append_assoc]

theorem handleAll_append {C : Chars} {fuel : Nat} : ∀ (x y : List Ev) (s : St) (b : Parser),
    handleAll C fuel s b (x ++ y) = (handleAll C fuel s b x).bind fun s b => handleAll C fuel s b y
  | [], y, s, b => rfl
  | e :: x, y, s, b => by
    rw [List.cons_append, handleAll, handleAll]
    cases handle C fuel s b e with
    | ok s b => exact handleAll_append x y s b
    | failed _ => rfl
    | diverges => rfl
    | ub => rfl
    | unmodelled => rfl

/-- The events `es` go through the coalescer, with text waiting in it before and after, to the handlers. -/
def Feeds (C : Chars) (fuel : Nat) (buf : Str) (s : St) (b : Parser) (es : List Ev) (buf' : Str) (s' : St) (b' : Parser) : Prop :=
  (run coalesce buf es).1 = buf' ∧ handleAll C fuel s b (run coalesce buf es).2 = .ok s' b'

theorem Feeds.trans {C : Chars} {fuel : Nat} {buf buf1 buf2 : Str} {s s1 s2 : St} {b b1 b2 : Parser} {x y : List Ev}
    (h : Feeds C fuel buf s b x buf1 s1 b1) (k : Feeds C fuel buf1 s1 b1 y buf2 s2 b2) :
    Feeds C fuel buf s b (x ++ y) buf2 s2 b2 := by
  unfold Feeds at *
  rw [run_append, h.1]
  refine ⟨k.1, ?_⟩
  rw [handleAll_append, h.2]
  exact k.2

theorem Feeds.nil {C : Chars} {fuel : Nat} {buf : Str} {s : St} {b : Parser} : Feeds C fuel buf s b [] buf s b := ⟨rfl, rfl⟩

theorem handle_one {C : Chars} {fuel : Nat} {s s' : St} {b b' : Parser} {e : Ev} (h : handle C fuel s b e = .ok s' b') :
    handleAll C fuel s b [e] = .ok s' b' := by
  rw [handleAll, h]; rfl

/-- An event before which the text is written out. -/
theorem Feeds.event {C : Chars} {fuel : Nat} {buf : Str} {s s1 s2 : St} {b b1 b2 : Parser} {e : Ev}
    (hc : coalesce buf e = ([], flush buf ++ [e])) (h1 : handleAll C fuel s b (flush buf) = .ok s1 b1)
    (h2 : handle C fuel s1 b1 e = .ok s2 b2) : Feeds C fuel buf s b [e] [] s2 b2 := by
  unfold Feeds
  simp only [run, hc, List.append_nil]
  refine ⟨trivial, ?_⟩
  rw [handleAll_append, h1]
  exact handle_one h2

/-- An event that goes straight through. -/
theorem Feeds.straight {C : Chars} {fuel : Nat} {buf : Str} {s s1 : St} {b b1 : Parser} {e : Ev}
    (hc : coalesce buf e = (buf, [e])) (h2 : handle C fuel s b e = .ok s1 b1) : Feeds C fuel buf s b [e] buf s1 b1 := by
  unfold Feeds
  simp only [run, hc, List.append_nil]
  exact ⟨trivial, handle_one h2⟩

theorem pieces_run : ∀ (ps : Pieces) (buf : Str), run coalesce buf (pieceEvents ps) = (buf ++ Pieces.string ps, [])
  | [], buf => by simp [pieceEvents, run, Pieces.string]
  | (c, t) :: ps, buf => by
    have h : coalesce buf (if c = true then .characters t else .ignorableWhitespace t) = (buf ++ t, []) := by cases c <;> rfl
    have ih := pieces_run ps (buf ++ t)
    simp only [pieceEvents] at ih
    simp only [pieceEvents, List.map_cons, run, h, ih]
    simp [Pieces.string, List.flatMap_cons]

theorem Feeds.pieces {C : Chars} {fuel : Nat} {buf : Str} {s : St} {b : Parser} (ps : Pieces) :
    Feeds C fuel buf s b (pieceEvents ps) (buf ++ Pieces.string ps) s b := by
  unfold Feeds
  rw [pieces_run]
  exact ⟨rfl, rfl⟩

theorem Feeds.maps {C : Chars} {fuel : Nat} {buf : Str} {s : St} {b : Parser} : ∀ (l : List Ev),
    (∀ e ∈ l, (∃ p u, e = .startPrefixMapping p u) ∨ ∃ p, e = .endPrefixMapping p) → Feeds C fuel buf s b l buf s b
  | [], _ => .nil
  | e :: l, h => by
    have h1 : Feeds C fuel buf s b [e] buf s b := by
      rcases h e List.mem_cons_self with ⟨p, u, rfl⟩ | ⟨p, rfl⟩
      · exact Feeds.straight rfl rfl
      · exact Feeds.straight rfl rfl
    exact h1.trans (Feeds.maps l fun x hx => h x (List.mem_cons_of_mem _ hx))

/-! ## the entities -/

/-- The entities with their texts, below `lo`. -/
def Env (d : Nat) (es : List (Str × Str)) (V : Str → Str) (decl : List (Str × Nat)) (s : St) (lo : Nat) : Prop :=
  ∀ n v, (n, v) ∈ es → ∃ e x, lookup n decl = some e ∧ e < lo ∧ x < lo ∧ s.base.kids e = [x] ∧ s.base.kind x = .text ∧
    s.base.data x = V n ∧ s.base.kids x = [] ∧ s.base.next x = none ∧ s.base.doc x = some d

theorem Env.upto {d : Nat} {es : List (Str × Str)} {V : Str → Str} {decl : List (Str × Nat)} {s s' : St} {lo : Nat}
    (h : Env d es V decl s lo) (hu : Upto lo s s') : Env d es V decl s' lo := by
  intro n v hn
  obtain ⟨e, x, h1, h2, h3, h4, h5, h6, h7, h8, h9⟩ := h n v hn
  obtain ⟨f1, f2, f3, f4, f5, f6, f7, _⟩ := node_fields (hu x h3)
  obtain ⟨_, _, _, _, g5, _⟩ := node_fields (hu e h2)
  exact ⟨e, x, h1, h2, h3, by rw [g5]; exact h4, by rw [f1]; exact h5, by rw [f7]; exact h6, by rw [f5]; exact h7,
    by rw [f4]; exact h8, by rw [f2]; exact h9⟩

theorem Env.mono {d : Nat} {es : List (Str × Str)} {V : Str → Str} {decl : List (Str × Nat)} {s : St} {lo lo' : Nat}
    (h : Env d es V decl s lo) (hl : lo ≤ lo') : Env d es V decl s lo' := by
  intro n v hn
  obtain ⟨e, x, h1, h2, h3, h4⟩ := h n v hn
  exact ⟨e, x, h1, Nat.lt_of_lt_of_le h2 hl, Nat.lt_of_lt_of_le h3 hl, h4⟩

/-- The handlers are at the node `m`. -/
structure At (d m : Nat) (b : Parser) : Prop where
  current : b.current = some m
  document : b.document = some d
  inCDATA : b.inCDATA = false
  inEntity : b.inEntity = 0

theorem At.cached {d m : Nat} {b : Parser} (h : At d m b) (c : Option Nat) : At d m { b with cached := c } :=
  ⟨h.1, h.2, h.3, h.4⟩

/-! ## the text that waits -/

def dataTrees (k : Kind) (s : Str) : List Tree := if s = [] then [] else [leaf k s]

theorem flushed {C : Chars} {d m : Nat} {s : St} (h : F C d s m) (hk : s.base.kind m = .element) {b : Parser} (h1 : b.current = some m)
    (h2 : b.document = some d) (fuel : Nat) (buf : Str) (us : List Tree) :
    ∃ s', handleAll C fuel s b (flush buf) = .ok s' b ∧
      Fills C m s us s' (us ++ dataTrees (if b.inCDATA then .cdata else .text) buf) := by
  unfold flush dataTrees
  cases buf with
  | nil => exact ⟨s, rfl, by simpa using Fills.refl h us⟩
  | cons c t =>
    have hkk : ∃ k, (if b.inCDATA then Kind.cdata else .text) = k ∧ (k = .text ∨ k = .cdata ∨ k = .comment) := by
      cases b.inCDATA <;> simp
    obtain ⟨k, e1, e2⟩ := hkk
    obtain ⟨s', a1, a2⟩ := h.data e2 hk (c :: t) us
    refine ⟨s', ?_, by rw [e1]; simpa using a2⟩
    simp only [List.isEmpty_cons, Bool.false_eq_true, if_false]
    apply handle_one
    simp only [handle, h1, h2, e1, a1, call]

theorem flushed_text {C : Chars} {d m : Nat} {s : St} (h : F C d s m) (hk : s.base.kind m = .element) {b : Parser} (hb : At d m b)
    (fuel : Nat) (buf : Str) (us : List Tree) :
    ∃ s', handleAll C fuel s b (flush buf) = .ok s' b ∧ Fills C m s us s' (us ++ textTree buf) := by
  have := flushed h hk hb.1 hb.2 fuel buf us
  rw [hb.3] at this
  exact this

/-! ## the copy of the text of an entity -/

theorem clone_text {C : Chars} {fuel : Nat} (hf : 2 ≤ fuel) {s : St} {x : Nat} (hg : Good C s) (hx : x < s.base.size) (hk : s.base.kind x = .text)
    (hc : s.base.kids x = []) :
    Clone.cloneNode C fuel s x true = .ok (Clone.new s .text (s.base.doc x) (plain []) false (s.base.data x) [] true) s.base.size := by
  obtain ⟨f, rfl⟩ : ∃ f, fuel = f + 2 := ⟨fuel - 2, by omega⟩
  unfold Clone.cloneNode
  rw [if_neg (by rw [hk]; nofun), Clone.copyNode, if_neg (by rw [hk]; nofun)]
  have hne : x ≠ s.base.size := by omega
  obtain ⟨s1, e1⟩ : ∃ s1, s1 = Clone.new s .text (s.base.doc x) (plain []) false (s.base.data x) [] true := ⟨_, rfl⟩
  have hm : Clone.make C .clone s x = .ok s1 s.base.size := by
    unfold Clone.make; rw [hk, e1]; rfl
  obtain ⟨f1, _, _, _, f5, _⟩ := node_fields (s' := s1) (s := s) (i := x) (by rw [e1]; exact node_new hne)
  rw [hk] at f1
  rw [hc] at f5
  rw [hm, ← e1]
  simp only [Out.bind, f1, f5, reduceCtorEq, if_false, Bool.true_or, if_true, List.head?_nil, Clone.copyKids]
  unfold Clone.finish
  rw [f1]

theorem ref_cloned {C : Chars} {d m : Nat} {s : St} (h : F C d s m) (hk : s.base.kind m = .element) {fuel : Nat} (hf : 3 ≤ fuel)
    {es : List (Str × Str)} {V : Str → Str} {decl : List (Str × Nat)} (he : Env d es V decl s m) {n v : Str} (hn : (n, v) ∈ es)
    (us : List Tree) : ∃ e x s', lookup n decl = some e ∧ s.base.kids e = [x] ∧ cloneInto C fuel s m (some x) = .ok s' () ∧
      Fills C m s us s' (us ++ [leaf .text (V n)]) := by
  obtain ⟨e, x, h1, h2, h3, h4, h5, h6, h7, h8, h9⟩ := he n v hn
  obtain ⟨f, rfl⟩ : ∃ f, fuel = f + 3 := ⟨fuel - 3, by omega⟩
  have hm := h.lt
  obtain ⟨s', a1, a2⟩ := h.data (k := .text) (.inl rfl) hk (V n) us
  refine ⟨e, x, s', h1, h4, ?_, a2⟩
  rw [cloneInto, clone_text (by omega) h.good (by omega) h5 h7]
  simp only [Out.bind]
  unfold addData at a1
  rw [h9, h6, a1]
  simp only []
  rw [(node_fields (a2.l.low x h3)).2.2.2.1, h8, cloneInto]

/-! ## content -/

/-- What handling the content `is` of a node does. -/
def FillsItems (C : Chars) (fuel d : Nat) (es : List (Str × Str)) (V : Str → Str) (is : List Item) : Prop :=
  ∀ (m : Nat) (s : St) (b : Parser) (buf : Str) (us : List Tree), F C d s m → s.base.kind m = .element → At d m b →
    Env d es V b.declared s m → ∃ s' c buf' us', Feeds C fuel buf s b (itemsEvents is) buf' s' { b with cached := c } ∧
      Fills C m s us s' us' ∧ us' ++ textTree buf' = us ++ itemsTrees V buf is

def FillsItem (C : Chars) (fuel d : Nat) (es : List (Str × Str)) (V : Str → Str) (i : Item) : Prop :=
  ∀ (m : Nat) (s : St) (b : Parser) (buf : Str) (us : List Tree), F C d s m → s.base.kind m = .element → At d m b →
    Env d es V b.declared s m → ∃ s' c, Feeds C fuel buf s b (itemEvents i) [] s' { b with cached := c } ∧
      Fills C m s us s' (us ++ textTree buf ++ [itemTree V i])

theorem fills_comment {C : Chars} {fuel d : Nat} {es : List (Str × Str)} {V : Str → Str} (t : Str) : FillsItem C fuel d es V (.comment t) := by
  intro m s b buf us h hk hb he
  obtain ⟨s1, a1, a2⟩ := flushed_text h hk hb fuel buf us
  obtain ⟨s2, b1, b2⟩ := (h.step a2.l).data (k := .comment) (.inr (.inr rfl)) (by rw [a2.l.fields.1]; exact hk) t (us ++ textTree buf)
  refine ⟨s2, b.cached, ?_, a2.trans h (by simpa [itemTree] using b2)⟩
  rw [itemEvents]
  refine Feeds.event (b2 := b) rfl a1 ?_
  simp only [handle, hb.current, hb.document, b1, call]

theorem fills_pi {C : Chars} {fuel d : Nat} {es : List (Str × Str)} {V : Str → Str} {t v : Str} (ho : ItemOk C es (.pi t v)) :
    FillsItem C fuel d es V (.pi t v) := by
  intro m s b buf us h hk hb he
  rw [ItemOk] at ho
  obtain ⟨o1, o2, o3⟩ := ho
  have hc : DomNames.checkName C.name t = true := by
    unfold DomNames.checkName
    cases t with
    | nil => exact absurd rfl o1
    | cons _ _ => simpa using o2
  obtain ⟨s1, a1, a2⟩ := flushed_text h hk hb fuel buf us
  obtain ⟨s2, b1, b2⟩ := (h.step a2.l).leaf (k := .pi) (r := plain t) (data := v) rfl (by rw [a2.l.fields.1, hk]; rfl) hc
    (fun _ => rfl) (us ++ textTree buf)
  refine ⟨s2, b.cached, ?_, a2.trans h (by simpa [itemTree] using b2)⟩
  rw [itemEvents]
  refine Feeds.event (b2 := b) rfl a1 ?_
  simp only [handle, hb.current, hb.document, hc, o3, Bool.and_self, if_true, b1, call]

theorem fills_cdata {C : Chars} {fuel d : Nat} {es : List (Str × Str)} {V : Str → Str} {ps : Pieces} (ho : ItemOk C es (.cdata ps)) :
    FillsItem C fuel d es V (.cdata ps) := by
  intro m s b buf us h hk hb he
  rw [ItemOk] at ho
  obtain ⟨s1, a1, a2⟩ := flushed_text h hk hb fuel buf us
  have f1 := h.step a2.l
  obtain ⟨s2, b1, b2⟩ := flushed f1 (by rw [a2.l.fields.1]; exact hk) (b := { b with inCDATA := true }) hb.current hb.document fuel
    (Pieces.string ps) (us ++ textTree buf)
  refine ⟨s2, b.cached, ?_, a2.trans h ?_⟩
  · rw [itemEvents]
    have e1 : Feeds C fuel buf s b [.startCDATA] [] s1 { b with inCDATA := true } := Feeds.event rfl a1 rfl
    have e2 := Feeds.pieces (C := C) (fuel := fuel) (buf := []) (s := s1) (b := { b with inCDATA := true }) ps
    have e3 : Feeds C fuel (Pieces.string ps) s1 { b with inCDATA := true } [.endCDATA] [] s2 b := by
      refine Feeds.event rfl b1 ?_
      simp only [handle]
      have := hb.inCDATA
      cases b
      simp only [] at this
      subst this
      rfl
    exact (e1.trans e2).trans e3
  · simp only [dataTrees, if_neg ho, if_true] at b2
    simpa [itemTree] using b2

theorem fills_ref {C : Chars} {fuel d : Nat} (hf : 3 ≤ fuel) {es : List (Str × Str)} {V : Str → Str} {n : Str} {ps : Pieces}
    (ho : ItemOk C es (.ref n ps)) : FillsItem C fuel d es V (.ref n ps) := by
  intro m s b buf us h hk hb he
  rw [ItemOk] at ho
  obtain ⟨o1, v, o2⟩ := ho
  obtain ⟨s1, a1, a2⟩ := flushed_text h hk hb fuel buf us
  have f1 := h.step a2.l
  obtain ⟨e, x, s2, c1, c2, c3, c4⟩ := ref_cloned f1 (by rw [a2.l.fields.1]; exact hk) hf (he.upto a2.l.low) o2 (us ++ textTree buf)
  refine ⟨s2, some m, ?_, a2.trans h (by simpa [itemTree] using c4)⟩
  rw [itemEvents]
  obtain ⟨q1, q2, q3, q4⟩ := hb
  obtain ⟨bd, bt, bc, bh, bi, bj, be, bl⟩ := b
  simp only [] at q1 q2 q3 q4 c1
  subst q1 q2 q3 q4
  have e1 : Feeds C fuel buf s ⟨some d, bt, some m, bh, false, bj, 0, bl⟩ [.startEntity n] [] s1 ⟨some d, bt, none, some m, false, bj, 1, bl⟩ := by
    refine Feeds.event rfl a1 ?_
    simp [handle, c1, c2, Option.filter]
  have e2 := Feeds.pieces (C := C) (fuel := fuel) (buf := []) (s := s1) (b := ⟨some d, bt, none, some m, false, bj, 1, bl⟩) ps
  have e3 : Feeds C fuel (Pieces.string ps) s1 ⟨some d, bt, none, some m, false, bj, 1, bl⟩ [.endEntity n] [] s2 ⟨some d, bt, some m, some m, false, bj, 0, bl⟩ := by
    refine Feeds.event (s1 := s1) (b1 := ⟨some d, bt, none, some m, false, bj, 1, bl⟩) rfl ?_ ?_
    · unfold flush
      split
      · rfl
      · exact handle_one rfl
    · simp [handle, c1, c2, c3, Option.filter, o1, call]
  exact (e1.trans e2).trans e3

/-- An element that is in its place gets attributes and content. -/
theorem element_within {C : Chars} {fuel d q m : Nat} {es : List (Str × Str)} {V : Str → Str} {s1 : St} {maps : List (Str × Str)}
    {u p l : Str} {atts : List Att} {kids : List Item} (ho : ItemOk C es (.element maps u p l atts kids)) (ih : FillsItems C fuel d es V kids)
    (h : F C d s1 m) (hv : view s1 m = ⟨.element, nameOf u p l, [], [], [], [], true⟩) (hp : s1.base.parent m = some q)
    {b : Parser} (hb : At d q b) (he : Env d es V b.declared s1 m) :
    ∃ s2, addAttrs C m s1 (atts.map attEvent) = .ok s2 () ∧ ∃ s3 c,
      Feeds C fuel [] s2 { b with current := some m } (itemsEvents kids ++ [.endElement u l (qname p l)]) [] s3 { b with cached := c } ∧
      L C m s1 s3 ∧ Shows s3 (itemTree V (.element maps u p l atts kids)) m ∧ NewSpec s1 s3 := by
  rw [ItemOk] at ho
  obtain ⟨o1, o2, o3, o4, o5⟩ := ho
  simp only [view, View.mk.injEq] at hv
  obtain ⟨v1, v2, v3, v4, v5, v6, v7⟩ := hv
  obtain ⟨s2, e1, l1, k1, t1, n1⟩ := attrs_added atts [] s1 h v1 (by simpa using o3) (by simpa using o4)
    ⟨by rw [v5]; trivial, by rw [v5]; simp, by rw [v5]; rfl⟩
  have f2 := h.step l1
  have kd2 : s2.base.kind m = .element := by rw [l1.fields.1]; exact v1
  obtain ⟨s3, c, buf3, us3, e3, t3, x3⟩ := ih m s2 { b with current := some m } [] [] f2 kd2 ⟨rfl, hb.2, hb.3, hb.4⟩ (he.upto l1.low)
  have f3 := f2.step t3.l
  have kd3 : s3.base.kind m = .element := by rw [t3.l.fields.1]; exact kd2
  obtain ⟨s4, a4, t4⟩ := flushed_text f3 kd3 (b := { b with current := some m, cached := c }) ⟨rfl, hb.2, hb.3, hb.4⟩ fuel buf3 us3
  have l24 := t3.l.trans t4.l
  have l14 := l1.trans l24
  refine ⟨s2, e1, s4, c, ?_, l14, ?_, (n1.trans h.lt (t3.spec.trans f2.lt t4.spec t4.l) l24)⟩
  · refine e3.trans (Feeds.event rfl a4 ?_)
    have hpp : Dom.getParent s4.base m = some q := by
      rw [l14.good.dom.inv.getParent_eq, l14.fields.2.2.1, hp]
    simp only [handle, hpp]
    have := hb.current
    cases b
    simp only [] at this
    subst this
    rfl
  · obtain ⟨g1, _, _, _, _, g6, g7, _, _, g10, g11⟩ := l14.fields
    have hat : s4.attrs m = s2.attrs m := t4.attrs.trans t3.attrs
    rw [itemTree, Shows]
    refine ⟨by rw [g1]; exact v1, ?_, ?_, ?_, ?_, ?_⟩
    · unfold Clone.nameOf; rw [g1, v1, g7, v2]
    · unfold Clone.valueOf; rw [g1, v1]
    · unfold Clone.idsOf; rw [g1, v1]
    · have : Clone.attrsOf s4 m = s2.attrs m := by
        unfold Clone.attrsOf
        rw [hat, List.filter_eq_self]
        intro a ha
        have := f2.attrs_in a ha
        rw [(view_fields (l24.kept a this.1 this.2)).2.2.2.2.2.2]
        exact t1.spec a ha
      rw [this]
      exact L_shows f2.good f2.up l24 f2.attrs_in t1.shows
    · rw [List.nil_append] at x3
      rw [← x3]
      exact t4.shows (t3.shows (by rw [k1, v6]; trivial))

theorem fills_element {C : Chars} {fuel d : Nat} {es : List (Str × Str)} {V : Str → Str} {maps : List (Str × Str)}
    {u p l : Str} {atts : List Att} {kids : List Item} (ho : ItemOk C es (.element maps u p l atts kids)) (ih : FillsItems C fuel d es V kids) :
    FillsItem C fuel d es V (.element maps u p l atts kids) := by
  intro m s b buf us h hk hb he
  obtain ⟨s1, a1, a2⟩ := flushed_text h hk hb fuel buf us
  have f1 := h.step a2.l
  have ho' := ho
  rw [ItemOk] at ho'
  obtain ⟨o1, o2, _⟩ := ho'
  have hmade := element_made o1 o2
  obtain ⟨s2, b1, b2, b3, b4, b5, b6, b7, b8, b9, b10⟩ := f1.append (k := .element) (r := nameOf u p l) (ns := true) (data := []) (ids := [])
    (o := true) (by rw [a2.l.fields.1, hk]; rfl) hmade
  have hm := f1.lt
  have v6 := b6
  simp only [view, View.mk.injEq] at v6
  have g2 : F C d s2 s1.base.size := by
    refine ⟨b2.good, by omega, fun i j hi hj => b2.up i j (by omega) hj, by rw [v6.1]; rfl, by rw [v6.1]; nofun, b10, b9⟩
  have he2 : Env d es V b.declared s2 s1.base.size := ((he.upto a2.l.low).upto b2.low).mono (by omega)
  obtain ⟨s3, c1, s4, c, c2, c3, c4, c5⟩ := element_within ho ih g2 b6 b8 hb he2
  have l24 := L_nest b2 c3 hm (Nat.le_refl _)
  have hev : element C s1 d m u (qname p l) (atts.map attEvent) = .ok s3 s1.base.size := by
    unfold element
    rw [hmade]
    simp only [b1, Out.bind, c1]
  refine ⟨s4, c, ?_, a2.trans h ⟨l24, ?_, ?_, ?_⟩⟩
  · rw [itemEvents]
    have e0 : Feeds C fuel buf s b (maps.map (fun m => .startPrefixMapping m.1 m.2)) buf s b := by
      apply Feeds.maps
      intro e he
      obtain ⟨x, _, rfl⟩ := List.mem_map.mp he
      exact .inl ⟨_, _, rfl⟩
    have e1 : Feeds C fuel buf s b [.startElement u l (qname p l) (atts.map attEvent)] [] s3 { b with current := some s1.base.size } := by
      refine Feeds.event rfl a1 ?_
      simp only [handle, hb.current, hb.document, hev]
    have e9 : Feeds C fuel [] s4 { b with cached := c } (maps.map (fun m => .endPrefixMapping m.1)) [] s4 { b with cached := c } := by
      apply Feeds.maps
      intro e he
      obtain ⟨x, _, rfl⟩ := List.mem_map.mp he
      exact .inr ⟨_, rfl⟩
    have := (e0.trans e1).trans (c2.trans e9)
    simpa using this
  · rw [(node_fields (c3.low m hm)).2.2.2.2.2.2.2.2.2.2.1, b5]
  · intro hs
    rw [(node_fields (c3.low m hm)).2.2.2.2.1, b4]
    refine showsAll_append (L_shows f1.good f1.up l24 f1.kids_in hs) ?_
    rw [ShowsAll]
    exact ⟨c4, by simp [ShowsAll]⟩
  · intro i h1 h2
    by_cases hi : i < s2.base.size
    · have : i = s1.base.size := by omega
      subst this
      rw [c3.fields.2.2.2.2.2.2.2.2.2.1]; exact v6.2.2.2.2.2.2
    · exact c5 i (by omega) h2

theorem itemsTrees_cons {V : Str → Str} {buf : Str} {i : Item} {is : List Item} (h : ∀ ps, i ≠ .text ps) :
    itemsTrees V buf (i :: is) = textTree buf ++ itemTree V i :: itemsTrees V [] is := by
  cases i with
  | text ps => exact absurd rfl (h ps)
  | _ => rw [itemsTrees]; nofun

theorem fills_cons {C : Chars} {fuel d : Nat} {es : List (Str × Str)} {V : Str → Str} {i : Item} {is : List Item} (hi : ∀ ps, i ≠ .text ps)
    (h1 : FillsItem C fuel d es V i) (h2 : FillsItems C fuel d es V is) : FillsItems C fuel d es V (i :: is) := by
  intro m s b buf us h hk hb he
  obtain ⟨s1, c1, a1, a2⟩ := h1 m s b buf us h hk hb he
  obtain ⟨s2, c2, buf2, us2, b1, b2, b3⟩ := h2 m s1 { b with cached := c1 } [] (us ++ textTree buf ++ [itemTree V i]) (h.step a2.l)
    (by rw [a2.l.fields.1]; exact hk) (hb.cached c1) (he.upto a2.l.low)
  refine ⟨s2, c2, buf2, us2, ?_, a2.trans h b2, ?_⟩
  · rw [itemsEvents]; exact a1.trans b1
  · rw [b3, itemsTrees_cons hi]; simp

mutual

theorem fills_item {C : Chars} {fuel d : Nat} (hf : 3 ≤ fuel) {es : List (Str × Str)} {V : Str → Str} :
    (i : Item) → (∀ ps, i ≠ .text ps) → ItemOk C es i → FillsItem C fuel d es V i
  | .text ps, h, _ => absurd rfl (h ps)
  | .cdata _, _, h => fills_cdata h
  | .comment t, _, _ => fills_comment t
  | .pi _ _, _, h => fills_pi h
  | .ref _ _, _, h => fills_ref hf h
  | .element maps u p l atts kids, _, h => fills_element h (fills_items hf kids (by rw [ItemOk] at h; exact h.2.2.2.2))

theorem fills_items {C : Chars} {fuel d : Nat} (hf : 3 ≤ fuel) {es : List (Str × Str)} {V : Str → Str} :
    (is : List Item) → ItemsOk C es is → FillsItems C fuel d es V is
  | [], _ => fun m s b buf us h hk hb he =>
    ⟨s, b.cached, buf, us, by rw [itemsEvents]; exact .nil, .refl h us, by rw [itemsTrees]⟩
  | .text ps :: is, ho => fun m s b buf us h hk hb he => by
    rw [ItemsOk] at ho
    obtain ⟨s', c, buf', us', e1, e2, e3⟩ := fills_items hf is ho.2 m s b (buf ++ Pieces.string ps) us h hk hb he
    refine ⟨s', c, buf', us', ?_, e2, ?_⟩
    · rw [itemsEvents, itemEvents]
      exact (Feeds.pieces ps).trans e1
    · rw [itemsTrees]; exact e3
  | .cdata ps :: is, ho => by
    rw [ItemsOk] at ho
    exact fills_cons (by nofun) (fills_item hf _ (by nofun) ho.1) (fills_items hf is ho.2)
  | .comment t :: is, ho => by
    rw [ItemsOk] at ho
    exact fills_cons (by nofun) (fills_item hf _ (by nofun) ho.1) (fills_items hf is ho.2)
  | .pi t v :: is, ho => by
    rw [ItemsOk] at ho
    exact fills_cons (by nofun) (fills_item hf _ (by nofun) ho.1) (fills_items hf is ho.2)
  | .ref n ps :: is, ho => by
    rw [ItemsOk] at ho
    exact fills_cons (by nofun) (fills_item hf _ (by nofun) ho.1) (fills_items hf is ho.2)
  | .element maps u p l atts kids :: is, ho => by
    rw [ItemsOk] at ho
    exact fills_cons (by nofun) (fills_item hf (.element maps u p l atts kids) (by nofun) ho.1) (fills_items hf is ho.2)

end

end Verif.Sax2Dom
