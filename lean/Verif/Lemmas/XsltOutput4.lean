import Verif.Lemmas.XsltOutput3
set_option autoImplicit false
set_option linter.unusedSimpArgs false
set_option linter.unusedVariables false
/-! Lemmas about the output: what single calls do, and what whole sequences of instructions do. -/
namespace Verif.Xslt
open Verif.Spec.XsltOutput

/-- The end of a CDATA section, if one is open. -/
def closing (s : Out) : List Event := if s.pendingText ∧ isCDATA s then [.endCDATA] else []

theorem flushElement_off (s : Out) (h : s.pendingElement = false) : flushElement s = s := by
  rw [flushElement, if_pos (Or.inl h)]

theorem flushCurrent_idle (s : Out) (h : s.pendingElement = false) :
    flushCurrent s = { s with pendingText := false, out := s.out ++ closing s } := by
  rw [flushCurrent]
  by_cases hp : s.pendingText
  · by_cases hc : isCDATA s
    · have e : (if s.pendingText then { (if isCDATA s then emit .endCDATA s else s) with pendingText := false }
          else s) = { s with pendingText := false, out := s.out ++ closing s } := by
        simp [hp, hc, emit, closing]
      rw [e, flushElement_off _ (by simpa using h)]
    · have e : (if s.pendingText then { (if isCDATA s then emit .endCDATA s else s) with pendingText := false }
          else s) = { s with pendingText := false, out := s.out ++ closing s } := by
        simp [hp, hc, emit, closing]
      rw [e, flushElement_off _ (by simpa using h)]
  · have e : (if s.pendingText then { (if isCDATA s then emit .endCDATA s else s) with pendingText := false }
        else s) = { s with pendingText := false, out := s.out ++ closing s } := by
      have hp : s.pendingText = false := by simpa using hp
      cases s
      simp only at hp
      simp [hp, closing]
    rw [e, flushElement_off _ (by simpa using h)]

/-- The attributes of a start tag. -/
def tagAtts (s : Out) : List OAttr :=
  if s.wantDecs then s.atts ++ nsDeclarations s.ns ++ nsDeclarations (nsPop s.ns) else s.atts

theorem flushElement_pend (s : Out) (h : Pend s) (q : QN) (u : Str) (els : List (QN × Str))
    (he : s.elements = (q, u) :: els) :
    flushElement s = { s with atts := tagAtts s, ns := nsPop s.ns, pendingElement := false,
                              out := s.out ++ [.startElement q u (tagAtts s)] } := by
  rw [flushElement, if_neg (by simp [h.pe, h.pa]), if_neg (by simp [h.tm])]
  cases hw : s.wantDecs <;> simp [he, emit, tagAtts, hw]

theorem flushCurrent_pend (s : Out) (h : Pend s) : flushCurrent s = flushElement s := by
  rw [flushCurrent]; simp [h.pt]

theorem closing_read (s : Out) (o : List QN) : readTags o (closing s) = some ([], o) := by
  unfold closing; split <;> simp [readTags]

theorem closing_readEvents (s : Out) (o : Open) : readEvents o (closing s) = some ([], o) := by
  unfold closing; split <;> simp [readEvents, readEvent]

/-- The expanded names of the open elements. -/
def stk (s : Out) : List (Str × Str) := s.elements.map fun e => (e.2, e.1.2)

/-- Whether a CDATA section is open. -/
def isOpen (s : Out) : Bool := s.pendingText && isCDATA s

theorem isCDATA_listed (s : Out) : isCDATA s = listed s.cdata (stk s) := by
  unfold isCDATA stk
  cases s.elements <;> rfl

theorem sections_append (cd : List (Str × Str)) (x y z : List (Str × Str) × Bool) (e1 e2 : List Event)
    (h1 : sections cd x e1 = some y) (h2 : sections cd y e2 = some z) : sections cd x (e1 ++ e2) = some z := by
  induction e1 generalizing x with
  | nil => simp only [sections, Option.some.injEq] at h1; subst h1; simpa using h2
  | cons e es ih =>
    rw [sections] at h1
    rw [List.cons_append, sections]
    cases he : section1 cd x e with
    | none => simp [he] at h1
    | some w => simp only [he] at h1 ⊢; exact ih w h1

theorem closing_sections (s : Out) (cd : List (Str × Str)) :
    sections cd (stk s, isOpen s) (closing s) = some (stk s, false) := by
  unfold closing isOpen
  by_cases h1 : s.pendingText
  · by_cases h2 : isCDATA s
    · simp [h1, h2, sections, section1]
    · simp [h1, h2, sections, section1]
  · simp [h1, sections, section1]

/-! Reading a start tag. -/

theorem nsDecl_declaration (e : Str × Str) :
    declaration ⟨xmlnsUri, e.1, if e.1 = [] then ([], strXmlns) else (strXmlns, e.1), e.2⟩ = some e := by
  have hx : strXmlns = xmlns := rfl
  by_cases h : e.1 = []
  · simp only [declaration, h, if_true, hx]
    rw [if_neg (by simp [xmlns])]
    rw [← h]
  · simp only [declaration, h, if_false, hx, if_true]

theorem allSome_map {α β : Type} (f : α → Option β) (g : α → β) (l : List α) (h : ∀ a ∈ l, f a = some (g a)) :
    allSome f l = some (l.map g) := by
  induction l with
  | nil => rfl
  | cons a l ih =>
    rw [allSome, h a (by simp), ih fun b hb => h b (List.mem_cons_of_mem _ hb)]
    rfl

theorem read_start (ns : Str → Str) (s : Out) (a e : Scope × Scope) (rest : List (Scope × Scope)) (q : QN)
    (u : Str) (o : Open) (hsc : s.ns.scopes = a :: e :: rest) (hw : s.wantDecs = true)
    (h : PInv ns s.ns s.atts a e q u o) :
    readEvents o [.startElement q u (tagAtts s)] =
      some ([.start u q.2 (s.atts.map erase)], (q, decls a e) :: o) := by
  have hpref : ∀ v, findPrefix v s.ns.scopes ≠ [] → findPrefix v s.ns.scopes ≠ xmlns := by
    intro v hv hx
    have := h.inv.prefix_mem v hv
    rcases mem_all _ _ this with ⟨x, hx', hy⟩ | he
    · exact (h.inv.ent x hx' _ hy).2.1 hx
    · simp only [Prod.mk.injEq] at he
      rw [hx] at he
      exact absurd he.1 (by simp [xmlns, xml])
  have hnot : ∀ x ∈ s.atts, declaration x = none := by
    intro x hx
    obtain ⟨h1, h2⟩ := h.attsOk x hx
    unfold declaration
    rw [h1]
    by_cases hu : x.uri = []
    · rw [if_pos hu] at h2
      have hp : findPrefix x.uri s.ns.scopes = [] := by rw [hu]; exact h.inv.prefix_nil
      rw [hp, if_neg (by simp [xmlns]), if_neg (by simpa using h2)]
    · rw [if_neg hu] at h2
      rw [if_neg (by simpa using hpref _ h2), if_neg (by simp [h2])]
  have ht : tagAtts s = s.atts ++ (decls a e).map fun x =>
      ⟨xmlnsUri, x.1, if x.1 = [] then ([], strXmlns) else (strXmlns, x.1), x.2⟩ := by
    unfold tagAtts decls
    rw [if_pos hw]
    simp [nsDeclarations, nsPop, hsc, List.append_assoc]
  have hd : (tagAtts s).filterMap declaration = decls a e := by
    rw [ht, List.filterMap_append, List.filterMap_map]
    have e1 : s.atts.filterMap declaration = [] := by
      rw [List.filterMap_eq_nil_iff]; exact hnot
    have e2 : (declaration ∘ fun x : Str × Str =>
        (⟨xmlnsUri, x.1, if x.1 = [] then ([], strXmlns) else (strXmlns, x.1), x.2⟩ : OAttr)) = some := by
      funext x; exact nsDecl_declaration x
    rw [e1, e2]; simp
  have hf : (tagAtts s).filter (fun a => (declaration a).isNone) = s.atts := by
    rw [ht, List.filter_append]
    have e1 : s.atts.filter (fun a => (declaration a).isNone) = s.atts := by
      rw [List.filter_eq_self]; intro x hx; simp [hnot x hx]
    rw [e1, List.filter_map]
    have e2 : (decls a e).filter ((fun a => (declaration a).isNone) ∘ fun x : Str × Str =>
        (⟨xmlnsUri, x.1, if x.1 = [] then ([], strXmlns) else (strXmlns, x.1), x.2⟩ : OAttr)) = [] := by
      rw [List.filter_eq_nil_iff]
      intro x hx
      simp [nsDecl_declaration]
    rw [e2]; simp
  have hel : elementUri ((q, decls a e) :: o) q = some u := by
    unfold elementUri
    have h0 := h.el
    by_cases hu : u = []
    · rw [if_pos hu] at h0
      rw [if_pos h0.1, lookup_none]
      · simp [hu]
      · intro v hv
        rcases mem_all _ _ hv with ⟨x, hx, hy⟩ | he
        · obtain ⟨g1, _, _, _, g⟩ := h.inv.ent x hx _ hy
          rcases g with ⟨i, _, hi⟩ | ⟨_, hns⟩
          · exact absurd hi.symm (autoPrefix_ne i).1
          · exact g1 (hns.symm.trans h0.2)
        · simp [xml] at he
    · rw [if_neg hu] at h0
      have hl := lookup_some _ h.inv.fn _ _ h0
      by_cases hq : q.1 = []
      · rw [if_pos hq]
        rw [hq] at hl
        rw [hl]; rfl
      · rw [if_neg hq]; exact hl
  have has : allSome (expand ((q, decls a e) :: o)) s.atts = some (s.atts.map erase) := by
    apply allSome_map
    intro x hx
    obtain ⟨h1, h2⟩ := h.attsOk x hx
    unfold expand erase
    rw [h1]
    by_cases hu : x.uri = []
    · have hp : findPrefix x.uri s.ns.scopes = [] := by rw [hu]; exact h.inv.prefix_nil
      rw [hp, if_pos rfl, hu]
    · rw [if_neg hu] at h2
      simp only
      rw [if_neg h2, lookup_some _ h.inv.fn _ _ (h.inv.prefix_mem _ h2)]
      rfl
  have hk : ((decls a e).map Prod.fst).Nodup := by
    unfold decls
    exact List.Nodup.sublist ((List.filter_sublist).map _) h.keys
  have hn : ((s.atts.map erase).map fun a => (a.1, a.2.1)).Nodup := by
    rw [List.map_map]; exact h.nodup
  have he : readEvent o (.startElement q u (tagAtts s)) =
      some ([.start u q.2 (s.atts.map erase)], (q, decls a e) :: o) := by
    rw [readEvent]
    simp only [hd, hf, hel, has]
    rw [if_pos ⟨hk, hn⟩]
  rw [readEvents, he]
  simp [readEvents]

/-! Single instructions. -/

theorem exec_text_idle (s : Out) (h : Idle s) (t : Str) :
    exec s (.text t) = { s with
      pendingText := true
      out := s.out ++ ((if s.pendingText = false ∧ isCDATA s then [.startCDATA] else []) ++ [.characters t]) } := by
  obtain ⟨buf, pe, pt, pa, tm, cd, els, tg, at', bf, ns, out, wd, hg⟩ := s
  obtain ⟨h1, h2, h3, h4⟩ := h
  simp only at h1 h2 h3 h4
  subst h1 h2 h3 h4
  rw [exec, characters, if_neg (by simp), flushElement_off _ rfl]
  simp only
  cases pt
  · simp only [Bool.false_eq_true, if_false, true_and]
    cases els with
    | nil => simp [isCDATA, emit]
    | cons x els =>
      by_cases hc : (x.2, x.1.2) ∈ cd
      · simp [isCDATA, emit, hc]
      · simp [isCDATA, emit, hc]
  · simp [emit]

theorem exec_attr_idle (s : Out) (h : Idle s) (p l u : Str) (b : Instrs) (hb : Plains b) :
    exec s (.attr p l u b) = { s with buffer := ownText b } := by
  have e1 : startAttribute s p l u = { s with buffering := 1, buffer := [] } := by
    rw [startAttribute, if_neg (by simp [h.buf])]
    simp [h.pe]
  rw [exec, e1, buffered b hb _ 0 rfl, endAttribute]
  simp only [popBuffering, h.pa]
  have := h.buf
  cases s
  simp only at this
  simp [this]

theorem exec_comment_idle (s : Out) (h : Idle s) (b : Instrs) (hb : Plains b) :
    exec s (.comment b) = { s with
      buffer := ownText b, pendingText := false
      out := s.out ++ (closing s ++ [.comment (commentOf (ownText b))]) } := by
  have e1 : startComment s = { s with buffering := 1, buffer := [], pendingText := false, out := s.out ++ closing s } := by
    rw [startComment, if_neg (by simp [h.buf]), flushCurrent_idle _ (by simp [h.pe])]
    rfl
  rw [exec, e1, buffered b hb _ 0 rfl, endComment]
  simp only [popBuffering, h.tm, commentText_eq, if_true, List.nil_append]
  have := h.buf
  cases s
  simp only at this
  simp [this, emit]

theorem exec_pi_idle (s : Out) (h : Idle s) (t : Str) (b : Instrs) (hb : Plains b) :
    exec s (.pi t b) = { s with
      buffer := ownText b, pendingText := false, target := t
      out := s.out ++ (closing s ++ [.pi t (piOf (ownText b))]) } := by
  have e1 : startPI s t = { s with buffering := 1, buffer := [], pendingText := false, target := t,
                                   out := s.out ++ closing s } := by
    rw [startPI, if_neg (by simp [h.buf]), flushCurrent_idle _ (by simp [h.pe])]
    rfl
  rw [exec, e1, buffered b hb _ 0 rfl, endPI]
  simp only [popBuffering, h.tm, piData_eq, if_true, List.nil_append]
  have := h.buf
  cases s
  simp only at this
  simp [this, emit]

/-- Attributes of a pending element after one more. -/
def attAfter (s : Out) (n : NsStack) (l u v : Str) : List OAttr :=
  match attIndex (findPrefix u n.scopes, l) (attPut ⟨u, l, (findPrefix u n.scopes, l), []⟩ s.atts) with
  | none => attPut ⟨u, l, (findPrefix u n.scopes, l), []⟩ s.atts
  | some i => attSetValue v i (attPut ⟨u, l, (findPrefix u n.scopes, l), []⟩ s.atts)

/-- The namespace stack of a pending element after an attribute. -/
def nsAfter (s : Out) (p u : Str) : NsStack := if u ≠ [] then declareNamespace p u true s.ns else s.ns

theorem exec_attr_pend (s : Out) (h : Pend s) (p l u : Str) (b : Instrs) (hb : Plains b) :
    exec s (.attr p l u b) = { s with buffer := ownText b, ns := nsAfter s p u,
                                      atts := attAfter s (nsAfter s p u) l u (ownText b) } := by
  have e1 : startAttribute s p l u = { s with
      buffering := 1
      buffer := []
      ns := nsAfter s p u
      atts := attPut ⟨u, l, (findPrefix u (nsAfter s p u).scopes, l), []⟩ s.atts
      pendingAttribute := attIndex (findPrefix u (nsAfter s p u).scopes, l)
        (attPut ⟨u, l, (findPrefix u (nsAfter s p u).scopes, l), []⟩ s.atts) } := by
    rw [startAttribute, if_neg (by simp [h.buf])]
    simp [h.pe, nsAfter]
  rw [exec, e1, buffered b hb _ 0 rfl, endAttribute]
  have hbuf := h.buf
  have hpa := h.pa
  unfold attAfter
  generalize attIndex (findPrefix u (nsAfter s p u).scopes, l)
    (attPut ⟨u, l, (findPrefix u (nsAfter s p u).scopes, l), []⟩ s.atts) = x
  cases x with
  | none =>
    simp only [popBuffering, if_true]
    generalize nsAfter s p u = n
    generalize attPut _ s.atts = A
    cases s
    simp only at hbuf hpa
    simp [hbuf, hpa]
  | some i =>
    simp only [popBuffering, if_true]
    generalize nsAfter s p u = n
    generalize attPut _ s.atts = A
    cases s
    simp only at hbuf hpa
    simp [hbuf, hpa]

theorem Pend.attr {s : Out} (h : Pend s) (b : Str) (n : NsStack) (A : List OAttr) :
    Pend { s with buffer := b, ns := n, atts := A } := ⟨h.buf, h.pe, h.pa, h.tm, h.pt⟩

theorem nsAfter_scopes (s : Out) (p u : Str) (a e : Scope × Scope) (rest : List (Scope × Scope))
    (hsc : s.ns.scopes = a :: e :: rest) :
    ∃ a', (nsAfter s p u).scopes = a' :: e :: rest ∧ s.ns.autoNs ≤ (nsAfter s p u).autoNs := by
  unfold nsAfter
  by_cases hu : u ≠ []
  · rw [if_pos hu, declareNamespace]
    by_cases hf : findPrefix u s.ns.scopes ≠ []
    · rw [if_pos hf]; exact ⟨a, hsc, Nat.le_refl _⟩
    · rw [if_neg hf]
      by_cases hc : (true && p.isEmpty) || decide (p = strXmlns)
      · rw [if_pos hc, nsBind]
        simp only [hsc]
        exact ⟨_, rfl, by simp⟩
      · rw [if_neg hc, nsBind]
        simp only [hsc]
        exact ⟨_, rfl, by simp⟩
  · rw [if_neg hu]; exact ⟨a, hsc, Nat.le_refl _⟩

theorem PInv.attr {ns : Str → Str} {s : Out} {a e : Scope × Scope} {rest : List (Scope × Scope)} {q : QN}
    {u₀ : Str} {o : Open} (hsc : s.ns.scopes = a :: e :: rest) (h : PInv ns s.ns s.atts a e q u₀ o)
    (p l u : Str) (b : Instrs) (hc : Consistent ns (.attr p l u b)) (a' : Scope × Scope)
    (ha' : (nsAfter s p u).scopes = a' :: e :: rest) (v : Str) :
    PInv ns (nsAfter s p u) (attAfter s (nsAfter s p u) l u v) a' e q u₀ o ∧
      (attAfter s (nsAfter s p u) l u v).map erase = putAttr u l v (s.atts.map erase) := by
  rw [Consistent] at hc
  -- the namespace stack
  have h1 : PInv ns (nsAfter s p u) s.atts a' e q u₀ o ∧
      (if u = [] then l ≠ xmlns else findPrefix u (nsAfter s p u).scopes ≠ []) := by
    by_cases hu : u = []
    · rw [if_pos hu] at hc
      have en : nsAfter s p u = s.ns := by simp [nsAfter, hu]
      rw [en, hsc] at ha'
      simp only [List.cons.injEq, and_true] at ha'
      rw [en, ← ha', if_pos hu]
      exact ⟨h, hc.1⟩
    · rw [if_neg hu] at hc
      by_cases hf : findPrefix u s.ns.scopes = []
      · have auto : p = [] → u ≠ xmlUri := fun hp => by rw [if_pos hp] at hc; exact hc.1
        by_cases hp : p = []
        · have en : nsAfter s p u = ⟨(mapSet (autoPrefix s.ns.autoNs) u a.1, mapSet u (autoPrefix s.ns.autoNs) a.2)
              :: e :: rest, s.ns.autoNs + 1⟩ := by
            rw [nsAfter, if_pos hu, declareNamespace, if_neg (by simpa using hf), if_pos (by simp [hp]), nsBind]
            simp only [hsc]
          obtain ⟨hne, hnx, hnxml⟩ := autoPrefix_ne s.ns.autoNs
          have := bind_pinv ns s.ns s.atts a e rest q u₀ o hsc h (autoPrefix s.ns.autoNs) u (s.ns.autoNs + 1) hu hf
            hne hnx ⟨fun hx => absurd hx hnxml, fun hx => absurd hx (auto hp)⟩ (Or.inl ⟨rfl, rfl⟩)
          rw [en] at ha' ⊢
          simp only [List.cons.injEq, and_true] at ha'
          rw [← ha', if_neg hu]
          exact ⟨this.1, by simp only; rw [this.2]; exact hne⟩
        · rw [if_neg hp] at hc
          obtain ⟨⟨hns, hxns, hna, hxml⟩, _⟩ := hc
          have en : nsAfter s p u = ⟨(mapSet p u a.1, mapSet u p a.2) :: e :: rest, s.ns.autoNs⟩ := by
            have e0 : ((true && p.isEmpty) || decide (p = strXmlns)) = false := by
              have : decide (p = strXmlns) = false := decide_eq_false hxns
              rw [this]; simp [hp]
            rw [nsAfter, if_pos hu, declareNamespace, if_neg (by simpa using hf), e0, if_neg (by simp), nsBind]
            simp only [hsc]
          have := bind_pinv ns s.ns s.atts a e rest q u₀ o hsc h p u s.ns.autoNs hu hf
            hp hxns hxml (Or.inr ⟨hna, hns, rfl⟩)
          rw [en] at ha' ⊢
          simp only [List.cons.injEq, and_true] at ha'
          rw [← ha', if_neg hu]
          exact ⟨this.1, by simp only; rw [this.2]; exact hp⟩
      · have en : nsAfter s p u = s.ns := by rw [nsAfter, if_pos hu, declareNamespace, if_pos hf]
        rw [en, hsc] at ha'
        simp only [List.cons.injEq, and_true] at ha'
        rw [en, ← ha', if_neg hu]
        exact ⟨h, hf⟩
  obtain ⟨hP, hl⟩ := h1
  generalize hn : nsAfter s p u = n at *
  have hinj : ∀ x ∈ s.atts, findPrefix u n.scopes = findPrefix x.uri n.scopes → u = x.uri := by
    intro x hx he
    have h2 := (hP.attsOk x hx).2
    by_cases hu : u = []
    · by_cases hxu : x.uri = []
      · rw [hu, hxu]
      · rw [if_neg hxu] at h2
        rw [hu, hP.inv.prefix_nil] at he
        exact absurd he.symm h2
    · rw [if_neg hu] at hl
      have m1 := hP.inv.prefix_mem u hl
      have m2 := hP.inv.prefix_mem x.uri (by rw [← he]; exact hl)
      rw [← he] at m2
      exact hP.inv.fn _ _ _ m1 m2
  obtain ⟨i, g1, g2, g3⟩ := put_lemma (fun v => findPrefix v n.scopes) u l v s.atts
    (fun x hx => (hP.attsOk x hx).1) hinj
  have ea : attAfter s n l u v =
      attSetValue v i (attPut ⟨u, l, (findPrefix u n.scopes, l), []⟩ s.atts) := by
    unfold attAfter; simp only [g1]
  rw [ea]
  refine ⟨⟨hP.inv, hP.keys, hP.xmlok, hP.c1, hP.c2, hP.c3, ?_, ?_, hP.el⟩, g2⟩
  · intro x hx
    obtain ⟨k1, k2⟩ := g3 x hx
    refine ⟨k1, ?_⟩
    rcases k2 with ⟨k2, k3⟩ | ⟨y, hy, k2, k3⟩
    · rw [k2, k3]; exact hl
    · rw [← k2, ← k3]; exact (hP.attsOk y hy).2
  · have := putAttr_nodup u l v (s.atts.map erase) (by rw [List.map_map]; exact hP.nodup)
    rw [← g2, List.map_map] at this
    exact this

/-! What a sink that wants no declarations is told. -/

/-- The part of the result one event tells. -/
def tell : Event → List Res
  | .startElement q u as => [.start u q.2 (as.map erase)]
  | .endElement _ _ => [.finish]
  | .characters s => [.text s]
  | .comment s => [.comment s]
  | .pi t s => [.pi t s]
  | .startCDATA => []
  | .endCDATA => []

def told (evs : List Event) : List Res := evs.flatMap tell

theorem told_append (a b : List Event) : told (a ++ b) = told a ++ told b := by simp [told]

/-- A prefix that may stand for a namespace. -/
def PfxOk (ns : Str → Str) (p u : Str) : Prop :=
  p = [] ∨ (p = xml ∧ u = xmlUri) ∨
    (u ≠ [] ∧ p ≠ xmlns ∧ p ≠ xml ∧ ((∃ i, p = autoPrefix i) ∨ ns p = u))

/-- The names an event carries are in order. -/
def NamesOk (ns : Str → Str) : Event → Prop
  | .startElement q u as =>
    PfxOk ns q.1 u ∧
    (∀ a ∈ as, a.qName.2 = a.localName ∧ PfxOk ns a.qName.1 a.uri ∧
      (if a.uri = [] then a.qName.1 = [] ∧ a.localName ≠ xmlns else a.qName.1 ≠ [])) ∧
    (as.map fun a => (a.uri, a.localName)).Nodup
  | _ => True

/-- What is last in the element: a text, a section, or something else. -/
inductive Last where
  | other | text | cdata
deriving DecidableEq

/-- What is last after an event; nothing if a section ends without a text, or text is right behind one. -/
def feed1 : Last → Event → Option Last
  | _, .startElement _ _ _ => some .other
  | _, .endElement _ _ => some .other
  | y, .characters _ => if y = .cdata then none else some .text
  | y, .startCDATA => if y = .other then some .other else none
  | y, .endCDATA => if y = .text then some .cdata else none
  | _, .comment _ => some .other
  | _, .pi _ _ => some .other

def feed : Last → List Event → Option Last
  | y, [] => some y
  | y, e :: es =>
    match feed1 y e with
    | none => none
    | some z => feed z es

theorem feed_append (b b1 : Last) (e1 e2 : List Event) (h : feed b e1 = some b1) :
    feed b (e1 ++ e2) = feed b1 e2 := by
  induction e1 generalizing b with
  | nil => simp [feed] at h; subst h; rfl
  | cons e es ih =>
    rw [feed] at h
    rw [List.cons_append, feed]
    cases he : feed1 b e with
    | none => simp [he] at h
    | some z => simp only [he] at h ⊢; exact ih z h

/-- What is last where the output stands. -/
def lastAt (s : Out) : Last := if s.pendingText then .text else .other

theorem closing_feed (s : Out) : ∃ y, feed (lastAt s) (closing s) = some y := by
  unfold closing lastAt
  by_cases h1 : s.pendingText
  · by_cases h2 : isCDATA s
    · exact ⟨.cdata, by simp [h1, h2, feed, feed1]⟩
    · exact ⟨.text, by simp [h1, h2, feed]⟩
  · exact ⟨.other, by simp [h1, feed]⟩

theorem closing_told (s : Out) : told (closing s) = [] ∧ ∀ ns, ∀ e ∈ closing s, NamesOk ns e := by
  unfold closing
  split
  · exact ⟨rfl, by intro ns e he; simp at he; subst he; trivial⟩
  · exact ⟨rfl, by simp⟩

theorem Inv.pfxOk {ns : Str → Str} {n : NsStack} {o : Open} (h : Inv ns n o) (p u : Str) (hm : (p, u) ∈ all o) :
    PfxOk ns p u := by
  rcases mem_all _ _ hm with ⟨x, hx, hy⟩ | he
  · obtain ⟨h1, h2, h3, _, h5⟩ := h.ent x hx _ hy
    refine Or.inr (Or.inr ⟨h1, h2, h3, ?_⟩)
    rcases h5 with ⟨i, _, hi⟩ | h5
    · exact Or.inl ⟨i, hi⟩
    · exact Or.inr h5.2
  · simp only [Prod.mk.injEq] at he
    exact Or.inr (Or.inl he)

theorem pend_names (ns : Str → Str) (s : Out) (a e : Scope × Scope) (q : QN) (u : Str) (o : Open)
    (hw : s.wantDecs = false) (h : PInv ns s.ns s.atts a e q u o) :
    NamesOk ns (.startElement q u (tagAtts s)) ∧ told [.startElement q u (tagAtts s)] =
      [.start u q.2 (s.atts.map erase)] := by
  have ht : tagAtts s = s.atts := by simp [tagAtts, hw]
  rw [ht]
  refine ⟨⟨?_, ?_, h.nodup⟩, rfl⟩
  · have he := h.el
    split at he
    · exact Or.inl he.1
    · exact h.inv.pfxOk _ _ he
  · intro x hx
    obtain ⟨h1, h2⟩ := h.attsOk x hx
    refine ⟨by rw [h1], ?_, ?_⟩
    · rw [h1]
      by_cases hp : findPrefix x.uri s.ns.scopes = []
      · exact Or.inl hp
      · exact h.inv.pfxOk _ _ (h.inv.prefix_mem _ hp)
    · rw [h1]
      by_cases hu : x.uri = []
      · rw [if_pos hu] at h2 ⊢
        exact ⟨by rw [hu]; exact h.inv.prefix_nil, h2⟩
      · rw [if_neg hu] at h2 ⊢
        exact h2

end Verif.Xslt
