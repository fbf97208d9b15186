import Verif.Lemmas.XsltOutput4
set_option autoImplicit false
set_option linter.unusedSimpArgs false
set_option linter.unusedVariables false
/-! Lemmas about the output: whole sequences of instructions. -/
namespace Verif.Xslt
open Verif.Spec.XsltOutput

/-- `s'` comes after `s` and the events between them read as `rs`; `C` says when namespaces are right. -/
structure Step (s s' : Out) (rs : List Res) (C : (Str → Str) → Prop) : Prop where
  idle : Idle s'
  elements : s'.elements = s.elements
  scopes : s'.ns.scopes = s.ns.scopes
  cdata : s'.cdata = s.cdata
  decs : s'.wantDecs = s.wantDecs
  hung : s'.hung = s.hung
  auto : s.ns.autoNs ≤ s'.ns.autoNs
  trace : ∃ evs, s'.out = s.out ++ evs ∧ (∀ o, readTags o evs = some (rs.map bare, o)) ∧
    sections s.cdata (stk s, isOpen s) evs = some (stk s, isOpen s') ∧
    (∀ ns o, s.wantDecs = true → C ns → Inv ns s.ns o → readEvents o evs = some (rs, o)) ∧
    feed (lastAt s) evs = some (lastAt s') ∧
    ∀ ns o, s.wantDecs = false → C ns → Inv ns s.ns o → told evs = rs ∧ ∀ e ∈ evs, NamesOk ns e

theorem Step.mk' (s s' : Out) (rs : List Res) (C : (Str → Str) → Prop) (hi : Idle s') (he : s'.elements = s.elements)
    (hn : s'.ns = s.ns) (hc : s'.cdata = s.cdata) (hd : s'.wantDecs = s.wantDecs) (hh : s'.hung = s.hung)
    (evs : List Event) (ho : s'.out = s.out ++ evs) (h1 : ∀ o, readTags o evs = some (rs.map bare, o))
    (h3 : sections s.cdata (stk s, isOpen s) evs = some (stk s, isOpen s'))
    (h2 : ∀ o, readEvents o evs = some (rs, o))
    (h4 : feed (lastAt s) evs = some (lastAt s'))
    (h5 : told evs = rs ∧ ∀ ns, ∀ e ∈ evs, NamesOk ns e) : Step s s' rs C :=
  ⟨hi, he, by rw [hn], hc, hd, hh, by rw [hn]; exact Nat.le_refl _, evs, ho, h1, h3, fun _ o _ _ _ => h2 o, h4,
    fun ns _ _ _ _ => ⟨h5.1, h5.2 ns⟩⟩

theorem Step.trans {s s1 s2 : Out} {r1 r2 : List Res} {C1 C2 C : (Str → Str) → Prop} (h1 : Step s s1 r1 C1)
    (h2 : Step s1 s2 r2 C2) (hC : ∀ ns, C ns → C1 ns ∧ C2 ns) : Step s s2 (r1 ++ r2) C := by
  obtain ⟨e1, o1, t1, c1, n1, f1, w1⟩ := h1.trace
  obtain ⟨e2, o2, t2, c2, n2, f2, w2⟩ := h2.trace
  have hstk : stk s1 = stk s := by unfold stk; rw [h1.elements]
  refine ⟨h2.idle, h2.elements.trans h1.elements, h2.scopes.trans h1.scopes, h2.cdata.trans h1.cdata,
    h2.decs.trans h1.decs, h2.hung.trans h1.hung, Nat.le_trans h1.auto h2.auto, e1 ++ e2, ?_, ?_, ?_, ?_, ?_, ?_⟩
  · rw [o2, o1, List.append_assoc]
  · intro o
    rw [List.map_append]
    exact readTags_append _ _ _ _ _ _ _ (t1 o) (t2 o)
  · rw [hstk, h1.cdata] at c2
    exact sections_append _ _ _ _ _ _ c1 c2
  · intro ns o hw hc hi
    refine read_append _ _ _ _ _ _ _ (n1 ns o hw (hC ns hc).1 hi)
      (n2 ns o (h1.decs.trans hw) (hC ns hc).2 ?_)
    exact hi.mono h1.auto (by rw [h1.scopes]; exact fun _ h => h)
  · rw [feed_append _ _ _ _ f1]
    exact f2
  · intro ns o hw hc hi
    obtain ⟨a1, a2⟩ := w1 ns o hw (hC ns hc).1 hi
    obtain ⟨a3, a4⟩ := w2 ns o (h1.decs.trans hw) (hC ns hc).2
      (hi.mono h1.auto (by rw [h1.scopes]; exact fun _ h => h))
    refine ⟨by rw [told_append, a1, a3], ?_⟩
    intro e he
    rcases List.mem_append.mp he with he | he
    · exact a2 e he
    · exact a4 e he

/-- What becomes of a pending element. -/
structure PStep (s s' : Out) (q : QN) (u : Str) (a e : Scope × Scope) (rest : List (Scope × Scope)) (is : Instrs) :
    Prop where
  buf : s'.buffering = 0
  text : (flushCurrent s').pendingText = false
  idle : Idle (flushCurrent s')
  elements : (flushCurrent s').elements = s.elements
  scopes : (flushCurrent s').ns.scopes = e :: rest
  cdata : (flushCurrent s').cdata = s.cdata
  decs : (flushCurrent s').wantDecs = s.wantDecs
  hung : (flushCurrent s').hung = s.hung
  auto : s.ns.autoNs ≤ (flushCurrent s').ns.autoNs
  trace : ∃ evs, (flushCurrent s').out = s.out ++ evs ∧
    (∀ o, readTags o evs = some (.start u q.2 [] :: (results is).map bare, q :: o)) ∧
    sections s.cdata ((stk s).tail, false) evs = some (stk s, false) ∧
    (∀ ns o, s.wantDecs = true → Consistents ns is → PInv ns s.ns s.atts a e q u o →
      ∃ d, readEvents o evs = some (.start u q.2 (attrsOf (s.atts.map erase) is) :: results is, (q, d) :: o)) ∧
    (∀ b, ∃ b', feed b evs = some b') ∧
    ∀ ns o, s.wantDecs = false → Consistents ns is → PInv ns s.ns s.atts a e q u o →
      told evs = .start u q.2 (attrsOf (s.atts.map erase) is) :: results is ∧ ∀ e ∈ evs, NamesOk ns e

theorem Idle.flushed {s : Out} (h : Idle s) : Idle (flushCurrent s) := by
  rw [flushCurrent_idle _ h.pe]; exact ⟨h.buf, h.pe, h.pa, h.tm⟩

/-- A pending start tag that is written. -/
theorem flush_pstep (s : Out) (h : Pend s) (q : QN) (u : Str) (els : List (QN × Str))
    (he : s.elements = (q, u) :: els) (a e : Scope × Scope) (rest : List (Scope × Scope))
    (hsc : s.ns.scopes = a :: e :: rest) (is : Instrs) (s' : Out)
    (hst : Step (flushElement s) s' (results is) (fun ns => Consistents ns is))
    (hat : ∀ acc, attrsOf acc is = acc) : PStep s s' q u a e rest is := by
  have hf := flushElement_pend s h q u els he
  have hns : (nsPop s.ns).scopes = e :: rest := by rw [nsPop, hsc]; rfl
  have g := flushCurrent_idle s' hst.idle.pe
  obtain ⟨evs, ho, ht, hs, hn, hfe, hto⟩ := hst.trace
  refine ⟨hst.idle.buf, by rw [g], hst.idle.flushed, ?_, ?_, ?_, ?_, ?_, ?_, ?_⟩
  · rw [g]; simp only; rw [hst.elements, hf]
  · rw [g]; simp only; rw [hst.scopes, hf]; exact hns
  · rw [g]; simp only; rw [hst.cdata, hf]
  · rw [g]; simp only; rw [hst.decs, hf]
  · rw [g]; simp only; rw [hst.hung, hf]
  · rw [g]; simp only; have := hst.auto; rw [hf] at this; exact this
  · refine ⟨[.startElement q u (tagAtts s)] ++ evs ++ closing s', ?_, ?_, ?_, ?_, ?_, ?_⟩
    · rw [g]; simp only; rw [ho, hf]; simp [List.append_assoc]
    · intro o
      have h1 : readTags o [.startElement q u (tagAtts s)] = some ([.start u q.2 []], q :: o) := by
        simp [readTags]
      have := readTags_append _ _ _ _ _ _ _ (readTags_append _ _ _ _ _ _ _ h1 (ht (q :: o))) (closing_read s' _)
      simpa using this
    · have k1 : sections s.cdata ((stk s).tail, false) [.startElement q u (tagAtts s)] = some (stk s, false) := by
        simp [sections, section1, stk, he]
      have k0 : stk (flushElement s) = stk s ∧ isOpen (flushElement s) = false := by
        rw [hf]; exact ⟨rfl, by simp [isOpen, h.pt]⟩
      have k2 : (flushElement s).cdata = s.cdata := by rw [hf]
      rw [k0.1, k0.2, k2] at hs
      have k3 := closing_sections s' s.cdata
      have k4 : stk s' = stk s := by rw [← k0.1]; unfold stk; rw [hst.elements]
      rw [k4] at k3
      exact sections_append _ _ _ _ _ _ (sections_append _ _ _ _ _ _ k1 hs) k3
    · intro ns o hw hc hP
      refine ⟨decls a e, ?_⟩
      have h1 := read_start ns s a e rest q u o hsc hw hP
      have hi : Inv ns (flushElement s).ns ((q, decls a e) :: o) := by
        rw [hf]
        exact hP.inv.mono (Nat.le_refl _) (by simp only [hns, hsc]; exact fun _ h => List.mem_cons_of_mem _ h)
      have h2 := hn ns _ (by rw [hf]; exact hw) hc hi
      have := read_append _ _ _ _ _ _ _ (read_append _ _ _ _ _ _ _ h1 h2) (closing_readEvents s' _)
      simpa [hat] using this
    · intro b
      have hl : lastAt (flushElement s) = .other := by rw [hf]; simp [lastAt, h.pt]
      rw [hl] at hfe
      have : feed b ([.startElement q u (tagAtts s)] ++ evs) = some (lastAt s') := by
        simpa [feed, feed1] using hfe
      rw [feed_append _ _ _ _ this]
      exact closing_feed s'
    · intro ns o hw hc hP
      have hi : Inv ns (flushElement s).ns ((q, decls a e) :: o) := by
        rw [hf]
        exact hP.inv.mono (Nat.le_refl _) (by simp only [hns, hsc]; exact fun _ h => List.mem_cons_of_mem _ h)
      obtain ⟨a1, a2⟩ := hto ns _ (by rw [hf]; exact hw) hc hi
      obtain ⟨a3, a4⟩ := pend_names ns s a e q u o hw hP
      obtain ⟨a5, a6⟩ := closing_told s'
      refine ⟨by rw [told_append, told_append, a1, a4, a5, hat]; simp, ?_⟩
      intro x hx
      rcases List.mem_append.mp hx with hx | hx
      · rcases List.mem_append.mp hx with hx | hx
        · rw [List.mem_singleton.mp hx]; exact a3
        · exact a2 x hx
      · exact a6 ns x hx

theorem flush_buffered (s : Out) (h : Pend s) (q : QN) (u : Str) (els : List (QN × Str))
    (he : s.elements = (q, u) :: els) :
    flushCurrent { s with buffering := 1, buffer := [] } =
      flushCurrent { flushElement s with buffering := 1, buffer := [] } := by
  obtain ⟨buf, pe, pt, pa, tm, cd, els, tg, at', bf, ns, out, wd, hg⟩ := s
  obtain ⟨h1, h2, h3, h4, h5⟩ := h
  simp only at h1 h2 h3 h4 h5 he
  subst h1 h2 h3 h4 h5 he
  cases wd <;> simp [flushCurrent, flushElement, emit]

theorem execs_flush (s : Out) (h : Pend s) (q : QN) (u : Str) (els : List (QN × Str))
    (he : s.elements = (q, u) :: els) (i : Instr) (hi : ∀ p l u b, i ≠ .attr p l u b) (hp : Plain i) :
    exec s i = exec (flushElement s) i := by
  have hf := flushElement_pend s h q u els he
  have hfi : Idle (flushElement s) := by rw [hf]; exact ⟨h.buf, rfl, h.pa, h.tm⟩
  have hpt : (flushElement s).pendingText = false := by rw [hf]; exact h.pt
  have hff : flushElement (flushElement s) = flushElement s := flushElement_off _ hfi.pe
  have hcc : flushCurrent (flushElement s) = flushElement s := by
    rw [flushCurrent]; simp only [hpt, Bool.false_eq_true, if_false, hff]
  match i, hp, hi with
  | .text t, _, _ =>
    rw [exec, exec, characters, characters, if_neg (by simp [h.buf]), if_neg (by simp [hfi.buf]), hff]
  | .attr p l u b, _, hi => exact absurd rfl (hi p l u b)
  | .element p l v b, _, _ =>
    have : startElement s p l v = startElement (flushElement s) p l v := by
      rw [startElement, startElement, if_neg (by simp [h.buf]), if_neg (by simp [hfi.buf]), hcc,
        flushCurrent_pend s h]
    rw [exec, exec, this]
  | .copyAttribute _ _ _ _, hp, _ => rw [Plain] at hp; exact hp.elim
  | .comment b, _, _ =>
    have e1 := flush_buffered s h q u els he
    have : startComment s = startComment (flushElement s) := by
      rw [startComment, startComment, if_neg (by simp [h.buf]), if_neg (by simp [hfi.buf]), e1]
    rw [exec, exec, this]
  | .pi t b, _, _ =>
    have e1 := flush_buffered s h q u els he
    have : startPI s t = startPI (flushElement s) t := by
      rw [startPI, startPI, if_neg (by simp [h.buf]), if_neg (by simp [hfi.buf]), e1]
    rw [exec, exec, this]

/-- The state right after the start of an element. -/
theorem startElement_idle (s : Out) (h : Idle s) (p l u : Str) :
    ∃ e s2, startElement s p l u = (true, s2) ∧ Pend s2 ∧
      s2.elements = ((findPrefix u (e :: s.ns.scopes), l), u) :: s.elements ∧
      s2.ns.scopes = ([], []) :: e :: s.ns.scopes ∧ s.ns.autoNs ≤ s2.ns.autoNs ∧ s2.atts = [] ∧
      s2.cdata = s.cdata ∧ s2.wantDecs = s.wantDecs ∧ s2.hung = s.hung ∧ s2.out = s.out ++ closing s ∧
      ∀ ns o, (if u = [] then ns [] = [] else Bound ns p u) → Inv ns s.ns o →
        PInv ns s2.ns [] ([], []) e (findPrefix u (e :: s.ns.scopes), l) u o := by
  have hs : startElement s p l u = (true, (startElement s p l u).2) := by
    rw [startElement, if_neg (by simp [h.buf])]
  generalize hn2 : (if u ≠ [] then declareNamespace p u false (nsPush s.ns) else nsPush s.ns) = n2
  have hsc : ∃ e, n2.scopes = e :: s.ns.scopes ∧ s.ns.autoNs ≤ n2.autoNs := by
    rw [← hn2]
    by_cases hu : u ≠ []
    · rw [if_pos hu, declareNamespace]
      by_cases hf : findPrefix u (nsPush s.ns).scopes ≠ []
      · rw [if_pos hf]; exact ⟨_, rfl, Nat.le_refl _⟩
      · rw [if_neg hf]
        by_cases hc : (false && p.isEmpty) || decide (p = strXmlns)
        · rw [if_pos hc, nsBind]
          simp only [nsPush]
          exact ⟨_, rfl, by simp⟩
        · rw [if_neg hc, nsBind]
          simp only [nsPush]
          exact ⟨_, rfl, by simp⟩
    · rw [if_neg hu]; exact ⟨_, rfl, Nat.le_refl _⟩
  obtain ⟨e, he, ha⟩ := hsc
  have hst : (startElement s p l u).2 = { s with
      pendingText := false
      out := s.out ++ closing s
      elements := ((findPrefix u n2.scopes, l), u) :: s.elements
      atts := []
      pendingElement := true
      ns := nsPush n2 } := by
    rw [startElement, if_neg (by simp [h.buf]), flushCurrent_idle _ h.pe]
    simp only [hn2]
  refine ⟨e, _, hs, ?_⟩
  rw [hst, he]
  refine ⟨⟨h.buf, rfl, h.pa, h.tm, rfl⟩, rfl, by simp [nsPush, he], by simpa [nsPush] using ha, rfl, rfl, rfl, rfl,
    rfl, ?_⟩
  intro ns o hc hi
  have := start_pinv ns s.ns p l u o hi hc n2 hn2.symm e he
  rw [he] at this
  exact this

mutual
theorem stepI (i : Instr) (hp : Plain i) (s : Out) (h : Idle s) :
    Step s (exec s i) (result i) (fun ns => Consistent ns i) := by
  match i, hp with
  | .text t, _ =>
    rw [exec_text_idle s h, result]
    refine Step.mk' _ _ _ _ ⟨h.buf, h.pe, h.pa, h.tm⟩ rfl rfl rfl rfl rfl _ rfl ?_ ?_ ?_ ?_ ?_
    · intro o
      split <;> simp [readTags, bare]
    · have e1 : isOpen { s with pendingText := true, out := s.out ++ ((if s.pendingText = false ∧ isCDATA s then
          [.startCDATA] else []) ++ [.characters t]) } = isCDATA s := by
        simp [isOpen, isCDATA]
      rw [e1]
      have e2 := isCDATA_listed s
      unfold isOpen
      rw [e2]
      cases hp : s.pendingText <;> cases hl : listed s.cdata (stk s) <;> simp [sections, section1, hl]
    · intro o
      split <;> simp [readEvents, readEvent]
    · cases hpt : s.pendingText <;> cases hcd : isCDATA s <;> simp [lastAt, hpt, feed, feed1]
    · split <;> simp [told, tell, NamesOk]
  | .attr p l u b, hp =>
    rw [Plain] at hp
    rw [exec_attr_idle s h p l u b hp, result]
    exact Step.mk' _ _ _ _ ⟨h.buf, h.pe, h.pa, h.tm⟩ rfl rfl rfl rfl rfl [] (by simp) (by simp [readTags])
      (by simp only [sections]; rfl) (by simp [readEvents]) rfl (by simp [told])
  | .copyAttribute _ _ _ _, hp => rw [Plain] at hp; exact hp.elim
  | .comment b, hp =>
    rw [Plain] at hp
    rw [exec_comment_idle s h b hp, result]
    refine Step.mk' _ _ _ _ ⟨h.buf, h.pe, h.pa, h.tm⟩ rfl rfl rfl rfl rfl _ rfl ?_ ?_ ?_ ?_ ?_
    · intro o
      have := readTags_append o (closing s) [.comment (commentOf (ownText b))] _ _ _ _ (closing_read s o)
        (by simp only [readTags]; rfl)
      simpa [bare] using this
    · exact sections_append _ _ _ _ _ _ (closing_sections s _) (by simp [sections, section1, isOpen])
    · intro o
      exact read_append o (closing s) [.comment (commentOf (ownText b))] [] _ _ _ (closing_readEvents s o)
        (by simp only [readEvents, readEvent]; rfl)
    · obtain ⟨y, hy⟩ := closing_feed s
      rw [feed_append _ _ _ _ hy]; rfl
    · rw [told_append, (closing_told s).1]
      refine ⟨rfl, ?_⟩
      intro ns x hx
      rcases List.mem_append.mp hx with hx | hx
      · exact (closing_told s).2 ns x hx
      · rw [List.mem_singleton.mp hx]; trivial
  | .pi t b, hp =>
    rw [Plain] at hp
    rw [exec_pi_idle s h t b hp, result]
    refine Step.mk' _ _ _ _ ⟨h.buf, h.pe, h.pa, h.tm⟩ rfl rfl rfl rfl rfl _ rfl ?_ ?_ ?_ ?_ ?_
    · intro o
      have := readTags_append o (closing s) [.pi t (piOf (ownText b))] _ _ _ _ (closing_read s o)
        (by simp only [readTags]; rfl)
      simpa [bare] using this
    · exact sections_append _ _ _ _ _ _ (closing_sections s _) (by simp [sections, section1, isOpen])
    · intro o
      exact read_append o (closing s) [.pi t (piOf (ownText b))] [] _ _ _ (closing_readEvents s o)
        (by simp only [readEvents, readEvent]; rfl)
    · obtain ⟨y, hy⟩ := closing_feed s
      rw [feed_append _ _ _ _ hy]; rfl
    · rw [told_append, (closing_told s).1]
      refine ⟨rfl, ?_⟩
      intro ns x hx
      rcases List.mem_append.mp hx with hx | hx
      · exact (closing_told s).2 ns x hx
      · rw [List.mem_singleton.mp hx]; trivial
  | .element p l u b, hp =>
    rw [Plain] at hp
    obtain ⟨e, s2, hs, hpend, hel, hsc, hau, hat, hcd, hwd, hhg, hout, hinv⟩ := startElement_idle s h p l u
    have P := pends b hp s2 hpend (findPrefix u (e :: s.ns.scopes), l) u s.elements hel ([], []) e s.ns.scopes hsc
    have hx : exec s (.element p l u b) = endElement (execs s2 b) l u := by
      rw [exec, hs]; rfl
    rw [hx, endElement, if_neg (by simp [P.buf])]
    generalize hs3 : flushCurrent (execs s2 b) = s3 at P
    have hi3 := P.idle
    rw [hs3] at hi3
    simp only [hs3, hi3.tm, Bool.false_eq_true, if_false]
    obtain ⟨evs, ho, ht, hse, hn, hfe, hto⟩ := P.trace
    have e1 := P.elements; have e2 := P.scopes; have e3 := P.cdata; have e4 := P.decs; have e5 := P.hung
    have e6 := P.auto
    rw [hs3] at e1 e2 e3 e4 e5 e6 ho
    refine ⟨⟨hi3.buf, hi3.pe, hi3.pa, hi3.tm⟩, ?_, ?_, ?_, ?_, ?_, ?_, ?_⟩
    · simp [emit, e1, hel]
    · simp [emit, nsPop, e2]
    · simp [emit, e3, hcd]
    · simp [emit, e4, hwd]
    · simp [emit, e5, hhg]
    · simp only [emit, nsPop]; omega
    · refine ⟨closing s ++ evs ++ [.endElement (findPrefix u s3.ns.scopes, l) u], ?_, ?_, ?_, ?_, ?_, ?_⟩
      · simp [emit, ho, hout, List.append_assoc]
      · intro o
        have h1 := readTags_append _ _ _ _ _ _ _ (closing_read s o) (ht o)
        have h2 : readTags ((findPrefix u (e :: s.ns.scopes), l) :: o)
            [.endElement (findPrefix u s3.ns.scopes, l) u] = some ([.finish], o) := by
          rw [e2]; simp [readTags]
        have := readTags_append _ _ _ _ _ _ _ h1 h2
        rw [this, result]
        simp [bare]
      · have k1 : stk s2 = (u, l) :: stk s := by simp [stk, hel]
        rw [k1, hcd] at hse
        have k2 : s3.pendingText = false := by rw [← hs3]; exact P.text
        refine sections_append _ _ _ _ _ _ (sections_append _ _ _ _ _ _ (closing_sections s _) hse) ?_
        simp [sections, section1, isOpen, emit, k2]
      · intro ns o hw hc hi
        rw [Consistent] at hc
        have hP := hinv ns o hc.1 hi
        obtain ⟨d, h1⟩ := hn ns o (hwd.trans hw) hc.2 (by rw [hat]; exact hP)
        have h2 : readEvents (((findPrefix u (e :: s.ns.scopes), l), d) :: o)
            [.endElement (findPrefix u s3.ns.scopes, l) u] = some ([.finish], o) := by
          rw [e2]; simp [readEvents, readEvent]
        have := read_append _ _ _ _ _ _ _ (read_append _ _ _ _ _ _ _ (closing_readEvents s o) h1) h2
        rw [this, result, hat]
        simp
      · obtain ⟨y, hy⟩ := closing_feed s
        obtain ⟨z, hz⟩ := hfe y
        have k2 : s3.pendingText = false := by rw [← hs3]; exact P.text
        rw [List.append_assoc, feed_append _ _ _ _ hy, feed_append _ _ _ _ hz]
        simp [feed, feed1, lastAt, emit, k2]
      · intro ns o hw hc hi
        rw [Consistent] at hc
        obtain ⟨a1, a2⟩ := hto ns o (hwd.trans hw) hc.2 (by rw [hat]; exact hinv ns o hc.1 hi)
        refine ⟨by rw [told_append, told_append, (closing_told s).1, a1, hat, result]; simp [told, tell], ?_⟩
        intro x hx
        rcases List.mem_append.mp hx with hx | hx
        · rcases List.mem_append.mp hx with hx | hx
          · exact (closing_told s).2 ns x hx
          · exact a2 x hx
        · rw [List.mem_singleton.mp hx]; trivial
theorem steps (is : Instrs) (hp : Plains is) (s : Out) (h : Idle s) :
    Step s (execs s is) (results is) (fun ns => Consistents ns is) := by
  match is, hp with
  | .nil, _ =>
    rw [execs, results]
    exact Step.mk' _ _ _ _ h rfl rfl rfl rfl rfl [] (by simp) (by simp [readTags])
        (by simp [sections]) (by simp [readEvents]) rfl (by simp [told])
  | .cons i rest, hp =>
    rw [Plains] at hp
    rw [execs, results]
    have h1 := stepI i hp.1 s h
    have h2 := steps rest hp.2 (exec s i) h1.idle
    exact h1.trans h2 (fun ns hc => by rw [Consistents] at hc; exact hc)
theorem pends (is : Instrs) (hp : Plains is) (s : Out) (h : Pend s) (q : QN) (u : Str) (els : List (QN × Str))
    (he : s.elements = (q, u) :: els) (a e : Scope × Scope) (rest : List (Scope × Scope))
    (hsc : s.ns.scopes = a :: e :: rest) : PStep s (execs s is) q u a e rest is := by
  have hf := flushElement_pend s h q u els he
  have hfi : Idle (flushElement s) := by rw [hf]; exact ⟨h.buf, rfl, h.pa, h.tm⟩
  match is, hp with
  | .nil, _ =>
    -- nothing more: the tag is written by what comes next
    have hx : flushCurrent (flushElement s) = flushElement s := by
      rw [flushCurrent]
      have hpt : (flushElement s).pendingText = false := by rw [hf]; exact h.pt
      simp only [hpt, Bool.false_eq_true, if_false, flushElement_off _ hfi.pe]
    have hst : Step (flushElement s) (flushElement s) (results .nil) (fun ns => Consistents ns .nil) := by
      rw [results]
      exact Step.mk' _ _ _ _ hfi rfl rfl rfl rfl rfl [] (by simp) (by simp [readTags])
        (by simp [sections]) (by simp [readEvents]) rfl (by simp [told])
    have P := flush_pstep s h q u els he a e rest hsc .nil _ hst (fun _ => by simp [attrsOf])
    rw [execs]
    have hc : flushCurrent s = flushCurrent (flushElement s) := by rw [hx, flushCurrent_pend s h]
    obtain ⟨p1, p0, p2, p3, p4, p5, p6, p7, p8, p9⟩ := P
    exact ⟨h.buf, by rw [hc]; exact p0, by rw [hc]; exact p2, by rw [hc]; exact p3, by rw [hc]; exact p4, by rw [hc]; exact p5,
      by rw [hc]; exact p6, by rw [hc]; exact p7, by rw [hc]; exact p8, by rw [hc]; exact p9⟩
  | .cons (.attr p l v b) more, hp =>
    rw [Plains, Plain] at hp
    obtain ⟨a', ha', hau⟩ := nsAfter_scopes s p v a e rest hsc
    have P := pends more hp.2 { s with buffer := ownText b, ns := nsAfter s p v,
                                       atts := attAfter s (nsAfter s p v) l v (ownText b) }
      (h.attr _ _ _) q u els he a' e rest ha'
    rw [execs, exec_attr_pend s h p l v b hp.1]
    obtain ⟨p1, p0, p2, p3, p4, p5, p6, p7, p8, evs, p9, p10, p12, p11, p13, p14⟩ := P
    refine ⟨p1, p0, p2, p3, p4, p5, p6, p7, Nat.le_trans hau p8, evs, p9, ?_, p12, ?_, p13, ?_⟩
    · intro o; rw [p10 o]; simp [results, result]
    · intro ns o hw hc hP
      rw [Consistents] at hc
      obtain ⟨g1, g2⟩ := PInv.attr hsc hP p l v b hc.1 a' ha' (ownText b)
      obtain ⟨d, hd⟩ := p11 ns o hw hc.2 g1
      refine ⟨d, ?_⟩
      rw [hd]
      simp only [g2, attrsOf, results, result, List.nil_append]
    · intro ns o hw hc hP
      rw [Consistents] at hc
      obtain ⟨g1, g2⟩ := PInv.attr hsc hP p l v b hc.1 a' ha' (ownText b)
      obtain ⟨d1, d2⟩ := p14 ns o hw hc.2 g1
      refine ⟨?_, d2⟩
      rw [d1]
      simp only [g2, attrsOf, results, result, List.nil_append]
  | .cons (.text t) more, hp =>
    rw [Plains] at hp
    rw [execs, execs_flush s h q u els he (.text t) (by simp) hp.1]
    have h1 := stepI (.text t) hp.1 _ hfi
    have h2 := steps more hp.2 _ h1.idle
    exact flush_pstep s h q u els he a e rest hsc _ _
      (by rw [results]; exact h1.trans h2 (fun ns hc => by rw [Consistents] at hc; exact hc)) (fun _ => by simp [attrsOf])
  | .cons (.element p l v b) more, hp =>
    rw [Plains] at hp
    rw [execs, execs_flush s h q u els he (.element p l v b) (by simp) hp.1]
    have h1 := stepI (.element p l v b) hp.1 _ hfi
    have h2 := steps more hp.2 _ h1.idle
    exact flush_pstep s h q u els he a e rest hsc _ _
      (by rw [results]; exact h1.trans h2 (fun ns hc => by rw [Consistents] at hc; exact hc)) (fun _ => by simp [attrsOf])
  | .cons (.copyAttribute _ _ _ _) more, hp => rw [Plains, Plain] at hp; exact hp.1.elim
  | .cons (.comment b) more, hp =>
    rw [Plains] at hp
    rw [execs, execs_flush s h q u els he (.comment b) (by simp) hp.1]
    have h1 := stepI (.comment b) hp.1 _ hfi
    have h2 := steps more hp.2 _ h1.idle
    exact flush_pstep s h q u els he a e rest hsc _ _
      (by rw [results]; exact h1.trans h2 (fun ns hc => by rw [Consistents] at hc; exact hc)) (fun _ => by simp [attrsOf])
  | .cons (.pi t b) more, hp =>
    rw [Plains] at hp
    rw [execs, execs_flush s h q u els he (.pi t b) (by simp) hp.1]
    have h1 := stepI (.pi t b) hp.1 _ hfi
    have h2 := steps more hp.2 _ h1.idle
    exact flush_pstep s h q u els he a e rest hsc _ _
      (by rw [results]; exact h1.trans h2 (fun ns hc => by rw [Consistents] at hc; exact hc)) (fun _ => by simp [attrsOf])
end

mutual
theorem Consistent.plain (ns : Str → Str) (i : Instr) (h : Consistent ns i) : Plain i := by
  match i, h with
  | .text _, _ => rw [Plain]; trivial
  | .element _ _ _ b, h => rw [Consistent] at h; rw [Plain]; exact Consistents.plain ns b h.2
  | .attr _ _ _ b, h => rw [Consistent] at h; rw [Plain]; exact Consistents.plain ns b h.2
  | .copyAttribute _ _ _ _, h => rw [Consistent] at h; exact h.elim
  | .comment b, h => rw [Consistent] at h; rw [Plain]; exact Consistents.plain ns b h
  | .pi _ b, h => rw [Consistent] at h; rw [Plain]; exact Consistents.plain ns b h
theorem Consistents.plain (ns : Str → Str) (is : Instrs) (h : Consistents ns is) : Plains is := by
  match is, h with
  | .nil, _ => rw [Plains]; trivial
  | .cons i rest, h =>
    rw [Consistents] at h; rw [Plains]
    exact ⟨Consistent.plain ns i h.1, Consistents.plain ns rest h.2⟩
end

theorem init_idle (cd : List (Str × Str)) (w : Bool := true) : Idle { cdata := cd, wantDecs := w } :=
  ⟨rfl, rfl, rfl, rfl⟩

theorem init_inv (ns : Str → Str) (cd : List (Str × Str)) (w : Bool := true) :
    Inv ns ({ cdata := cd, wantDecs := w } : Out).ns [] := by
  refine ⟨by simp, ?_, ?_⟩
  · intro p u u' h1 h2
    simp [all] at h1 h2
    rw [h1.2, h2.2]
  · intro s hs x hx
    simp [nsStackInit] at hs
    subst hs
    simp at hx

end Verif.Xslt
