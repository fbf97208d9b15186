import Verif.Lemmas.Sax
set_option autoImplicit false
set_option linter.unusedSimpArgs false
/-!
# C27, C28, C29, C32: the SAX helpers
-/
namespace Verif.Props.Sax
open Verif.Sax Verif.Spec

/-! ## Specification of a history -/

/-- The scopes after one call; `declare` says what a second declaration of a prefix in one scope
does. -/
def specStep (declare : Str → Str → Sax.Scopes → Sax.Scopes) (s : Sax.Scopes) : NsOp → Option Sax.Scopes
  | .reset => some Sax.initial
  | .push => some ((fun _ => none) :: s)
  | .pop => match s with
    | [] => none
    | _ :: s => some s
  | .declare p u => if Sax.reserved p then some s else
      match s with
      | [] => none
      | f :: s => some (declare p u (f :: s))

def specRun (declare : Str → Str → Sax.Scopes → Sax.Scopes) : List NsOp → Sax.Scopes → Option Sax.Scopes
  | [], s => some s
  | op :: ops, s => (specStep declare s op).bind (specRun declare ops)

theorem step_rep (s : NsState) (t : Sax.Scopes) (h : Rep s t) (op : NsOp) :
    match nsStep s op, specStep Sax.declareOnce t op with
    | some s', some t' => Rep s' t'
    | none, none => True
    | _, _ => False := by
  cases op with
  | reset => exact rep_init
  | push => exact ⟨List.Pairwise.nil, fun _ => rfl, h⟩
  | pop =>
    cases s with
    | nil => cases t with
      | nil => trivial
      | cons => exact h.elim
    | cons c s => cases t with
      | nil => exact h.elim
      | cons f t => exact h.2.2
  | declare p u =>
    unfold nsStep specStep declarePrefix
    by_cases hr : Sax.reserved p
    · have hr' : p = xmlPrefix ∨ p = xmlnsPrefix := hr
      simp only [if_pos hr, if_pos hr', Option.map_some]
      exact h
    · have hr' : ¬ (p = xmlPrefix ∨ p = xmlnsPrefix) := hr
      simp only [if_neg hr, if_neg hr']
      cases s with
      | nil => cases t with
        | nil => trivial
        | cons => exact h.elim
      | cons c s => cases t with
        | nil => exact h.elim
        | cons f t => exact rep_declare p u s (f :: t) c h

theorem run_rep (ops : List NsOp) : ∀ (s : NsState) (t : Sax.Scopes), Rep s t →
    match nsRun ops s, specRun Sax.declareOnce ops t with
    | some s', some t' => Rep s' t'
    | none, none => True
    | _, _ => False := by
  induction ops with
  | nil => intro s t h; exact h
  | cons op ops ih =>
    intro s t h
    have := step_rep s t h op
    unfold nsRun specRun
    cases h1 : nsStep s op with
    | none =>
      cases h2 : specStep Sax.declareOnce t op with
      | none => simp
      | some t' => rw [h1, h2] at this; exact this.elim
    | some s' =>
      cases h2 : specStep Sax.declareOnce t op with
      | none => rw [h1, h2] at this; exact this.elim
      | some t' =>
        rw [h1, h2] at this
        exact ih s' t' this

/-- C27, exactly, for every history: `getURI` is the innermost declaration of the prefix, where the
first of several declarations of one prefix in one context counts; the history is undefined exactly
if it closes more contexts than are open. -/
theorem C27_exact (ops : List NsOp) :
    match nsRun ops nsInit, specRun Sax.declareOnce ops Sax.initial with
    | some s, some t => ∀ p, getURI p s = (Sax.lookup p t).getD []
    | none, none => True
    | _, _ => False := by
  have := run_rep ops nsInit Sax.initial rep_init
  cases h1 : nsRun ops nsInit with
  | none =>
    cases h2 : specRun Sax.declareOnce ops Sax.initial with
    | none => trivial
    | some t' => rw [h1, h2] at this; exact this
  | some s' =>
    cases h2 : specRun Sax.declareOnce ops Sax.initial with
    | none => rw [h1, h2] at this; exact this
    | some t' =>
      rw [h1, h2] at this
      intro p
      unfold getURI
      rw [rep_lookup p s' t' this]

/-- No context declares one prefix twice in this history (from these scopes). -/
def NoRepeat : List NsOp → Sax.Scopes → Prop
  | [], _ => True
  | op :: ops, s =>
    (match op, s with
      | .declare p _, f :: _ => f p = none
      | _, _ => True) ∧
    (match specStep Sax.declare s op with
      | some s' => NoRepeat ops s'
      | none => True)

theorem spec_agree (ops : List NsOp) : ∀ s : Sax.Scopes, NoRepeat ops s →
    specRun Sax.declare ops s = specRun Sax.declareOnce ops s := by
  induction ops with
  | nil => intro s _; rfl
  | cons op ops ih =>
    intro s h
    obtain ⟨h1, h2⟩ := h
    have hs : specStep Sax.declare s op = specStep Sax.declareOnce s op := by
      cases op with
      | reset => rfl
      | push => rfl
      | pop => cases s <;> rfl
      | declare p u =>
        simp only [specStep]
        by_cases hr : Sax.reserved p
        · rw [if_pos hr, if_pos hr]
        · rw [if_neg hr, if_neg hr]
          cases s with
          | nil => rfl
          | cons f s =>
            have h1 : f p = none := h1
            simp only [Sax.declare, Sax.declareOnce, Option.some.injEq, List.cons.injEq, and_true]
            funext q
            by_cases hq : q = p
            · subst hq; simp [h1]
            · simp [hq]
    unfold specRun
    rw [← hs]
    cases h3 : specStep Sax.declare s op with
    | none => rfl
    | some s' =>
      rw [h3] at h2
      exact ih s' h2

/-- C27 (partial): for every history in which no context declares one prefix twice, `getURI` is the
innermost declaration.  Missing: a prefix declared again in the same context, where the new
declaration is ignored (`C27_violated`). -/
theorem C27_partial (ops : List NsOp) (h : NoRepeat ops Sax.initial) (s : NsState)
    (hs : nsRun ops nsInit = some s) :
    ∃ t, specRun Sax.declare ops Sax.initial = some t ∧ ∀ p, getURI p s = (Sax.lookup p t).getD [] := by
  have := C27_exact ops
  rw [hs] at this
  rw [spec_agree ops _ h]
  cases h2 : specRun Sax.declareOnce ops Sax.initial with
  | none => rw [h2] at this; exact this.elim
  | some t => rw [h2] at this; exact ⟨t, rfl, this⟩

example : NoRepeat [.declare "p".toList "u".toList, .push, .declare "p".toList "v".toList, .pop,
    .push, .declare "p".toList "w".toList] Sax.initial ∧
    (nsRun [.declare "p".toList "u".toList, .push, .declare "p".toList "v".toList, .pop] nsInit).map
      (getURI "p".toList) = some "u".toList := by
  refine ⟨?_, by decide +kernel⟩
  have hp : ¬ Sax.reserved "p".toList := by unfold Sax.reserved; decide +kernel
  have hx : ¬ "p".toList = "xml".toList := by decide +kernel
  simp only [NoRepeat, Sax.initial, specStep, if_neg hp, if_neg hx, Sax.declare, and_self]

/-- C27 is false of the code: declaring a prefix a second time in one context has no effect, although
the call reports success. -/
theorem C27_violated :
    (nsRun [.declare "p".toList "u".toList, .declare "p".toList "v".toList] nsInit).map
      (getURI "p".toList) = some "u".toList ∧
    ((nsRun [.declare "p".toList "u".toList] nsInit).bind
      (fun s => (declarePrefix "p".toList "v".toList s).map (·.1))) = some true := by decide +kernel

/-- How many contexts a history opens and closes: `none` if it closes one it has not opened or resets. -/
def balance : List NsOp → Nat → Option Nat
  | [], n => some n
  | .reset :: _, _ => none
  | .push :: ops, n => balance ops (n + 1)
  | .pop :: _, 0 => none
  | .pop :: ops, n + 1 => balance ops n
  | .declare _ _ :: ops, n => balance ops n

theorem balanced_run (ops : List NsOp) : ∀ (n m : Nat) (top : List Context) (s : NsState),
    balance ops n = some m → top.length = n + 1 →
    ∃ top', nsRun ops (top ++ s) = some (top' ++ s) ∧ top'.length = m + 1 := by
  induction ops with
  | nil => intro n m top s h1 h2; simp [balance] at h1; subst h1; exact ⟨top, rfl, h2⟩
  | cons op ops ih =>
    intro n m top s h1 h2
    obtain ⟨c, top, rfl⟩ : ∃ c t, top = c :: t := by
      cases top with
      | nil => simp at h2
      | cons c t => exact ⟨c, t, rfl⟩
    cases op with
    | reset => simp [balance] at h1
    | push =>
      rw [balance] at h1
      exact ih (n + 1) m ([] :: c :: top) s h1 (by simp at h2 ⊢; omega)
    | pop =>
      cases n with
      | zero => simp [balance] at h1
      | succ n =>
        rw [balance] at h1
        exact ih n m top s h1 (by simpa using h2)
    | declare p u =>
      rw [balance] at h1
      unfold nsRun nsStep declarePrefix
      by_cases hr : p = xmlPrefix ∨ p = xmlnsPrefix
      · simp only [if_pos hr, Option.map_some]
        exact ih n m (c :: top) s h1 h2
      · simp only [if_neg hr, List.cons_append, Option.map_some]
        exact ih n m (mmInsert p u c :: top) s h1 (by simpa using h2)

theorem nsRun_append (a b : List NsOp) (s : NsState) :
    nsRun (a ++ b) s = (nsRun a s).bind (nsRun b) := by
  induction a generalizing s with
  | nil => rfl
  | cons op a ih =>
    simp only [List.cons_append, nsRun]
    cases nsStep s op with
    | none => rfl
    | some s' => exact ih s'

/-- C27: whatever happens between a `pushContext` and the matching `popContext`, afterwards the
support answers every query as before. -/
theorem C27_restore (s : NsState) (body : List NsOp) (h : balance body 0 = some 0) :
    nsRun (.push :: body ++ [.pop]) s = some s := by
  rw [List.cons_append]
  show nsRun (body ++ [.pop]) ([] :: s) = some s
  rw [nsRun_append]
  obtain ⟨top', h1, h2⟩ := balanced_run body 0 0 [[]] s h rfl
  simp only [List.cons_append, List.nil_append] at h1
  rw [h1]
  obtain ⟨c, rfl⟩ : ∃ c, top' = [c] := by
    cases top' with
    | nil => simp at h2
    | cons c t => cases t with
      | nil => exact ⟨c, rfl⟩
      | cons => simp at h2
  rfl

example : balance [.declare "p".toList "u".toList, .push, .declare "p".toList "v".toList, .pop] 0 =
    some 0 := by decide +kernel

/-- C27: `xml` always resolves to its namespace while the outermost context is open: no declaration
can change it. -/
theorem C27_xml (ops : List NsOp) (n : Nat) (h : balance ops 0 = some n) :
    ∃ s, nsRun ops nsInit = some s ∧ getURI xmlPrefix s = xmlUri := by
  have key : ∀ (ops : List NsOp) (k n : Nat) (top : List Context) (c0 : Context),
      balance ops k = some n → top.length = k → (∀ c ∈ top, mmFind xmlPrefix c = none ∧ Sorted c) →
      mmFind xmlPrefix c0 = some xmlUri → Sorted c0 →
      ∃ s, nsRun ops (top ++ [c0]) = some s ∧ nsFind xmlPrefix s = some xmlUri := by
    intro ops
    induction ops with
    | nil =>
      intro k n top c0 _ hll ht hc _
      refine ⟨_, rfl, ?_⟩
      clear hll
      induction top with
      | nil => simp [nsFind, hc]
      | cons c t ih =>
        rw [List.cons_append, nsFind, (ht c (by simp)).1]
        exact ih (fun x hx => ht x (by simp [hx]))
    | cons op ops ih =>
      intro k n top c0 hb hl ht hc hs
      cases op with
      | reset => simp [balance] at hb
      | push =>
        rw [balance] at hb
        refine ih (k + 1) n ([] :: top) c0 hb (by simp [hl]) ?_ hc hs
        intro c hm
        cases List.mem_cons.mp hm with
        | inl e => rw [e]; exact ⟨rfl, List.Pairwise.nil⟩
        | inr e => exact ht c e
      | pop =>
        cases k with
        | zero => simp [balance] at hb
        | succ k =>
          rw [balance] at hb
          cases top with
          | nil => simp at hl
          | cons c t =>
            exact ih k n t c0 hb (by simpa using hl) (fun x hx => ht x (by simp [hx])) hc hs
      | declare p u =>
        rw [balance] at hb
        unfold nsRun nsStep declarePrefix
        by_cases hr : p = xmlPrefix ∨ p = xmlnsPrefix
        · simp only [if_pos hr, Option.map_some]
          exact ih k n top c0 hb hl ht hc hs
        · have hp : xmlPrefix ≠ p := fun e => hr (Or.inl e.symm)
          simp only [if_neg hr]
          cases top with
          | nil =>
            simp only [List.nil_append, Option.map_some]
            refine ih k n [] (mmInsert p u c0) hb hl (by simp) ?_ (mmInsert_sorted p u c0 hs)
            rw [mmFind_insert p u _ c0 hs]; simp [hp, hc]
          | cons c t =>
            simp only [List.cons_append, Option.map_some]
            refine ih k n (mmInsert p u c :: t) c0 hb (by simpa using hl) ?_ hc hs
            intro x hx
            cases List.mem_cons.mp hx with
            | inl e =>
              have := ht c (by simp)
              rw [e, mmFind_insert p u _ c this.2]
              exact ⟨by simp [hp, this.1], mmInsert_sorted p u c this.2⟩
            | inr e => exact ht x (by simp [e])
  obtain ⟨s, h1, h2⟩ := key ops 0 n [] [(xmlPrefix, xmlUri)] h rfl (by simp) (by decide +kernel)
    (by simp [Sorted])
  exact ⟨s, h1, by unfold getURI; rw [h2]; rfl⟩

/-! ## C28 -/

/-- No prefix is declared twice among the open contexts. -/
def NoShadow (s : NsState) : Prop := (s.flatten.map (·.1)).Nodup

theorem nsPrefix_mem (u p : Str) : ∀ s : NsState, nsPrefix u s = some p → (p, u) ∈ s.flatten
  | [], h => by simp [nsPrefix] at h
  | c :: s, h => by
    unfold nsPrefix at h
    have hc : ∀ c : Context, ctxPrefix u c = some p → (p, u) ∈ c := by
      clear h
      intro c
      induction c with
      | nil => simp [ctxPrefix]
      | cons e m ih =>
        unfold ctxPrefix
        split
        · rename_i he; intro h; simp at h; subst he h; simp
        · intro h; simp [ih h]
    cases hcc : ctxPrefix u c with
    | none => rw [hcc] at h; simp [nsPrefix_mem u p s h]
    | some q => rw [hcc] at h; simp at h; subst h; simp [hc c hcc]

theorem find_of_nodup (p u : Str) : ∀ s : NsState, NoShadow s → (p, u) ∈ s.flatten →
    nsFind p s = some u
  | [], _, h => by simp at h
  | c :: s, hn, h => by
    unfold NoShadow at hn
    simp only [List.flatten_cons, List.map_append] at hn
    rw [List.nodup_append] at hn
    obtain ⟨h1, h2, h3⟩ := hn
    unfold nsFind
    have hc : ∀ c : Context, (c.map (·.1)).Nodup → (p, u) ∈ c → mmFind p c = some u := by
      intro c
      induction c with
      | nil => simp
      | cons e m ih =>
        intro hn hm
        simp only [List.map_cons, List.nodup_cons] at hn
        unfold mmFind
        cases List.mem_cons.mp hm with
        | inl e1 => rw [← e1]; simp
        | inr e1 =>
          have : e.1 ≠ p := by
            intro e2
            exact hn.1 (List.mem_map.mpr ⟨(p, u), e1, e2.symm⟩)
          rw [if_neg this]; exact ih hn.2 e1
    simp only [List.flatten_cons, List.mem_append] at h
    rcases h with h | h
    · rw [hc c h1 h]
    · have : mmFind p c = none := by
        rw [mmFind_none]
        intro v hv
        exact h3 p (List.mem_map.mpr ⟨_, hv, rfl⟩) p (List.mem_map.mpr ⟨_, h, rfl⟩) rfl
      rw [this]
      exact find_of_nodup p u s h2 h

/-- C28 (partial): if no prefix is declared twice among the open contexts, a prefix returned by
`getPrefix` resolves to the URI asked for.  Missing: shadowed prefixes (`C28_violated`), and the empty
string, which stands both for "no prefix" and for the default namespace. -/
theorem C28_partial (s : NsState) (h : NoShadow s) (u : Str) (hne : getPrefix u s ≠ []) :
    getURI (getPrefix u s) s = u := by
  unfold getPrefix at *
  cases hp : nsPrefix u s with
  | none => rw [hp] at hne; simp at hne
  | some p =>
    simp only [Option.getD_some]
    unfold getURI
    rw [find_of_nodup p u s h (nsPrefix_mem u p s hp)]; rfl

example : NoShadow [[("q".toList, "v".toList)], [("p".toList, "u".toList)]] ∧
    getPrefix "u".toList [[("q".toList, "v".toList)], [("p".toList, "u".toList)]] = "p".toList := by
  unfold NoShadow; decide +kernel

/-- C28 is false of the code: after `p` is declared for `u` and, in an inner context, for `v`,
`getPrefix` still offers `p` for `u`, `getPrefixes` lists `p` twice, and `getPrefixes(uri)` lists it
for `u`. -/
theorem C28_violated :
    ∃ s, nsRun [.declare "p".toList "u".toList, .push, .declare "p".toList "v".toList] nsInit = some s ∧
      getPrefix "u".toList s = "p".toList ∧ getURI "p".toList s = "v".toList ∧
      getPrefixes s = ["p".toList, "p".toList, "xml".toList] ∧
      getPrefixesFor "u".toList s = ["p".toList] :=
  ⟨[[("p".toList, "v".toList)], [("p".toList, "u".toList), (xmlPrefix, xmlUri)]], by decide +kernel⟩

/-- C28: as a set, `getPrefixes` is exact in every state: the non-empty prefixes some open context
declares. -/
theorem C28_prefixes (s : NsState) (p : Str) :
    p ∈ getPrefixes s ↔ p ≠ [] ∧ ∃ u, nsFind p s = some u := by
  induction s with
  | nil => simp [getPrefixes, nsFind]
  | cons c s ih =>
    simp only [getPrefixes, List.mem_append, ih, nsFind]
    cases hf : mmFind p c with
    | some u =>
      have := mmFind_some_mem p u c hf
      constructor
      · rintro (h | h)
        · obtain ⟨e, he, rfl⟩ := List.mem_map.mp h
          simp at he
          exact ⟨he.2, u, rfl⟩
        · exact ⟨h.1, u, rfl⟩
      · rintro ⟨h, _⟩
        left
        exact List.mem_map.mpr ⟨(p, u), by simp [this, h], rfl⟩
    | none =>
      rw [mmFind_none] at hf
      constructor
      · rintro (h | h)
        · obtain ⟨e, he, rfl⟩ := List.mem_map.mp h
          simp at he
          exact absurd he.1 (hf e.2)
        · exact h
      · intro h; exact Or.inr h

/-- C28: `getPrefix` finds a declared URI whenever there is one. -/
theorem C28_found (s : NsState) (p u : Str) (h : nsFind p s = some u) : ∃ q, nsPrefix u s = some q := by
  induction s with
  | nil => simp [nsFind] at h
  | cons c s ih =>
    unfold nsFind at h
    unfold nsPrefix
    cases hp : ctxPrefix u c with
    | some q => exact ⟨q, rfl⟩
    | none =>
      cases hm : mmFind p c with
      | none => rw [hm] at h; exact ih h
      | some v =>
        rw [hm] at h; simp at h; subst h
        exfalso
        have hmem := mmFind_some_mem p v c hm
        clear hm ih
        induction c with
        | nil => simp at hmem
        | cons e m ih =>
          unfold ctxPrefix at hp
          split at hp
          · simp at hp
          · rename_i he
            cases List.mem_cons.mp hmem with
            | inl e1 => rw [← e1] at he; exact he rfl
            | inr e1 => exact ih hp e1

/-- C28: `getDeclaredPrefixes` are the prefixes of the innermost context. -/
theorem C28_declared (c : Context) (s : NsState) (p : Str) :
    ∃ l, getDeclaredPrefixes (c :: s) = some l ∧ (p ∈ l ↔ ∃ u, mmFind p c = some u) := by
  refine ⟨_, rfl, ?_⟩
  constructor
  · intro h
    obtain ⟨e, he, rfl⟩ := List.mem_map.mp h
    cases hm : mmFind e.1 c with
    | some u => exact ⟨u, rfl⟩
    | none => rw [mmFind_none] at hm; exact absurd he (hm e.2)
  · rintro ⟨u, hu⟩
    exact List.mem_map.mpr ⟨(p, u), mmFind_some_mem p u c hu, rfl⟩

/-! ## C29 -/

/-- The list of attributes after one call; `none` where the call throws. -/
def attSpec (l : List Attr) : AttOp → Option (List Attr)
  | .clear => some []
  | .setAttributes m => some m
  | .add a => some (l ++ [a])
  | .addOrReplace a =>
    match l.findIdx? (fun b => decide (b.uri = a.uri ∧ b.localName = a.localName)) with
    | none => some (l ++ [a])
    | some i => some (l.modify i (fun b => { b with value := a.value }))
  | .set i a => if i < l.length then some (l.set i a) else none
  | .remove i => if i < l.length then some (l.eraseIdx i) else none
  | .setURI i s => if i < l.length then some (l.modify i (fun a => { a with uri := s })) else none
  | .setLocalName i s => if i < l.length then some (l.modify i (fun a => { a with localName := s })) else none
  | .setQName i s => if i < l.length then some (l.modify i (fun a => { a with qName := s })) else none
  | .setType i s => if i < l.length then some (l.modify i (fun a => { a with type := s })) else none
  | .setValue i s => if i < l.length then some (l.modify i (fun a => { a with value := s })) else none

/-- C29: every call edits the list of attributes as specified, and throws exactly for an index out of
range. -/
theorem C29_edit (l : List Attr) (op : AttOp) : attStep l op = attSpec l op := by
  cases op <;> simp only [attStep, attSpec, attModify_eq, attErase_eq]
  case setAttributes m => simp [attSetFrom]
  case addOrReplace a =>
    induction l with
    | nil => simp [attReplace]
    | cons b l ih =>
      rw [List.findIdx?_cons]
      unfold attReplace
      by_cases h : b.uri = a.uri ∧ b.localName = a.localName
      · simp [h]
      · rw [if_neg h]
        simp only [h, decide_false, Bool.false_eq_true, if_false]
        cases hf : l.findIdx? (fun b => decide (b.uri = a.uri ∧ b.localName = a.localName)) with
        | none => rw [hf] at ih; simp at ih ⊢; exact ih
        | some i => rw [hf] at ih; simp at ih ⊢; exact ih
  case set i a =>
    split
    · congr 1
      rename_i h
      clear h
      induction l generalizing i with
      | nil => simp
      | cons b l ih =>
        cases i with
        | zero => simp
        | succ i => simp [ih]
    · rfl

/-- C29: an index setter changes that attribute and no other; its other fields stay. -/
theorem C29_setter (l l' : List Attr) (i : Nat) (s : Str) (h : attStep l (.setValue i s) = some l') :
    i < l.length ∧ l'.length = l.length ∧ (∀ j, j ≠ i → l'[j]? = l[j]?) ∧
    attField Attr.value l' i = s ∧ attField Attr.qName l' i = attField Attr.qName l i ∧
    attField Attr.uri l' i = attField Attr.uri l i ∧
    attField Attr.localName l' i = attField Attr.localName l i ∧
    attField Attr.type l' i = attField Attr.type l i := by
  rw [C29_edit] at h
  simp only [attSpec] at h
  split at h
  · rename_i hi
    cases h
    refine ⟨hi, by simp, ?_, ?_⟩
    · intro j hj; simp [List.getElem?_modify, Ne.symm hj]
    · simp [attField, List.getElem?_modify, hi]
  · simp at h

/-- C29: getters by index return the field of the i-th attribute, and the empty string from the size
on. -/
theorem C29_getters (f : Attr → Str) (l : List Attr) (i : Nat) :
    (∀ h : i < l.length, attField f l i = f l[i]) ∧ (l.length ≤ i → attField f l i = []) := by
  refine ⟨fun h => ?_, fun h => ?_⟩
  · simp [attField, h]
  · simp [attField, h]

/-- C29: `getIndex` by namespace and local name is the first match, or -1. -/
theorem C29_index (l : List Attr) (u n : Str) :
    (attIndexNS u n l = -1 ∧ ∀ a ∈ l, ¬ (a.uri = u ∧ a.localName = n)) ∨
    ∃ i : Nat, ∃ h : i < l.length, attIndexNS u n l = i ∧ l[i].uri = u ∧ l[i].localName = n ∧
      ∀ j, (hj : j < i) → ¬ (l[j].uri = u ∧ l[j].localName = n) := by
  induction l with
  | nil => left; simp [attIndexNS]
  | cons a l ih =>
    unfold attIndexNS
    by_cases ha : a.uri = u ∧ a.localName = n
    · right
      exact ⟨0, by simp, by simp [ha], by simp [ha.1], by simp [ha.2], by simp⟩
    · rw [if_neg ha]
      rcases ih with ⟨h1, h2⟩ | ⟨i, hi, h1, h2, h3, h4⟩
      · left
        refine ⟨by simp [h1], ?_⟩
        intro b hb
        cases List.mem_cons.mp hb with
        | inl e => rw [e]; exact ha
        | inr e => exact h2 b e
      · right
        refine ⟨i + 1, by simp; omega, ?_, by simpa using h2, by simpa using h3, ?_⟩
        · have : ¬ attIndexNS u n l = -1 := by rw [h1]; omega
          simp only [this, if_false]; rw [h1]; simp
        · intro j hj
          cases j with
          | zero => simpa using ha
          | succ j => simpa using h4 j (by omega)

/-- C29: `getIndex` by qualified name is the first match, or -1. -/
theorem C29_indexQ (l : List Attr) (q : Str) :
    (attIndexQ q l = -1 ∧ ∀ a ∈ l, a.qName ≠ q) ∨
    ∃ i : Nat, ∃ h : i < l.length, attIndexQ q l = i ∧ l[i].qName = q ∧
      ∀ j, (hj : j < i) → l[j].qName ≠ q := by
  induction l with
  | nil => left; simp [attIndexQ]
  | cons a l ih =>
    unfold attIndexQ
    by_cases ha : a.qName = q
    · right
      exact ⟨0, by simp, by simp [ha], by simp [ha], by simp⟩
    · rw [if_neg ha]
      rcases ih with ⟨h1, h2⟩ | ⟨i, hi, h1, h2, h4⟩
      · left
        refine ⟨by simp [h1], ?_⟩
        intro b hb
        cases List.mem_cons.mp hb with
        | inl e => rw [e]; exact ha
        | inr e => exact h2 b e
      · right
        refine ⟨i + 1, by simp; omega, ?_, by simpa using h2, ?_⟩
        · have : ¬ attIndexQ q l = -1 := by rw [h1]; omega
          simp only [this, if_false]; rw [h1]; simp
        · intro j hj
          cases j with
          | zero => simpa using ha
          | succ j => simpa using h4 j (by omega)

/-- C29: lookups by name return the field of the first match, or the empty string. -/
theorem C29_lookup (f : Attr → Str) (l : List Attr) (u n q : Str) :
    attGetNS f u n l = ((l.find? (fun a => decide (a.uri = u ∧ a.localName = n))).map f).getD [] ∧
    attGetQ f q l = ((l.find? (fun a => decide (a.qName = q))).map f).getD [] := by
  induction l with
  | nil => simp [attGetNS, attGetQ]
  | cons a l ih =>
    refine ⟨?_, ?_⟩
    · unfold attGetNS
      by_cases h : a.uri = u ∧ a.localName = n
      · simp [h]
      · rw [if_neg h, ih.1]; simp [h]
    · unfold attGetQ
      by_cases h : a.qName = q
      · simp [h]
      · rw [if_neg h, ih.2]; simp [h]

/-- C29: after `addOrReplaceAttribute` the attribute of that name has the new value. -/
theorem C29_addOrReplace (l : List Attr) (a : Attr) :
    attGetNS Attr.value a.uri a.localName (attReplace a l) = a.value := by
  induction l with
  | nil => simp [attReplace, attGetNS]
  | cons b l ih =>
    unfold attReplace
    by_cases h : b.uri = a.uri ∧ b.localName = a.localName
    · rw [if_pos h]; simp [attGetNS, h]
    · rw [if_neg h]; simp only [attGetNS]; rw [if_neg h]; exact ih

/-- C29 is false of the code when a list is set from itself: everything is lost. -/
theorem C29_violated : ∃ l : List Attr, l ≠ [] ∧ attSetSelf l = [] :=
  ⟨[⟨[], "a".toList, "a".toList, [], []⟩], by simp, rfl⟩

example : attStep [⟨[], "a".toList, "a".toList, [], "1".toList⟩, ⟨[], "b".toList, "b".toList, [], "2".toList⟩]
    (.setValue 1 "3".toList) =
    some [⟨[], "a".toList, "a".toList, [], "1".toList⟩, ⟨[], "b".toList, "b".toList, [], "3".toList⟩] := by
  decide +kernel

/-! ## C32 -/

/-- C32: with the document location set first, after every sequence of starts and ends the current
base is that of the innermost open element, and the end of an element uncovers the enclosing base. -/
theorem C32_partial (loc : Str) (evs : List (Option Str)) (b : Str) (st : List Str)
    (h : Sax.baseStack resolveOpt evs [loc] = some (b :: st)) :
    ∃ s, baseRun (evs.map evOf) (setDocumentLocation loc ⟨[], 0⟩) = .ok s ∧ currentBase s = b := by
  obtain ⟨s, h1, h2⟩ := brel_run evs (setDocumentLocation loc ⟨[], 0⟩) [loc] (b :: st)
    (BRel.doc loc) h
  obtain ⟨e, bs', b1, st', e1, e2, e3, _⟩ := brel_head h2
  cases e2
  exact ⟨s, h1, by unfold currentBase; rw [e1]; exact e3⟩

example : Sax.baseStack resolveOpt
    [some [], some "x/".toList, some "y/".toList, none, some []] ["http://h/d/".toList] =
    some ["http://h/d/x/".toList, "http://h/d/x/".toList, "http://h/d/".toList, "http://h/d/".toList] := by
  decide +kernel

/-- C32 is false of the tracking filter: it learns the document location when the base is first asked
for.  If that happens inside an element with its own `xml:base`, the answer is the document's location
instead of the element's base. -/
theorem C32_violated_tracker :
    ∃ s, baseStart "http://k/".toList ⟨[], 0⟩ = .ok s ∧
      (trackerCurrentBase "http://h/d".toList false s).1 = "http://h/d".toList :=
  ⟨⟨[(1, "http://k/".toList)], 1⟩, by decide +kernel⟩

/-- C32, undefined behaviour: in the tracking filter, or without a document location, a relative
`xml:base` is resolved against an empty path. -/
theorem C32_violated_ub : baseStart "x/".toList ⟨[], 0⟩ = .ub := by decide +kernel

end Verif.Props.Sax
