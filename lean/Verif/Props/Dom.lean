import Verif.Lemmas.Dom8
set_option autoImplicit false
set_option linter.unusedSimpArgs false
set_option linter.unusedVariables false
/-!
# C15-C18, C54: the DOM tree
-/
namespace Verif.Props.Dom
open Verif.Dom
open Verif.Spec.Dom (Anc Forest)

/-! ## Histories for the examples -/

instance (s : St) (op : Op) : Decidable (selfDoc s op) := by
  unfold selfDoc; cases op <;> infer_instance

instance (s : St) (op : Op) : Decidable (staleRoot s op) := by
  unfold staleRoot staleReplace
  cases op with
  | replaceChild p n o => cases o <;> simp only [] <;> infer_instance
  | _ => simp only []; infer_instance

/-- Neither of the two. -/
def bad (s : St) (op : Op) : Prop := selfDoc s op ∨ staleRoot s op

instance (s : St) (op : Op) : Decidable (bad s op) := by unfold bad; infer_instance

/-- No call of the history is bad. -/
def clean (b : St → Op → Prop) [∀ s op, Decidable (b s op)] : List Op → St → Bool
  | [], _ => true
  | op :: ops, s => !decide (b s op) && match step s op with
    | .ok s' _ => clean b ops s'
    | .err _ s' => clean b ops s'
    | _ => true

theorem reach_run (b : St → Op → Prop) [∀ s op, Decidable (b s op)] (ops : List Op) : ∀ s, Reach b s →
    clean b ops s = true → Reach b (runOps ops s) := by
  induction ops with
  | nil => intro s h _; exact h
  | cons op ops ih =>
    intro s h hc
    unfold clean at hc
    unfold runOps
    rw [Bool.and_eq_true] at hc
    have hn : ¬ b s op := by simpa using hc.1
    cases hs : step s op with
    | ok s' a => rw [hs] at hc; exact ih s' (.ok s s' op h hn hs) hc.2
    | err e s' => rw [hs] at hc; exact ih s' (.err s s' op e h hn hs) hc.2
    | diverges => exact h
    | ub => exact h

/-- A document (0), its root element (1) with the children 2, 3, 4 (element, text, comment), a fragment
(5) with the children 6, 7, and a parentless element 8. -/
def sampleOps : List Op :=
  [.newDocument, .create 0 .element [], .create 0 .element [], .create 0 .text ['x'], .create 0 .comment [],
   .create 0 .fragment [], .create 0 .text ['y'], .create 0 .element [], .create 0 .element [],
   .insertBefore 0 1 none, .insertBefore 1 4 none, .insertBefore 1 2 (some 4), .insertBefore 1 3 (some 4),
   .insertBefore 5 6 none, .insertBefore 5 7 none]

def sample : St := runOps sampleOps empty

theorem sample_reach : Reach bad sample :=
  reach_run bad _ _ .empty (by decide +kernel)

theorem reach_mono {b c : St → Op → Prop} (hm : ∀ s op, b s op → c s op) {s : St} (h : Reach c s) : Reach b s := by
  induction h with
  | empty => exact .empty
  | ok s s' op _ hn he ih => exact .ok s s' op ih (fun t => hn (hm s op t)) he
  | err s s' op e _ hn he ih => exact .err s s' op e ih (fun t => hn (hm s op t)) he

theorem sample_reach' : Reach selfDoc sample := reach_mono (fun _ _ h => Or.inl h) sample_reach

example : sample.kids 1 = [2, 3, 4] ∧ sample.kids 5 = [6, 7] ∧ sample.kids 0 = [1] ∧ sample.size = 9 := by
  decide +kernel

/-! ## C15 -/

/-- After every history of calls, successful or failing, in which no document is inserted into itself,
children, parents and siblings form a forest. -/
theorem C15_forest_partial {s : St} (h : Reach selfDoc s) : Forest s.kids (getParent s) s.prev s.next :=
  (reach_inv h).forest

/-- `doc.appendChild(doc)` succeeds and makes the document its own child. -/
theorem C15_violated : ∃ s s', Reach (fun _ _ => False) s ∧ step s (.insertBefore 0 0 none) = .ok s' () ∧
    0 ∈ s'.kids 0 ∧ ¬ Forest s'.kids (getParent s') s'.prev s'.next := by
  refine ⟨newDocument empty, _, .ok _ _ .newDocument .empty (fun h => h) rfl, rfl, by decide, ?_⟩
  intro h
  have := (h.child_iff 0 0).mp (by decide)
  revert this; decide

/-- Every child is of the document of its parent, and of a kind a node may have as a child. -/
theorem C15_owner_partial {s : St} (h : Reach selfDoc s) {p c : Id} (hc : c ∈ s.kids p) :
    s.doc c = s.doc p ∧ s.doc c ≠ none ∧ s.kind c ≠ .document ∧ s.kind c ≠ .fragment ∧ s.kind c ≠ .attr := by
  have i := reach_inv h
  have k := i.kinds p c hc
  have hd := i.has_doc (i.lt p c hc).2 k.1
  refine ⟨i.owner p c hc, by rw [i.owner p c hc]; exact hd, ?_, ?_, ?_⟩ <;>
    (intro e; rw [e] at k; cases k.2)

example : 3 ∈ sample.kids 1 := by decide +kernel

/-! ## C16 -/

theorem live_args {s : St} {n : Id} (h : live s n = true) : n < s.size ∧ s.freed n = false := live_iff.mp h

theorem step_insert {s : St} {p c : Id} {ref : Option Id} {o : Out Unit} (h : step s (.insertBefore p c ref) = o)
    (hu : o ≠ .ub) : live s p = true ∧ live s c = true ∧ liveOpt s ref = true ∧ insertBefore s p c ref = o := by
  rw [step] at h
  by_cases hl : (live s p && live s c && liveOpt s ref) = true
  · simp only [hl, if_true] at h
    simp only [Bool.and_eq_true] at hl
    exact ⟨hl.1.1, hl.1.2, hl.2, h⟩
  · rw [if_neg hl] at h; exact absurd h.symm hu

theorem step_replace {s : St} {p c : Id} {old : Option Id} {o : Out Unit} (h : step s (.replaceChild p c old) = o)
    (hu : o ≠ .ub) : live s p = true ∧ live s c = true ∧ liveOpt s old = true ∧ replaceChild s p c old = o := by
  rw [step] at h
  by_cases hl : (live s p && live s c && liveOpt s old) = true
  · simp only [hl, if_true] at h
    simp only [Bool.and_eq_true] at hl
    exact ⟨hl.1.1, hl.1.2, hl.2, h⟩
  · rw [if_neg hl] at h; exact absurd h.symm hu

theorem step_remove {s : St} {p : Id} {old : Option Id} {o : Out Unit} (h : step s (.removeChild p old) = o)
    (hu : o ≠ .ub) : live s p = true ∧ liveOpt s old = true ∧ removeChild s p old = o := by
  rw [step] at h
  by_cases hl : (live s p && liveOpt s old) = true
  · simp only [hl, if_true] at h
    simp only [Bool.and_eq_true] at hl
    exact ⟨hl.1, hl.2, h⟩
  · rw [if_neg hl] at h; exact absurd h.symm hu

theorem step_purge {s : St} {p c : Id} {o : Out Unit} (h : step s (.purgeChild p c) = o)
    (hu : o ≠ .ub) : live s p = true ∧ live s c = true ∧ purgeChild s p c = o := by
  rw [step] at h
  by_cases hl : (live s p && live s c) = true
  · simp only [hl, if_true] at h
    simp only [Bool.and_eq_true] at hl
    exact ⟨hl.1, hl.2, h⟩
  · rw [if_neg hl] at h; exact absurd h.symm hu

/-- A successful `insertBefore` of a node that is no fragment: the new child leaves its place and goes
immediately before the reference child, or to the end; all others keep their parents. -/
theorem C16_insert {s s' : St} (h : Reach selfDoc s) {p c : Id} {ref : Option Id} (hk : s.kind c ≠ .fragment)
    (hs : ¬ selfDoc s (.insertBefore p c ref)) (he : step s (.insertBefore p c ref) = .ok s' ()) :
    s'.kids = Spec.Dom.inserted s.kids p c ref ∧ getParent s' c = some p ∧
    (∀ n, n ≠ c → getParent s' n = getParent s n) ∧ (∀ r, ref = some r → r ∈ s.kids p ∧ r ≠ c) := by
  have i := reach_inv h
  obtain ⟨lp, lc, lr, he⟩ := step_insert he (by simp)
  have lp := live_args lp
  have lc := live_args lc
  rcases insertV_plain_cases i ref _ lp.1 lc.1 lp.2 lc.2 hs hk with ⟨e, u, t, _⟩ | ⟨u, t, iu, _, _, k, pa, r, _⟩
  · unfold insertBefore at he; rw [t] at he; cases he
  · unfold insertBefore at he; rw [t] at he; cases he
    refine ⟨k, by rw [iu.getParent_eq, pa]; exact upd_same _ _ _, ?_, ?_⟩
    · intro n hn; rw [iu.getParent_eq, i.getParent_eq, pa]; exact upd_ne _ _ hn
    · intro r' hr
      refine ⟨List.mem_of_mem_erase (r r' hr), ?_⟩
      rintro rfl
      exact List.Nodup.not_mem_erase (i.nodup p) (r r' hr)

/-- In particular `appendChild` puts it at the end. -/
theorem C16_append {s s' : St} (h : Reach selfDoc s) {p c : Id} (hk : s.kind c ≠ .fragment)
    (hs : ¬ selfDoc s (.insertBefore p c none)) (he : step s (.insertBefore p c none) = .ok s' ()) :
    s'.kids p = (s.kids p).erase c ++ [c] ∧ ∀ q, q ≠ p → s'.kids q = (s.kids q).erase c := by
  obtain ⟨k, _⟩ := C16_insert h hk hs he
  rw [k]
  refine ⟨by simp [Spec.Dom.inserted, Spec.Dom.place], fun q hq => by simp [Spec.Dom.inserted, hq]⟩

/-- A fragment: all its children go before the reference child, in order, and it is left empty. -/
theorem C16_insert_fragment {s s' : St} (h : Reach selfDoc s) {p f : Id} {ref : Option Id}
    (hk : s.kind f = .fragment) (he : step s (.insertBefore p f ref) = .ok s' ()) :
    s'.kids = Spec.Dom.spliced s.kids p f ref ∧ (s.kids f ≠ [] → p ≠ f) := by
  obtain ⟨lp, lc, lr, he⟩ := step_insert he (by simp)
  have lp := live_args lp
  have lc := live_args lc
  exact insertV_fragment _ _ _ _ _ _ (reach_inv h) lp.1 lc.1 lp.2 lc.2 hk he

/-- A successful `replaceChild` of a node that is no fragment. -/
theorem C16_replace {s s' : St} (h : Reach selfDoc s) {p c : Id} {old : Option Id} (hk : s.kind c ≠ .fragment)
    (he : step s (.replaceChild p c old) = .ok s' ()) :
    ∃ o, old = some o ∧ o ∈ s.kids p ∧ o ≠ c ∧ s'.kids = Spec.Dom.replaced s.kids p c o ∧
      getParent s' c = some p ∧ getParent s' o = none ∧
      ∀ n, n ≠ c → n ≠ o → getParent s' n = getParent s n := by
  have i := reach_inv h
  obtain ⟨lp, lc, lr, he⟩ := step_replace he (by simp)
  have lp := live_args lp
  have lc := live_args lc
  rcases replaceV_plain_cases i old _ lp.1 lc.1 lp.2 lc.2 hk with ⟨e, u, t, _⟩ | ⟨o, u, ho, hm, t, iu, _, _, hne, k, pa, _⟩
  · unfold replaceChild at he; rw [t] at he; cases he
  · unfold replaceChild at he; rw [t] at he; cases he
    refine ⟨o, ho, List.mem_of_mem_erase hm, hne, k, ?_, ?_, ?_⟩
    · rw [iu.getParent_eq, pa, upd_ne _ _ (Ne.symm hne)]; exact upd_same _ _ _
    · rw [iu.getParent_eq, pa]; exact upd_same _ _ _
    · intro n h1 h2; rw [iu.getParent_eq, i.getParent_eq, pa, upd_ne _ _ h2, upd_ne _ _ h1]

/-- A fragment: its children take the place of the old child, in order. -/
theorem C16_replace_fragment {s s' : St} (h : Reach selfDoc s) {p f : Id} {old : Option Id}
    (hk : s.kind f = .fragment) (he : step s (.replaceChild p f old) = .ok s' ()) :
    ∃ o, old = some o ∧ o ∈ s.kids p ∧ p ≠ f ∧ s'.kids = Spec.Dom.splicedOver s.kids p f o := by
  obtain ⟨lp, lc, lr, he⟩ := step_replace he (by simp)
  have lp := live_args lp
  have lc := live_args lc
  exact replaceV_fragment (reach_inv h) lp.1 lc.1 lp.2 lc.2 hk he

/-- A successful `removeChild` takes out that child only. -/
theorem C16_remove {s s' : St} (h : Reach selfDoc s) {p : Id} {old : Option Id}
    (he : step s (.removeChild p old) = .ok s' ()) :
    ∃ c, old = some c ∧ c ∈ s.kids p ∧ s'.kids = Spec.Dom.removed s.kids p c ∧ getParent s' c = none ∧
      ∀ n, n ≠ c → getParent s' n = getParent s n := by
  have i := reach_inv h
  obtain ⟨lp, lr, he⟩ := step_remove he (by simp)
  have lp := live_args lp
  rcases removeChild_cases' (b := false) i p old lp.2 with ⟨e, t⟩ | ⟨c, u, hc, hm, t, iu, r, _⟩
  · rw [t] at he; cases he
  · rw [t] at he; cases he
    refine ⟨c, hc, hm, ?_, ?_, ?_⟩
    · funext q
      unfold Spec.Dom.removed
      rw [r.kids]
      by_cases e : q = p
      · rw [if_pos e]
      · rw [if_neg e, List.erase_of_not_mem (i.other hm e)]
    · rw [iu.getParent_eq, r.parent]; exact upd_same _ _ _
    · intro n hn; rw [iu.getParent_eq, i.getParent_eq, r.parent]; exact upd_ne _ _ hn

example : ∃ s', step sample (.insertBefore 1 4 (some 2)) = .ok s' () ∧ s'.kids 1 = [4, 2, 3] :=
  ⟨_, rfl, by decide +kernel⟩
example : ∃ s', step sample (.insertBefore 8 3 none) = .ok s' () ∧ s'.kids 1 = [2, 4] ∧ s'.kids 8 = [3] :=
  ⟨_, rfl, by decide +kernel⟩
example : ∃ s', step sample (.insertBefore 1 5 (some 3)) = .ok s' () ∧ s'.kids 1 = [2, 6, 7, 3, 4] ∧ s'.kids 5 = [] :=
  ⟨_, rfl, by decide +kernel⟩
example : ∃ s', step sample (.replaceChild 1 8 (some 3)) = .ok s' () ∧ s'.kids 1 = [2, 8, 4] :=
  ⟨_, rfl, by decide +kernel⟩
example : ∃ s', step sample (.replaceChild 1 5 (some 3)) = .ok s' () ∧ s'.kids 1 = [2, 6, 7, 4] :=
  ⟨_, rfl, by decide +kernel⟩
example : ∃ s', step sample (.removeChild 1 (some 3)) = .ok s' () ∧ s'.kids 1 = [2, 4] :=
  ⟨_, rfl, by decide +kernel⟩

theorem allowed_iff (p c : Kind) : childAllowed p c = true ↔ c ∈ mayContain p := by
  cases p <;> cases c <;> decide

theorem hasKids_of_allowed {p c : Kind} (h : c ∈ mayContain p) : hasKids p = true := by
  revert h; cases p <;> cases c <;> decide

theorem not_frag_of_allowed {p c : Kind} (h : c ∈ mayContain p) : c ≠ .fragment ∧ c ≠ .document := by
  revert h; cases p <;> cases c <;> decide

theorem exists_old (s : St) (q : Option Id) (P : Id → Prop) : (∀ x, q = some x → P x) ↔ (q = none ∨ ∃ x, q = some x ∧ P x) := by
  cases q <;> simp

/-- When `insertBefore` succeeds, for a node that is no fragment and has an owner document (every node
but a document type that has not yet been inserted): exactly if the kind is allowed, the parent and the
former parent are not read only, the documents agree, the new child is not the parent nor an ancestor of
it, the reference child is null or another child, and a document gets neither a second element nor a
second document type nor loses its document type. -/
theorem C16_insert_succeeds_iff {s : St} (h : Reach selfDoc s) {p c : Id} {ref : Option Id}
    (lp : live s p = true) (lc : live s c = true) (lr : liveOpt s ref = true)
    (hk : s.kind c ≠ .fragment) (hs : ¬ selfDoc s (.insertBefore p c ref)) (hd : s.doc c ≠ none) :
    (∃ s', step s (.insertBefore p c ref) = .ok s' ()) ↔
      (s.kind c ∈ mayContain (s.kind p) ∧ s.doc c = s.doc p ∧ s.ro p = false ∧
       ¬ (c = p ∨ Anc (getParent s) c p) ∧
       (∀ r, ref = some r → r ∈ s.kids p ∧ r ≠ c) ∧
       (∀ q, getParent s c = some q → s.ro q = false ∧ ¬ (s.kind q = .document ∧ s.dtype q = some c)) ∧
       (s.kind p = .document → s.kind c = .element → s.root p = none) ∧
       (s.kind p = .document → s.kind c = .doctype → s.dtype p = none)) := by
  have i := reach_inv h
  have hg : getParent s = s.parent := funext i.getParent_eq
  have hstep : step s (.insertBefore p c ref) = insertBefore s p c ref := by
    show (if (live s p && live s c && liveOpt s ref) = true then _ else _) = _
    rw [if_pos (by simp [lp, lc, lr])]
  have lp := live_args lp
  have lc := live_args lc
  have mem_erase : ∀ r, (r ∈ (s.kids p).erase c ↔ r ∈ s.kids p ∧ r ≠ c) := by
    intro r
    rw [(i.nodup p).mem_erase_iff]
    exact And.comm
  rw [hstep, hg]
  unfold insertBefore
  constructor
  · rintro ⟨s', he⟩
    rcases insertV_plain_cases i ref ((s.kids c).length + 1) lp.1 lc.1 lp.2 lc.2 hs hk with
      ⟨e, u, t, _⟩ | ⟨u, t, iu, _, ok, k, pa, r, an, da, par⟩
    · rw [t] at he; cases he
    · obtain ⟨d1, d2⟩ := da hd
      refine ⟨(allowed_iff _ _).mp d2, d1, ok.2.2.2, an, fun x hx => (mem_erase x).mp (r x hx), par, ?_, ?_⟩
      · intro h1 h2
        exact Classical.byContradiction (fun h3 => ok.2.1 ⟨h1, h2, h3⟩)
      · intro h1 h2
        exact Classical.byContradiction (fun h3 => ok.2.2.1 ⟨h1, h2, h3⟩)
  · rintro ⟨al, dd, ro, an, rf, par, e1, e2⟩
    exact insertV_succeeds i ref _ lp.1 lc.1 lp.2 lc.2
      ⟨hasKids_of_allowed al, fun t => t.2.2 (e1 t.1 t.2.1), fun t => t.2.2 (e2 t.1 t.2.1), ro⟩
      hd dd ((allowed_iff _ _).mpr al) an par (fun r hr => (mem_erase r).mpr (rf r hr))

/-- When `replaceChild` succeeds, under the same conditions on the node. -/
theorem C16_replace_succeeds_iff {s : St} (h : Reach selfDoc s) {p c : Id} {old : Option Id}
    (lp : live s p = true) (lc : live s c = true) (lo : liveOpt s old = true)
    (hk : s.kind c ≠ .fragment) (hd : s.doc c ≠ none) :
    (∃ s', step s (.replaceChild p c old) = .ok s' ()) ↔
      (s.kind c ∈ mayContain (s.kind p) ∧ s.doc c = s.doc p ∧ s.ro p = false ∧
       ¬ (c = p ∨ Anc (getParent s) c p) ∧
       (∃ o, old = some o ∧ o ∈ s.kids p ∧ o ≠ c) ∧
       (∀ q, getParent s c = some q → s.ro q = false ∧ ¬ (s.kind q = .document ∧ s.dtype q = some c)) ∧
       (s.kind p = .document → s.kind c = .element → s.root p = none ∨ s.root p = old) ∧
       (s.kind p = .document → s.kind c = .doctype → s.dtype p ≠ old)) := by
  have i := reach_inv h
  have hg : getParent s = s.parent := funext i.getParent_eq
  have hstep : step s (.replaceChild p c old) = replaceChild s p c old := by
    show (if (live s p && live s c && liveOpt s old) = true then _ else _) = _
    rw [if_pos (by simp [lp, lc, lo])]
  have lp := live_args lp
  have lc := live_args lc
  have mem_erase : ∀ r, (r ∈ (s.kids p).erase c ↔ r ∈ s.kids p ∧ r ≠ c) := by
    intro r
    rw [(i.nodup p).mem_erase_iff]
    exact And.comm
  rw [hstep, hg]
  unfold replaceChild
  constructor
  · rintro ⟨s', he⟩
    rcases replaceV_plain_cases i old ((s.kids c).length + 1) lp.1 lc.1 lp.2 lc.2 hk with
      ⟨e, u, t, _⟩ | ⟨o, u, ho, hm, t, iu, _, ok, ne, k, pa, an, da, par⟩
    · rw [t] at he; cases he
    · obtain ⟨d1, d2⟩ := da hd
      refine ⟨(allowed_iff _ _).mp d2, d1, ok.2.2.2.2, an, ⟨o, ho, (mem_erase o).mp hm⟩, par, ?_, ?_⟩
      · intro h1 h2
        by_cases h3 : s.root p = none
        · exact Or.inl h3
        · exact Or.inr (Classical.byContradiction (fun h4 => ok.2.2.2.1 ⟨h1, h2, h3, h4⟩))
      · intro h1 h2 h3
        exact ok.2.2.1 ⟨h1, h2, h3⟩
  · rintro ⟨al, dd, ro, an, ⟨o, rfl, om⟩, par, e1, e2⟩
    refine replaceV_succeeds i _ lp.1 lc.1 lp.2 lc.2
      ⟨hasKids_of_allowed al, ?_, fun t => e2 t.1 t.2.1 t.2.2, ?_, ro⟩
      hd dd ((allowed_iff _ _).mpr al) an par ((mem_erase o).mpr om)
    · rintro ⟨t1, t2⟩
      rw [t1] at al
      rw [(allowed_iff _ _).mpr al] at t2; cases t2
    · rintro ⟨t1, t2, t3, t4⟩
      rcases e1 t1 t2 with t | t
      · exact t3 t
      · exact t4 t

/-- When `removeChild` succeeds. -/
theorem C16_remove_succeeds_iff {s : St} (h : Reach selfDoc s) {p : Id} {old : Option Id}
    (lp : live s p = true) (lo : liveOpt s old = true) :
    (∃ s', step s (.removeChild p old) = .ok s' ()) ↔
      (∃ c, old = some c ∧ c ∈ s.kids p ∧ s.ro p = false ∧ ¬ (s.kind p = .document ∧ s.dtype p = some c)) := by
  have i := reach_inv h
  have hstep : step s (.removeChild p old) = removeChild s p old := by
    show (if (live s p && liveOpt s old) = true then _ else _) = _
    rw [if_pos (by simp [lp, lo])]
  have lp := live_args lp
  rw [hstep]
  constructor
  · rintro ⟨s', he⟩
    rcases removeChild_cases' (b := false) i p old lp.2 with ⟨e, t⟩ | ⟨c, u, hc, hm, t, iu, r, _, ro, dt⟩
    · rw [t] at he; cases he
    · exact ⟨c, hc, hm, ro, dt⟩
  · rintro ⟨c, rfl, hm, ro, dt⟩
    exact removeChild_ok' hm (i.kinds p c hm).1 ro dt

example : live sample 1 = true ∧ live sample 8 = true ∧ sample.kind 8 ≠ .fragment ∧ sample.doc 8 ≠ none ∧
    sample.kind 8 ∈ mayContain (sample.kind 1) ∧ sample.doc 8 = sample.doc 1 := by decide +kernel

/-- Every call with live nodes returns or throws, unless a fragment is inserted into itself (or replaces
one of its own children). -/
theorem C16_ends_partial {s : St} (h : Reach selfDoc s) (op : Op) (hs : ¬ selfDoc s op) (hu : step s op ≠ .ub)
    (hf : ∀ p f r, op = .insertBefore p f r ∨ op = .replaceChild p f r → s.kind f = .fragment → p ≠ f) :
    (∃ s', step s op = .ok s' ()) ∨ (∃ e s', step s op = .err e s') := by
  have i := reach_inv h
  have conv : ∀ o : Out Unit, o.Ends → (∃ s', o = .ok s' ()) ∨ (∃ e s', o = .err e s') := by
    intro o ho
    cases o with
    | ok s a => exact Or.inl ⟨s, rfl⟩
    | err e s => exact Or.inr ⟨e, s, rfl⟩
    | diverges => exact ho.elim
    | ub => exact ho.elim
  cases op with
  | newDocument => exact Or.inl ⟨_, rfl⟩
  | newDoctype => exact Or.inl ⟨_, rfl⟩
  | create d k data =>
    rw [step] at hu ⊢
    unfold create at hu ⊢
    by_cases h1 : (live s d && decide (s.kind d = .document)) = true
    · simp only [h1, if_true] at hu ⊢
      by_cases h2 : creatable k = true
      · simp only [h2, if_true]; exact Or.inl ⟨_, rfl⟩
      · simp only [h2, Bool.false_eq_true, if_false] at hu; exact absurd rfl hu
    · rw [if_neg h1] at hu; exact absurd rfl hu
  | insertBefore p c ref =>
    obtain ⟨lp, lc, lr, he⟩ := step_insert rfl hu
    have lp := live_args lp
    have lc := live_args lc
    rw [← he]
    exact conv _ (insertV_ends _ _ s p c ref i lp.1 lc.1 lp.2 lc.2 hs (hf p c ref (Or.inl rfl)) rfl (Nat.le_refl _))
  | replaceChild p c old =>
    obtain ⟨lp, lc, lr, he⟩ := step_replace rfl hu
    have lp := live_args lp
    have lc := live_args lc
    rw [← he]
    exact conv _ (replaceV_ends i lp.1 lc.1 lp.2 lc.2 (hf p c old (Or.inr rfl)) (Nat.le_refl _))
  | removeChild p old =>
    obtain ⟨lp, lr, he⟩ := step_remove rfl hu
    rw [← he]
    exact conv _ (removeChild_ends s p old)
  | purgeChild p c =>
    obtain ⟨lp, lr, he⟩ := step_purge rfl hu
    rw [← he]
    refine conv _ ?_
    unfold purgeChild
    split
    · trivial
    · have := doRemove_ends s p (some c)
      cases hd : doRemove s p (some c) with
      | ok s' a => trivial
      | err e s' => trivial
      | diverges => rw [hd] at this; cases this
      | ub => rw [hd] at this; cases this
  | setReadOnly n =>
    rw [step] at hu ⊢
    by_cases h1 : live s n = true
    · simp only [h1, if_true]; exact Or.inl ⟨_, rfl⟩
    · rw [if_neg h1] at hu; exact absurd rfl hu
  | charEdit n e =>
    rw [step] at hu ⊢
    by_cases h1 : (live s n && charKind (s.kind n)) = true
    · rw [if_pos h1]
      exact conv _ (charEdit_ends s n e)
    · rw [if_neg h1] at hu; exact absurd rfl hu
  | splitText n off =>
    rw [step] at hu ⊢
    by_cases h1 : (live s n && (decide (s.kind n = .text) || decide (s.kind n = .cdata))) = true
    · rw [if_pos h1] at hu ⊢
      simp only [Bool.and_eq_true, Bool.or_eq_true, decide_eq_true_eq] at h1
      have hl := live_args h1.1
      rcases splitText_cases s n off with ⟨e, t, _⟩ | ⟨hro, k, rfl, hle, _⟩
      · rw [t]; exact Or.inr ⟨e, s, rfl⟩
      · obtain ⟨_, _, _, hs⟩ := splitText_good (reach_inv2 h) hl.1 hl.2 h1.2 hro hle
        rcases hs with ⟨_, t⟩ | ⟨p, u, _, t, _⟩
        · rw [t] at hu ⊢
          split
          · exact Or.inl ⟨_, rfl⟩
          · rename_i hk; rw [if_neg hk] at hu; exact absurd rfl hu
        · rw [t]; exact Or.inl ⟨_, rfl⟩
    · rw [if_neg h1] at hu; exact absurd rfl hu
  | normalize n =>
    rw [step] at hu ⊢
    by_cases h1 : live s n = true
    · rw [if_pos h1]
      have hl := live_args h1
      have hp := normalize_post (E := True) (reach_inv2 h) hl.1 hl.2 (fun _ _ _ => trivial)
      refine conv _ ?_
      cases hx : normalize s n with
      | ok s' a => trivial
      | err e s' => trivial
      | diverges => rw [hx] at hp; exact hp.elim
      | ub => rw [hx] at hp; exact hp.elim
    · rw [if_neg h1] at hu; exact absurd rfl hu

/-- `frag.appendChild(frag)` never returns if the fragment has children, whatever the number of steps. -/
theorem C16_ends_violated {s : St} (h : Reach selfDoc s) {f : Id} (lf : live s f = true)
    (hk : s.kind f = .fragment) (hro : s.ro f = false) (hne : s.kids f ≠ [])
    (hall : ∀ x ∈ s.kids f, s.kind x ∈ mayContain .fragment) (fuel : Nat) :
    insertV fuel s f f none = .diverges := by
  have lf := live_args lf
  exact insertV_fragment_self fuel s f (reach_inv h) lf.1 lf.2 hk hro hne (fun x hx => (allowed_iff _ _).mpr (hall x hx))

example : live sample 5 = true ∧ sample.kind 5 = .fragment ∧ sample.ro 5 = false ∧ sample.kids 5 ≠ [] ∧
    ∀ x ∈ sample.kids 5, sample.kind x ∈ mayContain .fragment := by decide +kernel

/-! ## C17 -/

/-- A failing `insertBefore` of a node that is no fragment changes no child list, no parent and no
sibling, if the node had no parent or the reference child is null or another child of the parent. -/
theorem C17_insert_partial {s s' : St} (h : Reach selfDoc s) {p c : Id} {ref : Option Id} {e : Err}
    (hk : s.kind c ≠ .fragment) (hs : ¬ selfDoc s (.insertBefore p c ref))
    (hr : getParent s c = none ∨ ∀ r, ref = some r → r ∈ s.kids p ∧ r ≠ c)
    (he : step s (.insertBefore p c ref) = .err e s') :
    s'.kids = s.kids ∧ getParent s' = getParent s ∧ s'.prev = s.prev ∧ s'.next = s.next := by
  have i := reach_inv h
  obtain ⟨lp, lc, lr, he⟩ := step_insert he (by simp)
  have lp := live_args lp
  have lc := live_args lc
  unfold insertBefore at he
  rcases insertV_plain_cases i ref ((s.kids c).length + 1) lp.1 lc.1 lp.2 lc.2 hs hk with
      ⟨e', u, t, iu, _, sm, _⟩ | ⟨u, t, _⟩
  · rw [t] at he; cases he
    rcases sm with sm | ⟨h1, r, h2, h3⟩
    · refine ⟨sm.1, ?_, sm.2.2.1, sm.2.2.2⟩
      rw [funext iu.getParent_eq, funext i.getParent_eq]; exact sm.2.1
    · exfalso
      rcases hr with hr | hr
      · rw [i.getParent_eq] at hr; exact h1 hr
      · exact h3 (((i.nodup p).mem_erase_iff).mpr ⟨(hr r h2).2, (hr r h2).1⟩)
  · rw [t] at he; cases he

/-- The same for `replaceChild`. -/
theorem C17_replace_partial {s s' : St} (h : Reach selfDoc s) {p c : Id} {old : Option Id} {e : Err}
    (hk : s.kind c ≠ .fragment)
    (hr : getParent s c = none ∨ ∃ o, old = some o ∧ o ∈ s.kids p ∧ o ≠ c)
    (he : step s (.replaceChild p c old) = .err e s') :
    s'.kids = s.kids ∧ getParent s' = getParent s ∧ s'.prev = s.prev ∧ s'.next = s.next := by
  have i := reach_inv h
  obtain ⟨lp, lc, lr, he⟩ := step_replace he (by simp)
  have lp := live_args lp
  have lc := live_args lc
  unfold replaceChild at he
  rcases replaceV_plain_cases i old ((s.kids c).length + 1) lp.1 lc.1 lp.2 lc.2 hk with
      ⟨e', u, t, iu, _, sm, _⟩ | ⟨o, u, _, _, t, _⟩
  · rw [t] at he; cases he
    rcases sm with sm | ⟨h1, h2⟩
    · refine ⟨sm.1, ?_, sm.2.2.1, sm.2.2.2⟩
      rw [funext iu.getParent_eq, funext i.getParent_eq]; exact sm.2.1
    · exfalso
      rcases hr with hr | ⟨o, ho, hm, hne⟩
      · rw [i.getParent_eq] at hr; exact h1 hr
      · exact h2 o ho (((i.nodup p).mem_erase_iff).mpr ⟨hne, hm⟩)
  · rw [t] at he; cases he

/-- A failing `removeChild` or `purgeChild` changes nothing at all. -/
theorem C17_remove {s s' : St} {p : Id} {old : Option Id} {e : Err} (he : step s (.removeChild p old) = .err e s') :
    s' = s := by
  obtain ⟨lp, lr, he⟩ := step_remove he (by simp)
  rcases removeChild_cases s p old with ⟨e', t⟩ | ⟨c, l, r, _, _, _, _, _, _, t⟩
  · rw [t] at he; cases he; rfl
  · rw [t] at he; cases he

theorem C17_purge {s s' : St} {p c : Id} {e : Err} (he : step s (.purgeChild p c) = .err e s') : s' = s := by
  obtain ⟨lp, lr, he⟩ := step_purge he (by simp)
  unfold purgeChild at he
  split at he
  · cases he; rfl
  · rcases doRemove_cases s p (some c) with ⟨e', t⟩ | ⟨c', l, _, _, _, t⟩
    · rw [t] at he; cases he; rfl
    · rw [t] at he; cases he

example : ∃ e s', step sample (.insertBefore 3 8 none) = .err e s' ∧ getParent sample 8 = none :=
  ⟨_, _, rfl, by decide +kernel⟩
example : ∃ e s', step sample (.replaceChild 2 1 (some 3)) = .err e s' ∧ 3 ≠ 1 :=
  ⟨_, _, rfl, by decide +kernel⟩
example : ∃ e s', step sample (.removeChild 1 (some 8)) = .err e s' := ⟨_, _, rfl⟩
example : ∃ e s', step sample (.purgeChild 1 8) = .err e s' := ⟨_, _, rfl⟩

/-- `p.insertBefore(c, c)`, with `c` a child of `p`, throws `NOT_FOUND_ERR` and has removed `c`. -/
theorem C17_violated_insert_self : ∃ s', Reach selfDoc sample ∧
    step sample (.insertBefore 1 3 (some 3)) = .err .notFound s' ∧ sample.kids 1 = [2, 3, 4] ∧ s'.kids 1 = [2, 4] :=
  ⟨_, sample_reach', rfl, by decide +kernel, by decide +kernel⟩

/-- `p.insertBefore(c, r)` with `r` no child of `p` throws `NOT_FOUND_ERR`, and `c` has left its parent. -/
theorem C17_violated_insert_absent : ∃ s', Reach selfDoc sample ∧
    step sample (.insertBefore 8 3 (some 2)) = .err .notFound s' ∧ sample.kids 1 = [2, 3, 4] ∧ s'.kids 1 = [2, 4] ∧
    s'.kids 8 = [] :=
  ⟨_, sample_reach', rfl, by decide +kernel, by decide +kernel, by decide +kernel⟩

/-- `p.replaceChild(c, c)` throws `NOT_FOUND_ERR` and has removed `c`. -/
theorem C17_violated_replace_self : ∃ s', Reach selfDoc sample ∧
    step sample (.replaceChild 1 3 (some 3)) = .err .notFound s' ∧ sample.kids 1 = [2, 3, 4] ∧ s'.kids 1 = [2, 4] :=
  ⟨_, sample_reach', rfl, by decide +kernel, by decide +kernel⟩

/-- A fragment with a child the new parent does not allow: the earlier children have moved. -/
theorem C17_violated_fragment : ∃ s s', Reach selfDoc s ∧
    step s (.insertBefore 0 1 none) = .err .hierarchy s' ∧ s.kids 1 = [2, 3] ∧ s.kids 0 = [] ∧
    s'.kids 1 = [] ∧ s'.kids 0 = [2] :=
  ⟨runOps [.newDocument, .create 0 .fragment [], .create 0 .comment [], .create 0 .text [], .insertBefore 1 2 none,
      .insertBefore 1 3 none] empty, _,
    reach_run selfDoc _ _ .empty (by decide +kernel), rfl, by decide +kernel, by decide +kernel, by decide +kernel,
    by decide +kernel⟩

/-! ## C18 -/

/-- After every history a document has at most one element child, and `getDocumentElement` returns it. -/
theorem C18_one_root {s : St} (h : Reach selfDoc s) {d x : Id} (hd : s.kind d = .document)
    (hx : x ∈ s.kids d) (hk : s.kind x = .element) :
    getDocumentElement s d = some x ∧ ∀ y ∈ s.kids d, s.kind y = .element → y = x := by
  have := (reach_induct (b := false) (J := RootOne) (fun _ _ h => h) (by simp)
    (by intro d x hd hx; simp [Dom.empty] at hx) (fun s s' op i j _ e => effect_rootOne i e j) h).2
  refine ⟨this d x hd hx hk, ?_⟩
  intro y hy hky
  have h1 := this d x hd hx hk
  rw [this d y hd hy hky] at h1
  cases h1; rfl

/-- If moreover the root element is never purged, nor replaced by a node that is no element, then
`getDocumentElement` is null exactly if there is no element child. -/
theorem C18_document_element_partial {s : St} (h : Reach bad s) {d x : Id} (hd : s.kind d = .document) :
    getDocumentElement s d = some x ↔ (x ∈ s.kids d ∧ s.kind x = .element) := by
  constructor
  · intro hr
    have := (reach_induct (b := true) (J := RootIn) (fun _ _ h => Or.inl h) (fun _ _ _ h => Or.inr h)
      (by intro d e he; simp [Dom.empty] at he) (fun s s' op i j _ e => effect_rootIn i e j) h).2
    exact (this d x hr).2.2
  · rintro ⟨hx, hk⟩
    exact (C18_one_root (reach_mono (fun _ _ h => Or.inl h) h) hd hx hk).1

example : sample.kind 0 = .document ∧ 1 ∈ sample.kids 0 ∧ sample.kind 1 = .element := by decide +kernel

/-- Replacing the root element by a comment leaves `getDocumentElement` at the removed element. -/
theorem C18_violated_replace : ∃ s s', Reach bad s ∧ step s (.replaceChild 0 2 (some 1)) = .ok s' () ∧
    s'.kids 0 = [2] ∧ s'.kind 2 = .comment ∧ getDocumentElement s' 0 = some 1 :=
  ⟨runOps [.newDocument, .create 0 .element [], .create 0 .comment [], .insertBefore 0 1 none] empty, _,
    reach_run bad _ _ .empty (by decide +kernel), rfl, by decide +kernel, by decide +kernel, by decide +kernel⟩

/-- Purging the root element leaves `getDocumentElement` at a deleted node. -/
theorem C18_violated_purge : ∃ s s', Reach bad s ∧ step s (.purgeChild 0 1) = .ok s' () ∧
    s'.kids 0 = [] ∧ getDocumentElement s' 0 = some 1 ∧ s'.freed 1 = true :=
  ⟨runOps [.newDocument, .create 0 .element [], .insertBefore 0 1 none] empty, _,
    reach_run bad _ _ .empty (by decide +kernel), rfl, by decide +kernel, by decide +kernel, by decide +kernel⟩

/-! ## C54 -/

/-- After every history, deleting a document deletes no node twice, and only live nodes of that document. -/
theorem C54_destroyed {s : St} (h : Reach selfDoc s) {d : Id} (hl : live s d = true) (hd : s.kind d = .document) :
    (destroyed s d).Nodup ∧ (∀ n ∈ destroyed s d, s.doc n = some d ∧ s.freed n = false) := by
  have i := reach_inv h
  have o := (reach_induct (b := false) (J := Orph (fun _ => True)) (fun _ _ h => h) (by simp)
    ⟨by intro n hn; simp [Dom.empty] at hn, by intro n hn; simp [Dom.empty] at hn, by intro n _; rfl⟩
    (fun s s' op i j _ e => effect_orph i e (fun _ => trivial) j) h).2
  have hl := live_args hl
  exact ⟨destroyed_nodup i o hd, fun n hn => destroyed_own i o hd hl.1 hl.2 hn⟩

/-- After every history without a `splitText` of a parentless node, deleting a document deletes every live
node of it (a document type that belongs to no child list may be left over). -/
theorem C54_destroyed_all_partial {s : St} (h : Reach (fun s op => selfDoc s op ∨ looseSplit s op) s) {d : Id}
    {n : Id} (ln : live s n = true) (hn : s.doc n = some d) (hk : s.kind n ≠ .doctype) : n ∈ destroyed s d := by
  obtain ⟨i, o⟩ := reach_induct (b := false) (J := Orph (fun _ => False)) (fun _ _ h => Or.inl h) (by simp)
    ⟨by intro n hn; simp [Dom.empty] at hn, by intro n hn; simp [Dom.empty] at hn, by intro n _; rfl⟩
    (fun s s' op i j hb e => effect_orph i e (fun t => hb (Or.inr t)) j) h
  have ln := live_args ln
  exact destroyed_mem i o ln.1 ln.2 hn hk

instance (s : St) (op : Op) : Decidable (looseSplit s op) := by
  unfold looseSplit; cases op <;> infer_instance

example : Reach (fun s op => selfDoc s op ∨ looseSplit s op) sample :=
  reach_run _ _ _ .empty (by decide +kernel)

/-- A live node never has a deleted parent or child. -/
theorem C54_no_dangling {s : St} (h : Reach selfDoc s) {p c : Id} (hc : c ∈ s.kids p) : s.freed c = s.freed p :=
  (reach_inv h).closed p c hc

/-- `purgeChild` deletes exactly the subtree of the child. -/
theorem C54_purge {s s' : St} (h : Reach selfDoc s) {p c : Id} (he : step s (.purgeChild p c) = .ok s' ()) :
    c ∈ s.kids p ∧ s'.kids = Spec.Dom.removed s.kids p c ∧
    ∀ n, s'.freed n = true ↔ (s.freed n = true ∨ n = c ∨ Anc (getParent s) c n) := by
  have i := reach_inv h
  obtain ⟨lp, lc, he⟩ := step_purge he (by simp)
  have lp := live_args lp
  have lc := live_args lc
  unfold purgeChild at he
  split at he
  · cases he
  · rcases doRemove_cases s p (some c) with ⟨e', t⟩ | ⟨c', l, hc', hl, hro, t⟩
    · rw [t] at he; cases he
    · cases hc'
      rw [t] at he
      simp only [Out.bind] at he
      cases he
      obtain ⟨l1, l2, hk, _, _⟩ := eraseChild_some c _ _ hl
      have hm : c ∈ s.kids p := by rw [hk]; simp
      have iu := unlink_inv i p c l hl
      refine ⟨hm, ?_, ?_⟩
      · show (unlink s p c l).kids = _
        rw [unlink_kids]
        funext q
        unfold Spec.Dom.removed upd
        by_cases e : q = p
        · obtain ⟨l1, l2, hk, h1, rfl⟩ := eraseChild_some c _ _ hl
          rw [if_pos e, if_pos e, e, hk, List.erase_append_right _ h1]; simp
        · rw [if_neg e, if_neg e]
      · intro n
        show (if n ∈ subtree (unlink s p c l) ((unlink s p c l).size + 1) c then true else (unlink s p c l).freed n) = true ↔ _
        have fr := unlink_frame s p c l
        rw [fr.freed, fr.size]
        have hms := mem_subtree (s := unlink s p c l) (c := c) (x := n) iu (by rw [fr.size]; exact lc.1)
        rw [fr.size, unlink_parent] at hms
        rw [funext i.getParent_eq]
        have key : AncEq (upd s.parent c none) c n ↔ AncEq s.parent c n := by
          constructor
          · rintro (t | t)
            · exact Or.inl t
            · exact Or.inr (anc_unlink t)
          · rintro (t | t)
            · exact Or.inl t
            · exact Or.inr (anc_keep i.wf.acyc t)
        rw [key] at hms
        by_cases hn : n ∈ subtree (unlink s p c l) (s.size + 1) c
        · rw [if_pos hn]
          rcases hms.mp hn with t | t
          · simp [t]
          · simp [t]
        · rw [if_neg hn]
          have h1 : ¬ (n = c ∨ Anc s.parent c n) := by
            rintro (t | t)
            · exact hn (hms.mpr (Or.inl t.symm))
            · exact hn (hms.mpr (Or.inr t))
          simp [h1]

example : ∃ s', step sample (.purgeChild 0 1) = .ok s' () := ⟨_, rfl⟩
example : live sample 0 = true ∧ destroyed sample 0 = [5, 6, 7, 8, 0, 1, 2, 3, 4] := by decide +kernel

/-- A document type adopted by an insertion that then fails is in no child list and is not deleted with
the document: the reason for the exception in `C54_destroyed_all_partial`. -/
theorem C54_violated_doctype : ∃ s, Reach selfDoc s ∧ live s 0 = true ∧ s.kind 0 = .document ∧ live s 1 = true ∧
    s.doc 1 = some 0 ∧ 1 ∉ destroyed s 0 :=
  ⟨runOps [.newDocument, .newDoctype, .create 0 .element [], .insertBefore 0 1 (some 2)] empty,
    reach_run selfDoc _ _ .empty (by decide +kernel), by decide +kernel, by decide +kernel, by decide +kernel,
    by decide +kernel, by decide +kernel⟩

end Verif.Props.Dom
