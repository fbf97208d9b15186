import Verif.Lemmas.Dom
set_option autoImplicit false
set_option linter.unusedSimpArgs false
set_option linter.unusedVariables false
namespace Verif.Dom
open Verif.Spec.Dom (Anc)

def childKind : Kind → Bool
  | .element | .text | .cdata | .entityRef | .pi | .comment | .doctype => true
  | _ => false

structure Inv (s : St) : Prop where
  wf : WFT s.kids s.parent s.prev s.next
  lt : ∀ p c, c ∈ s.kids p → c < s.size ∧ p < s.size
  kinds : ∀ p c, c ∈ s.kids p → hasKids (s.kind p) = true ∧ childKind (s.kind c) = true
  nodoc : ∀ n, n < s.size → s.doc n = none → s.kind n = .doctype
  selfdoc : ∀ n, n < s.size → s.kind n = .document → s.doc n = some n
  owner : ∀ p c, c ∈ s.kids p → s.doc c = s.doc p
  closed : ∀ p c, c ∈ s.kids p → s.freed c = s.freed p
  docok : ∀ n d, n < s.size → s.doc n = some d → d < s.size ∧ s.kind d = .document

/-- What no tree editing call changes. -/
structure Frame (s s' : St) : Prop where
  size : s'.size = s.size
  kind : s'.kind = s.kind
  ro : s'.ro = s.ro
  data : s'.data = s.data
  freed : s'.freed = s.freed
  doc : ∀ n d, s.doc n = some d → s'.doc n = some d

theorem Frame.refl (s : St) : Frame s s := ⟨rfl, rfl, rfl, rfl, rfl, fun _ _ h => h⟩

theorem Frame.trans {a b c : St} (h : Frame a b) (k : Frame b c) : Frame a c :=
  ⟨k.size.trans h.size, k.kind.trans h.kind, k.ro.trans h.ro, k.data.trans h.data,
    k.freed.trans h.freed, fun n d e => k.doc n d (h.doc n d e)⟩

def Out.All {α : Type} (P : St → Prop) : Out α → Prop
  | .ok s _ => P s
  | .err _ s => P s
  | _ => True

theorem Out.all_bind {α β : Type} {P Q : St → Prop} {x : Out α} {f : St → α → Out β}
    (h : x.All P) (hQ : ∀ s, P s → Q s) (hf : ∀ s a, x = .ok s a → P s → (f s a).All Q) :
    (x.bind f).All Q := by
  cases x with
  | ok s a => exact hf s a rfl h
  | err e s => exact hQ s h
  | diverges => trivial
  | ub => trivial

theorem Out.bind_ok {α β : Type} {x : Out α} {f : St → α → Out β} {s : St} {b : β}
    (h : x.bind f = .ok s b) : ∃ s1 a, x = .ok s1 a ∧ f s1 a = .ok s b := by
  cases x with
  | ok s1 a => exact ⟨s1, a, rfl, h⟩
  | err e s => cases h
  | diverges => cases h
  | ub => cases h

theorem updOpt_apply {α : Type} (f : Id → α) (o : Option Id) (v : α) (x : Id) :
    updOpt f o v x = if o = some x then v else f x := by
  cases o with
  | none => simp [updOpt]
  | some i =>
    simp only [updOpt, upd, Option.some.injEq]
    by_cases h : x = i
    · simp [h]
    · simp [h, Ne.symm h]

theorem upd_same {α : Type} (f : Id → α) (i : Id) (v : α) : upd f i v i = v := by simp [upd]
theorem upd_ne {α : Type} (f : Id → α) {i j : Id} (v : α) (h : j ≠ i) : upd f i v j = f j := by
  simp [upd, h]

/-! ## fields -/

theorem mc_size (s : St) (n : Id) : (markChanged s n).size = s.size := by unfold markChanged; split <;> rfl
theorem mc_kind (s : St) (n : Id) : (markChanged s n).kind = s.kind := by unfold markChanged; split <;> rfl
theorem mc_doc (s : St) (n : Id) : (markChanged s n).doc = s.doc := by unfold markChanged; split <;> rfl
theorem mc_parent (s : St) (n : Id) : (markChanged s n).parent = s.parent := by unfold markChanged; split <;> rfl
theorem mc_prev (s : St) (n : Id) : (markChanged s n).prev = s.prev := by unfold markChanged; split <;> rfl
theorem mc_next (s : St) (n : Id) : (markChanged s n).next = s.next := by unfold markChanged; split <;> rfl
theorem mc_kids (s : St) (n : Id) : (markChanged s n).kids = s.kids := by unfold markChanged; split <;> rfl
theorem mc_ro (s : St) (n : Id) : (markChanged s n).ro = s.ro := by unfold markChanged; split <;> rfl
theorem mc_data (s : St) (n : Id) : (markChanged s n).data = s.data := by unfold markChanged; split <;> rfl
theorem mc_freed (s : St) (n : Id) : (markChanged s n).freed = s.freed := by unfold markChanged; split <;> rfl
theorem mc_root (s : St) (n : Id) : (markChanged s n).root = s.root := by unfold markChanged; split <;> rfl
theorem mc_dtype (s : St) (n : Id) : (markChanged s n).dtype = s.dtype := by unfold markChanged; split <;> rfl
theorem mc_orphan (s : St) (n : Id) : (markChanged s n).orphan = s.orphan := by unfold markChanged; split <;> rfl

theorem mc_frame (s : St) (n : Id) : Frame s (markChanged s n) :=
  ⟨mc_size s n, mc_kind s n, mc_ro s n, mc_data s n, mc_freed s n, fun m d h => by rw [mc_doc]; exact h⟩

/-! ## removal -/

theorem unlink_frame (s : St) (p c : Id) (l : List Id) : Frame s (unlink s p c l) := by
  unfold unlink
  simp only []
  refine Frame.trans ?_ (mc_frame _ _)
  exact ⟨rfl, rfl, rfl, rfl, rfl, fun _ _ h => h⟩

theorem unlink_kids (s : St) (p c : Id) (l : List Id) : (unlink s p c l).kids = upd s.kids p l := by
  unfold unlink; rw [mc_kids]; rfl
theorem unlink_parent (s : St) (p c : Id) (l : List Id) : (unlink s p c l).parent = upd s.parent c none := by
  unfold unlink; rw [mc_parent]; rfl
theorem unlink_prev (s : St) (p c : Id) (l : List Id) :
    (unlink s p c l).prev = upd (updOpt s.prev (s.next c) (s.prev c)) c none := by
  unfold unlink; rw [mc_prev]; rfl
theorem unlink_next (s : St) (p c : Id) (l : List Id) :
    (unlink s p c l).next = upd (updOpt s.next (s.prev c) (s.next c)) c none := by
  unfold unlink; rw [mc_next]; rfl
theorem unlink_doc (s : St) (p c : Id) (l : List Id) : (unlink s p c l).doc = s.doc := by
  unfold unlink; rw [mc_doc]; rfl
theorem unlink_root (s : St) (p c : Id) (l : List Id) : (unlink s p c l).root = s.root := by
  unfold unlink; rw [mc_root]; rfl
theorem unlink_dtype (s : St) (p c : Id) (l : List Id) : (unlink s p c l).dtype = s.dtype := by
  unfold unlink; rw [mc_dtype]; rfl

theorem unlink_inv {s : St} (h : Inv s) (p c : Id) (l : List Id) (he : eraseChild c (s.kids p) = some l) :
    Inv (unlink s p c l) := by
  obtain ⟨l1, l2, hk, _, rfl⟩ := eraseChild_some c _ _ he
  have fr := unlink_frame s p c (l1 ++ l2)
  have hsub : ∀ q x, x ∈ (unlink s p c (l1 ++ l2)).kids q → x ∈ s.kids q := by
    intro q x hx
    rw [unlink_kids] at hx
    unfold upd at hx
    split at hx
    · rename_i e; subst e; rw [hk]; simp at hx ⊢; rcases hx with t | t
      · exact Or.inl t
      · exact Or.inr (Or.inr t)
    · exact hx
  refine ⟨?_, ?_, ?_, ?_, ?_, ?_, ?_, ?_⟩
  · refine wft_unlink h.wf hk (unlink_kids _ _ _ _) (unlink_parent _ _ _ _) ?_ ?_
    · intro x; rw [unlink_prev]; unfold upd; rw [updOpt_apply]
    · intro x; rw [unlink_next]; unfold upd; rw [updOpt_apply]
  · intro q x hx; rw [fr.size]; exact h.lt q x (hsub q x hx)
  · intro q x hx; rw [fr.kind]; exact h.kinds q x (hsub q x hx)
  · intro n; rw [fr.size, fr.kind, unlink_doc]; exact h.nodoc n
  · intro n; rw [fr.size, fr.kind, unlink_doc]; exact h.selfdoc n
  · intro q x hx; rw [unlink_doc]; exact h.owner q x (hsub q x hx)
  · intro q x hx; rw [fr.freed]; exact h.closed q x (hsub q x hx)
  · rw [fr.size, fr.kind, unlink_doc]; exact h.docok

theorem Inv.not_child {s : St} (h : Inv s) {c : Id} (hc : s.parent c = none) (q : Id) : c ∉ s.kids q := by
  intro hq
  obtain ⟨a, b, hab⟩ := List.append_of_mem hq
  have := (h.wf.link _ _ _ _ hab).1
  rw [hc] at this; cases this

theorem Inv.child_parent {s : St} (h : Inv s) {p c : Id} (hc : c ∈ s.kids p) : s.parent c = some p := by
  obtain ⟨a, b, hab⟩ := List.append_of_mem hc
  exact (h.wf.link _ _ _ _ hab).1

theorem Inv.getParent_eq {s : St} (h : Inv s) (n : Id) : getParent s n = s.parent n := by
  unfold getParent
  split
  · rename_i hk
    cases hp : s.parent n with
    | none => rfl
    | some p =>
      have := (h.kinds p n (h.wf.par n p hp)).2
      rcases hk with hk | hk <;> rw [hk] at this <;> cases this
  · rfl

/-- Changing other members keeps the invariant. -/
theorem Inv.of_tree {s s' : St} (h : Inv s) (h1 : s'.kids = s.kids) (h2 : s'.parent = s.parent)
    (h3 : s'.prev = s.prev) (h4 : s'.next = s.next) (h5 : s'.size = s.size) (h6 : s'.kind = s.kind)
    (h7 : s'.doc = s.doc) (h8 : s'.freed = s.freed) : Inv s' := by
  refine ⟨?_, ?_, ?_, ?_, ?_, ?_, ?_, ?_⟩
  · rw [h1, h2, h3, h4]; exact h.wf
  · rw [h1, h5]; exact h.lt
  · rw [h1, h6]; exact h.kinds
  · rw [h5, h6, h7]; exact h.nodoc
  · rw [h5, h6, h7]; exact h.selfdoc
  · rw [h1, h7]; exact h.owner
  · rw [h1, h8]; exact h.closed
  · rw [h5, h6, h7]; exact h.docok

theorem doRemove_cases (s : St) (p : Id) (old : Option Id) :
    (∃ e, doRemove s p old = .err e s) ∨
    (∃ c l, old = some c ∧ eraseChild c (s.kids p) = some l ∧ s.ro p = false ∧
      doRemove s p old = .ok (unlink s p c l) ()) := by
  unfold doRemove
  cases hr : s.ro p with
  | true => left; exact ⟨_, rfl⟩
  | false =>
    cases old with
    | none => left; exact ⟨_, rfl⟩
    | some c =>
      cases he : eraseChild c (s.kids p) with
      | none => left; exact ⟨.notFound, by simp [he]⟩
      | some l => right; exact ⟨c, l, rfl, he, rfl, by simp [he]⟩

/-- A removal either fails and changes nothing, or unlinks the child (and forgets the root). -/
theorem removeChild_cases (s : St) (p : Id) (old : Option Id) :
    (∃ e, removeChild s p old = .err e s) ∨
    (∃ c l r, old = some c ∧ eraseChild c (s.kids p) = some l ∧ hasKids (s.kind p) = true ∧
      s.ro p = false ∧ (s.kind p = .document → s.dtype p ≠ some c) ∧
      (∀ x, r x = if x = p ∧ s.kind p = .document ∧ s.root p = some c then none else s.root x) ∧
      removeChild s p old = .ok { unlink s p c l with root := r } ()) := by
  unfold removeChild
  by_cases hk : hasKids (s.kind p) = false
  · rw [if_pos hk]; left; exact ⟨_, rfl⟩
  · rw [if_neg hk]
    have hk' : hasKids (s.kind p) = true := by simpa using hk
    by_cases hd : s.kind p = .document
    · rw [if_pos hd]
      by_cases ht : s.dtype p = old
      · rw [if_pos ht]; left; exact ⟨_, rfl⟩
      · rw [if_neg ht]
        rcases doRemove_cases s p old with ⟨e, he⟩ | ⟨c, l, rfl, h1, h2, h3⟩
        · left; exact ⟨e, by rw [he]; rfl⟩
        · right
          by_cases hr : s.root p = some c
          · refine ⟨c, l, upd s.root p none, rfl, h1, hk', h2, fun _ => ht, ?_, ?_⟩
            · intro x; unfold upd; simp [hd, hr]
            · rw [h3]
              show Out.ok (if (unlink s p c l).root p = some c then _ else _) () = _
              rw [unlink_root, if_pos hr]
          · refine ⟨c, l, s.root, rfl, h1, hk', h2, fun _ => ht, ?_, ?_⟩
            · intro x; simp [hr]
            · rw [h3]
              show Out.ok (if (unlink s p c l).root p = some c then _ else _) () = _
              rw [unlink_root, if_neg hr]
              have := unlink_root s p c l
              rw [← this]
    · rw [if_neg hd]
      rcases doRemove_cases s p old with ⟨e, he⟩ | ⟨c, l, rfl, h1, h2, h3⟩
      · left; exact ⟨e, he⟩
      · right
        refine ⟨c, l, s.root, rfl, h1, hk', h2, fun h => absurd h hd, ?_, ?_⟩
        · intro x; simp [hd]
        · rw [h3]
          have := unlink_root s p c l
          rw [← this]

/-- What a removal that succeeds leaves. -/
structure Removed (s : St) (c : Id) (s' : St) : Prop where
  frame : Frame s s'
  doc : s'.doc = s.doc
  dtype : s'.dtype = s.dtype
  root : ∀ x, s'.root x =
    if s.kind x = .document ∧ s.parent c = some x ∧ s.root x = some c then none else s.root x
  parent : s'.parent = upd s.parent c none
  kids : ∀ q, s'.kids q = (s.kids q).erase c

theorem removed_of_unlink {s : St} (h : Inv s) {p c : Id} {l : List Id}
    (he : eraseChild c (s.kids p) = some l) (r : Id → Option Id)
    (hr : ∀ x, r x = if x = p ∧ s.kind p = .document ∧ s.root p = some c then none else s.root x) :
    Inv { unlink s p c l with root := r } ∧ Removed s c { unlink s p c l with root := r } := by
  obtain ⟨l1, l2, hk, _, _⟩ := eraseChild_some c _ _ he
  have h2 := h.child_parent (p := p) (c := c) (by rw [hk]; simp)
  refine ⟨(unlink_inv h p c l he).of_tree rfl rfl rfl rfl rfl rfl rfl rfl, ?_, unlink_doc _ _ _ _, unlink_dtype _ _ _ _, ?_, unlink_parent _ _ _ _, ?_⟩
  · have := unlink_frame s p c l
    exact ⟨this.size, this.kind, this.ro, this.data, this.freed, this.doc⟩
  · intro x
    show r x = _
    rw [hr, h2]
    by_cases e : x = p
    · subst e; simp
    · have : ¬ (some p = some x) := by intro t; cases t; exact e rfl
      simp [e, this]
  · intro q
    show (unlink s p c l).kids q = _
    rw [unlink_kids]
    unfold upd
    split
    · rename_i e; subst e; exact eraseChild_eq _ _ _ he
    · rename_i e
      rw [List.erase_of_not_mem]
      intro hm
      have h1 := h.child_parent hm
      rw [h1] at h2; cases h2; exact e rfl

/-- The elementary changes the editing calls are made of; with `b`, none makes the root stale. -/
inductive E (b : Bool) : St → St → Prop
  /-- a document type without owner gets one -/
  | adopt (s : St) (c d : Id) : c < s.size → s.freed c = false → s.doc c = none → s.kind c = .doctype →
      d < s.size → s.kind d = .document →
      E b s { s with doc := upd s.doc c (some d) }
  /-- a child leaves its parent -/
  | remove (s : St) (p c : Id) (l : List Id) (r : Id → Option Id) :
      eraseChild c (s.kids p) = some l → s.ro p = false → s.freed p = false →
      (s.kind p = .document → s.dtype p ≠ some c) →
      (∀ x, r x = if x = p ∧ s.kind p = .document ∧ s.root p = some c then none else s.root x) →
      E b s { unlink s p c l with root := r }
  /-- a node without parent goes into a child list -/
  | insert (s s1 : St) (p c : Id) (ref : Option Id) :
      p < s.size → c < s.size → s.freed p = false → s.freed c = false → s.ro p = false →
      hasKids (s.kind p) = true →
      (childKind (s.kind c) = true ∧ (s.kind c ≠ .doctype → childAllowed (s.kind p) (s.kind c) = true)) → s.doc c = s.doc p →
      ¬ (s.kind p = .document ∧ s.kind c = .element ∧ s.root p ≠ none) →
      ¬ (s.kind p = .document ∧ s.kind c = .doctype ∧ s.dtype p ≠ none) →
      s.parent c = none → ¬ AncEq s.parent c p → link s p c ref = .ok s1 () →
      E b s (docInserted s1 p c)
  /-- a node without parent takes the place of a child -/
  | replace (s : St) (p c o : Id) (l1 l2 : List Id) (r : Id → Option Id) :
      p < s.size → c < s.size → s.freed p = false → s.freed c = false → s.ro p = false →
      hasKids (s.kind p) = true →
      (childKind (s.kind c) = true ∧ (s.kind c ≠ .doctype → childAllowed (s.kind p) (s.kind c) = true)) → s.doc c = s.doc p →
      ¬ (s.kind p = .document ∧ s.kind c = .element ∧ s.root p ≠ none ∧ s.root p ≠ some o) →
      s.parent c = none → ¬ AncEq s.parent c p → s.kids p = l1 ++ o :: l2 →
      (∀ x, r x = if x = p ∧ s.kind p = .document ∧ s.kind c = .element then some c else s.root x) →
      (b = true → ¬ staleReplace s p c o) →
      E b s { substitute s p c o (l1 ++ c :: l2) with root := r }

/-- Any number of elementary changes. -/
inductive Star (b : Bool) : St → St → Prop
  | refl (s : St) : Star b s s
  | step (s t u : St) : Star b s t → Inv t → E b t u → Star b s u

theorem Star.one {b : Bool} {s t : St} (hi : Inv s) (h : E b s t) : Star b s t := .step _ _ _ (.refl s) hi h

theorem Star.trans {b : Bool} {s t u : St} (h : Star b s t) (k : Star b t u) : Star b s u := by
  induction k with
  | refl => exact h
  | step t u _ hi e ih => exact .step _ _ _ ih hi e

theorem Star.induct {b : Bool} {J : St → Prop} (hJ : ∀ s t, Inv s → E b s t → J s → J t) {s t : St}
    (h : Star b s t) (h0 : J s) : J t := by
  induction h with
  | refl => exact h0
  | step t u _ hi e ih => exact hJ t u hi e ih

theorem removeChild_cases' {b : Bool} {s : St} (h : Inv s) (p : Id) (old : Option Id) (hf : s.freed p = false) :
    (∃ e, removeChild s p old = .err e s) ∨
    (∃ c s', old = some c ∧ c ∈ s.kids p ∧ removeChild s p old = .ok s' () ∧ Inv s' ∧ Removed s c s' ∧ Star b s s' ∧
      s.ro p = false ∧ ¬ (s.kind p = .document ∧ s.dtype p = some c)) := by
  rcases removeChild_cases s p old with ⟨e, he⟩ | ⟨c, l, r, rfl, h1, _, h2, h4, h5, h3⟩
  · exact Or.inl ⟨e, he⟩
  · right
    obtain ⟨l1, l2, hk, _, _⟩ := eraseChild_some c _ _ h1
    have := removed_of_unlink h h1 r h5
    exact ⟨c, _, rfl, by rw [hk]; simp, h3, this.1, this.2, Star.one h (.remove s p c l r h1 h2 hf h4 h5), h2,
      fun t => h4 t.1 t.2⟩

/-- `removeIfRequired`: fails without a change, or leaves the node without parent. -/
theorem removeIf_cases {b : Bool} {s : St} (h : Inv s) (n : Id) (hf : s.freed n = false) :
    (∃ e, removeIfRequired s n = .err e s) ∨
    (∃ s', removeIfRequired s n = .ok s' () ∧ Inv s' ∧ Removed s n s' ∧ Star b s s' ∧
      (s.parent n = none → s' = s) ∧
      ∀ q, s.parent n = some q → s.ro q = false ∧ ¬ (s.kind q = .document ∧ s.dtype q = some n)) := by
  unfold removeIfRequired
  rw [h.getParent_eq]
  cases hp : s.parent n with
  | none =>
    right
    refine ⟨s, rfl, h, ⟨Frame.refl s, rfl, rfl, ?_, ?_, ?_⟩, .refl s, fun _ => rfl, by simp⟩
    · intro x; simp [hp]
    · funext x; unfold upd; split
      · rename_i e; rw [e, hp]
      · rfl
    · intro q; rw [List.erase_of_not_mem (h.not_child hp q)]
  | some q =>
    have hm := h.wf.par n q hp
    rcases removeChild_cases' (b := b) h q (some n) (by rw [← h.closed q n hm]; exact hf) with ⟨e, he⟩ | ⟨c, s', hc, _, h3, i, r, st, x1, x2⟩
    · left; exact ⟨e, he⟩
    · cases hc
      right
      exact ⟨s', h3, i, r, st, by simp, by intro q' e; cases e; exact ⟨x1, x2⟩⟩

/-! ## the way to the root -/

theorem onPath_false {s : St} {c : Id} : ∀ (fuel : Nat) (o : Option Id), onPath s c fuel o = some false →
    ∀ n, o = some n → ¬ AncEq (getParent s) c n
  | _, none, _, n, hn => by cases hn
  | 0, some m, h, n, hn => by simp [onPath] at h
  | fuel + 1, some m, h, n, hn => by
    cases hn
    unfold onPath at h
    split at h
    · cases h
    · rename_i hne
      intro ha
      rcases ha with ha | ha
      · exact hne ha.symm
      · cases ha with
        | parent _ hp => exact onPath_false fuel _ h c hp (Or.inl rfl)
        | above q _ hp ha => exact onPath_false fuel _ h q hp (Or.inr ha)

theorem onPath_true {s : St} {c : Id} : ∀ (fuel : Nat) (o : Option Id), onPath s c fuel o = some true →
    ∀ n, o = some n → AncEq (getParent s) c n
  | _, none, _, n, hn => by cases hn
  | 0, some m, h, n, hn => by simp [onPath] at h
  | fuel + 1, some m, h, n, hn => by
    cases hn
    unfold onPath at h
    split at h
    · rename_i e; exact Or.inl e.symm
    · rename_i hne
      cases hp : getParent s m with
      | none => rw [hp] at h; cases fuel <;> simp [onPath] at h
      | some q =>
        rw [hp] at h
        have := onPath_true fuel _ h q rfl
        rcases this with rfl | this
        · exact Or.inr (.parent _ _ hp)
        · exact Or.inr (.above _ _ _ hp this)

/-- Pigeonhole: distinct numbers below `n` are at most `n`. -/
theorem nodup_length_le : ∀ (n : Nat) (l : List Nat), l.Nodup → (∀ x ∈ l, x < n) → l.length ≤ n
  | 0, l, _, h => by
    cases l with
    | nil => simp
    | cons a l => exact absurd (h a (by simp)) (by omega)
  | n + 1, l, hn, h => by
    have h1 : (l.erase n).length ≤ n := by
      refine nodup_length_le n _ (hn.erase n) ?_
      intro x hx
      have := h x (List.mem_of_mem_erase hx)
      have hne : x ≠ n := by
        intro e; subst e
        exact (List.Nodup.not_mem_erase hn) hx
      omega
    have : l.length ≤ (l.erase n).length + 1 := by
      by_cases hm : n ∈ l
      · rw [List.length_erase_of_mem hm]; omega
      · rw [List.erase_of_not_mem hm]; omega
    omega

/-- In a well formed store the way to the root has at most as many nodes as there are. -/
theorem onPath_total {s : St} (h : Inv s) (c : Id) : ∀ (fuel : Nat) (seen : List Id) (n : Id),
    seen.Nodup → (∀ x ∈ seen, x < s.size ∧ Anc s.parent n x) → n < s.size →
    s.size + 1 ≤ fuel + seen.length → onPath s c fuel (some n) ≠ none := by
  intro fuel
  induction fuel with
  | zero =>
    intro seen n hn hs hlt hf
    have := nodup_length_le s.size seen hn (fun x hx => (hs x hx).1)
    omega
  | succ fuel ih =>
    intro seen n hn hs hlt hf
    unfold onPath
    split
    · simp
    · rw [h.getParent_eq]
      cases hp : s.parent n with
      | none => cases fuel <;> simp [onPath]
      | some q =>
        have hm := h.wf.par n q hp
        refine ih (n :: seen) q ?_ ?_ (h.lt q n hm).2 (by simp; omega)
        · rw [List.nodup_cons]
          refine ⟨?_, hn⟩
          intro hin
          exact h.wf.acyc n (hs n hin).2
        · intro x hx
          cases List.mem_cons.mp hx with
          | inl e => subst e; exact ⟨hlt, .parent _ _ hp⟩
          | inr e => exact ⟨(hs x e).1, anc_trans (.parent _ _ hp) (hs x e).2⟩

theorem childAllowed_kind {p c : Kind} (h : childAllowed p c = true) :
    childKind c = true ∧ hasKids p = true := by
  cases p <;> cases c <;> simp_all [childAllowed, childKind, hasKids]

/-! ## insertion -/

/-- `checkCanAdd`: fails without a change, or leaves the child lists alone and admits the child. -/
theorem checkCanAdd_cases {b : Bool} {s : St} (h : Inv s) {p c : Id} (hp : p < s.size) (hc : c < s.size)
    (hk : hasKids (s.kind p) = true) (hself : ¬ (p = c ∧ s.kind c = .document)) (hfrag : s.kind c ≠ .fragment)
    (hfc : s.freed c = false) :
    (∃ e, checkCanAdd s p c = .err e s) ∨
    (∃ s', checkCanAdd s p c = .ok s' () ∧ Inv s' ∧ Frame s s' ∧ s'.kids = s.kids ∧
      s'.parent = s.parent ∧ s'.root = s.root ∧ s'.dtype = s.dtype ∧ Star b s s' ∧
      ¬ AncEq s.parent c p ∧ childKind (s.kind c) = true ∧ s'.doc c = s'.doc p ∧
      (s' = s ∨ s.doc c = none ∧ s' = { s with doc := upd s.doc c (s.doc p) }) ∧
      (s.doc c ≠ none → childAllowed (s.kind p) (s.kind c) = true)) := by
  unfold checkCanAdd
  cases hd : s.doc c with
  | none =>
    right
    have hdt := h.nodoc c hc hd
    have hpc : p ≠ c := by
      intro e; subst e; rw [hdt] at hk; cases hk
    have hnk : s.kids c = [] := by
      cases hkk : s.kids c with
      | nil => rfl
      | cons x l =>
        have := (h.kinds c x (by rw [hkk]; simp)).1
        rw [hdt] at this; cases this
    have hnp : ∀ q, c ∉ s.kids q := by
      intro q hq
      have h1 := h.owner q c hq
      rw [hd] at h1
      have h2 := h.nodoc q (h.lt q c hq).2 h1.symm
      have h3 := (h.kinds q c hq).1
      rw [h2] at h3; cases h3
    obtain ⟨d, hdp⟩ : ∃ d, s.doc p = some d := by
      cases hdp : s.doc p with
      | none => have := h.nodoc p hp hdp; rw [this] at hk; cases hk
      | some d => exact ⟨d, rfl⟩
    have hdd := h.docok p d hp hdp
    refine ⟨_, rfl, ⟨h.wf, h.lt, h.kinds, ?_, ?_, ?_, h.closed, ?_⟩, ⟨rfl, rfl, rfl, rfl, rfl, ?_⟩, rfl, rfl, rfl, rfl,
      by rw [hdp]; exact Star.one h (.adopt s c d hc hfc hd hdt hdd.1 hdd.2), ?_,
      by rw [hdt]; rfl, ?_, Or.inr ⟨rfl, rfl⟩, by simp⟩
    · intro n hn hdn
      by_cases e : n = c
      · subst e; exact hdt
      · simp only [upd, e, if_false] at hdn; exact h.nodoc n hn hdn
    · intro n hn hdn
      have hne : n ≠ c := by
        intro e; subst e; rw [hdt] at hdn; cases hdn
      simp only [upd, hne, if_false]; exact h.selfdoc n hn hdn
    · intro q x hx
      have hxc : x ≠ c := by intro e; subst e; exact hnp q hx
      have hqc : q ≠ c := by
        intro e; subst e
        have hx' : x ∈ s.kids q := hx
        rw [hnk] at hx'; cases hx'
      simp only [upd, hxc, hqc, if_false]; exact h.owner q x hx
    · intro n d' hn hdn
      by_cases e : n = c
      · subst e
        simp only [upd, if_true] at hdn
        exact h.docok p d' hp hdn
      · simp only [upd, e, if_false] at hdn; exact h.docok n d' hn hdn
    · intro n d hn
      have hne : n ≠ c := by
        intro e; subst e; rw [hd] at hn; cases hn
      simp only [upd, hne, if_false]; exact hn
    · rintro (e | e)
      · exact hpc e.symm
      · have : ∀ x, Anc s.parent c x → False := by
          intro x hx
          induction hx with
          | parent x hx => have := h.wf.par x c hx; rw [hnk] at this; cases this
          | above q x _ _ ih => exact ih
        exact this _ e
    · simp [upd, hpc]
  | some d =>
    simp only []
    by_cases hcd : s.kind c = .document
    · rw [if_pos hcd]
      have := h.selfdoc c hc hcd
      rw [hd] at this; cases this
      have : ¬ (s.kind p = .document ∧ c = p) := fun e => hself ⟨e.2.symm, hcd⟩
      rw [if_neg this]; left; exact ⟨_, rfl⟩
    · rw [if_neg hcd]
      split
      · left; exact ⟨_, rfl⟩
      · rename_i hdoc
        have htot := onPath_total h c (s.size + 1) [] p List.nodup_nil (by simp) hp (by simp)
        cases hon : onPath s c (s.size + 1) (some p) with
        | none => exact absurd hon htot
        | some b =>
          cases b with
          | true => left; exact ⟨_, rfl⟩
          | false =>
            simp only []
            split
            · left; exact ⟨_, rfl⟩
            · split
              · rename_i hall
                right
                have hanc := onPath_false _ _ hon p rfl
                have hg : getParent s = s.parent := funext (h.getParent_eq)
                rw [hg] at hanc
                have hpd : s.doc p ≠ none := by
                  intro e
                  have := h.nodoc p hp e
                  rw [this] at hk; cases hk
                refine ⟨s, rfl, h, Frame.refl s, rfl, rfl, rfl, rfl, .refl s, hanc, (childAllowed_kind hall).1, ?_,
                  Or.inl rfl, fun _ => hall⟩
                rw [hd]
                by_cases e : some d = s.doc p
                · exact e
                · exact absurd ⟨hpd, e⟩ hdoc
              · left; exact ⟨_, rfl⟩

/-- Linking: fails without a change if the reference is no child, otherwise inserts. -/
theorem link_cases {s : St} (h : Inv s) {p c : Id} (ref : Option Id) (hp : p < s.size) (hc : c < s.size)
    (hk : hasKids (s.kind p) = true) (hck : childKind (s.kind c) = true) (hdoc : s.doc c = s.doc p)
    (hpar : s.parent c = none) (hanc : ¬ AncEq s.parent c p) (hfre : s.freed c = s.freed p) :
    (∃ r, ref = some r ∧ r ∉ s.kids p ∧ link s p c ref = .err .notFound s) ∨
    (∃ s', link s p c ref = .ok s' () ∧ Inv s' ∧ Frame s s' ∧ s'.doc = s.doc ∧ s'.root = s.root ∧
      s'.dtype = s.dtype ∧ s'.parent = upd s.parent c (some p) ∧ (∀ r, ref = some r → r ∈ s.kids p) ∧
      s'.kids = upd s.kids p (Spec.Dom.place c ref (s.kids p)) ∧
      (∃ l1 l2, s.kids p = l1 ++ l2 ∧ s'.kids = upd s.kids p (l1 ++ c :: l2)) ∧
      (∃ l1 l2, s.kids p = l1 ++ l2 ∧ Spec.Dom.place c ref (s.kids p) = l1 ++ c :: l2 ∧ l2.head? = ref)) := by
  have general : ∀ (s' : St) (l1 l2 : List Id), s.kids p = l1 ++ l2 →
      Frame s s' → s'.doc = s.doc → s'.kids = upd s.kids p (l1 ++ c :: l2) → s'.parent = upd s.parent c (some p) →
      (∀ x, s'.prev x = if x = c then l1.getLast? else if l2.head? = some x then some c else s.prev x) →
      (∀ x, s'.next x = if x = c then l2.head? else if l1.getLast? = some x then some c else s.next x) → Inv s' := by
    intro s' l1 l2 hkp fr hd hkids hpa hprev hnext
    have hsub : ∀ q x, x ∈ s'.kids q → x ∈ s.kids q ∨ (q = p ∧ x = c) := by
      intro q x hx
      rw [hkids] at hx
      unfold upd at hx
      split at hx
      · rename_i e; subst e; rw [hkp]; simp at hx ⊢
        rcases hx with t | t | t
        · exact Or.inl (Or.inl t)
        · exact Or.inr t
        · exact Or.inl (Or.inr t)
      · exact Or.inl hx
    refine ⟨wft_link h.wf hpar hanc hkp hkids hpa hprev hnext, ?_, ?_, ?_, ?_, ?_, ?_, ?_⟩
    · intro q x hx; rw [fr.size]
      rcases hsub q x hx with t | ⟨rfl, rfl⟩
      · exact h.lt q x t
      · exact ⟨hc, hp⟩
    · intro q x hx; rw [fr.kind]
      rcases hsub q x hx with t | ⟨rfl, rfl⟩
      · exact h.kinds q x t
      · exact ⟨hk, hck⟩
    · rw [fr.size, fr.kind, hd]; exact h.nodoc
    · rw [fr.size, fr.kind, hd]; exact h.selfdoc
    · intro q x hx; rw [hd]
      rcases hsub q x hx with t | ⟨rfl, rfl⟩
      · exact h.owner q x t
      · exact hdoc
    · intro q x hx; rw [fr.freed]
      rcases hsub q x hx with t | ⟨rfl, rfl⟩
      · exact h.closed q x t
      · exact hfre
    · rw [fr.size, fr.kind, hd]; exact h.docok
  have hcn := h.not_child hpar p
  cases ref with
  | none =>
    right
    unfold link
    simp only []
    refine ⟨_, rfl, ?_⟩
    have hfr : ∀ t : St, Frame s t → Frame s (markChanged (setParent t c p) p) := by
      intro t ht
      refine (ht.trans ?_).trans (mc_frame _ _)
      exact ⟨rfl, rfl, rfl, rfl, rfl, fun _ _ h => h⟩
    obtain ⟨o1, o2⟩ := h.wf.orph c hpar
    have key : ∀ t : St, t = (if (s.kids p).getLast? = none then
          { s with next := updOpt s.next (s.kids p).getLast? (some c) }
        else { s with next := updOpt s.next (s.kids p).getLast? (some c), prev := upd s.prev c (s.kids p).getLast? }) →
        t.kids = s.kids ∧ t.parent = s.parent ∧ t.doc = s.doc ∧ t.root = s.root ∧ t.dtype = s.dtype ∧ Frame s t ∧
        (∀ x, t.prev x = if x = c then (s.kids p).getLast? else s.prev x) ∧
        (∀ x, t.next x = if x = c then none else if (s.kids p).getLast? = some x then some c else s.next x) := by
      intro t ht
      subst ht
      have hlast : (s.kids p).getLast? ≠ some c := fun e => hcn (getLast?_mem' e)
      split
      · rename_i e
        refine ⟨rfl, rfl, rfl, rfl, rfl, ⟨rfl, rfl, rfl, rfl, rfl, fun _ _ h => h⟩, ?_, ?_⟩
        · intro x; rw [e]; split
          · rename_i e2; subst e2; exact o1
          · rfl
        · intro x
          show updOpt s.next _ _ x = _
          rw [updOpt_apply]
          by_cases e2 : x = c
          · subst e2; rw [if_neg hlast, if_pos rfl]; exact o2
          · rw [if_neg e2]
      · refine ⟨rfl, rfl, rfl, rfl, rfl, ⟨rfl, rfl, rfl, rfl, rfl, fun _ _ h => h⟩, ?_, ?_⟩
        · intro x; rfl
        · intro x
          show updOpt s.next _ _ x = _
          rw [updOpt_apply]
          by_cases e2 : x = c
          · subst e2; rw [if_neg hlast, if_pos rfl]; exact o2
          · rw [if_neg e2]
    obtain ⟨k1, k2, k3, k4, k5, k6, k7, k8⟩ := key _ rfl
    refine ⟨?_, hfr _ ?_, ?_, ?_, ?_, ?_, by simp, ?_, ⟨s.kids p, [], by simp, ?_⟩, ⟨s.kids p, [], by simp, by simp [Spec.Dom.place], rfl⟩⟩
    · refine general _ (s.kids p) [] (by simp) (hfr _ ?_) ?_ ?_ ?_ ?_ ?_
      · exact Frame.trans k6 ⟨rfl, rfl, rfl, rfl, rfl, fun _ _ h => h⟩
      · rw [mc_doc]; exact k3
      · rw [mc_kids]
        show upd _ p (_ ++ [c]) = _
        rw [k1]
      · rw [mc_parent]
        show upd _ c (some p) = _
        rw [k2]
      · intro x; rw [mc_prev]; simp only [List.head?_nil, reduceCtorEq, if_false]; exact k7 x
      · intro x; rw [mc_next]; exact k8 x
    · exact Frame.trans k6 ⟨rfl, rfl, rfl, rfl, rfl, fun _ _ h => h⟩
    · rw [mc_doc]; exact k3
    · rw [mc_root]; exact k4
    · rw [mc_dtype]; exact k5
    · rw [mc_parent]
      show upd _ c (some p) = _
      rw [k2]
    · rw [mc_kids]
      show upd _ p (_ ++ [c]) = _
      rw [k1]; rfl
    · rw [mc_kids]
      show upd _ p (_ ++ [c]) = _
      rw [k1]
  | some r =>
    unfold link
    cases hi : insertChild c r (s.kids p) with
    | none => left; exact ⟨r, rfl, (insertChild_none c r _).mp hi, by simp [hi]⟩
    | some l =>
      right
      simp only [hi]
      refine ⟨_, rfl, ?_⟩
      obtain ⟨l1, l2, hkp, hrl, rfl⟩ := insertChild_some c r _ _ hi
      obtain ⟨d1, d2, d3, d4, d5⟩ := h.wf.link _ _ _ _ hkp
      have hrc : r ≠ c := by
        intro e; subst e; exact hcn (by rw [hkp]; simp)
      have hlc : s.prev r ≠ some c := by
        rw [d2]; intro e; exact hcn (by rw [hkp]; simp [getLast?_mem' e])
      have hfr : Frame s _ := Frame.trans (b := setParent
        { s with kids := upd s.kids p (l1 ++ c :: r :: l2)
                 next := upd (updOpt s.next (s.prev r) (some c)) c (some r)
                 prev := upd (upd s.prev c (s.prev r)) r (some c) } c p)
        ⟨rfl, rfl, rfl, rfl, rfl, fun _ _ h => h⟩ (mc_frame _ p)
      refine ⟨?_, hfr, ?_, ?_, ?_, ?_, ?_, ?_, ⟨l1, r :: l2, hkp, ?_⟩, ⟨l1, r :: l2, hkp, ?_, rfl⟩⟩
      · refine general _ l1 (r :: l2) hkp hfr ?_ ?_ ?_ ?_ ?_
        · rw [mc_doc]; rfl
        · rw [mc_kids]; rfl
        · rw [mc_parent]; rfl
        · intro x; rw [mc_prev]
          show upd (upd s.prev c (s.prev r)) r (some c) x = _
          simp only [upd, List.head?_cons, Option.some.injEq]
          by_cases e1 : x = r
          · subst e1; simp [hrc]
          · rw [if_neg e1]
            by_cases e2 : x = c
            · simp [e2, d2]
            · simp [e2, Ne.symm e1]
        · intro x; rw [mc_next]
          show upd (updOpt s.next (s.prev r) (some c)) c (some r) x = _
          simp only [upd, updOpt_apply, List.head?_cons, d2]
      · rw [mc_doc]; rfl
      · rw [mc_root]; rfl
      · rw [mc_dtype]; rfl
      · rw [mc_parent]; rfl
      · intro r' e; cases e; rw [hkp]; simp
      · rw [mc_kids]
        show upd s.kids p _ = _
        rw [insertChild_eq c r _ _ hi]; rfl
      · rw [mc_kids]; rfl
      · exact (insertChild_eq c r _ _ hi).symm

theorem docInserted_inv {s : St} (h : Inv s) (p c : Id) :
    Inv (docInserted s p c) ∧ Frame s (docInserted s p c) ∧ (docInserted s p c).kids = s.kids ∧
    (docInserted s p c).parent = s.parent := by
  have general : ∀ r d, Inv { s with root := r, dtype := d } ∧ Frame s { s with root := r, dtype := d } :=
    fun r d => ⟨h.of_tree rfl rfl rfl rfl rfl rfl rfl rfl, ⟨rfl, rfl, rfl, rfl, rfl, fun _ _ h => h⟩⟩
  unfold docInserted
  by_cases h1 : s.kind p = .document
  · rw [if_pos h1]
    by_cases h2 : s.kind c = .element ∧ s.root p = none
    · rw [if_pos h2]
      simp only []
      by_cases h3 : s.kind c = .doctype ∧ s.dtype p = none
      · rw [if_pos h3]; exact ⟨(general _ _).1, (general _ _).2, rfl, rfl⟩
      · rw [if_neg h3]; exact ⟨(general _ s.dtype).1, (general _ s.dtype).2, rfl, rfl⟩
    · rw [if_neg h2]
      simp only []
      by_cases h3 : s.kind c = .doctype ∧ s.dtype p = none
      · rw [if_pos h3]; exact ⟨(general s.root _).1, (general s.root _).2, rfl, rfl⟩
      · rw [if_neg h3]; exact ⟨h, Frame.refl s, rfl, rfl⟩
  · rw [if_neg h1]; exact ⟨h, Frame.refl s, rfl, rfl⟩

/-- The links that make up the tree are the same. -/
def SameTree (s s' : St) : Prop :=
  s'.kids = s.kids ∧ s'.parent = s.parent ∧ s'.prev = s.prev ∧ s'.next = s.next

theorem SameTree.refl (s : St) : SameTree s s := ⟨rfl, rfl, rfl, rfl⟩

/-- What `insertBefore` and `replaceChild` have found out before they call the base class. -/
structure Pre (s : St) (p c : Id) : Prop where
  hp : p < s.size
  hc : c < s.size
  fp : s.freed p = false
  fc : s.freed c = false
  ro : s.ro p = false
  kids : hasKids (s.kind p) = true
  self : ¬ (p = c ∧ s.kind c = .document)
  frag : s.kind c ≠ .fragment

/-- After `checkCanAdd` and `removeIfRequired`. -/
structure Ready (b : Bool) (s : St) (p c : Id) (s2 : St) : Prop where
  inv : Inv s2
  frame : Frame s s2
  star : Star b s s2
  kids : ∀ q, s2.kids q = (s.kids q).erase c
  parent : s2.parent = upd s.parent c none
  orphan : s2.parent c = none
  anc : ¬ AncEq s2.parent c p
  anc0 : ¬ AncEq s.parent c p
  ck : childKind (s.kind c) = true
  doc : s2.doc c = s2.doc p
  root : ∀ x, s2.root x =
    if s.kind x = .document ∧ s.parent c = some x ∧ s.root x = some c then none else s.root x
  dtype : s2.dtype = s.dtype
  same : s.parent c = none → SameTree s s2
  docs : s.doc c ≠ none → s2.doc = s.doc
  par : ∀ q, s.parent c = some q → s.ro q = false ∧ ¬ (s.kind q = .document ∧ s.dtype q = some c)
  allowed : s.doc c ≠ none → childAllowed (s.kind p) (s.kind c) = true

theorem ready {b : Bool} {s : St} (h : Inv s) {p c : Id} (pre : Pre s p c) :
    (∃ e s1, (checkCanAdd s p c).bind (fun s _ => removeIfRequired s c) = .err e s1 ∧ Inv s1 ∧ Frame s s1 ∧
      Star b s s1 ∧ SameTree s s1 ∧ (s.doc c ≠ none → s1 = s)) ∨
    (∃ s2, (checkCanAdd s p c).bind (fun s _ => removeIfRequired s c) = .ok s2 () ∧ Ready b s p c s2) := by
  rcases checkCanAdd_cases (b := b) h pre.hp pre.hc pre.kids pre.self pre.frag pre.fc with
    ⟨e, he⟩ | ⟨s1, he, i1, f1, k1, p1, r1, t1, st1, a1, c1, d1, or1, al1⟩
  · left; exact ⟨e, s, by rw [he]; rfl, h, Frame.refl s, .refl s, SameTree.refl s, fun _ => rfl⟩
  · rw [he]
    simp only [Out.bind]
    have sm1 : SameTree s s1 := by
      rcases or1 with rfl | ⟨_, rfl⟩
      · exact SameTree.refl _
      · exact ⟨rfl, rfl, rfl, rfl⟩
    have eq1 : s.doc c ≠ none → s1 = s := by
      intro hd
      rcases or1 with e | ⟨e, _⟩
      · exact e
      · exact absurd e hd
    rcases removeIf_cases (b := b) i1 c (by rw [f1.freed]; exact pre.fc) with ⟨e, he⟩ | ⟨s2, he, i2, r2, st2, sm2, par2⟩
    · left; exact ⟨e, s1, by rw [he], i1, f1, st1, sm1, eq1⟩
    · right
      rw [he]
      have hpar : s2.parent c = none := by rw [r2.parent]; exact upd_same _ _ _
      refine ⟨s2, rfl, i2, f1.trans r2.frame, st1.trans st2, ?_, ?_, hpar, ?_, a1, c1, ?_, ?_, ?_, ?_, ?_, ?_, al1⟩
      · intro q; rw [r2.kids, k1]
      · rw [r2.parent, p1]
      · intro hx
        rw [r2.parent, p1] at hx
        rcases hx with rfl | hx
        · exact a1 (Or.inl rfl)
        · exact a1 (Or.inr (anc_unlink hx))
      · rw [r2.doc]; exact d1
      · intro x; rw [r2.root, p1, r1, f1.kind]
      · rw [r2.dtype, t1]
      · intro hn
        rw [sm2 (by rw [p1]; exact hn)]; exact sm1
      · intro hd; rw [r2.doc, eq1 hd]
      · intro q hq
        have := par2 q (by rw [p1]; exact hq)
        rw [f1.ro, f1.kind, t1] at this
        exact this

theorem bind_assoc {α β γ : Type} (x : Out α) (f : St → α → Out β) (g : St → β → Out γ) :
    (x.bind f).bind g = x.bind (fun s a => (f s a).bind g) := by cases x <;> rfl

/-- Inserting a node that is no fragment. -/
theorem insertPlain_cases {b : Bool} {s : St} (h : Inv s) {p c : Id} (ref : Option Id) (pre : Pre s p c)
    (hr1 : ¬ (s.kind p = .document ∧ s.kind c = .element ∧ s.root p ≠ none))
    (hr2 : ¬ (s.kind p = .document ∧ s.kind c = .doctype ∧ s.dtype p ≠ none)) :
    (∃ e s', (insertPlain s p c ref).bind (fun s _ => .ok (docInserted s p c) ()) = .err e s' ∧ Inv s' ∧ Frame s s' ∧
      Star b s s' ∧ (SameTree s s' ∨ (s.parent c ≠ none ∧ ∃ r, ref = some r ∧ r ∉ (s.kids p).erase c)) ∧
      (s.doc c ≠ none → (∀ r, ref = some r → r ∈ (s.kids p).erase c) → s' = s)) ∨
    (∃ s', (insertPlain s p c ref).bind (fun s _ => .ok (docInserted s p c) ()) = .ok s' () ∧ Inv s' ∧ Frame s s' ∧
      Star b s s' ∧ s'.kids = Spec.Dom.inserted s.kids p c ref ∧ s'.parent = upd s.parent c (some p) ∧
      (∀ r, ref = some r → r ∈ (s.kids p).erase c) ∧ ¬ AncEq s.parent c p ∧
      (s.doc c ≠ none → s.doc c = s.doc p ∧ childAllowed (s.kind p) (s.kind c) = true) ∧
      (∀ q, s.parent c = some q → s.ro q = false ∧ ¬ (s.kind q = .document ∧ s.dtype q = some c))) := by
  have e0 : insertPlain s p c ref =
      ((checkCanAdd s p c).bind (fun s _ => removeIfRequired s c)).bind (fun s _ => link s p c ref) := by
    unfold insertPlain; rw [bind_assoc]
  rw [e0]
  rcases ready (b := b) h pre with ⟨e, s1, he, i1, f1, st1, sm1, eq1⟩ | ⟨s2, he, rd⟩
  · left; rw [he]; exact ⟨e, s1, rfl, i1, f1, st1, Or.inl sm1, fun hd _ => eq1 hd⟩
  · rw [he]
    simp only [Out.bind]
    have f2 := rd.frame
    have i2 := rd.inv
    rcases link_cases i2 ref (by rw [f2.size]; exact pre.hp) (by rw [f2.size]; exact pre.hc)
      (by rw [f2.kind]; exact pre.kids) (by rw [f2.kind]; exact rd.ck) rd.doc rd.orphan rd.anc
      (by rw [f2.freed, pre.fp, pre.fc]) with
      ⟨r, hr, hrn, hl⟩ | ⟨s3, hl, i3, f3, _, _, _, hpa, hrin, hkk, _⟩
    · left
      refine ⟨_, s2, by rw [hl], i2, f2, rd.star, ?_, ?_⟩
      · by_cases hp : s.parent c = none
        · exact Or.inl (rd.same hp)
        · exact Or.inr ⟨hp, r, hr, by rw [← rd.kids]; exact hrn⟩
      · intro _ hx
        exact absurd (hx r hr) (by rw [← rd.kids]; exact hrn)
    · right
      rw [hl]
      obtain ⟨i4, f4, k4, p4⟩ := docInserted_inv i3 p c
      refine ⟨_, rfl, i4, (f2.trans f3).trans f4, ?_, ?_, ?_, ?_, rd.anc0, ?_, rd.par⟩
      · refine rd.star.trans (Star.one i2 (E.insert s2 s3 p c ref (by rw [f2.size]; exact pre.hp)
          (by rw [f2.size]; exact pre.hc) (by rw [f2.freed]; exact pre.fp) (by rw [f2.freed]; exact pre.fc)
          (by rw [f2.ro]; exact pre.ro) (by rw [f2.kind]; exact pre.kids)
          (by rw [f2.kind]; exact ⟨rd.ck, fun hk => rd.allowed (fun e => hk (h.nodoc c pre.hc e))⟩) rd.doc
          ?_ ?_ rd.orphan rd.anc hl))
        · rw [f2.kind]
          rintro ⟨a, b, d⟩
          refine hr1 ⟨a, b, ?_⟩
          intro hn
          rw [rd.root, hn] at d
          simp at d
        · rw [f2.kind, rd.dtype]; exact hr2
      · rw [k4]
        funext q
        rw [hkk]
        unfold Spec.Dom.inserted upd
        by_cases e : q = p
        · rw [if_pos e, if_pos e, rd.kids, e]
        · rw [if_neg e, if_neg e, rd.kids]
      · rw [p4, hpa, rd.parent]
        funext x; simp only [upd]; split <;> rfl
      · intro r hr
        have := hrin r hr
        rw [rd.kids] at this; exact this
      · intro hd
        have := rd.doc
        rw [rd.docs hd] at this
        exact ⟨this, rd.allowed hd⟩

/-- What holds of the store after a call, whether it succeeds or fails. -/
def After (b : Bool) (s s' : St) : Prop := Inv s' ∧ Frame s s' ∧ Star b s s'

theorem After.refl {b : Bool} {s : St} (h : Inv s) : After b s s := ⟨h, Frame.refl s, .refl s⟩

theorem After.trans {b : Bool} {s t u : St} (h : After b s t) (k : After b t u) : After b s u :=
  ⟨k.1, h.2.1.trans k.2.1, h.2.2.trans k.2.2⟩

theorem Out.all_mono {α : Type} {P Q : St → Prop} {x : Out α} (h : x.All P) (hQ : ∀ s, P s → Q s) : x.All Q := by
  cases x with
  | ok s a => exact hQ s h
  | err e s => exact hQ s h
  | diverges => trivial
  | ub => trivial

theorem removeChild_after {b : Bool} {s : St} (h : Inv s) (p : Id) (old : Option Id) (hf : s.freed p = false) :
    (removeChild s p old).All (After b s) := by
  rcases removeChild_cases' (b := b) h p old hf with ⟨e, he⟩ | ⟨c, s', _, _, he, i, r, st, _⟩
  · rw [he]; exact After.refl h
  · rw [he]; exact ⟨i, r.frame, st⟩

/-- Every insertion keeps the invariant, whether it succeeds or fails. -/
theorem insertV_after {b : Bool} : ∀ (fuel : Nat) (s : St) (p c : Id) (ref : Option Id), Inv s → p < s.size → c < s.size →
    s.freed p = false → s.freed c = false →
    ¬ (p = c ∧ s.kind c = .document) → (insertV fuel s p c ref).All (After b s)
  | 0, _, _, _, _, _, _, _, _, _, _ => trivial
  | fuel + 1, s, p, c, ref, h, hp, hc, fp, fc, hself => by
    have hs := After.refl (b := b) h
    rw [insertV]
    by_cases hk : hasKids (s.kind p) = false
    · rw [if_pos hk]; exact hs
    rw [if_neg hk]
    have hk' : hasKids (s.kind p) = true := by simpa using hk
    by_cases h1 : s.kind p = .document ∧ s.kind c = .element ∧ s.root p ≠ none
    · rw [if_pos h1]; exact hs
    rw [if_neg h1]
    by_cases h2 : s.kind p = .document ∧ s.kind c = .doctype ∧ s.dtype p ≠ none
    · rw [if_pos h2]; exact hs
    rw [if_neg h2]
    by_cases h3 : s.ro p = true
    · rw [if_pos h3]; exact hs
    rw [if_neg h3]
    by_cases h4 : s.kind c = .fragment
    · rw [if_pos h4]
      cases hkc : s.kids c with
      | nil => exact hs
      | cons x l =>
        simp only []
        have hxm : x ∈ s.kids c := by rw [hkc]; simp
        refine Out.all_bind (removeChild_after (b := b) h c (some x) fc) (fun _ h => h) ?_
        intro s1 _ he1 a1
        have f1 := a1.2.1
        have hx := h.lt c x hxm
        have hxk := (h.kinds c x hxm).2
        have hI := insertV_after (b := b) fuel s1 p x ref a1.1 (by rw [f1.size]; exact hp) (by rw [f1.size]; exact hx.1)
          (by rw [f1.freed]; exact fp) (by rw [f1.freed, h.closed c x hxm]; exact fc)
          (by rw [f1.kind]; rintro ⟨_, e⟩; rw [e] at hxk; cases hxk)
        refine Out.all_bind (P := After b s1) hI (fun s' h => a1.trans h) ?_
        intro s2 _ he2 a2
        have f2 := a2.2.1
        refine Out.all_mono (insertV_after fuel s2 p c ref a2.1 (by rw [f2.size, f1.size]; exact hp)
          (by rw [f2.size, f1.size]; exact hc) (by rw [f2.freed, f1.freed]; exact fp)
          (by rw [f2.freed, f1.freed]; exact fc) (by rw [f2.kind, f1.kind]; exact hself))
          (fun u hu => (a1.trans a2).trans hu)
    · rw [if_neg h4]
      rcases insertPlain_cases (b := b) h ref ⟨hp, hc, fp, fc, by simpa using h3, hk', hself, h4⟩ h1 h2 with
        ⟨e, s', he, i, f, st, _⟩ | ⟨s', he, i, f, st, _⟩
      · rw [he]; exact ⟨i, f, st⟩
      · rw [he]; exact ⟨i, f, st⟩

end Verif.Dom
