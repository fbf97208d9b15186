import Verif.Lemmas.Dom6
set_option autoImplicit false
set_option linter.unusedSimpArgs false
set_option linter.unusedVariables false
namespace Verif.Dom
open Verif.Spec.Dom (Anc)

/-! ## more invariants of the elementary changes -/

/-- Every child but a document type is of an allowed kind. -/
def Allow (s : St) : Prop :=
  ∀ p c, c ∈ s.kids p → s.kind c ≠ .doctype → childAllowed (s.kind p) (s.kind c) = true

/-- The children of a read only node are read only. -/
def RoDown (s : St) : Prop := ∀ p c, c ∈ s.kids p → s.ro p = true → s.ro c = true

theorem E_allow {b : Bool} {s t : St} (h : Inv s) (he : E b s t) (hr : Allow s) : Allow t := by
  cases he with
  | adopt c d _ _ _ _ _ _ => exact hr
  | remove p c l r h1 _ _ _ h5 =>
    have fr := unlink_frame s p c l
    intro q x hx
    show (unlink s p c l).kind x ≠ _ → childAllowed ((unlink s p c l).kind q) ((unlink s p c l).kind x) = true
    rw [fr.kind]
    exact hr q x ((unlink_mem h h1 q x).mp hx).1
  | insert s1 p c ref h1 h2 h3 h4 h5 h6 h7 h8 h9 h10 h11 h12 h13 =>
    obtain ⟨i1, f1, d1, r1, t1, pa1, k1⟩ := E_insert_desc h h1 h2 h3 h4 h6 h7.1 h8 h11 h12 h13
    obtain ⟨i2, f2, k2, p2⟩ := docInserted_inv i1 p c
    intro q x hx
    rw [f2.kind, f1.kind]
    rw [k2] at hx
    rcases (k1 q x).mp hx with hx | ⟨rfl, rfl⟩
    · exact hr q x hx
    · exact h7.2
  | replace p c o l1 l2 r h1 h2 h3 h4 h5 h6 h7 h8 h9 h10 h11 h12 h13 _ =>
    have fr := sub_frame s p c o (l1 ++ c :: l2)
    intro q x hx
    show (substitute s p c o (l1 ++ c :: l2)).kind x ≠ _ → childAllowed ((substitute s p c o (l1 ++ c :: l2)).kind q)
      ((substitute s p c o (l1 ++ c :: l2)).kind x) = true
    rw [fr.kind]
    rcases (sub_mem h h12 h10 q x).mp hx with ⟨hx, _⟩ | ⟨rfl, rfl⟩
    · exact hr q x hx
    · exact h7.2

theorem E_ro {b : Bool} {s t : St} (h : Inv s) (he : E b s t) (hr : RoDown s) : RoDown t := by
  cases he with
  | adopt c d _ _ _ _ _ _ => exact hr
  | remove p c l r h1 _ _ _ h5 =>
    have fr := unlink_frame s p c l
    intro q x hx
    show (unlink s p c l).ro q = true → (unlink s p c l).ro x = true
    rw [fr.ro]
    exact hr q x ((unlink_mem h h1 q x).mp hx).1
  | insert s1 p c ref h1 h2 h3 h4 h5 h6 h7 h8 h9 h10 h11 h12 h13 =>
    obtain ⟨i1, f1, d1, r1, t1, pa1, k1⟩ := E_insert_desc h h1 h2 h3 h4 h6 h7.1 h8 h11 h12 h13
    obtain ⟨i2, f2, k2, p2⟩ := docInserted_inv i1 p c
    intro q x hx
    rw [f2.ro, f1.ro]
    rw [k2] at hx
    rcases (k1 q x).mp hx with hx | ⟨rfl, rfl⟩
    · exact hr q x hx
    · intro t; rw [h5] at t; cases t
  | replace p c o l1 l2 r h1 h2 h3 h4 h5 h6 h7 h8 h9 h10 h11 h12 h13 _ =>
    have fr := sub_frame s p c o (l1 ++ c :: l2)
    intro q x hx
    show (substitute s p c o (l1 ++ c :: l2)).ro q = true → (substitute s p c o (l1 ++ c :: l2)).ro x = true
    rw [fr.ro]
    rcases (sub_mem h h12 h10 q x).mp hx with ⟨hx, _⟩ | ⟨rfl, rfl⟩
    · exact hr q x hx
    · intro t; rw [h5] at t; cases t

/-! ## tree and data changes together -/

theorem Inv.with_data {s : St} (h : Inv s) (d : Id → Str) : Inv { s with data := d } :=
  h.of_tree rfl rfl rfl rfl rfl rfl rfl rfl

/-- Editing of the tree and of data. -/
inductive Chain (b : Bool) (s : St) : St → Prop
  | refl : Chain b s s
  | tree (t u : St) : Chain b s t → After b t u → Chain b s u
  | data (t : St) (d : Id → Str) : Chain b s t → Chain b s { t with data := d }

theorem Chain.trans {b : Bool} {s t u : St} (h : Chain b s t) (k : Chain b t u) : Chain b s u := by
  induction k with
  | refl => exact h
  | tree t u _ a ih => exact .tree t u ih a
  | data t d _ ih => exact .data t d ih

theorem Chain.induct {b : Bool} {J : St → Prop} (hJ : ∀ s t, Inv s → E b s t → J s → J t)
    (hd : ∀ s d, J s → J { s with data := d }) {s t : St} (h : Chain b s t) (h0 : J s) : J t := by
  induction h with
  | refl => exact h0
  | tree t u _ a ih => exact a.2.2.induct hJ ih
  | data t d _ ih => exact hd t d ih

theorem Chain.inv {b : Bool} {s t : St} (h : Chain b s t) (h0 : Inv s) : Inv t := by
  induction h with
  | refl => exact h0
  | tree t u _ a ih => exact a.1
  | data t d _ ih => exact ih.with_data d

theorem Chain.freed {b : Bool} {s t : St} (h : Chain b s t) : t.freed = s.freed ∧ t.size = s.size := by
  induction h with
  | refl => exact ⟨rfl, rfl⟩
  | tree t u _ a ih => exact ⟨a.2.1.freed.trans ih.1, a.2.1.size.trans ih.2⟩
  | data t d _ ih => exact ih

theorem Inv.next_child {s : St} (h : Inv s) {c x : Id} (hn : s.next c = some x) :
    ∃ p, c ∈ s.kids p ∧ x ∈ s.kids p := by
  cases hp : s.parent c with
  | none => rw [(h.wf.orph c hp).2] at hn; cases hn
  | some p =>
    have hm := h.wf.par c p hp
    obtain ⟨l1, l2, hk⟩ := List.append_of_mem hm
    have hl := (h.wf.link p l1 c l2 hk).2.2.1
    rw [hn] at hl
    refine ⟨p, hm, ?_⟩
    rw [hk]
    cases l2 with
    | nil => cases hl
    | cons a l => cases hl; simp

theorem Inv.next_freed {s : St} (h : Inv s) {c x : Id} (hn : s.next c = some x) : s.freed x = s.freed c := by
  obtain ⟨p, h1, h2⟩ := h.next_child hn
  rw [h.closed p x h2, h.closed p c h1]

theorem charEdit_chain {b : Bool} (s : St) (n : Id) (e : CharEdit) : (charEdit s n e).All (Chain b s) := by
  cases e with
  | set a =>
    show (setData s n a).All _
    unfold setData; split
    · exact Chain.refl
    · exact Chain.data s _ .refl
  | append a =>
    show (appendData s n a).All _
    unfold appendData; split
    · exact Chain.refl
    · exact Chain.data s _ .refl
  | insert o a =>
    show (insertData s n o a).All _
    unfold insertData; split
    · exact Chain.refl
    · split
      · exact Chain.refl
      · exact Chain.data s _ .refl
  | delete o c =>
    show (deleteData s n o c).All _
    unfold deleteData; split
    · exact Chain.refl
    · split
      · exact Chain.refl
      · split
        · exact Chain.refl
        · exact Chain.data s _ .refl
  | replace o c a =>
    show (replaceData s n o c a).All _
    unfold replaceData; split
    · exact Chain.refl
    · split
      · exact Chain.refl
      · split
        · exact Chain.refl
        · exact Chain.data s _ .refl

theorem absorb_chain {b : Bool} : ∀ (fuel : Nat) (s : St) (n c : Id), Inv s → s.freed n = false →
    (absorb fuel s n c).All (Chain b s)
  | 0, _, _, _, _, _ => trivial
  | fuel + 1, s, n, c, h, hn => by
    rw [absorb]
    cases hx : s.next c with
    | none => exact .refl
    | some x =>
      simp only []
      by_cases hk : s.kind x = .text
      · rw [if_pos hk]
        refine Out.all_bind (P := Chain b s) (charEdit_chain s c (.append (s.data x))) (fun _ h => h) ?_
        intro s1 _ _ a1
        refine Out.all_bind (P := After b s1) (removeChild_after (a1.inv h) n _ (by rw [a1.freed.1]; exact hn))
          (fun u hu => .tree _ _ a1 hu) ?_
        intro s2 _ _ a2
        have c2 := Chain.tree _ _ a1 a2
        exact Out.all_mono (absorb_chain fuel s2 n c (c2.inv h) (by rw [c2.freed.1]; exact hn))
          (fun u hu => c2.trans hu)
      · rw [if_neg hk]; exact .refl

theorem normalizeFrom_chain {b : Bool} : ∀ (fuel : Nat) (s : St) (n : Id) (c : Option Id), Inv s → s.freed n = false →
    (∀ x, c = some x → s.freed x = false) → (normalizeFrom fuel s n c).All (Chain b s)
  | 0, _, _, _, _, _, _ => trivial
  | fuel + 1, s, n, none, h, hn, hc => by rw [normalizeFrom]; exact .refl
  | fuel + 1, s, n, some c, h, hn, hc => by
    have hc := hc c rfl
    rw [normalizeFrom]
    by_cases hk : s.kind c = .text
    · rw [if_pos hk]
      refine Out.all_bind (P := Chain b s) (absorb_chain _ s n c h hn) (fun _ h => h) ?_
      intro s1 _ _ a1
      have i1 := a1.inv h
      simp only []
      refine Out.all_bind (P := After b s1) ?_ (fun u hu => .tree _ _ a1 hu) ?_
      · split
        · exact removeChild_after i1 n _ (by rw [a1.freed.1]; exact hn)
        · exact After.refl i1
      intro s2 _ _ a2
      have c2 := Chain.tree _ _ a1 a2
      refine Out.all_mono (normalizeFrom_chain fuel s2 n _ (c2.inv h) (by rw [c2.freed.1]; exact hn) ?_)
          (fun u hu => c2.trans hu)
      intro x hx
      rw [c2.freed.1, ← a1.freed.1, i1.next_freed hx, a1.freed.1]; exact hc
    · rw [if_neg hk]
      simp only []
      refine Out.all_bind (P := Chain b s) (normalizeFrom_chain fuel s c _ h hc ?_) (fun _ h => h) ?_
      · intro x hx
        have hm : x ∈ s.kids c := by
          cases hkc : s.kids c with
          | nil => rw [hkc] at hx; cases hx
          | cons a l => rw [hkc] at hx; cases hx; simp
        rw [h.closed c x hm]; exact hc
      intro s1 _ _ a1
      refine Out.all_mono (normalizeFrom_chain fuel s1 n _ (a1.inv h) (by rw [a1.freed.1]; exact hn) ?_)
          (fun u hu => a1.trans hu)
      intro x hx
      rw [a1.freed.1, h.next_freed hx]; exact hc

/-! ## splitText -/

/-- `splitText` up to the insertion. -/
theorem splitText_cases (s : St) (n : Id) (off : Int) :
    (∃ e, splitText s n off = .err e s ∧ (s.ro n = true ∨ off < 0 ∨ (s.data n).length < off)) ∨
    (s.ro n = false ∧ ∃ k : Nat, off = k ∧ k ≤ (s.data n).length ∧
      splitText s n off =
        let s1 := alloc (putData s n ((s.data n).take k)) (s.kind n) (s.doc n) ((s.data n).drop k) false false
        match getParent s1 n with
        | none => if s1.kind n = .text then .ok s1 s.size else .ub
        | some p => (insertBefore s1 p s.size (s1.next n)).bind fun s2 _ => .ok s2 s.size) := by
  unfold splitText
  cases hr : s.ro n with
  | true => left; exact ⟨.readOnly, by simp, Or.inl rfl⟩
  | false =>
    by_cases hb : badOffset s n off = true
    · left
      refine ⟨.indexSize, ?_, Or.inr ?_⟩
      · simp [substringData, hb, Out.bind]
      · unfold badOffset at hb; simpa using hb
    · right
      refine ⟨rfl, off.toNat, ?_, ?_, ?_⟩
      · unfold badOffset at hb; simp at hb; omega
      · unfold badOffset at hb; simp at hb; omega
      · have hb' : badOffset s n off = false := by simpa using hb
        have h1 : ¬ (((s.data n).length : Int) - off < 0) := by
          unfold badOffset at hb'; simp at hb'; omega
        have h2 : ((s.data n).drop off.toNat).take (((s.data n).length : Int) - off).toNat = (s.data n).drop off.toNat := by
          apply List.take_of_length_le
          rw [List.length_drop]; omega
        have h3 : (s.data n).drop (off.toNat + (((s.data n).length : Int) - off).toNat) = [] := by
          apply List.drop_of_length_le
          omega
        simp [substringData, deleteData, hb', h1, h2, h3, hr, Out.bind, putData]
        rfl



theorem upd_upd {α : Type} (f : Id → α) (i : Id) (v w : α) : upd (upd f i v) i w = upd f i w := by
  funext j; unfold upd; split <;> rfl

theorem onPath_orphan (s : St) (o : Id → Bool) (c : Id) : ∀ (fuel : Nat) (n : Option Id),
    onPath { s with orphan := o } c fuel n = onPath s c fuel n
  | 0, none => rfl
  | 0, some _ => rfl
  | _ + 1, none => rfl
  | fuel + 1, some n => by
    rw [onPath, onPath]
    by_cases h : n = c
    · rw [if_pos h, if_pos h]
    · rw [if_neg h, if_neg h]
      exact onPath_orphan s o c fuel (getParent s n)

theorem link_orphanSet {s : St} {p c : Id} {ref : Option Id} {v : Bool} (hp : s.parent c = none) (hd : s.doc c ≠ none)
    {u : St} (h : link s p c ref = .ok u ()) : link { s with orphan := upd s.orphan c v } p c ref = .ok u () := by
  cases ref with
  | none =>
    rw [← h]
    unfold link setParent markChanged
    simp only []
    by_cases hl : (s.kids p).getLast? = none
    · simp only [hl, if_true]; simp [hp, hd, upd_upd]
    · simp only [hl, if_false]; simp [hp, hd, upd_upd]
  | some r =>
    unfold link at h ⊢
    simp only [] at h ⊢
    cases hi : insertChild c r (s.kids p) with
    | none => rw [hi] at h; cases h
    | some l =>
      rw [hi] at h
      simp only [] at h ⊢
      rw [← h]
      unfold setParent markChanged
      simp [hp, hd, upd_upd]

theorem insertV_orphan {fuel : Nat} {s : St} {p c : Id} {ref : Option Id} {v : Bool} (hp : s.parent c = none)
    (hd : s.doc c ≠ none) (hf : s.kind c ≠ .fragment) {u : St} (h : insertV (fuel + 1) s p c ref = .ok u ()) :
    insertV (fuel + 1) { s with orphan := upd s.orphan c v } p c ref = .ok u () := by
  have hok : insertOk s p c := by
    apply Classical.byContradiction
    intro hn
    obtain ⟨e, he⟩ := insertV_fail (fuel := fuel) (ref := ref) hn
    rw [he] at h; cases h
  have hok' : insertOk { s with orphan := upd s.orphan c v } p c := hok
  rw [insertV_go hok, if_neg hf] at h
  rw [insertV_go hok', if_neg hf]
  obtain ⟨d, hd'⟩ : ∃ d, s.doc c = some d := by
    cases hx : s.doc c with
    | none => exact absurd hx hd
    | some d => exact ⟨d, rfl⟩
  have hr : removeIfRequired s c = .ok s () := by unfold removeIfRequired getParent; simp [hp]
  have hr' : removeIfRequired { s with orphan := upd s.orphan c v } c = .ok { s with orphan := upd s.orphan c v } () := by
    unfold removeIfRequired getParent; simp [hp]
  unfold insertPlain at h ⊢
  have hc : ∀ s1, checkCanAdd s p c = .ok s1 () → s1 = s ∧
      checkCanAdd { s with orphan := upd s.orphan c v } p c = .ok { s with orphan := upd s.orphan c v } () := by
    intro s1 h1
    unfold checkCanAdd at h1 ⊢
    simp only [onPath_orphan]
    simp only [hd'] at h1 ⊢
    split at h1
    · rename_i hk
      rw [if_pos hk]
      split at h1
      · rename_i hk2
        rw [if_pos hk2]
        cases h1; exact ⟨rfl, rfl⟩
      · cases h1
    · rename_i hk
      rw [if_neg hk]
      split at h1
      · cases h1
      · rename_i hk2
        rw [if_neg hk2]
        split at h1
        · cases h1
        · cases h1
        · rename_i hon
          split at h1
          · cases h1
          · rename_i hk3
            rw [if_neg hk3]
            split at h1
            · rename_i hk4
              rw [if_pos hk4]
              cases h1; exact ⟨rfl, rfl⟩
            · cases h1
  cases h1 : checkCanAdd s p c with
  | ok s1 a =>
    cases a
    obtain ⟨rfl, h2⟩ := hc s1 h1
    rw [h1] at h
    rw [h2]
    simp only [Out.bind, hr] at h
    simp only [Out.bind, hr']
    cases hl : link s1 p c ref with
    | ok s2 a =>
      cases a
      rw [hl] at h
      rw [link_orphanSet hp hd hl]
      exact h
    | err e s2 => rw [hl] at h; cases h
    | ub => rw [hl] at h; cases h
    | diverges => rw [hl] at h; cases h
  | err e s1 => rw [h1] at h; cases h
  | ub => rw [h1] at h; cases h
  | diverges => rw [h1] at h; cases h

/-- The standing invariants. -/
structure Inv2 (s : St) : Prop where
  inv : Inv s
  allow : Allow s
  rodown : RoDown s
  fresh : ∀ n, s.size ≤ n → s.freed n = false

theorem Inv2.with_data {s : St} (h : Inv2 s) (d : Id → Str) : Inv2 { s with data := d } :=
  ⟨h.inv.with_data d, h.allow, h.rodown, h.fresh⟩

theorem Inv.fresh_parent {s : St} (h : Inv s) : s.parent s.size = none := by
  cases hp : s.parent s.size with
  | none => rfl
  | some q => exact absurd (h.lt q _ (h.wf.par _ q hp)).1 (Nat.lt_irrefl _)

theorem alloc_inv2 {s : St} (h : Inv2 s) (k : Kind) (d : Option Id) (data : Str) (o r : Bool)
    (hi : Inv (alloc s k d data o r)) : Inv2 (alloc s k d data o r) := by
  refine ⟨hi, ?_, ?_, ?_⟩
  · intro p c hc
    have hc : c ∈ s.kids p := hc
    obtain ⟨n1, n2⟩ := h.inv.fresh p c hc
    show upd s.kind s.size k c ≠ _ → childAllowed (upd s.kind s.size k p) (upd s.kind s.size k c) = true
    rw [upd_ne _ _ n1, upd_ne _ _ n2]
    exact h.allow p c hc
  · intro p c hc
    have hc : c ∈ s.kids p := hc
    obtain ⟨n1, n2⟩ := h.inv.fresh p c hc
    show upd s.ro s.size r p = true → upd s.ro s.size r c = true
    rw [upd_ne _ _ n1, upd_ne _ _ n2]
    exact h.rodown p c hc
  · intro n hn
    exact h.fresh n (Nat.le_of_succ_le hn)

theorem After.inv2 {b : Bool} {s t : St} (h : After b s t) (h2 : Inv2 s) : Inv2 t :=
  ⟨h.1, h.2.2.induct (fun _ _ => E_allow) h2.allow, h.2.2.induct (fun _ _ => E_ro) h2.rodown,
   by rw [h.2.1.freed, h.2.1.size]; exact h2.fresh⟩

theorem Chain.inv2 {b : Bool} {s t : St} (h : Chain b s t) (h0 : Inv2 s) : Inv2 t := by
  induction h with
  | refl => exact h0
  | tree t u _ a ih => exact a.inv2 ih
  | data t d _ ih => exact ih.with_data d

theorem anc_has_child {par : Id → Option Id} {a c : Id} (h : Anc par a c) : ∃ q, par q = some a := by
  induction h with
  | parent c t => exact ⟨c, t⟩
  | above q c _ _ ih => exact ih

/-- `splitText` when it does not fail. -/
theorem splitText_good {s : St} (h : Inv2 s) {n : Id} (hn : n < s.size) (fn : s.freed n = false)
    (hk : s.kind n = .text ∨ s.kind n = .cdata) {k : Nat} (hro : s.ro n = false) (hle : k ≤ (s.data n).length) :
    let s1 := alloc (putData s n ((s.data n).take k)) (s.kind n) (s.doc n) ((s.data n).drop k) true false
    let s0 := alloc (putData s n ((s.data n).take k)) (s.kind n) (s.doc n) ((s.data n).drop k) false false
    (∃ d, s.doc n = some d ∧ d < s.size ∧ s.kind d = .document) ∧ Inv2 s1 ∧ Inv2 s0 ∧
    ((s.parent n = none ∧ splitText s n k = if s.kind n = .text then .ok s0 s.size else .ub) ∨
     ∃ p u, s.parent n = some p ∧ splitText s n k = .ok u s.size ∧ insertBefore s1 p s.size (s.next n) = .ok u ()) := by
  intro s1 s0
  obtain ⟨d, hd⟩ : ∃ d, s.doc n = some d := by
    cases hx : s.doc n with
    | none =>
      have := h.inv.nodoc n hn hx
      rw [this] at hk
      rcases hk with hk | hk <;> cases hk
    | some d => exact ⟨d, rfl⟩
  obtain ⟨hd1, hd2⟩ := h.inv.docok n d hn hd
  have hkd : s.kind n ≠ .document := by intro e; rw [e] at hk; rcases hk with hk | hk <;> cases hk
  have hkf : s.kind n ≠ .fragment := by intro e; rw [e] at hk; rcases hk with hk | hk <;> cases hk
  have hp2 : Inv2 (putData s n ((s.data n).take k)) := h.with_data _
  have hI : ∀ o, Inv2 (alloc (putData s n ((s.data n).take k)) (s.kind n) (s.doc n) ((s.data n).drop k) o false) := by
    intro o
    refine alloc_inv2 hp2 _ _ _ _ _ (alloc_inv hp2.inv _ _ _ _ _ (by rw [hd]; simp) (fun e => absurd e hkd) ?_)
    intro e he
    rw [hd] at he; cases he
    exact Or.inr ⟨hd1, hd2⟩
  refine ⟨⟨d, hd, hd1, hd2⟩, hI true, hI false, ?_⟩
  rcases splitText_cases s n k with ⟨e, he, hbad⟩ | ⟨_, k', hkk, _, hs⟩
  · rcases hbad with t | t | t
    · rw [hro] at t; cases t
    · omega
    · omega
  have : k' = k := by omega
  subst this
  rw [hs]
  simp only []
  have hne : n ≠ s.size := fun e => by rw [e] at hn; exact Nat.lt_irrefl _ hn
  have hkn : s0.kind n = s.kind n := upd_ne _ _ hne
  have hgp : getParent s0 n = s.parent n := by
    unfold getParent
    rw [hkn]
    rw [if_neg]
    · rfl
    · rintro (e | e)
      · rw [e] at hk; rcases hk with hk | hk <;> cases hk
      · exact hkd e
  show (s.parent n = none ∧ (match getParent s0 n with
        | none => if s0.kind n = Kind.text then Out.ok s0 s.size else .ub
        | some p => (insertBefore s0 p s.size (s0.next n)).bind fun s2 _ => .ok s2 s.size) = _) ∨ ∃ p u, _ ∧
        (match getParent s0 n with
        | none => if s0.kind n = Kind.text then Out.ok s0 s.size else .ub
        | some p => (insertBefore s0 p s.size (s0.next n)).bind fun s2 _ => .ok s2 s.size) = _ ∧ _
  rw [hgp]
  cases hpar : s.parent n with
  | none => left; exact ⟨rfl, by simp only [hkn]⟩
  | some p =>
    right
    have hm := h.inv.wf.par n p hpar
    obtain ⟨hm1, hm2⟩ := h.inv.lt p n hm
    have hpne : p ≠ s.size := fun e => by rw [e] at hm2; exact Nat.lt_irrefl _ hm2
    have hall := h.allow p n hm (by intro e; rw [e] at hk; rcases hk with hk | hk <;> cases hk)
    have hkp : s1.kind p = s.kind p := upd_ne _ _ hpne
    have hkm : s1.kind s.size = s.kind n := upd_same _ _ _
    have hrop : s1.ro p = s.ro p := upd_ne _ _ hpne
    have hrof : s.ro p = false := by
      cases hx : s.ro p with
      | false => rfl
      | true => rw [h.rodown p n hm hx] at hro; cases hro
    have hdm : s1.doc s.size = s.doc n := upd_same _ _ _
    have hdp : s1.doc p = s.doc p := upd_ne _ _ hpne
    have hnx : s1.next n = s.next n := rfl
    have hpm : s1.parent s.size = none := h.inv.fresh_parent
    have hkm2 : s1.kind s.size ≠ .document := by rw [hkm]; exact hkd
    have hfr : s1.freed s.size = false := h.fresh _ (Nat.le_refl _)
    have hins : ∃ u, insertV (((s0.kids s.size).length + 1) + 1) s1 p s.size (s1.next n) = .ok u () := by
      refine insertV_succeeds (hI true).inv _ _ (Nat.lt_succ_of_lt hm2) (Nat.lt_succ_self _) ?_ hfr ?_ ?_ ?_ ?_ ?_ ?_ ?_
      · show s.freed p = false
        rw [← h.inv.closed p n hm]; exact fn
      · refine ⟨?_, ?_, ?_, ?_⟩
        · rw [hkp]; exact (h.inv.kinds p n hm).1
        · rw [hkm]; rintro ⟨_, e, _⟩; rw [e] at hk; rcases hk with hk | hk <;> cases hk
        · rw [hkm]; rintro ⟨_, e, _⟩; rw [e] at hk; rcases hk with hk | hk <;> cases hk
        · rw [hrop]; exact hrof
      · rw [hdm, hd]; simp
      · rw [hdm, hdp]; exact h.inv.owner p n hm
      · rw [hkp, hkm]; exact hall
      · rintro (e | e)
        · exact hpne e.symm
        · obtain ⟨q, hq⟩ := anc_has_child e
          exact absurd (h.inv.lt _ q (h.inv.wf.par q _ hq)).2 (Nat.lt_irrefl _)
      · intro q hq; rw [hpm] at hq; cases hq
      · intro r hr
        rw [hnx] at hr
        obtain ⟨q, q1, q2⟩ := h.inv.next_child hr
        have e1 := h.inv.child_parent q1
        rw [hpar] at e1; cases e1
        have hrm : r ≠ s.size := fun e => by
          have := (h.inv.lt p r q2).1
          rw [e] at this; exact Nat.lt_irrefl _ this
        show r ∈ (s.kids p).erase s.size
        exact (List.mem_erase_of_ne hrm).mpr q2
    obtain ⟨u, hu⟩ := hins
    refine ⟨p, u, rfl, ?_, hu⟩
    have h0 : s0 = { s1 with orphan := upd s1.orphan s.size false } := by
      show alloc _ _ _ _ _ _ = { alloc _ _ _ _ _ _ with orphan := upd (upd s.orphan s.size true) s.size false }
      rw [upd_upd]; rfl
    have hu0 : insertBefore s0 p s.size (s0.next n) = .ok u () := by
      unfold insertBefore
      have := insertV_orphan (v := false) hpm (by rw [hdm, hd]; simp) (by rw [hkm]; exact hkf) hu
      rw [← h0] at this
      exact this
    simp only [hu0, Out.bind]

/-- One call, as elementary changes, a new node, a deletion or a flag. -/
inductive Effect (b : Bool) (s : St) : Op → St → Prop
  | newDocument : Effect b s .newDocument (newDocument s)
  | newDoctype : Effect b s .newDoctype (newDoctype s)
  | create (d : Id) (k : Kind) (data : Str) : d < s.size → s.kind d = .document → creatable k = true →
      Effect b s (.create d k data) (alloc s k (some d) data true false)
  | insert (p n : Id) (r : Option Id) (s' : St) : live s p = true → live s n = true → After b s s' →
      Effect b s (.insertBefore p n r) s'
  | replace (p n : Id) (o : Option Id) (s' : St) : live s p = true → live s n = true → After b s s' →
      Effect b s (.replaceChild p n o) s'
  | remove (p : Id) (o : Option Id) (s' : St) : live s p = true → After b s s' → Effect b s (.removeChild p o) s'
  | purgeNot (p c : Id) : Effect b s (.purgeChild p c) s
  | purge (p c : Id) (l : List Id) : live s p = true → live s c = true → eraseChild c (s.kids p) = some l →
      hasKids (s.kind p) = true → s.ro p = false → (b = true → ¬ (s.kind p = .document ∧ s.root p = some c)) →
      Effect b s (.purgeChild p c)
        { unlink s p c l with
          orphan := upd (unlink s p c l).orphan c false
          freed := fun n => if n ∈ subtree (unlink s p c l) ((unlink s p c l).size + 1) c then true
            else (unlink s p c l).freed n }
  | setReadOnly (n : Id) : live s n = true → Effect b s (.setReadOnly n) (setReadOnly s n)
  | edits (op : Op) (t : St) : Chain b s t → Effect b s op t
  | splitIn (n : Id) (off : Int) (d : Id → Str) (k : Kind) (e : Id) (str : Str) (t : St) : s.parent n ≠ none →
      (k = .text ∨ k = .cdata) → e < s.size → s.kind e = .document →
      After b (alloc { s with data := d } k (some e) str true false) t → Effect b s (.splitText n off) t
  | splitLoose (n : Id) (off : Int) (d : Id → Str) (k : Kind) (e : Id) (str : Str) : s.parent n = none →
      (k = .text ∨ k = .cdata) → e < s.size → s.kind e = .document →
      Effect b s (.splitText n off) (alloc { s with data := d } k (some e) str false false)

theorem step_effect {b : Bool} {s : St} (h2 : Inv2 s) (op : Op) (hs : ¬ selfDoc s op)
    (hst : b = true → ¬ staleRoot s op) : (step s op).All (Effect b s op) := by
  have h := h2.inv
  cases op with
  | newDocument => exact .newDocument
  | newDoctype => exact .newDoctype
  | create d k data =>
    rw [step]
    split
    · rename_i hl
      simp only [Bool.and_eq_true, decide_eq_true_eq] at hl
      unfold create
      split
      · rename_i hk
        exact .create d k data (live_iff.mp hl.1).1 hl.2 hk
      · trivial
    · trivial
  | insertBefore p n r =>
    rw [step]
    split
    · rename_i hl
      simp only [Bool.and_eq_true] at hl
      have hp := live_iff.mp hl.1.1
      have hn := live_iff.mp hl.1.2
      exact Out.all_mono (insertV_after ((s.kids n).length + 2) s p n r h hp.1 hn.1 hp.2 hn.2 hs)
        (fun s' a => .insert p n r s' hl.1.1 hl.1.2 a)
    · trivial
  | replaceChild p n o =>
    rw [step]
    split
    · rename_i hl
      simp only [Bool.and_eq_true] at hl
      have hp := live_iff.mp hl.1.1
      have hn := live_iff.mp hl.1.2
      exact Out.all_mono (replaceV_after ((s.kids n).length + 2) s p n o h hp.1 hn.1 hp.2 hn.2
        (by rintro hb o' rfl e; exact hst hb e))
        (fun s' a => .replace p n o s' hl.1.1 hl.1.2 a)
    · trivial
  | removeChild p o =>
    rw [step]
    split
    · rename_i hl
      simp only [Bool.and_eq_true] at hl
      exact Out.all_mono (removeChild_after h p o (live_iff.mp hl.1).2) (fun s' a => .remove p o s' hl.1 a)
    · trivial
  | purgeChild p c =>
    rw [step]
    split
    · rename_i hl
      simp only [Bool.and_eq_true] at hl
      unfold purgeChild
      by_cases hk : hasKids (s.kind p) = false
      · rw [if_pos hk]; exact .purgeNot p c
      · rw [if_neg hk]
        rcases doRemove_cases s p (some c) with ⟨e, he⟩ | ⟨c', l, hc, h1, h2, h3⟩
        · rw [he]; exact .purgeNot p c
        · cases hc
          rw [h3]
          exact .purge p c l hl.1 hl.2 h1 (by simpa using hk) h2 hst
    · trivial
  | setReadOnly n =>
    rw [step]
    split
    · rename_i hl; exact .setReadOnly n hl
    · trivial
  | charEdit n e =>
    rw [step]
    split
    · exact Out.all_mono (charEdit_chain s n e) (fun t a => .edits _ t a)
    · trivial
  | normalize n =>
    rw [step]
    split
    · rename_i hl
      have hn := live_iff.mp hl
      refine Out.all_mono (normalizeFrom_chain _ s n _ h hn.2 ?_) (fun t a => .edits _ t a)
      intro x hx
      rw [h.closed n x (List.mem_of_mem_head? hx)]; exact hn.2
    · trivial
  | splitText n off =>
    rw [step]
    split
    · rename_i hl
      simp only [Bool.and_eq_true, Bool.or_eq_true, decide_eq_true_eq] at hl
      have hn := live_iff.mp hl.1
      rcases splitText_cases s n off with ⟨e, he, _⟩ | ⟨hro, k, hk, hle, _⟩
      · rw [he]; exact .edits _ s .refl
      · subst hk
        have hcr : creatable (s.kind n) = true := by rcases hl.2 with e | e <;> rw [e] <;> rfl
        obtain ⟨⟨d, hd, hd1, hd2⟩, i1, i0, hs⟩ := splitText_good h2 hn.1 hn.2 hl.2 hro hle
        rw [hd] at i1 i0 hs
        rcases hs with ⟨hp, hs⟩ | ⟨p, u, hp, hs, hu⟩
        · rw [hs]
          split
          · exact .splitLoose n k _ _ d _ hp hl.2 hd1 hd2
          · trivial
        · rw [hs]
          refine .splitIn n k (upd s.data n ((s.data n).take k)) (s.kind n) d ((s.data n).drop k) u (by rw [hp]; simp) hl.2 hd1 hd2 ?_
          have hm := h.wf.par n p hp
          obtain ⟨hm1, hm2⟩ := h.lt p n hm
          have := insertV_after (b := b) ((((alloc (putData s n ((s.data n).take k)) (s.kind n) (some d)
            ((s.data n).drop k) true false)).kids s.size).length + 2) _ p s.size (s.next n) i1.inv
            (Nat.lt_succ_of_lt hm2) (Nat.lt_succ_self _) (by show s.freed p = false; rw [← h.closed p n hm]; exact hn.2)
            (h2.fresh _ (Nat.le_refl _)) (fun t => by rw [t.1] at hm2; exact Nat.lt_irrefl _ hm2)
          unfold insertBefore at hu
          rw [hu] at this
          exact this
    · trivial

theorem effect_inv {b : Bool} {s s' : St} {op : Op} (h : Inv s) (he : Effect b s op s') : Inv s' := by
  cases he with
  | edits _ _ a => exact a.inv h
  | splitIn n off d k e str t h1 h2 h3 h4 a => exact a.1
  | splitLoose n off d k e str h1 h2 h3 h4 =>
    exact alloc_inv (h.with_data d) _ _ _ _ _ (by simp) (by intro e; subst e; simp [creatable] at h2)
      (by intro e' he; cases he; exact Or.inr ⟨h3, h4⟩)
  | newDocument => exact alloc_inv h _ _ _ _ _ (by simp) (by simp) (by intro e he; cases he; exact Or.inl ⟨rfl, rfl⟩)
  | newDoctype => exact alloc_inv h _ _ _ _ _ (by simp) (by simp) (by intro e he; cases he)
  | create d k data h1 h2 h3 =>
    exact alloc_inv h _ _ _ _ _ (by simp) (by intro e; subst e; simp [creatable] at h3)
      (by intro e he; cases he; exact Or.inr ⟨h1, h2⟩)
  | insert p n r _ _ _ a => exact a.1
  | replace p n o _ _ _ a => exact a.1
  | remove p o _ _ a => exact a.1
  | purgeNot p c => exact h
  | purge p c l hp hc h1 _ _ _ =>
    refine free_inv (unlink_inv h p c l h1) ?_ ?_ _
    · rw [(unlink_frame s p c l).size]; exact (live_iff.mp hc).1
    · rw [unlink_parent]; exact upd_same _ _ _
  | setReadOnly n _ => exact h.of_tree rfl rfl rfl rfl rfl rfl rfl rfl

theorem setReadOnly_mem {s : St} (h : Inv s) {n : Id} (hn : n < s.size) (x : Id) :
    (setReadOnly s n).ro x = true ↔ (AncEq s.parent n x ∨ s.ro x = true) := by
  show (if x ∈ subtree s (s.size + 1) n then true else s.ro x) = true ↔ _
  have hm := mem_subtree h hn (x := x)
  by_cases e : x ∈ subtree s (s.size + 1) n
  · rw [if_pos e]; exact ⟨fun _ => Or.inl (hm.mp e), fun _ => rfl⟩
  · rw [if_neg e]
    exact ⟨Or.inr, fun t => t.resolve_left (fun t => e (hm.mpr t))⟩

theorem effect_inv2 {b : Bool} {s s' : St} {op : Op} (h2 : Inv2 s) (he : Effect b s op s') : Inv2 s' := by
  have h := h2.inv
  have hi := effect_inv h he
  cases he with
  | newDocument => exact alloc_inv2 h2 _ _ _ _ _ hi
  | newDoctype => exact alloc_inv2 h2 _ _ _ _ _ hi
  | create d k data _ _ _ => exact alloc_inv2 h2 _ _ _ _ _ hi
  | insert p n r _ _ _ a => exact a.inv2 h2
  | replace p n o _ _ _ a => exact a.inv2 h2
  | remove p o _ _ a => exact a.inv2 h2
  | edits _ _ a => exact a.inv2 h2
  | splitLoose n off d k e str _ _ _ _ => exact alloc_inv2 (h2.with_data d) _ _ _ _ _ hi
  | splitIn n off d k e str t h1 h2' h3 h4 a =>
    refine a.inv2 (alloc_inv2 (h2.with_data d) _ _ _ _ _ ?_)
    exact alloc_inv (h.with_data d) _ _ _ _ _ (by simp) (by intro e; subst e; simp [creatable] at h2')
      (by intro e' he; cases he; exact Or.inr ⟨h3, h4⟩)
  | purgeNot p c => exact h2
  | purge p c l hp hc h1 _ _ _ =>
    have fr := unlink_frame s p c l
    have iu := unlink_inv h p c l h1
    have hcs : c < (unlink s p c l).size := by rw [fr.size]; exact (live_iff.mp hc).1
    refine ⟨hi, ?_, ?_, ?_⟩
    · intro q x hx
      show (unlink s p c l).kind x ≠ _ → childAllowed ((unlink s p c l).kind q) ((unlink s p c l).kind x) = true
      rw [fr.kind]
      exact h2.allow q x ((unlink_mem h h1 q x).mp hx).1
    · intro q x hx
      show (unlink s p c l).ro q = true → (unlink s p c l).ro x = true
      rw [fr.ro]
      exact h2.rodown q x ((unlink_mem h h1 q x).mp hx).1
    · intro n hn
      show (if n ∈ subtree (unlink s p c l) ((unlink s p c l).size + 1) c then true else (unlink s p c l).freed n) = false
      rw [if_neg ?_, fr.freed]
      · exact h2.fresh n (by rw [← fr.size]; exact hn)
      rw [mem_subtree iu hcs]
      intro t
      have : n < (unlink s p c l).size := by
        rcases t with rfl | t
        · exact hcs
        · cases t with
          | parent _ t => exact (iu.lt _ _ (iu.wf.par _ _ t)).1
          | above _ _ t _ => exact (iu.lt _ _ (iu.wf.par _ _ t)).1
      exact absurd this (Nat.not_lt.mpr hn)
  | setReadOnly n hn =>
    refine ⟨hi, h2.allow, ?_, h2.fresh⟩
    intro p c hc hp
    rw [setReadOnly_mem h (live_iff.mp hn).1] at hp ⊢
    have hc : c ∈ s.kids p := hc
    rcases hp with hp | hp
    · left
      have hcp := h.child_parent hc
      rcases hp with rfl | hp
      · exact Or.inr (.parent _ _ hcp)
      · exact Or.inr (.above _ _ _ hcp hp)
    · right; exact h2.rodown p c hc hp

theorem empty_inv2 : Inv2 empty :=
  ⟨empty_inv, (fun p c hc => by cases hc), (fun p c hc => by cases hc), fun _ _ => rfl⟩

/-- An invariant of histories. -/
theorem reach_induct2 {b : Bool} {bad : St → Op → Prop} (hb : ∀ s op, selfDoc s op → bad s op)
    (hb2 : b = true → ∀ s op, staleRoot s op → bad s op) {J : St → Prop}
    (h0 : J empty) (hs : ∀ s s' op, Inv s → J s → ¬ bad s op → Effect b s op s' → J s')
    {s : St} (h : Reach bad s) : Inv2 s ∧ J s := by
  induction h with
  | empty => exact ⟨empty_inv2, h0⟩
  | ok s s' op _ hn he ih =>
    have := step_effect (b := b) ih.1 op (fun t => hn (hb s op t)) (fun e t => hn (hb2 e s op t))
    rw [he] at this
    exact ⟨effect_inv2 ih.1 this, hs s s' op ih.1.inv ih.2 hn this⟩
  | err s s' op e _ hn he ih =>
    have := step_effect (b := b) ih.1 op (fun t => hn (hb s op t)) (fun e t => hn (hb2 e s op t))
    rw [he] at this
    exact ⟨effect_inv2 ih.1 this, hs s s' op ih.1.inv ih.2 hn this⟩

theorem reach_induct {b : Bool} {bad : St → Op → Prop} (hb : ∀ s op, selfDoc s op → bad s op)
    (hb2 : b = true → ∀ s op, staleRoot s op → bad s op) {J : St → Prop}
    (h0 : J empty) (hs : ∀ s s' op, Inv s → J s → ¬ bad s op → Effect b s op s' → J s')
    {s : St} (h : Reach bad s) : Inv s ∧ J s :=
  ⟨(reach_induct2 hb hb2 h0 hs h).1.inv, (reach_induct2 hb hb2 h0 hs h).2⟩

theorem reach_inv2 {s : St} (h : Reach selfDoc s) : Inv2 s :=
  (reach_induct2 (b := false) (J := fun _ => True) (fun _ _ h => h) (by simp) trivial
    (fun _ _ _ _ _ _ _ => trivial) h).1

theorem reach_inv {s : St} (h : Reach selfDoc s) : Inv s := (reach_inv2 h).inv

theorem rootOne_alloc {s : St} (h : Inv s) (hr : RootOne s) : ∀ k d data o r, RootOne (alloc s k d data o r) := by
    intro k d data o r q x hq hx hk
    have hx : x ∈ s.kids q := hx
    obtain ⟨n1, n2⟩ := h.fresh q x hx
    have hq : upd s.kind s.size k q = .document := hq
    have hk : upd s.kind s.size k x = .element := hk
    rw [upd_ne _ _ n2] at hq
    rw [upd_ne _ _ n1] at hk
    exact hr q x hq hx hk

theorem effect_rootOne {b : Bool} {s t : St} {op : Op} (h : Inv s) (he : Effect b s op t) (hr : RootOne s) :
    RootOne t := by
  have hal := rootOne_alloc h hr
  cases he with
  | edits _ _ a => exact a.induct (fun _ _ => E_rootOne) (fun _ _ h => h) hr
  | splitIn n off d k e str t h1 h2 h3 h4 a =>
    exact a.2.2.induct (fun _ _ => E_rootOne) (rootOne_alloc (h.with_data d) hr _ _ _ _ _)
  | splitLoose n off d k e str h1 h2 h3 h4 => exact rootOne_alloc (h.with_data d) hr _ _ _ _ _
  | newDocument => exact hal _ _ _ _ _
  | newDoctype => exact hal _ _ _ _ _
  | create d k data _ _ _ => exact hal _ _ _ _ _
  | insert p n r _ _ _ a => exact a.2.2.induct (fun _ _ => E_rootOne) hr
  | replace p n o _ _ _ a => exact a.2.2.induct (fun _ _ => E_rootOne) hr
  | remove p o _ _ a => exact a.2.2.induct (fun _ _ => E_rootOne) hr
  | purgeNot p c => exact hr
  | purge p c l _ _ h1 _ _ _ =>
    have fr := unlink_frame s p c l
    intro d x hd hx hk
    have hd' : s.kind d = .document := by rw [← fr.kind]; exact hd
    have hk' : s.kind x = .element := by rw [← fr.kind]; exact hk
    show (unlink s p c l).root d = some x
    rw [unlink_root]
    exact hr d x hd' ((unlink_mem h h1 d x).mp hx).1 hk'
  | setReadOnly n _ => exact hr

theorem rootIn_alloc {s : St} (h : Inv s) (hr : RootIn s) : ∀ k d data o r, RootIn (alloc s k d data o r) := by
    intro k d data o r q x hq
    obtain ⟨q1, q2, q3, q4⟩ := hr q x hq
    obtain ⟨n1, n2⟩ := h.fresh q x q3
    refine ⟨Nat.lt_succ_of_lt q1, ?_, q3, ?_⟩
    · show upd s.kind s.size k q = _
      rw [upd_ne _ _ n2]; exact q2
    · show upd s.kind s.size k x = _
      rw [upd_ne _ _ n1]; exact q4

theorem effect_rootIn {s t : St} {op : Op} (h : Inv s) (he : Effect true s op t) (hr : RootIn s) :
    RootIn t := by
  have hal := rootIn_alloc h hr
  cases he with
  | edits _ _ a => exact a.induct (fun _ _ => E_rootIn) (fun _ _ h => h) hr
  | splitIn n off d k e str t h1 h2 h3 h4 a =>
    exact a.2.2.induct (fun _ _ => E_rootIn) (rootIn_alloc (h.with_data d) hr _ _ _ _ _)
  | splitLoose n off d k e str h1 h2 h3 h4 => exact rootIn_alloc (h.with_data d) hr _ _ _ _ _
  | newDocument => exact hal _ _ _ _ _
  | newDoctype => exact hal _ _ _ _ _
  | create d k data _ _ _ => exact hal _ _ _ _ _
  | insert p n r _ _ _ a => exact a.2.2.induct (fun _ _ => E_rootIn) hr
  | replace p n o _ _ _ a => exact a.2.2.induct (fun _ _ => E_rootIn) hr
  | remove p o _ _ a => exact a.2.2.induct (fun _ _ => E_rootIn) hr
  | purgeNot p c => exact hr
  | purge p c l _ _ h1 _ _ h6 =>
    have fr := unlink_frame s p c l
    intro d x hd0
    have hd : (unlink s p c l).root d = some x := hd0
    clear hd0
    rw [unlink_root] at hd
    show d < (unlink s p c l).size ∧ (unlink s p c l).kind d = _ ∧ x ∈ (unlink s p c l).kids d ∧ (unlink s p c l).kind x = _
    rw [fr.size, fr.kind, unlink_mem h h1]
    obtain ⟨q1, q2, q3, q4⟩ := hr d x hd
    refine ⟨q1, q2, ⟨q3, ?_⟩, q4⟩
    rintro rfl
    obtain ⟨l1, l2, hk, _, _⟩ := eraseChild_some x _ _ h1
    have e1 := h.child_parent q3
    have e2 := h.child_parent (p := p) (c := x) (by rw [hk]; simp)
    rw [e1] at e2; cases e2
    exact h6 rfl ⟨q2, hd⟩
  | setReadOnly n _ => exact hr



theorem orph_alloc {X : Id → Prop} {s : St} (h : Inv s) (hr : Orph X s) : ∀ k d data o r, (o = true → k ≠ .document ∧ d ≠ none ∧ s.freed s.size = false) →
      (o = false → k = .document ∨ k = .doctype ∨ X s.size) → Orph X (alloc s k d data o r) := by
    intro k d data o r h1 h2
    have hpf : s.parent s.size = none := by
      cases hp : s.parent s.size with
      | none => rfl
      | some q => exact absurd (h.lt q _ (h.wf.par _ q hp)).1 (Nat.lt_irrefl _)
    constructor
    · intro n hn
      have hn : upd s.orphan s.size o n = true := hn
      show n < s.size + 1 ∧ s.freed n = false ∧ s.parent n = none ∧ upd s.kind s.size k n ≠ .document ∧
        upd s.doc s.size d n ≠ none
      by_cases e : n = s.size
      · subst e
        rw [upd_same] at hn
        rw [upd_same, upd_same]
        obtain ⟨a, b, c⟩ := h1 hn
        exact ⟨Nat.lt_succ_self _, c, hpf, a, b⟩
      · rw [upd_ne _ _ e] at hn
        rw [upd_ne _ _ e, upd_ne _ _ e]
        obtain ⟨q1, q2⟩ := hr.out n hn
        exact ⟨Nat.lt_succ_of_lt q1, q2⟩
    · intro n
      show n < s.size + 1 → s.freed n = false → upd s.kind s.size k n ≠ .document → upd s.kind s.size k n ≠ .doctype →
        s.parent n = none → ¬ X n → upd s.orphan s.size o n = true
      by_cases e : n = s.size
      · subst e
        rw [upd_same, upd_same]
        intro _ _ a b _ hx
        cases o with
        | true => rfl
        | false => rcases h2 rfl with e | e | e
                   · exact absurd e a
                   · exact absurd e b
                   · exact absurd e hx
      · rw [upd_ne _ _ e, upd_ne _ _ e]
        intro a
        exact hr.into n (Nat.lt_of_le_of_ne (Nat.le_of_lt_succ a) e)
    · intro n hn
      exact hr.fresh n (Nat.le_of_succ_le hn)

theorem effect_orph {X : Id → Prop} {b : Bool} {s t : St} {op : Op} (h : Inv s) (he : Effect b s op t)
    (hl : looseSplit s op → X s.size) (hr : Orph X s) : Orph X t := by
  have hal := orph_alloc h hr
  have hd : ∀ (s : St) (d : Id → Str), Orph X s → Orph X { s with data := d } := fun _ _ h => ⟨h.out, h.into, h.fresh⟩
  cases he with
  | edits _ _ a => exact a.induct (fun _ _ => E_orph) hd hr
  | splitLoose n off d k e str h1 h2 h3 h4 =>
    exact orph_alloc (h.with_data d) (hd s d hr) _ _ _ _ _ (by simp) (fun _ => Or.inr (Or.inr (hl h1)))
  | splitIn n off d k e str t h1 h2 h3 h4 a =>
    refine a.2.2.induct (fun _ _ => E_orph) (orph_alloc (h.with_data d) (hd s d hr) _ _ _ _ _ ?_ (by simp))
    intro _
    refine ⟨?_, by simp, ?_⟩
    · rintro rfl; simp [creatable] at h2
    · exact hr.fresh _ (Nat.le_refl _)
  | newDocument => exact hal _ _ _ _ _ (by simp) (by simp)
  | newDoctype => exact hal _ _ _ _ _ (by simp) (by simp)
  | create d k data _ _ hk =>
    refine hal _ _ _ _ _ ?_ (by simp)
    intro _
    refine ⟨?_, by simp, ?_⟩
    · rintro rfl; simp [creatable] at hk
    · exact hr.fresh _ (Nat.le_refl _)
  | insert p n r _ _ _ a => exact a.2.2.induct (fun _ _ => E_orph) hr
  | replace p n o _ _ _ a => exact a.2.2.induct (fun _ _ => E_orph) hr
  | remove p o _ _ a => exact a.2.2.induct (fun _ _ => E_orph) hr
  | purgeNot p c => exact hr
  | purge p c l hp hc h1 _ _ h6 =>
    have fr := unlink_frame s p c l
    have iu := unlink_inv h p c l h1
    have hu := unlink_orph h hr h1 (live_iff.mp hp).2
    have hcs : c < (unlink s p c l).size := by rw [fr.size]; exact (live_iff.mp hc).1
    have hpc : (unlink s p c l).parent c = none := by rw [unlink_parent]; exact upd_same _ _ _
    constructor
    · intro n hn
      have hn : upd (unlink s p c l).orphan c false n = true := hn
      by_cases e : n = c
      · subst e; rw [upd_same] at hn; cases hn
      · rw [upd_ne _ _ e] at hn
        obtain ⟨q1, q2, q3, q4⟩ := hu.out n hn
        refine ⟨q1, ?_, q3, q4⟩
        show (if n ∈ subtree (unlink s p c l) ((unlink s p c l).size + 1) c then true else (unlink s p c l).freed n) = false
        rw [if_neg ?_]; exact q2
        rw [mem_subtree iu hcs]
        rintro (t | t)
        · exact e t.symm
        · cases t with
          | parent _ t => rw [q3] at t; cases t
          | above _ _ t _ => rw [q3] at t; cases t
    · intro n a1 a2 a3 a4 a5 a6
      have a2 : (if n ∈ subtree (unlink s p c l) ((unlink s p c l).size + 1) c then true else (unlink s p c l).freed n) = false := a2
      by_cases e : n ∈ subtree (unlink s p c l) ((unlink s p c l).size + 1) c
      · rw [if_pos e] at a2; cases a2
      · rw [if_neg e] at a2
        have hnc : n ≠ c := by
          rintro rfl
          exact e ((mem_subtree iu hcs).mpr (Or.inl rfl))
        show upd (unlink s p c l).orphan c false n = true
        rw [upd_ne _ _ hnc]
        exact hu.into n a1 a2 a3 a4 a5 a6
    · intro n hn
      show (if n ∈ subtree (unlink s p c l) ((unlink s p c l).size + 1) c then true else (unlink s p c l).freed n) = false
      rw [if_neg ?_]; exact hu.fresh n hn
      rw [mem_subtree iu hcs]
      intro t
      have : n < (unlink s p c l).size := by
        rcases t with rfl | t
        · exact hcs
        · cases t with
          | parent _ t => exact (iu.lt _ _ (iu.wf.par _ _ t)).1
          | above _ _ t _ => exact (iu.lt _ _ (iu.wf.par _ _ t)).1
      exact absurd this (Nat.not_lt.mpr hn)
  | setReadOnly n _ => exact ⟨hr.out, hr.into, hr.fresh⟩



end Verif.Dom
