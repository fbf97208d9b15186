import Verif.Lemmas.Dom8
import Verif.Spec.TagList
set_option autoImplicit false
set_option linter.unusedSimpArgs false
set_option linter.unusedVariables false
/-!
# Lemmas: the change counter
-/
namespace Verif.Dom
open Verif.Spec.Dom (Anc)

/-- The counter of a document only grows, and while it stays the child lists of the document's nodes do
too. -/
structure Counts (s t : St) : Prop where
  size : s.size ≤ t.size
  kind : ∀ n, n < s.size → t.kind n = s.kind n
  doc : ∀ n d, n < s.size → s.doc n = some d → t.doc n = some d
  le : ∀ d, s.changes d ≤ t.changes d
  same : ∀ d, t.changes d = s.changes d → ∀ p, p < s.size → s.doc p = some d → t.kids p = s.kids p

theorem Counts.refl (s : St) : Counts s s :=
  ⟨Nat.le_refl _, fun _ _ => rfl, fun _ _ _ h => h, fun _ => Nat.le_refl _, fun _ _ _ _ _ => rfl⟩

theorem Counts.trans {s t u : St} (h : Counts s t) (k : Counts t u) : Counts s u := by
  refine ⟨Nat.le_trans h.size k.size, ?_, ?_, ?_, ?_⟩
  · intro n hn; rw [k.kind n (Nat.lt_of_lt_of_le hn h.size), h.kind n hn]
  · intro n d hn hd; exact k.doc n d (Nat.lt_of_lt_of_le hn h.size) (h.doc n d hn hd)
  · intro d; exact Nat.le_trans (h.le d) (k.le d)
  · intro d he p hp hd
    have h1 := h.le d
    have h2 := k.le d
    rw [k.same d (by omega) p (Nat.lt_of_lt_of_le hp h.size) (h.doc p d hp hd), h.same d (by omega) p hp hd]

theorem mc_changes (s : St) (n d : Id) :
    (markChanged s n).changes d = if s.doc n = some d then s.changes d + 1 else s.changes d := by
  unfold markChanged
  cases hd : s.doc n with
  | none => simp
  | some e =>
    simp only [Option.some.injEq]
    unfold upd
    by_cases h : d = e
    · subst h; simp
    · rw [if_neg h, if_neg (fun t => h t.symm)]

/-- A change of one child list of `p`, counted for `p`. -/
theorem counts_of {s t : St} {p : Id} (h1 : t.size = s.size) (h2 : t.kind = s.kind) (h3 : t.doc = s.doc)
    (h4 : ∀ d, t.changes d = if s.doc p = some d then s.changes d + 1 else s.changes d)
    (h5 : ∀ q, q ≠ p → t.kids q = s.kids q) : Counts s t := by
  refine ⟨by rw [h1]; exact Nat.le_refl _, fun n _ => by rw [h2], fun n d _ h => by rw [h3]; exact h, ?_, ?_⟩
  · intro d; rw [h4]; split <;> omega
  · intro d he q _ hd
    rw [h4] at he
    by_cases e : q = p
    · subst e; rw [if_pos hd] at he; omega
    · exact h5 q e

theorem unlink_changes (s : St) (p c : Id) (l : List Id) (d : Id) :
    (unlink s p c l).changes d = if s.doc p = some d then s.changes d + 1 else s.changes d := by
  unfold unlink
  simp only []
  rw [mc_changes]; rfl

theorem sub_changes (s : St) (p c o : Id) (l : List Id) (d : Id) :
    (substitute s p c o l).changes d = if s.doc p = some d then s.changes d + 1 else s.changes d := by
  unfold substitute
  simp only []
  rw [mc_changes]; rfl

theorem upd_other {α : Type} {f : Id → α} {i j : Id} {v : α} (h : j ≠ i) : upd f i v j = f j := if_neg h

theorem link_counts {s s' : St} {p c : Id} {ref : Option Id} (h : link s p c ref = .ok s' ()) : Counts s s' := by
  unfold link at h
  cases ref with
  | none =>
    simp only [] at h
    cases h
    by_cases e : (s.kids p).getLast? = none
    · rw [if_pos e]
      refine counts_of (p := p) ?_ ?_ ?_ ?_ ?_
      · rw [mc_size]; rfl
      · rw [mc_kind]; rfl
      · rw [mc_doc]; rfl
      · intro d; rw [mc_changes]; rfl
      · intro q hq; rw [mc_kids]; exact upd_other hq
    · rw [if_neg e]
      refine counts_of (p := p) ?_ ?_ ?_ ?_ ?_
      · rw [mc_size]; rfl
      · rw [mc_kind]; rfl
      · rw [mc_doc]; rfl
      · intro d; rw [mc_changes]; rfl
      · intro q hq; rw [mc_kids]; exact upd_other hq
  | some r =>
    simp only [] at h
    cases hi : insertChild c r (s.kids p) with
    | none => rw [hi] at h; cases h
    | some l =>
      rw [hi] at h
      simp only [] at h
      cases h
      refine counts_of (p := p) ?_ ?_ ?_ ?_ ?_
      · rw [mc_size]; rfl
      · rw [mc_kind]; rfl
      · rw [mc_doc]; rfl
      · intro d; rw [mc_changes]; rfl
      · intro q hq; rw [mc_kids]; exact upd_other hq

theorem docInserted_changes (s : St) (p c : Id) : (docInserted s p c).changes = s.changes := by
  unfold docInserted
  by_cases h1 : s.kind p = .document
  · rw [if_pos h1]
    by_cases h2 : s.kind c = .element ∧ s.root p = none
    · rw [if_pos h2]
      simp only []
      split <;> rfl
    · rw [if_neg h2]
      simp only []
      split <;> rfl
  · rw [if_neg h1]

theorem docInserted_kids (s : St) (p c : Id) : (docInserted s p c).kids = s.kids := by
  unfold docInserted
  by_cases h1 : s.kind p = .document
  · rw [if_pos h1]
    by_cases h2 : s.kind c = .element ∧ s.root p = none
    · rw [if_pos h2]
      simp only []
      split <;> rfl
    · rw [if_neg h2]
      simp only []
      split <;> rfl
  · rw [if_neg h1]

theorem docInserted_size (s : St) (p c : Id) : (docInserted s p c).size = s.size ∧ (docInserted s p c).kind = s.kind := by
  unfold docInserted
  by_cases h1 : s.kind p = .document
  · rw [if_pos h1]
    by_cases h2 : s.kind c = .element ∧ s.root p = none
    · rw [if_pos h2]
      simp only []
      split <;> exact ⟨rfl, rfl⟩
    · rw [if_neg h2]
      simp only []
      split <;> exact ⟨rfl, rfl⟩
  · rw [if_neg h1]; exact ⟨rfl, rfl⟩

theorem docInserted_counts (s : St) (p c : Id) : Counts s (docInserted s p c) := by
  refine ⟨by rw [(docInserted_size s p c).1]; exact Nat.le_refl _, fun n _ => by rw [(docInserted_size s p c).2],
    fun n d _ h => by rw [docInserted_doc]; exact h, fun d => by rw [docInserted_changes]; exact Nat.le_refl _,
    fun d _ q _ _ => by rw [docInserted_kids]⟩

theorem E_counts {b : Bool} {s t : St} (h : E b s t) : Counts s t := by
  cases h with
  | adopt c d h1 h2 h3 _ _ _ =>
    refine ⟨Nat.le_refl _, fun _ _ => rfl, ?_, fun _ => Nat.le_refl _, fun _ _ _ _ _ => rfl⟩
    intro n e _ he
    show upd s.doc c (some d) n = some e
    rw [upd_other ?_]
    · exact he
    · rintro rfl; rw [h3] at he; cases he
  | remove p c l r h1 _ _ _ _ =>
    have fr := unlink_frame s p c l
    refine counts_of (p := p) fr.size fr.kind (unlink_doc s p c l) (unlink_changes s p c l) ?_
    intro q hq
    show (unlink s p c l).kids q = _
    rw [unlink_kids]; exact upd_other hq
  | insert s1 p c ref _ _ _ _ _ _ _ _ _ _ _ _ hl => exact (link_counts hl).trans (docInserted_counts s1 p c)
  | replace p c o l1 l2 r _ _ _ _ _ _ _ _ _ _ _ _ _ _ =>
    have fr := sub_frame s p c o (l1 ++ c :: l2)
    refine counts_of (p := p) fr.size fr.kind (sub_doc s p c o _) (sub_changes s p c o _) ?_
    intro q hq
    show (substitute s p c o _).kids q = _
    rw [sub_kids]; exact upd_other hq

theorem After.counts {b : Bool} {s t : St} (h : After b s t) : Counts s t := by
  have : ∀ {s t : St}, Star b s t → Counts s t := by
    intro s t h
    induction h with
    | refl => exact .refl _
    | step t u _ _ e ih => exact ih.trans (E_counts e)
  exact this h.2.2

theorem data_counts (s : St) (d : Id → Str) : Counts s { s with data := d } :=
  ⟨Nat.le_refl _, fun _ _ => rfl, fun _ _ _ h => h, fun _ => Nat.le_refl _, fun _ _ _ _ _ => rfl⟩

theorem alloc_counts (s : St) (k : Kind) (d : Option Id) (data : Str) (o r : Bool) :
    Counts s (alloc s k d data o r) := by
  refine ⟨Nat.le_succ _, ?_, ?_, fun _ => Nat.le_refl _, fun _ _ _ _ _ => rfl⟩
  · intro n hn
    exact upd_other (Nat.ne_of_lt hn)
  · intro n e hn he
    show upd s.doc s.size d n = some e
    rw [upd_other (Nat.ne_of_lt hn)]; exact he

theorem Chain.counts {b : Bool} {s t : St} (h : Chain b s t) : Counts s t := by
  induction h with
  | refl => exact .refl _
  | tree t u _ a ih => exact ih.trans a.counts
  | data t d _ ih => exact ih.trans (data_counts t d)

theorem Effect.counts {b : Bool} {s t : St} {op : Op} (h : Effect b s op t) : Counts s t := by
  cases h with
  | newDocument => exact alloc_counts _ _ _ _ _ _
  | newDoctype => exact alloc_counts _ _ _ _ _ _
  | create d k data _ _ _ => exact alloc_counts _ _ _ _ _ _
  | insert p n r _ _ _ a => exact a.counts
  | replace p n o _ _ _ a => exact a.counts
  | remove p o _ _ a => exact a.counts
  | purgeNot p c => exact .refl _
  | purge p c l _ _ h1 _ _ _ =>
    have fr := unlink_frame s p c l
    refine counts_of (p := p) fr.size fr.kind (unlink_doc s p c l) (unlink_changes s p c l) ?_
    intro q hq
    show (unlink s p c l).kids q = _
    rw [unlink_kids]; exact upd_other hq
  | setReadOnly n _ => exact ⟨Nat.le_refl _, fun _ _ => rfl, fun _ _ _ h => h, fun _ => Nat.le_refl _, fun _ _ _ _ _ => rfl⟩
  | edits _ _ a => exact a.counts
  | splitIn n off d k e str t _ _ _ _ a => exact ((data_counts s d).trans (alloc_counts _ _ _ _ _ _)).trans a.counts
  | splitLoose n off d k e str _ _ _ _ => exact (data_counts s d).trans (alloc_counts _ _ _ _ _ _)

/-- One call. -/
theorem step_counts {s : St} (h : Inv2 s) {op : Op} (hs : ¬ selfDoc s op) :
    (step s op).All fun t => Inv2 t ∧ Counts s t :=
  Out.all_mono (step_effect (b := false) h op hs (by simp)) (fun t a => ⟨effect_inv2 h a, a.counts⟩)

end Verif.Dom
