import Verif.Lemmas.XsltOutput
set_option autoImplicit false
set_option linter.unusedSimpArgs false
set_option linter.unusedVariables false
/-! Lemmas about the output: the namespace stack and reading. -/
namespace Verif.Xslt
open Verif.Spec.XsltOutput

/-! Reading streams. -/

theorem read_append (o : Open) (e1 e2 : List Event) (r1 r2 : List Res) (o1 o2 : Open)
    (h1 : readEvents o e1 = some (r1, o1)) (h2 : readEvents o1 e2 = some (r2, o2)) :
    readEvents o (e1 ++ e2) = some (r1 ++ r2, o2) := by
  induction e1 generalizing o r1 with
  | nil => simp [readEvents] at h1; obtain ⟨rfl, rfl⟩ := h1; simpa using h2
  | cons e es ih =>
    rw [readEvents] at h1
    rw [List.cons_append, readEvents]
    cases he : readEvent o e with
    | none => simp [he] at h1
    | some x =>
      obtain ⟨r, o'⟩ := x
      simp only [he] at h1 ⊢
      cases hr : readEvents o' es with
      | none => simp [hr] at h1
      | some y =>
        obtain ⟨rs, o''⟩ := y
        simp only [hr, Option.some.injEq, Prod.mk.injEq] at h1
        obtain ⟨rfl, rfl⟩ := h1
        rw [ih o' rs hr]
        simp

theorem readTags_append (o : List QN) (e1 e2 : List Event) (r1 r2 : List Res) (o1 o2 : List QN)
    (h1 : readTags o e1 = some (r1, o1)) (h2 : readTags o1 e2 = some (r2, o2)) :
    readTags o (e1 ++ e2) = some (r1 ++ r2, o2) := by
  induction e1 generalizing o r1 with
  | nil => simp [readTags] at h1; obtain ⟨rfl, rfl⟩ := h1; simpa using h2
  | cons e es ih =>
    cases e with
    | startElement q u a =>
      simp only [readTags, Option.map_eq_some_iff] at h1
      obtain ⟨⟨r, o'⟩, hr, h1⟩ := h1
      simp only [Prod.mk.injEq] at h1
      obtain ⟨rfl, rfl⟩ := h1
      rw [List.cons_append, readTags, ih _ _ hr]
      simp
    | endElement q u =>
      cases o with
      | nil => simp [readTags] at h1
      | cons t o =>
        rw [readTags] at h1
        by_cases ht : t = q
        · rw [if_pos ht] at h1
          simp only [Option.map_eq_some_iff] at h1
          obtain ⟨⟨r, o'⟩, hr, h1⟩ := h1
          simp only [Prod.mk.injEq] at h1
          obtain ⟨rfl, rfl⟩ := h1
          rw [List.cons_append, readTags, if_pos ht, ih _ _ hr]
          simp
        · rw [if_neg ht] at h1; cases h1
    | characters s =>
      simp only [readTags, Option.map_eq_some_iff] at h1
      obtain ⟨⟨r, o'⟩, hr, h1⟩ := h1
      simp only [Prod.mk.injEq] at h1
      obtain ⟨rfl, rfl⟩ := h1
      rw [List.cons_append, readTags, ih _ _ hr]
      · simp
    | startCDATA =>
      simp only [readTags] at h1
      rw [List.cons_append, readTags, ih _ _ h1]
    | endCDATA =>
      simp only [readTags] at h1
      rw [List.cons_append, readTags, ih _ _ h1]
    | comment s =>
      simp only [readTags, Option.map_eq_some_iff] at h1
      obtain ⟨⟨r, o'⟩, hr, h1⟩ := h1
      simp only [Prod.mk.injEq] at h1
      obtain ⟨rfl, rfl⟩ := h1
      rw [List.cons_append, readTags, ih _ _ hr]
      · simp
    | pi t s =>
      simp only [readTags, Option.map_eq_some_iff] at h1
      obtain ⟨⟨r, o'⟩, hr, h1⟩ := h1
      simp only [Prod.mk.injEq] at h1
      obtain ⟨rfl, rfl⟩ := h1
      rw [List.cons_append, readTags, ih _ _ hr]
      · simp

/-! Looking up. -/

/-- All declarations in force. -/
def all (o : Open) : List (Str × Str) := o.flatMap (·.2) ++ [(xml, xmlUri)]

theorem mem_all_cons (x : Str × Str) (e : QN × List (Str × Str)) (o : Open) :
    x ∈ all (e :: o) ↔ x ∈ e.2 ∨ x ∈ all o := by
  simp [all, or_assoc]

theorem binding_mem (p u : Str) (ds : List (Str × Str)) (h : binding p ds = some u) : (p, u) ∈ ds := by
  induction ds with
  | nil => simp [binding] at h
  | cons d ds ih =>
    rw [binding] at h
    by_cases hd : d.1 = p
    · rw [if_pos hd] at h
      cases h; subst hd; simp
    · rw [if_neg hd] at h
      exact List.mem_cons_of_mem _ (ih h)

theorem binding_none (p : Str) (ds : List (Str × Str)) (h : binding p ds = none) (u : Str) : (p, u) ∉ ds := by
  induction ds with
  | nil => simp
  | cons d ds ih =>
    rw [binding] at h
    by_cases hd : d.1 = p
    · rw [if_pos hd] at h; cases h
    · rw [if_neg hd] at h
      intro hm
      rcases List.mem_cons.mp hm with rfl | hm
      · exact hd rfl
      · exact ih h hm

/-- A prefix stands for one namespace only. -/
def Fn (l : List (Str × Str)) : Prop := ∀ p u u', (p, u) ∈ l → (p, u') ∈ l → u = u'

theorem lookup_some (o : Open) (hf : Fn (all o)) (p u : Str) (h : (p, u) ∈ all o) : lookup p o = some u := by
  induction o with
  | nil =>
    simp [all] at h
    obtain ⟨rfl, rfl⟩ := h
    simp [lookup]
  | cons e o ih =>
    rw [lookup]
    cases hb : binding p e.2 with
    | some u' =>
      have := hf p u u' h ((mem_all_cons _ _ _).mpr (Or.inl (binding_mem p u' _ hb)))
      simp [this]
    | none =>
      simp only
      apply ih
      · intro p u u' h1 h2
        exact hf p u u' ((mem_all_cons _ _ _).mpr (Or.inr h1)) ((mem_all_cons _ _ _).mpr (Or.inr h2))
      · rcases (mem_all_cons _ _ _).mp h with h | h
        · exact absurd h (binding_none p _ hb u)
        · exact h

theorem lookup_none (o : Open) (p : Str) (h : ∀ u, (p, u) ∉ all o) : lookup p o = none := by
  induction o with
  | nil =>
    rw [lookup, if_neg]
    rintro rfl
    exact h xmlUri (by simp [all])
  | cons e o ih =>
    rw [lookup]
    cases hb : binding p e.2 with
    | some u' => exact absurd ((mem_all_cons _ _ _).mpr (Or.inl (binding_mem p u' _ hb))) (h u')
    | none => exact ih fun u hu => h u ((mem_all_cons _ _ _).mpr (Or.inr hu))

/-! The namespace stack. -/

theorem mapFind_mem (k v : Str) (m : Scope) (h : mapFind k m = some v) : (k, v) ∈ m := by
  induction m with
  | nil => simp [mapFind] at h
  | cons d ds ih =>
    rw [mapFind] at h
    by_cases hd : d.1 = k
    · rw [if_pos hd] at h
      cases h; subst hd; simp
    · rw [if_neg hd] at h
      exact List.mem_cons_of_mem _ (ih h)

theorem findPrefix_mem (u : Str) (sc : List (Scope × Scope)) (h : findPrefix u sc ≠ []) :
    ∃ s ∈ sc, (u, findPrefix u sc) ∈ s.2 := by
  induction sc with
  | nil => simp [findPrefix] at h
  | cons s rest ih =>
    rw [findPrefix] at h ⊢
    cases hm : mapFind u s.2 with
    | some p => exact ⟨s, by simp, mapFind_mem u p _ hm⟩
    | none =>
      simp only [hm] at h ⊢
      obtain ⟨s', h1, h2⟩ := ih h
      exact ⟨s', List.mem_cons_of_mem _ h1, h2⟩

theorem mapSet_new (k v : Str) (m : Scope) (h : ∀ x, (k, x) ∉ m) : mapSet k v m = (k, v) :: m := by
  unfold mapSet
  congr 1
  rw [List.filter_eq_self]
  rintro ⟨a, b⟩ hab
  simp only [decide_eq_true_eq]
  rintro rfl
  exact h b hab

theorem autoPrefix_inj (i j : Nat) (h : autoPrefix i = autoPrefix j) : i = j := by
  unfold autoPrefix at h
  have := List.append_cancel_left h
  have h1 := Nat.ofDigitChars_ten_toDigits (n := i)
  rw [this, Nat.ofDigitChars_ten_toDigits] at h1
  exact h1.symm

theorem autoPrefix_ne (i : Nat) : autoPrefix i ≠ [] ∧ autoPrefix i ≠ xmlns ∧ autoPrefix i ≠ xml := by
  have : ∃ t, autoPrefix i = 'a' :: 'u' :: t := ⟨_, rfl⟩
  obtain ⟨t, ht⟩ := this
  rw [ht]
  exact ⟨by simp, by simp [xmlns], by simp [xml]⟩

/-- What a declaration made by the processor looks like. -/
def EntOk (ns : Str → Str) (k : Nat) (e : Str × Str) : Prop :=
  e.2 ≠ [] ∧ e.1 ≠ xmlns ∧ e.1 ≠ xml ∧ e.2 ≠ xmlUri ∧
    ((∃ i, i < k ∧ e.1 = autoPrefix i) ∨ (¬ IsAuto e.1 ∧ ns e.1 = e.2))

theorem EntOk.mono {ns : Str → Str} {k k' : Nat} {e : Str × Str} (h : EntOk ns k e) (hk : k ≤ k') :
    EntOk ns k' e := by
  obtain ⟨h1, h2, h3, h4, h5⟩ := h
  refine ⟨h1, h2, h3, h4, ?_⟩
  rcases h5 with ⟨i, hi, he⟩ | h5
  · exact Or.inl ⟨i, by omega, he⟩
  · exact Or.inr h5

/-- The namespace stack agrees with the declarations in force. -/
structure Inv (ns : Str → Str) (n : NsStack) (o : Open) : Prop where
  ent : ∀ x ∈ o, ∀ e ∈ x.2, EntOk ns n.autoNs e
  fn : Fn (all o)
  uris : ∀ s ∈ n.scopes, ∀ x ∈ s.2, (x.2, x.1) ∈ all o

theorem mem_all (e : Str × Str) (o : Open) (h : e ∈ all o) : (∃ x ∈ o, e ∈ x.2) ∨ e = (xml, xmlUri) := by
  simp only [all, List.mem_append, List.mem_flatMap, List.mem_singleton] at h
  exact h

theorem xmlUri_ne : xmlUri ≠ [] := by decide +kernel

theorem all_ne (ns : Str → Str) (n : NsStack) (o : Open) (h : Inv ns n o) (e : Str × Str) (he : e ∈ all o) :
    e.2 ≠ [] := by
  rcases mem_all e o he with ⟨x, hx, hex⟩ | he
  · exact (h.ent x hx e hex).1
  · rw [he]; exact xmlUri_ne

theorem Inv.prefix_mem {ns : Str → Str} {n : NsStack} {o : Open} (h : Inv ns n o) (u : Str)
    (hu : findPrefix u n.scopes ≠ []) : (findPrefix u n.scopes, u) ∈ all o := by
  obtain ⟨s, hs, hx⟩ := findPrefix_mem u n.scopes hu
  exact h.uris s hs _ hx

theorem Inv.prefix_nil {ns : Str → Str} {n : NsStack} {o : Open} (h : Inv ns n o) :
    findPrefix [] n.scopes = [] := by
  by_cases hu : findPrefix [] n.scopes = []
  · exact hu
  · have := all_ne ns n o h _ (h.prefix_mem [] hu)
    exact absurd rfl this

theorem Inv.mono {ns : Str → Str} {n m : NsStack} {o : Open} (h : Inv ns n o)
    (hk : n.autoNs ≤ m.autoNs) (hs : ∀ s ∈ m.scopes, s ∈ n.scopes) : Inv ns m o :=
  ⟨fun x hx e he => (h.ent x hx e he).mono hk, h.fn, fun s hs' => h.uris s (hs s hs')⟩

/-! The attributes of a pending element. -/

/-- An attribute with its expanded name. -/
def erase (a : OAttr) : Str × Str × Str := (a.uri, a.localName, a.value)

theorem put_lemma (F : Str → Str) (u l v : Str) (atts : List OAttr)
    (hq : ∀ a ∈ atts, a.qName = (F a.uri, a.localName)) (hinj : ∀ a ∈ atts, F u = F a.uri → u = a.uri) :
    ∃ i, attIndex (F u, l) (attPut ⟨u, l, (F u, l), []⟩ atts) = some i ∧
      (attSetValue v i (attPut ⟨u, l, (F u, l), []⟩ atts)).map erase = putAttr u l v (atts.map erase) ∧
      ∀ a ∈ attSetValue v i (attPut ⟨u, l, (F u, l), []⟩ atts),
        a.qName = (F a.uri, a.localName) ∧ ((a.uri = u ∧ a.localName = l) ∨
          ∃ b ∈ atts, b.uri = a.uri ∧ b.localName = a.localName) := by
  induction atts with
  | nil => exact ⟨0, by simp [attPut, attIndex], by simp [attPut, attSetValue, erase, putAttr],
      by simp [attPut, attSetValue]⟩
  | cons a as ih =>
    by_cases h : a.uri = u ∧ a.localName = l
    · have hqa := hq a (by simp)
      rw [h.1, h.2] at hqa
      refine ⟨0, ?_, ?_, ?_⟩
      · rw [attPut, if_pos h, attIndex, if_pos hqa]
      · rw [attPut, if_pos h, attSetValue]
        simp [erase, putAttr, h.1, h.2]
      · rw [attPut, if_pos h, attSetValue]
        intro b hb
        rcases List.mem_cons.mp hb with rfl | hb
        · exact ⟨by simpa [h.1, h.2] using hqa, Or.inl ⟨h.1, h.2⟩⟩
        · exact ⟨hq b (List.mem_cons_of_mem _ hb), Or.inr ⟨b, List.mem_cons_of_mem _ hb, rfl, rfl⟩⟩
    · obtain ⟨i, h1, h2, h3⟩ := ih (fun b hb => hq b (List.mem_cons_of_mem _ hb))
        (fun b hb => hinj b (List.mem_cons_of_mem _ hb))
      have hne : a.qName ≠ (F u, l) := by
        rw [hq a (by simp)]
        intro he
        simp only [Prod.mk.injEq] at he
        exact h ⟨(hinj a (by simp) he.1.symm).symm, he.2⟩
      refine ⟨i + 1, ?_, ?_, ?_⟩
      · rw [attPut, if_neg h, attIndex, if_neg hne, h1]; rfl
      · rw [attPut, if_neg h, attSetValue, List.map_cons, h2, List.map_cons, putAttr]
        rw [if_neg (by simpa [erase] using h)]
      · rw [attPut, if_neg h, attSetValue]
        intro b hb
        rcases List.mem_cons.mp hb with rfl | hb
        · exact ⟨hq b (by simp), Or.inr ⟨b, by simp, rfl, rfl⟩⟩
        · obtain ⟨g1, g2⟩ := h3 b hb
          refine ⟨g1, ?_⟩
          rcases g2 with g2 | ⟨c, hc, g2⟩
          · exact Or.inl g2
          · exact Or.inr ⟨c, List.mem_cons_of_mem _ hc, g2⟩

theorem putAttr_nodup (u l v : Str) (as : List (Str × Str × Str))
    (h : (as.map fun a => (a.1, a.2.1)).Nodup) : ((putAttr u l v as).map fun a => (a.1, a.2.1)).Nodup := by
  have key : ∀ as : List (Str × Str × Str), ∀ x ∈ (putAttr u l v as).map (fun a => (a.1, a.2.1)),
      x = (u, l) ∨ x ∈ as.map fun a => (a.1, a.2.1) := by
    intro as
    induction as with
    | nil => simp [putAttr]
    | cons a as ih =>
      intro x hx
      rw [putAttr] at hx
      by_cases ha : a.1 = u ∧ a.2.1 = l
      · rw [if_pos ha] at hx
        rcases List.mem_cons.mp hx with rfl | hx
        · exact Or.inl rfl
        · exact Or.inr (List.mem_cons_of_mem _ hx)
      · rw [if_neg ha] at hx
        rcases List.mem_cons.mp hx with rfl | hx
        · exact Or.inr (by simp)
        · rcases ih x hx with h | h
          · exact Or.inl h
          · exact Or.inr (List.mem_cons_of_mem _ h)
  induction as with
  | nil => simp [putAttr]
  | cons a as ih =>
    rw [List.map_cons, List.nodup_cons] at h
    rw [putAttr]
    by_cases ha : a.1 = u ∧ a.2.1 = l
    · rw [if_pos ha, List.map_cons, List.nodup_cons]
      rw [ha.1, ha.2] at h
      exact h
    · rw [if_neg ha, List.map_cons, List.nodup_cons]
      refine ⟨?_, ih h.2⟩
      intro hm
      rcases key as _ hm with he | he
      · simp only [Prod.mk.injEq] at he; exact ha he
      · exact h.1 he

end Verif.Xslt
