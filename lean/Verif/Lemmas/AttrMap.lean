import Verif.Spec.AttrMap
set_option autoImplicit false
set_option linter.unusedSimpArgs false
set_option linter.unusedVariables false
/-!
# The attribute maps refine finite maps
-/
namespace Verif.AttrMap
open Verif.DomNames Verif.Spec.AttrMap
open Verif.Dom (Err)

variable {K : Type} [DecidableEq K]

/-- The name finds, by whichever calls are in use, what its key says. -/
structure Good (κ : Keys K) (l1 l2 : Bool) (r : NsName) : Prop where
  name : l1 = true → ∀ n, nameIs n r = true ↔ κ.attr r = κ.name n
  pair : l2 = true → ∀ u l, l ≠ [] → (namespaceAndNameIs u l r = true ↔ κ.attr r = κ.pair u l)

structure R (κ : Keys K) (good : NsName → Prop) (s : St) (m : M K) : Prop where
  next : s.next = m.next
  nm : ∀ a, a < m.next → m.nm a = some (s.nm a)
  good : ∀ a, a < m.next → good (s.nm a)
  doc : ∀ a, a < m.next → s.doc a = m.doc a
  value : ∀ a, a < m.next → s.value a = m.value a
  ro : ∀ e, s.ro e = m.readOnly e
  edoc : ∀ e, s.edoc e = m.edoc e
  lt : ∀ e a, a ∈ s.nodes e → a < m.next
  nodup : ∀ e, ((s.nodes e).map fun a => κ.attr (s.nm a)).Nodup
  cur : ∀ e k a, m.cur e k = some a ↔ a ∈ s.nodes e ∧ κ.attr (s.nm a) = k
  user : ∀ e a, m.user a = some e ↔ a ∈ s.nodes e
  owned : ∀ e a, a ∈ s.nodes e → s.owner a = some e ∧ s.orphans a = false
  free : ∀ a, a < m.next → (∀ e, a ∉ s.nodes e) → s.owner a = none ∨ s.orphans a = true

theorem R.nodup' {κ : Keys K} {good : NsName → Prop} {s : St} {m : M K} (h : R κ good s m) (e : Elem) :
    (s.nodes e).Nodup := by
  have := h.nodup e
  unfold List.Nodup at this ⊢
  rw [List.pairwise_map] at this
  exact this.imp fun h e => h (by rw [e])

/-- Position `pos` is that of the attribute with the key. -/
def Finds (κ : Keys K) (s : St) (e : Elem) (k : K) : Option Nat → Prop
  | none => ∀ a ∈ s.nodes e, κ.attr (s.nm a) ≠ k
  | some i => ∃ a, (s.nodes e)[i]? = some a ∧ κ.attr (s.nm a) = k

theorem finds_of (κ : Keys K) (s : St) (e : Elem) (k : K) (p : Attr → Bool)
    (h : ∀ a ∈ s.nodes e, (p a = true ↔ κ.attr (s.nm a) = k)) : Finds κ s e k ((s.nodes e).findIdx? p) := by
  cases hf : (s.nodes e).findIdx? p with
  | none =>
    intro a ha hk
    have := List.findIdx?_eq_none_iff.mp hf a ha
    rw [(h a ha).mpr hk] at this; cases this
  | some i =>
    obtain ⟨hi, hp, _⟩ := List.findIdx?_eq_some_iff_getElem.mp hf
    exact ⟨(s.nodes e)[i], List.getElem?_eq_getElem hi, (h _ (List.getElem_mem hi)).mp hp⟩

theorem getNode_cur {κ : Keys K} {good : NsName → Prop} {s : St} {m : M K} (h : R κ good s m) {e : Elem} {k : K}
    {pos : Option Nat} (hf : Finds κ s e k pos) : getNode s e pos = m.cur e k := by
  cases pos with
  | none =>
    cases hc : m.cur e k with
    | none => rfl
    | some a => exact absurd ((h.cur e k a).mp hc).2 (hf a ((h.cur e k a).mp hc).1)
  | some i =>
    obtain ⟨a, ha, hk⟩ := hf
    show (s.nodes e)[i]? = _
    rw [ha, eq_comm, h.cur]
    exact ⟨List.mem_of_getElem? ha, hk⟩

theorem mem_set_iff' {l : List Nat} (hl : l.Nodup) {i r a : Nat} (hi : l[i]? = some r) (ha : a ∉ l) (x : Nat) :
    x ∈ l.set i a ↔ x = a ∨ (x ∈ l ∧ x ≠ r) := by
  induction l generalizing i with
  | nil => simp at hi
  | cons b l ih =>
    have hb := List.nodup_cons.mp hl
    simp only [List.mem_cons, not_or] at ha
    cases i with
    | zero =>
      simp only [List.getElem?_cons_zero, Option.some.injEq] at hi
      subst hi
      simp only [List.set_cons_zero, List.mem_cons]
      constructor
      · rintro (h | h)
        · exact .inl h
        · exact .inr ⟨.inr h, fun hx => hb.1 (hx ▸ h)⟩
      · rintro (h | ⟨h | h, h'⟩)
        · exact .inl h
        · exact absurd h h'
        · exact .inr h
    | succ i =>
      simp only [List.getElem?_cons_succ] at hi
      simp only [List.set_cons_succ, List.mem_cons, ih hb.2 hi ha.2]
      constructor
      · rintro (h | h | h)
        · refine .inr ⟨.inl h, ?_⟩
          rintro rfl
          rw [h] at hi
          exact hb.1 (List.mem_of_getElem? hi)
        · exact .inl h
        · exact .inr ⟨.inr h.1, h.2⟩
      · rintro (h | ⟨h | h, h'⟩)
        · exact .inr (.inl h)
        · exact .inl h
        · exact .inr (.inr ⟨h, h'⟩)

theorem mem_eraseIdx_iff' {l : List Nat} (hl : l.Nodup) {i r : Nat} (hi : l[i]? = some r) (x : Nat) :
    x ∈ l.eraseIdx i ↔ x ∈ l ∧ x ≠ r := by
  induction l generalizing i with
  | nil => simp at hi
  | cons b l ih =>
    have hb := List.nodup_cons.mp hl
    cases i with
    | zero =>
      simp only [List.getElem?_cons_zero, Option.some.injEq] at hi
      subst hi
      simp only [List.eraseIdx_cons_zero, List.mem_cons]
      constructor
      · exact fun h => ⟨.inr h, fun hx => hb.1 (hx ▸ h)⟩
      · rintro ⟨h | h, h'⟩
        · exact absurd h h'
        · exact h
    | succ i =>
      simp only [List.getElem?_cons_succ] at hi
      simp only [List.eraseIdx_cons_succ, List.mem_cons, ih hb.2 hi]
      constructor
      · rintro (h | h)
        · refine ⟨.inl h, ?_⟩
          rintro rfl
          rw [h] at hi
          exact hb.1 (List.mem_of_getElem? hi)
        · exact ⟨.inr h.1, h.2⟩
      · rintro ⟨h | h, h'⟩
        · exact .inl h
        · exact .inr ⟨h, h'⟩

theorem put_same {α : Type} (f : Nat → α) (i : Nat) (v : α) : put f i v i = v := by simp [put]
theorem put_other {α : Type} (f : Nat → α) {i j : Nat} (h : j ≠ i) (v : α) : put f i v j = f j := by simp [put, h]

theorem letGo_fields (m : M K) (e : Elem) (k : K) :
    (m.letGo e k).next = m.next ∧ (m.letGo e k).nm = m.nm ∧ (m.letGo e k).doc = m.doc ∧
    (m.letGo e k).value = m.value ∧ (m.letGo e k).readOnly = m.readOnly ∧ (m.letGo e k).edoc = m.edoc := by
  unfold M.letGo; cases m.cur e k <;> exact ⟨rfl, rfl, rfl, rfl, rfl, rfl⟩

/-- Setting a free attribute. -/
theorem set_R {κ : Keys K} {good : NsName → Prop} {s : St} {m : M K} (h : R κ good s m) {e : Elem} {a : Attr}
    (ha : a < m.next) (hu : m.user a = none) {pos : Option Nat} (hf : Finds κ s e (κ.attr (s.nm a)) pos) :
    R κ good (setNode (setOwnerElement s a e) e a pos).1 (m.put e (κ.attr (s.nm a)) a).1 ∧
    (setNode (setOwnerElement s a e) e a pos).2 = .node (m.cur e (κ.attr (s.nm a))) := by
  have hfree : ∀ e', a ∉ s.nodes e' := fun e' hc => by
    have := (h.user e' a).mpr hc; rw [hu] at this; cases this
  have hg := getNode_cur h hf
  obtain ⟨f1, f2, f3, f4, f5, f6⟩ := letGo_fields m e (κ.attr (s.nm a))
  cases pos with
  | none =>
    have hc : m.cur e (κ.attr (s.nm a)) = none := by rw [← hg]; rfl
    refine ⟨?_, by rw [hc]; rfl⟩
    have hlg : m.letGo e (κ.attr (s.nm a)) = m := by unfold M.letGo; rw [hc]
    show R κ good { setOwnerElement s a e with orphans := put (put s.orphans a false) a false, nodes := put s.nodes e (s.nodes e ++ [a]) } _
    unfold M.put
    rw [hlg]
    have hmem : ∀ e' x, x ∈ put s.nodes e (s.nodes e ++ [a]) e' ↔ (x ∈ s.nodes e' ∨ (e' = e ∧ x = a)) := by
      intro e' x
      by_cases he : e' = e
      · subst he; rw [put_same]; simp
      · rw [put_other _ he]; simp [he]
    refine ⟨h.next, h.nm, h.good, h.doc, h.value, h.ro, h.edoc, ?_, ?_, ?_, ?_, ?_, ?_⟩
    · intro e' x hx
      rcases (hmem e' x).mp hx with hx | ⟨_, hx⟩
      · exact h.lt e' x hx
      · rw [hx]; exact ha
    · intro e'
      by_cases he : e' = e
      · subst he
        show ((put s.nodes e' (s.nodes e' ++ [a]) e').map _).Nodup
        rw [put_same, List.map_append, List.nodup_append]
        refine ⟨h.nodup e', by simp, ?_⟩
        intro x hx y hy hxy
        obtain ⟨b, hb, rfl⟩ := List.mem_map.mp hx
        simp only [List.map_cons, List.map_nil, List.mem_singleton] at hy
        subst hy
        exact hf b hb hxy
      · show ((put s.nodes e (s.nodes e ++ [a]) e').map _).Nodup
        rw [put_other _ he]; exact h.nodup e'
    · intro e' k x
      show (if e' = e ∧ k = κ.attr (s.nm a) then some a else m.cur e' k) = some x ↔
        (x ∈ put s.nodes e (s.nodes e ++ [a]) e' ∧ κ.attr (s.nm x) = k)
      rw [hmem]
      by_cases he : e' = e ∧ k = κ.attr (s.nm a)
      · rw [if_pos he]
        obtain ⟨rfl, rfl⟩ := he
        constructor
        · intro hx; cases hx; exact ⟨.inr ⟨rfl, rfl⟩, rfl⟩
        · rintro ⟨hx | hx, hk⟩
          · exact absurd hk (hf x hx)
          · rw [hx.2]
      · rw [if_neg he, h.cur]
        constructor
        · exact fun hx => ⟨.inl hx.1, hx.2⟩
        · rintro ⟨hx | ⟨rfl, rfl⟩, hk⟩
          · exact ⟨hx, hk⟩
          · exact absurd ⟨rfl, hk.symm⟩ he
    · intro e' x
      show (if x = a then some e else m.user x) = some e' ↔ x ∈ put s.nodes e (s.nodes e ++ [a]) e'
      rw [hmem]
      by_cases hx : x = a
      · subst hx
        rw [if_pos rfl]
        constructor
        · intro he; cases he; exact .inr ⟨rfl, rfl⟩
        · rintro (hx | hx)
          · exact absurd hx (hfree e')
          · rw [hx.1]
      · rw [if_neg hx, h.user]; simp [hx]
    · intro e' x hx
      show put s.owner a (some e) x = some e' ∧ put (put s.orphans a false) a false x = false
      rcases (hmem e' x).mp hx with hx | ⟨rfl, rfl⟩
      · have hxa : x ≠ a := fun hxa => hfree e' (hxa ▸ hx)
        rw [put_other _ hxa, put_other _ hxa, put_other _ hxa]
        exact h.owned e' x hx
      · rw [put_same, put_same]; exact ⟨rfl, rfl⟩
    · intro x hx hfx
      show put s.owner a (some e) x = none ∨ put (put s.orphans a false) a false x = true
      have hxa : x ≠ a := fun hxa => hfx e ((hmem e x).mpr (.inr ⟨rfl, hxa⟩))
      rw [put_other _ hxa, put_other _ hxa, put_other _ hxa]
      exact h.free x hx fun e' hc => hfx e' ((hmem e' x).mpr (.inl hc))
  | some i =>
    obtain ⟨r, hr, hk⟩ := hf
    have hc : m.cur e (κ.attr (s.nm a)) = some r := by rw [← hg]; exact hr
    have hrm : r ∈ s.nodes e := List.mem_of_getElem? hr
    have hra : r ≠ a := fun hx => hfree e (hx ▸ hrm)
    have hnd := h.nodup' e
    have hlg : m.letGo e (κ.attr (s.nm a)) = (m.bind e (κ.attr (s.nm a)) none).use r none := by
      unfold M.letGo; rw [hc]
    have hstep : setNode (setOwnerElement s a e) e a (some i) =
        ({ setOwnerElement s a e with
            nodes := put s.nodes e ((s.nodes e).set i a),
            orphans := put (put (put s.orphans a false) a false) r true }, .node (some r)) := by
      rw [setNode]
      simp only []
      rw [show ({ setOwnerElement s a e with orphans := put (setOwnerElement s a e).orphans a false } : St).nodes e =
        s.nodes e from rfl, hr]
      rfl
    rw [hstep, hc]
    refine ⟨?_, rfl⟩
    unfold M.put
    rw [hlg]
    have hmem : ∀ e' x, x ∈ put s.nodes e ((s.nodes e).set i a) e' ↔
        ((x ∈ s.nodes e' ∧ ¬ (e' = e ∧ x = r)) ∨ (e' = e ∧ x = a)) := by
      intro e' x
      by_cases he : e' = e
      · subst he
        rw [put_same, mem_set_iff' hnd hr (hfree e') x]
        constructor
        · rintro (hx | hx)
          · exact .inr ⟨rfl, hx⟩
          · exact .inl ⟨hx.1, fun hc => hx.2 hc.2⟩
        · rintro (hx | hx)
          · exact .inr ⟨hx.1, fun hc => hx.2 ⟨rfl, hc⟩⟩
          · exact .inl hx.2
      · rw [put_other _ he]; simp [he]
    refine ⟨h.next, h.nm, h.good, h.doc, h.value, h.ro, h.edoc, ?_, ?_, ?_, ?_, ?_, ?_⟩
    · intro e' x hx
      rcases (hmem e' x).mp hx with hx | ⟨_, hx⟩
      · exact h.lt e' x hx.1
      · rw [hx]; exact ha
    · intro e'
      by_cases he : e' = e
      · subst he
        show ((put s.nodes e' ((s.nodes e').set i a) e').map fun a => κ.attr (s.nm a)).Nodup
        rw [put_same, List.map_set]
        have : ((s.nodes e').map fun a => κ.attr (s.nm a)).set i (κ.attr (s.nm a)) =
            (s.nodes e').map fun a => κ.attr (s.nm a) := by
          apply List.ext_getElem? 
          intro j
          rw [List.getElem?_set]
          by_cases hij : i = j
          · subst hij
            have hlt : i < (s.nodes e').length := (List.getElem?_eq_some_iff.mp hr).1
            rw [if_pos rfl, if_pos (by rw [List.length_map]; exact hlt), List.getElem?_map, hr]
            exact congrArg some hk.symm
          · rw [if_neg hij]
        rw [this]
        exact h.nodup e'
      · show ((put s.nodes e ((s.nodes e).set i a) e').map _).Nodup
        rw [put_other _ he]; exact h.nodup e'
    · intro e' k x
      show (if e' = e ∧ k = κ.attr (s.nm a) then some a else
        if e' = e ∧ k = κ.attr (s.nm a) then none else m.cur e' k) = some x ↔
        (x ∈ put s.nodes e ((s.nodes e).set i a) e' ∧ κ.attr (s.nm x) = k)
      rw [hmem]
      by_cases he : e' = e ∧ k = κ.attr (s.nm a)
      · rw [if_pos he]
        obtain ⟨rfl, rfl⟩ := he
        constructor
        · intro hx; cases hx; exact ⟨.inr ⟨rfl, rfl⟩, rfl⟩
        · rintro ⟨hx | hx, hkx⟩
          · have := (h.cur e' _ x).mpr ⟨hx.1, hkx⟩
            rw [hc] at this
            exact absurd ⟨rfl, (Option.some.inj this).symm⟩ hx.2
          · rw [hx.2]
      · rw [if_neg he, if_neg he, h.cur]
        constructor
        · rintro ⟨hx, hkx⟩
          refine ⟨.inl ⟨hx, ?_⟩, hkx⟩
          rintro ⟨rfl, rfl⟩
          exact he ⟨rfl, by rw [← hkx, hk]⟩
        · rintro ⟨hx | ⟨rfl, rfl⟩, hkx⟩
          · exact ⟨hx.1, hkx⟩
          · exact absurd ⟨rfl, hkx.symm⟩ he
    · intro e' x
      show (if x = a then some e else if x = r then none else m.user x) = some e' ↔
        x ∈ put s.nodes e ((s.nodes e).set i a) e'
      rw [hmem]
      by_cases hx : x = a
      · subst hx
        rw [if_pos rfl]
        constructor
        · intro he; cases he; exact .inr ⟨rfl, rfl⟩
        · rintro (hx | hx)
          · exact absurd hx.1 (hfree e')
          · rw [hx.1]
      · rw [if_neg hx]
        by_cases hxr : x = r
        · subst hxr
          rw [if_pos rfl]
          constructor
          · intro hc; cases hc
          · rintro (hc | hc)
            · have h1 := (h.user e' x).mpr hc.1
              have h2 := (h.user e x).mpr hrm
              rw [h1] at h2
              exact absurd ⟨Option.some.inj h2, rfl⟩ hc.2
            · exact absurd hc.2 hx
        · rw [if_neg hxr, h.user]
          simp [hx, hxr]
    · intro e' x hx
      show put s.owner a (some e) x = some e' ∧ put (put (put s.orphans a false) a false) r true x = false
      rcases (hmem e' x).mp hx with hx | ⟨rfl, rfl⟩
      · have hxa : x ≠ a := fun hxa => hfree e' (hxa ▸ hx.1)
        have hxr : x ≠ r := by
          rintro rfl
          have h1 := (h.user e' x).mpr hx.1
          have h2 := (h.user e x).mpr hrm
          rw [h1] at h2
          exact hx.2 ⟨Option.some.inj h2, rfl⟩
        rw [put_other _ hxa, put_other _ hxr, put_other _ hxa, put_other _ hxa]
        exact h.owned e' x hx.1
      · rw [put_same, put_other _ (Ne.symm hra), put_same]; exact ⟨rfl, rfl⟩
    · intro x hx hfx
      show put s.owner a (some e) x = none ∨ put (put (put s.orphans a false) a false) r true x = true
      have hxa : x ≠ a := fun hxa => hfx e ((hmem e x).mpr (.inr ⟨rfl, hxa⟩))
      by_cases hxr : x = r
      · right; rw [hxr, put_same]
      · rw [put_other _ hxa, put_other _ hxr, put_other _ hxa, put_other _ hxa]
        refine h.free x hx fun e' hc => hfx e' ((hmem e' x).mpr (.inl ⟨hc, fun hh => hxr hh.2⟩))

/-- Removing. -/
theorem remove_R {κ : Keys K} {good : NsName → Prop} {s : St} {m : M K} (h : R κ good s m) {e : Elem} {k : K}
    {pos : Option Nat} (hf : Finds κ s e k pos) :
    R κ good (baseRemove s e pos).1 (m.remove e k).1 ∧ (baseRemove s e pos).2 = (m.remove e k).2 := by
  have hg := getNode_cur h hf
  unfold baseRemove M.remove
  rw [h.ro e]
  by_cases hro : m.readOnly e = true
  · rw [if_pos hro, if_pos hro]; exact ⟨h, rfl⟩
  rw [if_neg hro, if_neg hro]
  cases pos with
  | none =>
    have hc : m.cur e k = none := by rw [← hg]; rfl
    rw [hc]
    exact ⟨h, rfl⟩
  | some i =>
    obtain ⟨r, hr, hk⟩ := hf
    have hc : m.cur e k = some r := by rw [← hg]; exact hr
    have hrm : r ∈ s.nodes e := List.mem_of_getElem? hr
    have hnd := h.nodup' e
    rw [hc]
    simp only []
    have hlg : m.letGo e k = (m.bind e k none).use r none := by unfold M.letGo; rw [hc]
    have hstep : removeNode s e (some i) =
        ({ s with nodes := put s.nodes e ((s.nodes e).eraseIdx i), orphans := put s.orphans r true }, .node (some r)) := by
      rw [removeNode, hr]
    rw [hstep, hlg]
    refine ⟨?_, rfl⟩
    have hmem : ∀ e' x, x ∈ put s.nodes e ((s.nodes e).eraseIdx i) e' ↔ (x ∈ s.nodes e' ∧ ¬ (e' = e ∧ x = r)) := by
      intro e' x
      by_cases he : e' = e
      · subst he
        rw [put_same, mem_eraseIdx_iff' hnd hr x]
        simp
      · rw [put_other _ he]; simp [he]
    refine ⟨h.next, h.nm, h.good, h.doc, h.value, h.ro, h.edoc, ?_, ?_, ?_, ?_, ?_, ?_⟩
    · intro e' x hx
      exact h.lt e' x ((hmem e' x).mp hx).1
    · intro e'
      by_cases he : e' = e
      · subst he
        show ((put s.nodes e' ((s.nodes e').eraseIdx i) e').map fun a => κ.attr (s.nm a)).Nodup
        rw [put_same]
        exact List.Nodup.sublist (List.Sublist.map _ (List.eraseIdx_sublist ..)) (h.nodup e')
      · show ((put s.nodes e ((s.nodes e).eraseIdx i) e').map _).Nodup
        rw [put_other _ he]; exact h.nodup e'
    · intro e' k' x
      show (if e' = e ∧ k' = k then none else m.cur e' k') = some x ↔
        (x ∈ put s.nodes e ((s.nodes e).eraseIdx i) e' ∧ κ.attr (s.nm x) = k')
      rw [hmem]
      by_cases he : e' = e ∧ k' = k
      · rw [if_pos he]
        obtain ⟨rfl, rfl⟩ := he
        constructor
        · intro hx; cases hx
        · rintro ⟨hx, hkx⟩
          have := (h.cur e' _ x).mpr ⟨hx.1, hkx⟩
          rw [hc] at this
          exact absurd ⟨rfl, (Option.some.inj this).symm⟩ hx.2
      · rw [if_neg he, h.cur]
        constructor
        · rintro ⟨hx, hkx⟩
          refine ⟨⟨hx, ?_⟩, hkx⟩
          rintro ⟨rfl, rfl⟩
          exact he ⟨rfl, by rw [← hkx, hk]⟩
        · rintro ⟨hx, hkx⟩
          exact ⟨hx.1, hkx⟩
    · intro e' x
      show (if x = r then none else m.user x) = some e' ↔ x ∈ put s.nodes e ((s.nodes e).eraseIdx i) e'
      rw [hmem]
      by_cases hxr : x = r
      · subst hxr
        rw [if_pos rfl]
        constructor
        · intro hc; cases hc
        · intro hc
          have h1 := (h.user e' x).mpr hc.1
          have h2 := (h.user e x).mpr hrm
          rw [h1] at h2
          exact absurd ⟨Option.some.inj h2, rfl⟩ hc.2
      · rw [if_neg hxr, h.user]
        simp [hxr]
    · intro e' x hx
      show s.owner x = some e' ∧ put s.orphans r true x = false
      have hx := (hmem e' x).mp hx
      have hxr : x ≠ r := by
        rintro rfl
        have h1 := (h.user e' x).mpr hx.1
        have h2 := (h.user e x).mpr hrm
        rw [h1] at h2
        exact hx.2 ⟨Option.some.inj h2, rfl⟩
      rw [put_other _ hxr]
      exact h.owned e' x hx.1
    · intro x hx hfx
      show s.owner x = none ∨ put s.orphans r true x = true
      by_cases hxr : x = r
      · right; rw [hxr, put_same]
      · rw [put_other _ hxr]
        exact h.free x hx fun e' hc => hfx e' ((hmem e' x).mpr ⟨hc, fun hh => hxr hh.2⟩)

/-- A new attribute, an orphan or without an owner. -/
theorem alloc_R {κ : Keys K} {good : NsName → Prop} {s : St} {m : M K} (h : R κ good s m) {r : NsName}
    (hr : good r) (d : Doc) (v : Str) (o : Bool) :
    R κ good { alloc s r d v with orphans := put (alloc s r d v).orphans s.next o } (m.new r d v) := by
  have hlt : ∀ e a, a ∈ s.nodes e → a ≠ s.next := fun e a ha hc => by
    have := h.lt e a ha; rw [hc, h.next] at this; exact absurd this (Nat.lt_irrefl _)
  have hc : ∀ a, a < (m.new r d v).next → a = s.next ∨ (a ≠ s.next ∧ a < m.next) := fun a ha => by
    have : a < m.next + 1 := ha
    rw [h.next]; omega
  refine ⟨?_, ?_, ?_, ?_, ?_, h.ro, h.edoc, ?_, ?_, ?_, h.user, ?_, ?_⟩
  · show s.next + 1 = m.next + 1; rw [h.next]
  · intro a ha
    show (if a = m.next then some r else m.nm a) = some (put s.nm s.next r a)
    rcases hc a ha with rfl | ⟨h1, h2⟩
    · rw [put_same, if_pos h.next]
    · rw [put_other _ h1, if_neg (by rw [← h.next]; exact h1)]; exact h.nm a h2
  · intro a ha
    show good (put s.nm s.next r a)
    rcases hc a ha with rfl | ⟨h1, h2⟩
    · rw [put_same]; exact hr
    · rw [put_other _ h1]; exact h.good a h2
  · intro a ha
    show put s.doc s.next d a = if a = m.next then d else m.doc a
    rcases hc a ha with rfl | ⟨h1, h2⟩
    · rw [put_same, if_pos h.next]
    · rw [put_other _ h1, if_neg (by rw [← h.next]; exact h1)]; exact h.doc a h2
  · intro a ha
    show put s.value s.next v a = if a = m.next then v else m.value a
    rcases hc a ha with rfl | ⟨h1, h2⟩
    · rw [put_same, if_pos h.next]
    · rw [put_other _ h1, if_neg (by rw [← h.next]; exact h1)]; exact h.value a h2
  · intro e a ha
    exact Nat.lt_succ_of_lt (h.lt e a ha)
  · intro e
    show ((s.nodes e).map fun a => κ.attr (put s.nm s.next r a)).Nodup
    rw [List.map_congr_left (g := fun a => κ.attr (s.nm a)) fun a ha => by rw [put_other _ (hlt e a ha)]]
    exact h.nodup e
  · intro e k a
    show m.cur e k = some a ↔ a ∈ s.nodes e ∧ κ.attr (put s.nm s.next r a) = k
    rw [h.cur]
    constructor
    · rintro ⟨ha, hk⟩; exact ⟨ha, by rw [put_other _ (hlt e a ha)]; exact hk⟩
    · rintro ⟨ha, hk⟩; rw [put_other _ (hlt e a ha)] at hk; exact ⟨ha, hk⟩
  · intro e a ha
    show put s.owner s.next none a = some e ∧ put (put s.orphans s.next false) s.next o a = false
    rw [put_other _ (hlt e a ha), put_other _ (hlt e a ha), put_other _ (hlt e a ha)]
    exact h.owned e a ha
  · intro a ha hfx
    show put s.owner s.next none a = none ∨ put (put s.orphans s.next false) s.next o a = true
    rcases hc a ha with rfl | ⟨h1, h2⟩
    · left; rw [put_same]
    · rw [put_other _ h1, put_other _ h1, put_other _ h1]; exact h.free a h2 hfx

/-- A free attribute is orphaned, one in use is not. -/
theorem isOrphaned_iff {κ : Keys K} {good : NsName → Prop} {s : St} {m : M K} (h : R κ good s m) {a : Attr}
    (ha : a < m.next) : isOrphaned s a = true ↔ m.user a = none := by
  unfold isOrphaned
  cases hu : m.user a with
  | none =>
    have hf : ∀ e, a ∉ s.nodes e := fun e hc => by
      have := (h.user e a).mpr hc; rw [hu] at this; cases this
    rcases h.free a ha hf with ho | ho
    · rw [ho]; simp
    · cases s.owner a <;> simp [ho]
  | some e =>
    have := h.owned e a ((h.user e a).mp hu)
    rw [this.1]; simp [this.2]

theorem finds_name {κ : Keys K} {l2 : Bool} {s : St} {m : M K} (h : R κ (Good κ true l2) s m) (e : Elem) (n : Str) :
    Finds κ s e (κ.name n) (findByName s e n) :=
  finds_of κ s e _ _ fun a ha => (h.good a (h.lt e a ha)).name rfl n

theorem finds_pair {κ : Keys K} {l1 : Bool} {s : St} {m : M K} (h : R κ (Good κ l1 true) s m) (e : Elem) (u l : Str)
    (hl : l ≠ []) : Finds κ s e (κ.pair u l) (findByNamespaceAndName s e u l) :=
  finds_of κ s e _ _ fun a ha => (h.good a (h.lt e a ha)).pair rfl u l hl

theorem key_name {κ : Keys K} {l2 : Bool} {r : NsName} (h : Good κ true l2 r) : κ.name r.name = κ.attr r :=
  ((h.name rfl r.name).mp (by simp [nameIs])).symm

theorem key_pair {κ : Keys K} {l1 : Bool} {r : NsName} (h : Good κ l1 true r) (hl : r.localName ≠ []) :
    κ.pair r.uri r.localName = κ.attr r :=
  ((h.pair rfl r.uri r.localName hl).mp (by simp [namespaceAndNameIs])).symm

theorem attrSet_R {κ : Keys K} {good : NsName → Prop} {s : St} {m : M K} (h : R κ good s m) {e : Elem} {a : Attr}
    (ha : a < m.next) (hd : m.doc a = m.edoc e) (ns : Bool)
    (hf : Finds κ s e (κ.attr (s.nm a))
      (if ns then findByNamespaceAndName s e (s.nm a).uri (s.nm a).localName else findByName s e (s.nm a).name)) :
    R κ good (attrSet s e a ns).1 (m.set κ e a).1 ∧ (attrSet s e a ns).2 = (m.set κ e a).2 := by
  have ho := isOrphaned_iff h ha
  unfold attrSet M.set
  rw [h.ro e]
  cases hu : m.user a with
  | some e' =>
    have hio : isOrphaned s a = false := by
      cases hi : isOrphaned s a with
      | false => rfl
      | true => have := ho.mp hi; rw [hu] at this; cases this
    have hown := (h.owned e' a ((h.user e' a).mp hu)).1
    rw [hio, hown]
    by_cases he : e' = e
    · subst he
      rw [if_pos (by simp), if_pos rfl]
      exact ⟨h, rfl⟩
    · by_cases hro : m.readOnly e = true
      · simp [he, hro]; exact h
      · simp [he, hro]; exact h
  | none =>
    have hio := ho.mpr hu
    rw [hio]
    by_cases hro : m.readOnly e = true
    · simp [hro]; exact h
    · simp only [Bool.not_true, Bool.false_and, if_false, hro, reduceCtorEq, ne_eq, not_true_eq_false, hd,
        Bool.false_eq_true]
      unfold baseSet
      rw [if_neg (by show ¬ s.ro e = true; rw [h.ro]; exact hro),
        if_neg (by show ¬ (s.doc a ≠ s.edoc e); rw [h.doc a ha, h.edoc, hd]; simp)]
      have := set_R h ha hu hf
      rw [h.nm a ha]
      exact this

theorem create_R {κ : Keys K} {good : NsName → Prop} {s : St} {m : M K} (h : R κ good s m) (d : Doc)
    (x : Except Err NsName) (hx : ∀ r, x.toOption = some r → good r) :
    R κ good (create s d x).1 (m.create d x).1 ∧ (create s d x).2 = (m.create d x).2 := by
  cases x with
  | error e => exact ⟨h, rfl⟩
  | ok r =>
    refine ⟨?_, ?_⟩
    · exact alloc_R h (hx r rfl) d [] true
    · show Res.node (some s.next) = Res.node (some m.next)
      rw [h.next]

theorem setAttr_R {κ : Keys K} {good : NsName → Prop} {s : St} {m : M K} (h : R κ good s m) (e : Elem) (v : Str)
    (ns : Bool) (x : Except Err NsName) (hx : ∀ r, x.toOption = some r → good r)
    (hf : ∀ r (s' : St) (m' : M K), x.toOption = some r → R κ good s' m' →
      Finds κ s' e (κ.attr r) (if ns then findByNamespaceAndName s' e r.uri r.localName else findByName s' e r.name)) :
    R κ good (setAttr s e v ns x).1 (m.setValue κ e v x).1 ∧ (setAttr s e v ns x).2 = (m.setValue κ e v x).2 := by
  cases x with
  | error er => exact ⟨h, rfl⟩
  | ok r =>
    unfold setAttr M.setValue
    simp only []
    rw [h.ro e]
    by_cases hro : m.readOnly e = true
    · rw [if_pos hro, if_pos hro]; exact ⟨h, rfl⟩
    rw [if_neg hro, if_neg hro]
    have hR := alloc_R h (hx r rfl) (s.edoc e) v false
    rw [show ({ alloc s r (s.edoc e) v with orphans := put (alloc s r (s.edoc e) v).orphans s.next false } : St) =
      alloc s r (s.edoc e) v from by
        show ({ alloc s r (s.edoc e) v with orphans := put (put s.orphans s.next false) s.next false } : St) = _
        have : put (put s.orphans s.next false) s.next false = put s.orphans s.next false := by
          funext j; unfold put; by_cases hj : j = s.next <;> simp [hj]
        rw [this]; rfl] at hR
    generalize hs1 : alloc s r (s.edoc e) v = s1 at hR
    have hm1 : (m.new r (s.edoc e) v) = m.new r (m.edoc e) v := by rw [h.edoc]
    rw [hm1] at hR
    generalize hm : m.new r (m.edoc e) v = m1 at hR
    have hnm : s1.nm s.next = r := by rw [← hs1]; exact put_same ..
    have hlt : s.next < m1.next := by rw [← hm, h.next]; exact Nat.lt_succ_self _
    have hu : m1.user s.next = none := by
      rw [← hm]
      show m.user s.next = none
      cases hh : m.user s.next with
      | none => rfl
      | some e' =>
        have := h.lt e' _ ((h.user e' s.next).mp hh)
        rw [h.next] at this
        exact absurd this (Nat.lt_irrefl _)
    have hfind := hf r s1 m1 rfl hR
    have hset := set_R hR hlt hu (e := e) (by rw [hnm]; exact hfind)
    rw [hnm] at hset
    have hbase : baseSet (setOwnerElement s1 s.next e) e s.next
        (if ns then findByNamespaceAndName (setOwnerElement s1 s.next e) e r.uri r.localName
          else findByName (setOwnerElement s1 s.next e) e r.name) =
        setNode (setOwnerElement s1 s.next e) e s.next
        (if ns then findByNamespaceAndName s1 e r.uri r.localName else findByName s1 e r.name) := by
      unfold baseSet
      rw [if_neg (by show ¬ s1.ro e = true; rw [← hs1]; show ¬ s.ro e = true; rw [h.ro]; exact hro),
        if_neg (by show ¬ (s1.doc s.next ≠ s1.edoc e); rw [← hs1]; show ¬ (put s.doc s.next (s.edoc e) s.next ≠ s.edoc e); rw [put_same]; simp)]
      rfl
    rw [hbase]
    rw [← h.next]
    obtain ⟨q1, q2⟩ := hset
    generalize hq : setNode (setOwnerElement s1 s.next e) e s.next
        (if ns then findByNamespaceAndName s1 e r.uri r.localName else findByName s1 e r.name) = q at q1 q2
    obtain ⟨qs, qr⟩ := q
    simp only at q1 q2
    rw [q2]
    exact ⟨q1, rfl⟩

/-- One call. -/
theorem step_R (κ : Keys K) (nameCh : Char → Bool) (l1 l2 : Bool) {s : St} {m : M K} (h : R κ (Good κ l1 l2) s m)
    (op : Op) (h1 : byName op = true → l1 = true) (h2 : byPair op = true → l2 = true)
    (hm : ∀ r, made nameCh op = some r → Good κ l1 l2 r)
    (hloc : byPair op = true → ∀ r, made nameCh op = some r → r.localName ≠ []) (hp : Proper m op) :
    R κ (Good κ l1 l2) (AttrMap.step nameCh s op).1 (Spec.AttrMap.step κ nameCh m op).1 ∧
    (AttrMap.step nameCh s op).2 = (Spec.AttrMap.step κ nameCh m op).2 := by
  cases op with
  | createAttribute d n => exact create_R h d _ hm
  | createAttributeNS d u q => exact create_R h d _ hm
  | setValue a v =>
    refine ⟨⟨h.next, h.nm, h.good, h.doc, ?_, h.ro, h.edoc, h.lt, h.nodup, h.cur, h.user, h.owned, h.free⟩, rfl⟩
    intro b hb
    show put s.value a v b = if b = a then v else m.value b
    unfold put
    rw [h.value b hb]
  | setReadOnly e b =>
    refine ⟨⟨h.next, h.nm, h.good, h.doc, h.value, ?_, h.edoc, h.lt, h.nodup, h.cur, h.user, h.owned, h.free⟩, rfl⟩
    intro e'
    show put s.ro e b e' = if e' = e then b else m.readOnly e'
    unfold put
    rw [h.ro]
  | getNamedItem e n =>
    obtain rfl := h1 rfl
    exact ⟨h, by show Res.node _ = Res.node _; rw [getNode_cur h (finds_name h e n)]⟩
  | getAttribute e n =>
    obtain rfl := h1 rfl
    refine ⟨h, ?_⟩
    show Res.str _ = Res.str _
    rw [getNode_cur h (finds_name h e n)]
    cases hc : m.cur e (κ.name n) with
    | none => rfl
    | some a => show Res.str (s.value a) = Res.str (m.value a); rw [h.value a (h.lt e a ((h.cur _ _ _).mp hc).1)]
  | hasAttribute e n =>
    obtain rfl := h1 rfl
    exact ⟨h, by show Res.bool _ = Res.bool _; rw [getNode_cur h (finds_name h e n)]⟩
  | removeNamedItem e n =>
    obtain rfl := h1 rfl
    exact remove_R h (finds_name h e n)
  | getNamedItemNS e u l =>
    obtain rfl := h2 rfl
    exact ⟨h, by show Res.node _ = Res.node _; rw [getNode_cur h (finds_pair h e u l hp)]⟩
  | getAttributeNS e u l =>
    obtain rfl := h2 rfl
    refine ⟨h, ?_⟩
    show Res.str _ = Res.str _
    rw [getNode_cur h (finds_pair h e u l hp)]
    cases hc : m.cur e (κ.pair u l) with
    | none => rfl
    | some a => show Res.str (s.value a) = Res.str (m.value a); rw [h.value a (h.lt e a ((h.cur _ _ _).mp hc).1)]
  | hasAttributeNS e u l =>
    obtain rfl := h2 rfl
    exact ⟨h, by show Res.bool _ = Res.bool _; rw [getNode_cur h (finds_pair h e u l hp)]⟩
  | removeNamedItemNS e u l =>
    obtain rfl := h2 rfl
    exact remove_R h (finds_pair h e u l hp)
  | setNamedItem e a =>
    obtain rfl := h1 rfl
    refine attrSet_R h hp.1 hp.2 false ?_
    have := finds_name h e (s.nm a).name
    rw [key_name (h.good a hp.1)] at this
    exact this
  | setNamedItemNS e a =>
    obtain rfl := h2 rfl
    have hl := hp.2.2 _ (h.nm a hp.1)
    refine attrSet_R h hp.1 hp.2.1 true ?_
    have := finds_pair h e (s.nm a).uri (s.nm a).localName hl
    rw [key_pair (h.good a hp.1) hl] at this
    exact this
  | setAttribute e n v =>
    obtain rfl := h1 rfl
    refine setAttr_R h e v false _ hm ?_
    intro r s' m' hr h'
    have := finds_name h' e r.name
    rw [key_name (hm r hr)] at this
    exact this
  | setAttributeNS e u q v =>
    obtain rfl := h2 rfl
    refine setAttr_R h e v true _ hm ?_
    intro r s' m' hr h'
    have hl := hloc rfl r hr
    have := finds_pair h' e r.uri r.localName hl
    rw [key_pair (hm r hr) hl] at this
    exact this
  | removeAttributeNode e a =>
    obtain rfl := h1 rfl
    obtain ⟨ha, hu⟩ := hp
    cases hue : m.user a with
    | none => exact absurd hue hu
    | some e' =>
      have hmem := (h.user e' a).mp hue
      have hown := (h.owned e' a hmem).1
      show R κ _ (if s.owner a ≠ some e then (s, Res.err .notFound) else _).1 (if m.user a ≠ some e then (m, Res.err .notFound) else _).1 ∧
        (if s.owner a ≠ some e then (s, Res.err .notFound) else _).2 = (if m.user a ≠ some e then (m, Res.err .notFound) else _).2
      rw [hown, hue]
      by_cases he : e' = e
      · subst he
        rw [if_neg (by simp), if_neg (by simp)]
        have hfind := finds_name h e' (s.nm a).name
        rw [key_name (h.good a ha)] at hfind
        have hrem := remove_R h hfind
        rw [h.nm a ha]
        simp only []
        have hcur : m.cur e' (κ.attr (s.nm a)) = some a := (h.cur _ _ _).mpr ⟨hmem, rfl⟩
        obtain ⟨q1, q2⟩ := hrem
        generalize baseRemove s e' (findByName s e' (s.nm a).name) = q at q1 q2
        obtain ⟨qs, qr⟩ := q
        simp only at q1 q2
        rw [q2]
        unfold M.remove at q1 ⊢
        rw [hcur] at q1 ⊢
        by_cases hro : m.readOnly e' = true
        · rw [if_pos hro] at q1 ⊢; exact ⟨q1, rfl⟩
        · rw [if_neg hro] at q1 ⊢; exact ⟨q1, rfl⟩
      · rw [if_pos (by simpa using he), if_pos (by simpa using he)]
        exact ⟨h, rfl⟩

theorem init_R (κ : Keys K) (good : NsName → Prop) (edoc : Elem → Doc) :
    R κ good (AttrMap.init edoc) (Spec.AttrMap.init edoc) := by
  refine ⟨rfl, ?_, ?_, fun _ _ => rfl, fun _ _ => rfl, fun _ => rfl, fun _ => rfl, ?_, fun e => List.nodup_nil, ?_, ?_, ?_, ?_⟩
  · intro a h; exact absurd h (Nat.not_lt_zero a)
  · intro a h; exact absurd h (Nat.not_lt_zero a)
  · intro e a h; cases h
  · intro e k a; exact ⟨fun h => (nomatch h), fun h => (nomatch h.1)⟩
  · intro e a; exact ⟨fun h => (nomatch h), fun h => (nomatch h)⟩
  · intro e a h; cases h
  · intro a h; exact absurd h (Nat.not_lt_zero a)

theorem run_R (κ : Keys K) (nameCh : Char → Bool) (l1 l2 : Bool) (ops : List Op)
    (h1 : ∀ op ∈ ops, byName op = true → l1 = true) (h2 : ∀ op ∈ ops, byPair op = true → l2 = true)
    (hm : ∀ op ∈ ops, ∀ r, made nameCh op = some r → Good κ l1 l2 r)
    (hloc : ∀ op ∈ ops, byPair op = true → ∀ r, made nameCh op = some r → r.localName ≠ []) :
    ∀ {s : St} {m : M K}, R κ (Good κ l1 l2) s m → AllProper κ nameCh m ops →
    R κ (Good κ l1 l2) (AttrMap.run nameCh s ops).1 (Spec.AttrMap.run κ nameCh m ops).1 ∧
    (AttrMap.run nameCh s ops).2 = (Spec.AttrMap.run κ nameCh m ops).2 := by
  induction ops with
  | nil => exact fun h _ => ⟨h, rfl⟩
  | cons op ops ih =>
    intro s m h hp
    have hs := step_R κ nameCh l1 l2 h op (h1 op (by simp)) (h2 op (by simp)) (hm op (by simp)) (hloc op (by simp)) hp.1
    have hr := ih (fun o ho => h1 o (by simp [ho])) (fun o ho => h2 o (by simp [ho])) (fun o ho => hm o (by simp [ho]))
      (fun o ho => hloc o (by simp [ho])) hs.1 hp.2
    refine ⟨hr.1, ?_⟩
    show (AttrMap.step nameCh s op).2 :: _ = (Spec.AttrMap.step κ nameCh m op).2 :: _
    rw [hs.2]
    exact congrArg _ hr.2

/-- The items are the keys. -/
theorem items_R {κ : Keys K} {good : NsName → Prop} {s : St} {m : M K} (h : R κ good s m) (e : Elem) :
    ∃ keys : List K, keys.Nodup ∧ (∀ k, k ∈ keys ↔ m.cur e k ≠ none) ∧ getLength s e = keys.length ∧
      ∀ i, item s e i = keys[i]?.bind (m.cur e) := by
  refine ⟨(s.nodes e).map fun a => κ.attr (s.nm a), h.nodup e, ?_, by simp [getLength], ?_⟩
  · intro k
    rw [List.mem_map]
    constructor
    · rintro ⟨a, ha, hk⟩ hc
      rw [(h.cur e k a).mpr ⟨ha, hk⟩] at hc; cases hc
    · intro hc
      cases hk : m.cur e k with
      | none => exact absurd hk hc
      | some a => exact ⟨a, (h.cur e k a).mp hk⟩
  · intro i
    unfold item
    by_cases hi : i < (s.nodes e).length
    · rw [if_neg (by omega), List.getElem?_map, List.getElem?_eq_getElem hi]
      show _ = m.cur e (κ.attr (s.nm (s.nodes e)[i]))
      rw [eq_comm, h.cur]
      exact ⟨List.getElem_mem hi, rfl⟩
    · rw [if_pos (by omega), List.getElem?_eq_none (by rw [List.length_map]; omega)]
      rfl

end Verif.AttrMap
