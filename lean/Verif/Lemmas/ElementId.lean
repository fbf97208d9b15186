import Verif.Spec.ElementId
set_option autoImplicit false
set_option linter.unusedSimpArgs false
set_option linter.unusedVariables false
namespace Verif.ElementId
open Verif.DomNames (Str)
open Verif.Spec.ElementId (T IdName IsId NoPurge Keeps AllKeep)

theorem mem_elementIds_aux (n : Str) : ∀ (decls : List Decl) (ids : List Str),
    n ∈ decls.foldl attributeDecl ids ↔ n ∈ ids ∨ IdName decls n
  | [], ids => by simp [IdName, IsId]
  | d :: decls, ids => by
    rw [List.foldl_cons, mem_elementIds_aux n decls]
    obtain ⟨e, m, b⟩ := d
    unfold attributeDecl IdName IsId
    cases b
    · simp
    · simp only [if_true, List.mem_append, List.mem_cons, List.not_mem_nil, or_false, Decl.mk.injEq, and_true]
      constructor
      · rintro ((h | h) | ⟨x, h⟩)
        · exact .inl h
        · exact .inr ⟨e, .inl ⟨rfl, h⟩⟩
        · exact .inr ⟨x, .inr h⟩
      · rintro (h | ⟨x, h | h⟩)
        · exact .inl (.inl h)
        · exact .inl (.inr h.2)
        · exact .inr ⟨x, h⟩

theorem mem_elementIds (decls : List Decl) (n : Str) : n ∈ elementIds decls ↔ IdName decls n := by
  unfold elementIds
  rw [mem_elementIds_aux]
  simp

theorem mem_insert (addr : Attr → Nat) (hinj : ∀ a b, addr a = addr b → a = b) (a b : Attr) :
    ∀ l : List Attr, b ∈ setInsert addr a l ↔ b = a ∨ b ∈ l
  | [] => by simp [setInsert]
  | c :: l => by
    unfold setInsert
    split
    · simp
    · split
      · rw [List.mem_cons, mem_insert addr hinj a b l, List.mem_cons]
        constructor
        · rintro (h | h | h)
          · exact .inr (.inl h)
          · exact .inl h
          · exact .inr (.inr h)
        · rintro (h | h | h)
          · exact .inr (.inl h)
          · exact .inl h
          · exact .inr (.inr h)
      · have : a = c := hinj _ _ (by omega)
        subst this
        simp

/-- The attributes of the model, by name. -/
def look (s : St) (e : Elem) (n : Str) : Option Str := (getAttributeNode s e n).map s.value

structure Inv (decls : List Decl) (s : St) (t : T) : Prop where
  fe : ∀ e, s.freedE e = false
  fa : ∀ a, s.freedA a = false
  place : s.parent = t.place
  attrs : ∀ e n, look s e n = t.attrs e n
  nodup : ∀ e, ((s.nodes e).map s.aname).Nodup
  own : ∀ e a, a ∈ s.nodes e → a < s.next ∧ s.owner a = e
  ids : ∀ e a, a ∈ s.nodes e → IdName decls (s.aname a) → a ∈ s.idNodes
  lt : ∀ a, a ∈ s.idNodes → a < s.next

theorem inv_init (decls : List Decl) : Inv decls init Spec.ElementId.init := by
  constructor <;> simp [init, Spec.ElementId.init, look, getAttributeNode]

theorem mem_setNode {aname : Attr → Str} {n : Str} {a b : Attr} : ∀ {l : List Attr},
    b ∈ setNode aname n a l → b = a ∨ b ∈ l
  | [], h => by simpa [setNode] using h
  | c :: l, h => by
    unfold setNode at h
    split at h
    · rcases List.mem_cons.1 h with h | h
      · exact .inl h
      · exact .inr (List.mem_cons_of_mem _ h)
    · rcases List.mem_cons.1 h with h | h
      · exact .inr (h ▸ List.mem_cons_self)
      · rcases mem_setNode h with h | h
        · exact .inl h
        · exact .inr (List.mem_cons_of_mem _ h)

theorem mem_setNode_self {aname : Attr → Str} {n : Str} {a : Attr} : ∀ {l : List Attr},
    a ∈ setNode aname n a l
  | [] => by simp [setNode]
  | c :: l => by
    unfold setNode
    split
    · exact List.mem_cons_self
    · exact List.mem_cons_of_mem _ mem_setNode_self

/-- Where no attribute has the name, it is added. -/
theorem mem_setNode_of {aname : Attr → Str} {n : Str} {a b : Attr} : ∀ {l : List Attr},
    (∀ c ∈ l, aname c ≠ n) → b ∈ l → b ∈ setNode aname n a l
  | [], _, h => nomatch h
  | c :: l, hn, h => by
    unfold setNode
    rw [if_neg (hn c List.mem_cons_self)]
    rcases List.mem_cons.1 h with h | h
    · exact h ▸ List.mem_cons_self
    · exact List.mem_cons_of_mem _ (mem_setNode_of (fun c hc => hn c (List.mem_cons_of_mem _ hc)) h)

theorem mem_setNode_ne {aname : Attr → Str} {n : Str} {a b : Attr} : ∀ {l : List Attr},
    aname b ≠ n → b ∈ l → b ∈ setNode aname n a l
  | [], _, h => nomatch h
  | c :: l, hn, h => by
    unfold setNode
    split
    next hc =>
      rcases List.mem_cons.1 h with h | h
      · subst h; exact absurd hc hn
      · exact List.mem_cons_of_mem _ h
    next hc =>
      rcases List.mem_cons.1 h with h | h
      · exact h ▸ List.mem_cons_self
      · exact List.mem_cons_of_mem _ (mem_setNode_ne hn h)

theorem names_setNode {aname : Attr → Str} {n : Str} {a : Attr} (ha : aname a = n) : ∀ {l : List Attr},
    (l.map aname).Nodup → ((setNode aname n a l).map aname).Nodup ∧
      ∀ m, m ∈ (setNode aname n a l).map aname ↔ m = n ∨ m ∈ l.map aname
  | [], _ => by simp [setNode, ha]
  | c :: l, h => by
    unfold setNode
    rw [List.map_cons, List.nodup_cons] at h
    split
    next hc =>
      refine ⟨?_, fun m => ?_⟩
      · rw [List.map_cons, List.nodup_cons, ha, ← hc]; exact h
      · rw [List.map_cons, List.map_cons, List.mem_cons, List.mem_cons, ha, hc]
        constructor
        · rintro (h | h)
          · exact .inl h
          · exact .inr (.inr h)
        · rintro (h | h | h)
          · exact .inl h
          · exact .inl h
          · exact .inr h
    next hc =>
      obtain ⟨h1, h2⟩ := names_setNode ha h.2
      refine ⟨?_, fun m => ?_⟩
      · rw [List.map_cons, List.nodup_cons, h2]
        refine ⟨?_, h1⟩
        rintro (h3 | h3)
        · exact hc h3
        · exact h.1 h3
      · rw [List.map_cons, List.map_cons, List.mem_cons, List.mem_cons, h2]
        constructor
        · rintro (h | h | h)
          · exact .inr (.inl h)
          · exact .inl h
          · exact .inr (.inr h)
        · rintro (h | h | h)
          · exact .inr (.inl h)
          · exact .inl h
          · exact .inr (.inr h)

theorem find_setNode {aname : Attr → Str} {n : Str} {a : Attr} (ha : aname a = n) (m : Str) : ∀ l : List Attr,
    (setNode aname n a l).find? (fun x => decide (aname x = m)) =
      if m = n then some a else l.find? (fun x => decide (aname x = m))
  | [] => by
    unfold setNode
    by_cases h : m = n
    · subst h; simp [ha]
    · have h' : ¬ n = m := fun e => h e.symm
      simp [ha, h, h']
  | c :: l => by
    unfold setNode
    split
    next hc =>
      by_cases h : m = n
      · subst h; simp [ha]
      · have h' : ¬ n = m := fun e => h e.symm
        simp [ha, hc, h, h']
    next hc =>
      rw [List.find?_cons, List.find?_cons]
      by_cases h : aname c = m
      · have : ¬ m = n := fun e => hc (h.trans e)
        simp [h, this]
      · simp only [h, decide_false]
        exact find_setNode ha m l

theorem mem_removeNode {aname : Attr → Str} {n : Str} {b : Attr} : ∀ {l : List Attr},
    b ∈ removeNode aname n l → b ∈ l
  | [], h => by simp [removeNode] at h
  | c :: l, h => by
    unfold removeNode at h
    split at h
    · exact List.mem_cons_of_mem _ h
    · rcases List.mem_cons.1 h with h | h
      · exact h ▸ List.mem_cons_self
      · exact List.mem_cons_of_mem _ (mem_removeNode h)

theorem mem_removeNode_ne {aname : Attr → Str} {n : Str} {b : Attr} : ∀ {l : List Attr},
    aname b ≠ n → b ∈ l → b ∈ removeNode aname n l
  | [], _, h => nomatch h
  | c :: l, hn, h => by
    unfold removeNode
    split
    next hc =>
      rcases List.mem_cons.1 h with h | h
      · subst h; exact absurd hc hn
      · exact h
    next hc =>
      rcases List.mem_cons.1 h with h | h
      · exact h ▸ List.mem_cons_self
      · exact List.mem_cons_of_mem _ (mem_removeNode_ne hn h)

theorem nodup_removeNode {aname : Attr → Str} {n : Str} : ∀ {l : List Attr},
    (l.map aname).Nodup → ((removeNode aname n l).map aname).Nodup
  | [], _ => by simp [removeNode]
  | c :: l, h => by
    unfold removeNode
    rw [List.map_cons, List.nodup_cons] at h
    split
    · exact h.2
    · rw [List.map_cons, List.nodup_cons]
      refine ⟨fun hm => h.1 ?_, nodup_removeNode h.2⟩
      obtain ⟨x, hx, hx'⟩ := List.mem_map.1 hm
      exact List.mem_map.2 ⟨x, mem_removeNode hx, hx'⟩

theorem find_removeNode {aname : Attr → Str} {n : Str} (m : Str) : ∀ l : List Attr, (l.map aname).Nodup →
    (removeNode aname n l).find? (fun x => decide (aname x = m)) =
      if m = n then none else l.find? (fun x => decide (aname x = m))
  | [], _ => by simp [removeNode]
  | c :: l, h => by
    unfold removeNode
    rw [List.map_cons, List.nodup_cons] at h
    split
    next hc =>
      by_cases hm : m = n
      · subst hm
        rw [if_pos rfl, List.find?_eq_none]
        intro x hx
        simp only [decide_eq_true_eq]
        intro hxm
        exact h.1 (List.mem_map.2 ⟨x, hx, hxm.trans hc.symm⟩)
      · have h' : ¬ n = m := fun e => hm e.symm
        simp [hc, hm, h']
    next hc =>
      rw [List.find?_cons, List.find?_cons]
      by_cases h1 : aname c = m
      · have : ¬ m = n := fun e => hc (h1.trans e)
        simp [h1, this]
      · simp only [h1, decide_false]
        exact find_removeNode m l h.2

theorem find_congr {α : Type} {p q : α → Bool} : ∀ {l : List α}, (∀ x ∈ l, p x = q x) → l.find? p = l.find? q
  | [], _ => rfl
  | c :: l, h => by
    rw [List.find?_cons, List.find?_cons, h c List.mem_cons_self,
      find_congr fun x hx => h x (List.mem_cons_of_mem _ hx)]

theorem put_self {α : Type} (f : Nat → α) (i : Nat) (v : α) : put f i v i = v := by simp [put]
theorem put_ne {α : Type} (f : Nat → α) {i j : Nat} (v : α) (h : j ≠ i) : put f i v j = f j := by simp [put, h]

theorem setAttribute_eq (addr : Attr → Nat) (ids : List Str) (s : St) (e : Elem) (n v : Str) :
    setAttribute addr ids s e n v =
      { s with next := s.next + 1, aname := put s.aname s.next n, value := put s.value s.next v,
               owner := put s.owner s.next e,
               nodes := put s.nodes e (setNode (put s.aname s.next n) n s.next (s.nodes e)),
               idNodes := if n ∈ ids then setInsert addr s.next s.idNodes else s.idNodes } := by
  unfold setAttribute setOwnerElement
  have hput : put s.aname s.next n s.next = n := put_self _ _ _
  simp only [hput]
  by_cases h : n ∈ ids
  · have h1 : ids.isEmpty = false := by
      cases ids with
      | nil => cases h
      | cons => rfl
    have h2 : ids.contains n = true := by simpa using h
    simp only [h1, h2, h, if_true, Bool.false_eq_true, if_false]
  · have h2 : ids.contains n = false := by simpa using h
    simp only [h2, h, Bool.false_eq_true, if_false]
    split <;> rfl

theorem setNode_congr {f g : Attr → Str} {n : Str} {a : Attr} : ∀ {l : List Attr}, (∀ b ∈ l, f b = g b) →
    setNode f n a l = setNode g n a l
  | [], _ => rfl
  | c :: l, h => by
    unfold setNode
    rw [h c List.mem_cons_self, setNode_congr fun b hb => h b (List.mem_cons_of_mem _ hb)]

theorem look_eq (s : St) (e : Elem) (n : Str) :
    look s e n = ((s.nodes e).find? fun x => decide (s.aname x = n)).map s.value := rfl

theorem inv_setAttribute {addr : Attr → Nat} (hinj : ∀ a b, addr a = addr b → a = b) {decls : List Decl} {s : St}
    {t : T} (I : Inv decls s t) (e : Elem) (n v : Str) :
    Inv decls (setAttribute addr (elementIds decls) s e n v) (Spec.ElementId.step t (.setAttribute e n v)) := by
  rw [setAttribute_eq]
  have hne : ∀ x a, a ∈ s.nodes x → a ≠ s.next := fun x a h => Nat.ne_of_lt (I.own x a h).1
  have hnm : ∀ x a, a ∈ s.nodes x → put s.aname s.next n a = s.aname a := fun x a h => put_ne _ _ (hne x a h)
  have hmap : ∀ x, (s.nodes x).map (put s.aname s.next n) = (s.nodes x).map s.aname :=
    fun x => List.map_congr_left fun a h => hnm x a h
  have hids : ∀ a, a ∈ s.idNodes → a ∈ (if n ∈ elementIds decls then setInsert addr s.next s.idNodes else s.idNodes) := by
    intro a h
    split
    · exact (mem_insert addr hinj _ _ _).2 (.inr h)
    · exact h
  refine ⟨I.fe, I.fa, I.place, ?_, ?_, ?_, ?_, ?_⟩
  · intro x m
    show ((put s.nodes e (setNode (put s.aname s.next n) n s.next (s.nodes e)) x).find?
      fun y => decide (put s.aname s.next n y = m)).map (put s.value s.next v) =
        if x = e ∧ m = n then some v else t.attrs x m
    by_cases hx : x = e
    · subst hx
      rw [put_self, find_setNode (put_self _ _ _)]
      by_cases hm : m = n
      · rw [if_pos hm, if_pos ⟨rfl, hm⟩, Option.map_some, put_self]
      · rw [if_neg hm, if_neg (fun h => hm h.2), ← I.attrs, look_eq,
          find_congr (q := fun a => decide (s.aname a = m)) (fun a ha => by simp only [hnm _ a ha])]
        cases hf : (s.nodes x).find? fun a => decide (s.aname a = m) with
        | none => rfl
        | some a => simp only [Option.map_some]; rw [put_ne _ _ (hne _ _ (List.mem_of_find?_eq_some hf))]
    · rw [put_ne _ _ hx, if_neg (fun h => hx h.1), ← I.attrs, look_eq,
          find_congr (q := fun a => decide (s.aname a = m)) (fun a ha => by simp only [hnm _ a ha])]
      cases hf : (s.nodes x).find? fun a => decide (s.aname a = m) with
      | none => rfl
      | some a => simp only [Option.map_some]; rw [put_ne _ _ (hne _ _ (List.mem_of_find?_eq_some hf))]
  · intro x
    dsimp only
    by_cases hx : x = e
    · subst hx
      rw [put_self]
      exact (names_setNode (put_self _ _ _) (by rw [hmap]; exact I.nodup x)).1
    · rw [put_ne _ _ hx, hmap]; exact I.nodup x
  · intro x a h
    dsimp only at h ⊢
    by_cases hx : x = e
    · subst hx
      rw [put_self] at h
      rcases mem_setNode h with h | h
      · subst h; exact ⟨Nat.lt_succ_self _, put_self _ _ _⟩
      · rw [put_ne _ _ (hne _ _ h)]
        exact ⟨Nat.lt_succ_of_lt (I.own x a h).1, (I.own x a h).2⟩
    · rw [put_ne _ _ hx] at h
      rw [put_ne _ _ (hne _ _ h)]
      exact ⟨Nat.lt_succ_of_lt (I.own x a h).1, (I.own x a h).2⟩
  · intro x a h hid
    dsimp only at h hid ⊢
    have old : ∀ y, a ∈ s.nodes y → a ∈ (if n ∈ elementIds decls then setInsert addr s.next s.idNodes else s.idNodes) := by
      intro y hy
      rw [hnm y a hy] at hid
      exact hids a (I.ids y a hy hid)
    by_cases hx : x = e
    · subst hx
      rw [put_self] at h
      rcases mem_setNode h with h | h
      · subst h
        rw [put_self] at hid
        rw [if_pos ((mem_elementIds _ _).2 hid)]
        exact (mem_insert addr hinj _ _ _).2 (.inl rfl)
      · exact old x h
    · rw [put_ne _ _ hx] at h
      exact old x h
  · intro a h
    dsimp only at h ⊢
    split at h
    · rcases (mem_insert addr hinj _ _ _).1 h with h | h
      · subst h; exact Nat.lt_succ_self _
      · exact Nat.lt_succ_of_lt (I.lt a h)
    · exact Nat.lt_succ_of_lt (I.lt a h)

theorem inv_removeAttribute {decls : List Decl} {s : St} {t : T} (I : Inv decls s t) (e : Elem) (n : Str) :
    Inv decls (removeAttribute s e n) (Spec.ElementId.step t (.removeAttribute e n)) := by
  unfold removeAttribute
  have hsub : ∀ x a, a ∈ put s.nodes e (removeNode s.aname n (s.nodes e)) x → a ∈ s.nodes x := by
    intro x a h
    by_cases hx : x = e
    · subst hx; rw [put_self] at h; exact mem_removeNode h
    · rw [put_ne _ _ hx] at h; exact h
  refine ⟨I.fe, I.fa, I.place, ?_, ?_, fun x a h => I.own x a (hsub x a h), fun x a h => I.ids x a (hsub x a h), I.lt⟩
  · intro x m
    rw [look_eq]
    show _ = if x = e ∧ m = n then none else t.attrs x m
    dsimp only
    by_cases hx : x = e
    · subst hx
      rw [put_self, find_removeNode _ _ (I.nodup x)]
      by_cases hm : m = n
      · rw [if_pos hm, if_pos ⟨rfl, hm⟩]; rfl
      · rw [if_neg hm, if_neg (fun h => hm h.2), ← I.attrs]; rfl
    · rw [put_ne _ _ hx, if_neg (fun h => hx h.1), ← I.attrs]; rfl
  · intro x
    dsimp only
    by_cases hx : x = e
    · subst hx; rw [put_self]; exact nodup_removeNode (I.nodup x)
    · rw [put_ne _ _ hx]; exact I.nodup x

theorem find_name_eq {aname : Attr → Str} : ∀ {l : List Attr}, (l.map aname).Nodup → ∀ {a : Attr}, a ∈ l →
    l.find? (fun x => decide (aname x = aname a)) = some a
  | c :: l, h, a, ha => by
    rw [List.map_cons, List.nodup_cons] at h
    rw [List.find?_cons]
    rcases List.mem_cons.1 ha with ha | ha
    · subst ha; simp
    · have : ¬ aname c = aname a := fun e => h.1 (List.mem_map.2 ⟨a, ha, e.symm⟩)
      simp only [this, decide_false]
      exact find_name_eq h.2 ha

theorem inv_setValue {decls : List Decl} {s : St} {t : T} (I : Inv decls s t) (e : Elem) (n v : Str) :
    Inv decls (setValue s e n v) (Spec.ElementId.step t (.setValue e n v)) := by
  unfold setValue
  have hat := I.attrs e n
  unfold look at hat
  cases hg : getAttributeNode s e n with
  | none =>
    rw [hg] at hat
    have hat : none = t.attrs e n := hat
    have : Spec.ElementId.step t (.setValue e n v) = t := by
      unfold Spec.ElementId.step
      simp [← hat]
    rw [this]
    exact I
  | some a =>
    rw [hg] at hat
    have hat : some (s.value a) = t.attrs e n := hat
    have hmem : a ∈ s.nodes e := List.mem_of_find?_eq_some hg
    have hname : s.aname a = n := by simpa using List.find?_some hg
    refine ⟨I.fe, I.fa, I.place, ?_, I.nodup, I.own, I.ids, I.lt⟩
    intro x m
    rw [look_eq]
    show _ = if x = e ∧ m = n ∧ t.attrs e n ≠ none then some v else t.attrs x m
    dsimp only
    have key : ∀ b, (s.nodes x).find? (fun y => decide (s.aname y = m)) = some b → (b = a ↔ x = e ∧ m = n) := by
      intro b hb
      constructor
      · intro hba
        subst hba
        have h1 := (I.own x b (List.mem_of_find?_eq_some hb)).2
        have h2 := (I.own e b hmem).2
        have h3 : s.aname b = m := by simpa using List.find?_some hb
        exact ⟨h1.symm.trans h2, h3.symm.trans hname⟩
      · rintro ⟨rfl, rfl⟩
        have : some a = some b := hg.symm.trans hb
        exact (Option.some.inj this).symm
    by_cases hx : x = e ∧ m = n
    · rw [if_pos ⟨hx.1, hx.2, by rw [← hat]; simp⟩]
      obtain ⟨rfl, rfl⟩ := hx
      have : (s.nodes x).find? (fun y => decide (s.aname y = m)) = some a := hg
      rw [this, Option.map_some, put_self]
    · rw [if_neg (fun h => hx ⟨h.1, h.2.1⟩), ← I.attrs, look_eq]
      cases hf : (s.nodes x).find? fun y => decide (s.aname y = m) with
      | none => rfl
      | some b =>
        simp only [Option.map_some]
        rw [put_ne _ _ (fun h => hx ((key b hf).1 h))]

theorem put_place {s : St} {t : T} (h : s.parent = t.place) (e : Elem) (p : Par) :
    put s.parent e p = fun x => if x = e then p else t.place x := by
  rw [h]; rfl

theorem inv_step {addr : Attr → Nat} (hinj : ∀ a b, addr a = addr b → a = b) {decls : List Decl} {s : St} {t : T}
    (I : Inv decls s t) {op : Op} (h : NoPurge op) :
    Inv decls (step addr (elementIds decls) s op) (Spec.ElementId.step t op) := by
  cases op with
  | setAttribute e n v => exact inv_setAttribute hinj I e n v
  | removeAttribute e n => exact inv_removeAttribute I e n
  | setValue e n v => exact inv_setValue I e n v
  | appendToDocument e =>
    exact ⟨I.fe, I.fa, put_place I.place e _, I.attrs, I.nodup, I.own, I.ids, I.lt⟩
  | appendChild p e =>
    exact ⟨I.fe, I.fa, put_place I.place e _, I.attrs, I.nodup, I.own, I.ids, I.lt⟩
  | removeChild e =>
    exact ⟨I.fe, I.fa, put_place I.place e _, I.attrs, I.nodup, I.own, I.ids, I.lt⟩
  | purgeChild e => exact h.elim

theorem inv_run {addr : Attr → Nat} (hinj : ∀ a b, addr a = addr b → a = b) {decls : List Decl} :
    ∀ {ops : List Op} {s : St} {t : T}, Inv decls s t → (∀ op ∈ ops, NoPurge op) →
    Inv decls (run addr (elementIds decls) s ops) (Spec.ElementId.run t ops)
  | [], _, _, I, _ => I
  | op :: ops, s, t, I, h =>
    inv_run (ops := ops) hinj (inv_step hinj I (h op List.mem_cons_self)) fun o ho => h o (List.mem_cons_of_mem _ ho)

/-- What is found without deleted attributes. -/
theorem findId_spec {s : St} (fe : ∀ e, s.freedE e = false) (fa : ∀ a, s.freedA a = false) (v : Str) :
    ∀ l : List Attr, (∃ a ∈ l, s.value a = v ∧ findId s v l = .elem (s.owner a)) ∨
      ((∀ a ∈ l, s.value a ≠ v) ∧ findId s v l = .null)
  | [] => .inr ⟨by simp, rfl⟩
  | a :: l => by
    unfold findId
    rw [fa, if_neg Bool.false_ne_true]
    by_cases h : s.value a = v
    · rw [if_pos h, fe, if_neg Bool.false_ne_true]
      exact .inl ⟨a, List.mem_cons_self, h, rfl⟩
    · rw [if_neg h]
      rcases findId_spec fe fa v l with ⟨b, hb, h1, h2⟩ | ⟨h1, h2⟩
      · exact .inl ⟨b, List.mem_cons_of_mem _ hb, h1, h2⟩
      · refine .inr ⟨?_, h2⟩
        intro b hb
        rcases List.mem_cons.1 hb with hb | hb
        · exact hb ▸ h
        · exact h1 b hb

/-- The attribute a value comes from. -/
theorem attr_of {decls : List Decl} {s : St} {t : T} (I : Inv decls s t) {e : Elem} {n v : Str}
    (h : t.attrs e n = some v) : ∃ a ∈ s.nodes e, s.aname a = n ∧ s.value a = v := by
  rw [← I.attrs, look_eq] at h
  cases hf : (s.nodes e).find? fun y => decide (s.aname y = n) with
  | none => rw [hf] at h; cases h
  | some a =>
    rw [hf] at h
    exact ⟨a, List.mem_of_find?_eq_some hf, by simpa using List.find?_some hf, Option.some.inj h⟩

theorem attrs_of {decls : List Decl} {s : St} {t : T} (I : Inv decls s t) {e : Elem} {a : Attr}
    (h : a ∈ s.nodes e) : t.attrs e (s.aname a) = some (s.value a) := by
  rw [← I.attrs, look_eq, find_name_eq (I.nodup e) h]; rfl

/-- Every attribute in `idNodes_` is one of an element. -/
def Kept (decls : List Decl) (s : St) : Prop :=
  ∀ a ∈ s.idNodes, a ∈ s.nodes (s.owner a) ∧ IdName decls (s.aname a)

theorem kept_step {addr : Attr → Nat} (hinj : ∀ a b, addr a = addr b → a = b) {decls : List Decl} {s : St} {t : T}
    (I : Inv decls s t) (K : Kept decls s) {op : Op} (h : Keeps decls t op) :
    Kept decls (step addr (elementIds decls) s op) := by
  cases op with
  | setAttribute e n v =>
    show Kept decls (setAttribute addr (elementIds decls) s e n v)
    rw [setAttribute_eq]
    intro a ha
    dsimp only at ha ⊢
    have hold : ∀ a, a ∈ s.idNodes → a ∈ put s.nodes e (setNode (put s.aname s.next n) n s.next (s.nodes e))
        (put s.owner s.next e a) ∧ IdName decls (put s.aname s.next n a) := by
      intro a ha
      have hlt : a ≠ s.next := Nat.ne_of_lt (I.lt a ha)
      obtain ⟨h1, h2⟩ := K a ha
      rw [put_ne _ _ hlt, put_ne _ _ hlt]
      refine ⟨?_, h2⟩
      by_cases hx : s.owner a = e
      · rw [hx] at h1 ⊢
        rw [put_self]
        refine mem_setNode_ne ?_ h1
        rw [put_ne _ _ hlt]
        intro hn
        have h3 := attrs_of I h1
        rw [hn, h (hn ▸ h2)] at h3
        cases h3
      · rw [put_ne _ _ hx]; exact h1
    split at ha
    next hn =>
      rcases (mem_insert addr hinj _ _ _).1 ha with ha | ha
      · subst ha
        rw [put_self, put_self, put_self]
        exact ⟨mem_setNode_self, (mem_elementIds _ _).1 hn⟩
      · exact hold a ha
    next => exact hold a ha
  | removeAttribute e n =>
    intro a ha
    obtain ⟨h1, h2⟩ := K a ha
    refine ⟨?_, h2⟩
    show a ∈ put s.nodes e (removeNode s.aname n (s.nodes e)) (s.owner a)
    by_cases hx : s.owner a = e
    · rw [hx] at h1 ⊢
      rw [put_self]
      refine mem_removeNode_ne ?_ h1
      intro hn
      exact h (hn ▸ h2)
    · rw [put_ne _ _ hx]; exact h1
  | setValue e n v =>
    show Kept decls (setValue s e n v)
    unfold setValue
    cases getAttributeNode s e n with
    | none => exact K
    | some a => exact K
  | appendToDocument e => exact K
  | appendChild p e => exact K
  | removeChild e => exact K
  | purgeChild e => exact h.elim

theorem noPurge_of {decls : List Decl} {t : T} {op : Op} (h : Keeps decls t op) : NoPurge op := by
  cases op with
  | purgeChild e => exact h
  | _ => trivial

theorem kept_run {addr : Attr → Nat} (hinj : ∀ a b, addr a = addr b → a = b) {decls : List Decl} :
    ∀ {ops : List Op} {s : St} {t : T}, Inv decls s t → Kept decls s → AllKeep decls t ops →
    Inv decls (run addr (elementIds decls) s ops) (Spec.ElementId.run t ops) ∧
      Kept decls (run addr (elementIds decls) s ops)
  | [], _, _, I, K, _ => ⟨I, K⟩
  | op :: ops, s, t, I, K, h =>
    kept_run (ops := ops) hinj (inv_step hinj I (noPurge_of h.1)) (kept_step hinj I K h.1) h.2

theorem isId_idName {decls : List Decl} {e n : Str} (h : IsId decls e n) : IdName decls n := ⟨e, h⟩

end Verif.ElementId
