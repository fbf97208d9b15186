import Verif.Spec.DefaultAttr
set_option autoImplicit false
set_option linter.unusedSimpArgs false
set_option linter.unusedVariables false
namespace Verif.DefaultAttr
open Verif.DomNames
open Verif.AttrMap (nameIs namespaceAndNameIs)
open Verif.Dom (Err)
open Verif.Spec.DefaultAttr (declared value fallback put ByName)

/-- An attribute that its node name identifies. -/
def FlatA (a : A) : Prop :=
  a.nm.hasUri = false ∧ a.nm.uri = [] ∧ (a.nm.localName = [] ∨ a.nm.localName = a.nm.name) ∧ a.nm.name ≠ []

def Flat (l : List A) : Prop := ∀ a ∈ l, FlatA a

def names (l : List A) : List Str := l.map fun a => a.nm.name

theorem nameIs_iff (n : Str) (r : NsName) : nameIs n r = true ↔ r.name = n := by simp [nameIs]

theorem pair_flat {a : A} (h : FlatA a) (n : Str) (hn : n ≠ []) : namespaceAndNameIs [] n a.nm = nameIs n a.nm := by
  obtain ⟨h1, h2, h3, h4⟩ := h
  unfold namespaceAndNameIs nameIs
  rcases h3 with h3 | h3
  · have h5 : (([] : Str) == n) = false := by simp; exact hn
    rw [h1, h2, h3, h5]; simp
  · rw [h1, h2, h3]
    have : a.nm.name.isEmpty = false := by cases hh : a.nm.name with
      | nil => exact absurd hh h4
      | cons _ _ => rfl
    rw [this]; simp

theorem setBy_congr {p q : NsName → Bool} {a : A} {l : List A} (h : ∀ b ∈ l, p b.nm = q b.nm) : setBy p a l = setBy q a l := by
  induction l with
  | nil => rfl
  | cons b l ih =>
    rw [setBy, setBy, h b (by simp), ih fun c hc => h c (by simp [hc])]

theorem get_setNamedItem (l : List A) (a : A) (m : Str) :
    getNamedItem (setNamedItem l a) m = if m = a.nm.name then some a else getNamedItem l m := by
  unfold setNamedItem getNamedItem
  induction l with
  | nil =>
    by_cases h : m = a.nm.name
    · simp [setBy, h, nameIs]
    · simp [setBy, h, nameIs]; exact fun h' => h h'.symm
  | cons b l ih =>
    rw [setBy]
    by_cases hb : nameIs a.nm.name b.nm = true
    · rw [if_pos hb, List.find?_cons, List.find?_cons]
      have hb' := (nameIs_iff _ _).1 hb
      by_cases h : m = a.nm.name
      · rw [if_pos h, (nameIs_iff m a.nm).2 h.symm]
      · rw [if_neg h]
        have h1 : nameIs m a.nm = false := by simp [nameIs]; exact fun h' => h h'.symm
        have h2 : nameIs m b.nm = false := by simp [nameIs, hb']; exact fun h' => h h'.symm
        rw [h1, h2]
    · rw [if_neg hb, List.find?_cons, List.find?_cons, ih]
      by_cases h : m = a.nm.name
      · have h2 : nameIs m b.nm = false := by rw [h]; exact Bool.eq_false_iff.2 hb
        rw [if_pos h, h2, if_pos h]
      · rw [if_neg h, if_neg h]

theorem mem_setBy {p : NsName → Bool} {a b : A} {l : List A} (h : b ∈ setBy p a l) : b = a ∨ b ∈ l := by
  induction l with
  | nil => simp [setBy] at h; exact .inl h
  | cons c l ih =>
    rw [setBy] at h
    by_cases hc : p c.nm = true
    · rw [if_pos hc] at h
      rcases List.mem_cons.1 h with h | h
      · exact .inl h
      · exact .inr (by simp [h])
    · rw [if_neg hc] at h
      rcases List.mem_cons.1 h with h | h
      · exact .inr (by simp [h])
      · rcases ih h with h | h
        · exact .inl h
        · exact .inr (by simp [h])

theorem flat_setBy {p : NsName → Bool} {a : A} {l : List A} (h : Flat l) (ha : FlatA a) : Flat (setBy p a l) := by
  intro b hb
  rcases mem_setBy hb with rfl | hb
  · exact ha
  · exact h b hb

theorem nodup_set {a : A} {l : List A} (h : (names l).Nodup) : (names (setNamedItem l a)).Nodup := by
  unfold setNamedItem
  induction l with
  | nil => simp [setBy, names]
  | cons b l ih =>
    rw [setBy]
    have hc := List.nodup_cons.1 (show (b.nm.name :: names l).Nodup from h)
    by_cases hb : nameIs a.nm.name b.nm = true
    · rw [if_pos hb]
      have := (nameIs_iff _ _).1 hb
      show (a.nm.name :: names l).Nodup
      rw [← this]; exact h
    · rw [if_neg hb]
      refine List.nodup_cons.2 ⟨?_, ih hc.2⟩
      intro hm
      obtain ⟨c, hcm, hcn⟩ := List.mem_map.1 hm
      rcases mem_setBy hcm with rfl | hcm
      · exact hb ((nameIs_iff _ _).2 hcn.symm)
      · exact hc.1 (List.mem_map.2 ⟨c, hcm, hcn⟩)

theorem get_none {l : List A} {m : Str} : getNamedItem l m = none ↔ m ∉ names l := by
  unfold getNamedItem names
  rw [List.find?_eq_none]
  constructor
  · intro h hm
    obtain ⟨c, hc, hn⟩ := List.mem_map.1 hm
    exact h c hc ((nameIs_iff _ _).2 hn)
  · intro h c hc hn
    exact h (List.mem_map.2 ⟨c, hc, (nameIs_iff _ _).1 hn⟩)

theorem get_cons (b : A) (l : List A) (m : Str) :
    getNamedItem (b :: l) m = if b.nm.name = m then some b else getNamedItem l m := by
  unfold getNamedItem
  rw [List.find?_cons]
  by_cases h : b.nm.name = m
  · rw [if_pos h, (nameIs_iff _ _).2 h]
  · rw [if_neg h, Bool.eq_false_iff.2 (fun h' => h ((nameIs_iff _ _).1 h'))]

theorem removeBy_none {l : List A} {n : Str} : removeBy (nameIs n) l = none ↔ getNamedItem l n = none := by
  induction l with
  | nil => simp [removeBy, getNamedItem]
  | cons b l ih =>
    rw [removeBy, get_cons]
    by_cases h : b.nm.name = n
    · rw [if_pos h, if_pos ((nameIs_iff _ _).2 h)]; simp
    · rw [if_neg h, if_neg (fun h' => h ((nameIs_iff _ _).1 h'))]
      rw [Option.map_eq_none_iff]; exact ih

theorem removeBy_some {l l' : List A} {n : Str} (h : removeBy (nameIs n) l = some l') (hd : (names l).Nodup) :
    (∀ m, getNamedItem l' m = if m = n then none else getNamedItem l m) ∧ (names l').Nodup ∧ ∀ b ∈ l', b ∈ l := by
  induction l generalizing l' with
  | nil => cases h
  | cons b l ih =>
    rw [removeBy] at h
    have hc := List.nodup_cons.1 (show (b.nm.name :: names l).Nodup from hd)
    by_cases hb : b.nm.name = n
    · rw [if_pos ((nameIs_iff _ _).2 hb)] at h
      cases h
      refine ⟨fun m => ?_, hc.2, fun c hc => by simp [hc]⟩
      rw [get_cons]
      by_cases hm : m = n
      · rw [if_pos hm, hm, ← hb]; exact get_none.2 hc.1
      · rw [if_neg hm, if_neg (fun h' => hm (h'.symm.trans hb))]
    · rw [if_neg (fun h' => hb ((nameIs_iff _ _).1 h'))] at h
      cases hr : removeBy (nameIs n) l with
      | none => rw [hr] at h; cases h
      | some l1 =>
        rw [hr] at h; cases h
        obtain ⟨i1, i2, i3⟩ := ih hr hc.2
        refine ⟨fun m => ?_, List.nodup_cons.2 ⟨?_, i2⟩, ?_⟩
        · rw [get_cons, get_cons, i1]
          by_cases hm : m = n
          · rw [if_pos hm, if_pos hm, if_neg (fun h' => hb (h'.trans hm))]
          · rw [if_neg hm, if_neg hm]
        · intro hm
          obtain ⟨c, hcm, hcn⟩ := List.mem_map.1 hm
          exact hc.1 (List.mem_map.2 ⟨c, i3 c hcm, hcn⟩)
        · intro c hcm
          rcases List.mem_cons.1 hcm with rfl | hcm
          · simp
          · simp [i3 c hcm]

theorem get_setValue (l : List A) (n v m : Str) :
    getNamedItem (setValue n v l) m =
      if m = n then (getNamedItem l n).map (fun a => { a with value := v, specified := true }) else getNamedItem l m := by
  induction l with
  | nil => simp [setValue, getNamedItem]
  | cons b l ih =>
    rw [setValue]
    by_cases hb : b.nm.name = n
    · rw [if_pos ((nameIs_iff _ _).2 hb), get_cons, get_cons, get_cons]
      by_cases hm : m = n
      · rw [if_pos hm, if_pos (hb.trans hm.symm), if_pos hb]; rfl
      · rw [if_neg hm, if_neg (fun h' => hm (h'.symm.trans hb)), if_neg (fun h' => hm (h'.symm.trans hb))]
    · rw [if_neg (fun h' => hb ((nameIs_iff _ _).1 h')), get_cons, get_cons, get_cons, ih, if_neg hb]
      by_cases hm : m = n
      · rw [if_pos hm, if_pos hm, if_neg (fun h' => hb (h'.trans hm))]
      · rw [if_neg hm, if_neg hm]

theorem names_setValue (l : List A) (n v : Str) : names (setValue n v l) = names l := by
  induction l with
  | nil => rfl
  | cons b l ih =>
    rw [setValue]
    by_cases hb : nameIs n b.nm = true
    · rw [if_pos hb]; rfl
    · rw [if_neg hb]; show b.nm.name :: names _ = _; rw [ih]; rfl

theorem flat_setValue {l : List A} (n v : Str) (h : Flat l) : Flat (setValue n v l) := by
  induction l with
  | nil => intro b hb; cases hb
  | cons b l ih =>
    have h2 := ih fun c hc => h c (by simp [hc])
    rw [setValue]
    by_cases hb : nameIs n b.nm = true
    · rw [if_pos hb]
      intro c hc
      rcases List.mem_cons.1 hc with rfl | hc
      · exact h b (by simp)
      · exact h c (by simp [hc])
    · rw [if_neg hb]
      intro c hc
      rcases List.mem_cons.1 hc with rfl | hc
      · exact h _ (by simp)
      · exact h2 c hc

theorem setNS_flat {l : List A} {a : A} (h : Flat l) (h1 : a.nm.uri = []) (h2 : a.nm.localName = a.nm.name)
    (h3 : a.nm.name ≠ []) : setNamedItemNS l a = setNamedItem l a := by
  unfold setNamedItemNS setNamedItem
  refine setBy_congr fun b hb => ?_
  rw [h1, h2]; exact pair_flat (h b hb) _ h3

/-! ### Clones -/

theorem clone_get (l : List A) (hf : Flat l) (hd : (names l).Nodup) (acc : List A) (ha : Flat acc)
    (hda : (names acc).Nodup) :
    Flat (l.foldl cloneAttr acc) ∧ (names (l.foldl cloneAttr acc)).Nodup ∧
    ∀ m, getNamedItem (l.foldl cloneAttr acc) m =
      (match getNamedItem l m with
       | some a => if a.specified then some a else getNamedItem acc m
       | none => getNamedItem acc m) := by
  induction l generalizing acc with
  | nil => exact ⟨ha, hda, fun m => rfl⟩
  | cons b l ih =>
    have hc := List.nodup_cons.1 (show (b.nm.name :: names l).Nodup from hd)
    have hfb : FlatA b := hf b (by simp)
    rw [List.foldl_cons]
    by_cases hs : b.specified = true
    · have he : cloneAttr acc b = setNamedItem acc b := by
        unfold cloneAttr
        rw [if_pos hs]
        by_cases hl : b.nm.localName = []
        · rw [if_pos (by rw [hl]; rfl)]
        · rw [if_neg (by rw [List.isEmpty_iff]; exact hl)]
          refine setNS_flat ha hfb.2.1 ?_ hfb.2.2.2
          rcases hfb.2.2.1 with h | h
          · exact absurd h hl
          · exact h
      rw [he]
      obtain ⟨i1, i2, i3⟩ := ih (fun c hc => hf c (by simp [hc])) hc.2 (setNamedItem acc b) (flat_setBy ha hfb) (nodup_set hda)
      refine ⟨i1, i2, fun m => ?_⟩
      rw [i3, get_cons, get_setNamedItem]
      by_cases hm : b.nm.name = m
      · rw [if_pos hm, get_none.2 (hm ▸ hc.1)]
        dsimp only
        rw [if_pos hm.symm, if_pos hs]
      · rw [if_neg hm, if_neg (fun h => hm h.symm)]
    · have he : cloneAttr acc b = acc := by unfold cloneAttr; rw [if_neg hs]
      rw [he]
      obtain ⟨i1, i2, i3⟩ := ih (fun c hc => hf c (by simp [hc])) hc.2 acc ha hda
      refine ⟨i1, i2, fun m => ?_⟩
      rw [i3, get_cons]
      by_cases hm : b.nm.name = m
      · rw [if_pos hm, get_none.2 (hm ▸ hc.1)]
        dsimp only
        rw [if_neg hs]
      · rw [if_neg hm]

/-! ### Declarations -/

theorem exemplar_append (dt : DocType) (e e' : Str) (h : exemplar dt e' = none) :
    exemplar (dt ++ [(e', [])]) e = if e = e' then some [] else exemplar dt e := by
  unfold exemplar at *
  rw [List.find?_append]
  by_cases he : e = e'
  · rw [he, if_pos rfl]
    rw [Option.map_eq_none_iff] at h
    rw [h]; simp
  · rw [if_neg he]
    cases hf : dt.find? (fun x => x.1 == e) with
    | some x => simp
    | none => simp; exact fun h => he h.symm

theorem exemplar_addElement (dt : DocType) (e e' : Str) :
    exemplar (addElement dt e') e = if e = e' then some ((exemplar dt e).getD []) else exemplar dt e := by
  unfold addElement
  cases h : exemplar dt e' with
  | some x =>
    by_cases he : e = e'
    · rw [he, if_pos rfl, h]; rfl
    · rw [if_neg he]
  | none =>
    show exemplar (dt ++ [(e', [])]) e = _
    rw [exemplar_append dt e e' h]
    by_cases he : e = e'
    · rw [if_pos he, if_pos he, he, h]; rfl
    · rw [if_neg he, if_neg he]

theorem exemplar_onElement (dt : DocType) (e e' : Str) (f : List A → List A) :
    exemplar (onElement e' f dt) e = if e = e' then (exemplar dt e).map f else exemplar dt e := by
  unfold exemplar
  induction dt with
  | nil => by_cases he : e = e' <;> simp [onElement, he]
  | cons x dt ih =>
    rw [onElement]
    by_cases hx : x.1 = e'
    · rw [if_pos (by simpa using hx), List.find?_cons, List.find?_cons]
      by_cases he : e = e'
      · have : (x.1 == e) = true := by simp [hx, he]
        rw [if_pos he]; simp only [this]; rfl
      · have : (x.1 == e) = false := by simp [hx]; exact fun h => he h.symm
        rw [if_neg he]; simp only [this]
    · rw [if_neg (by simpa using hx), List.find?_cons, List.find?_cons]
      by_cases he : x.1 = e
      · have : (x.1 == e) = true := by simp [he]
        rw [if_neg (fun h => hx (he.trans h))]; simp only [this]
      · have : (x.1 == e) = false := by simp [he]
        simp only [this]; exact ih

def dflt (x : Str × Str) : A := ⟨plain x.1, x.2, false⟩

theorem exemplar_fold (decls : List Decl) (e : Str) (dt : DocType) :
    (exemplar (decls.foldl declare dt) e).getD [] =
      (declared e decls).foldl (fun l x => setNamedItem l (dflt x)) ((exemplar dt e).getD []) := by
  induction decls generalizing dt with
  | nil => rfl
  | cons d ds ih =>
    rw [List.foldl_cons, ih]
    cases d with
    | element e' =>
      show _ = (declared e ds).foldl _ _
      congr 1
      show (exemplar (addElement dt e') e).getD [] = _
      rw [exemplar_addElement]
      by_cases he : e = e'
      · rw [if_pos he]; rfl
      · rw [if_neg he]
    | attr e' n v =>
      rw [declared, declare]
      by_cases hv : v = []
      · rw [if_pos (by rw [hv]; rfl), if_neg (fun h => h.2 hv)]
      · rw [if_neg (by rw [List.isEmpty_iff]; exact hv)]
        by_cases he : e' = e
        · rw [if_pos ⟨he, hv⟩, List.foldl_cons]
          congr 1
          unfold addDefaultAttr
          rw [exemplar_onElement, if_pos he.symm, exemplar_addElement, if_pos he.symm]; rfl
        · rw [if_neg (fun h => he h.1)]
          congr 2
          unfold addDefaultAttr
          rw [exemplar_onElement, if_neg (fun h => he h.symm), exemplar_addElement, if_neg (fun h => he h.symm)]

theorem setBy_new {p : NsName → Bool} {a : A} {l : List A} (h : ∀ b ∈ l, p b.nm = false) : setBy p a l = l ++ [a] := by
  induction l with
  | nil => rfl
  | cons b l ih => rw [setBy, if_neg (by rw [h b (by simp)]; decide), ih fun c hc => h c (by simp [hc])]; rfl

theorem fold_new (ds : List (Str × Str)) (l : List A) (h : ∀ b ∈ l, ∀ x ∈ ds, b.nm.name ≠ x.1)
    (hd : (ds.map Prod.fst).Nodup) :
    ds.foldl (fun l x => setNamedItem l (dflt x)) l = l ++ ds.map dflt := by
  induction ds generalizing l with
  | nil => simp
  | cons x ds ih =>
    have hc := List.nodup_cons.1 (show (x.1 :: ds.map Prod.fst).Nodup from hd)
    rw [List.foldl_cons]
    have h1 : setNamedItem l (dflt x) = l ++ [dflt x] := by
      unfold setNamedItem
      refine setBy_new fun b hb => ?_
      exact Bool.eq_false_iff.2 fun hn => h b hb x (by simp) ((nameIs_iff _ _).1 hn)
    rw [h1, ih _ _ hc.2]
    · simp
    · intro b hb y hy
      rcases List.mem_append.1 hb with hb | hb
      · exact h b hb y (by simp [hy])
      · cases List.mem_singleton.1 hb
        intro he
        exact hc.1 (List.mem_map.2 ⟨y, hy, he.symm⟩)

/-- The exemplar of an element. -/
theorem exemplar_eq (decls : List Decl) (e : Str) (hd : ((declared e decls).map Prod.fst).Nodup) :
    (exemplar (docType decls) e).getD [] = (declared e decls).map dflt := by
  unfold docType
  rw [exemplar_fold]
  have : (exemplar [] e).getD [] = [] := rfl
  rw [this, fold_new _ [] (fun b hb => absurd hb (by simp)) hd]; rfl

theorem get_map_dflt (ds : List (Str × Str)) (n : Str) :
    getNamedItem (ds.map dflt) n = (value ds n).map fun v => dflt (n, v) := by
  induction ds with
  | nil => rfl
  | cons x ds ih =>
    rw [List.map_cons, get_cons, value, List.find?_cons, show (dflt x).nm.name = x.1 from rfl]
    by_cases h : x.1 = n
    · have : (x.1 == n) = true := by simp [h]
      rw [if_pos h]; simp only [this]
      cases x; cases h; rfl
    · have : (x.1 == n) = false := by simp [h]
      rw [if_neg h]; simp only [this]; exact ih

theorem createDefault_eq (decls : List Decl) (e n : Str) (l : List A) (hd : ((declared e decls).map Prod.fst).Nodup) :
    createDefault (docType decls) e n l =
      (match value (declared e decls) n with
       | none => l
       | some v => setNamedItem l (dflt (n, v))) := by
  have h := exemplar_eq decls e hd
  have h2 := get_map_dflt (declared e decls) n
  rw [← h] at h2
  unfold createDefault getDefaultAttrs
  cases hx : exemplar (docType decls) e with
  | none =>
    rw [hx] at h2
    cases hv : value (declared e decls) n with
    | none => rfl
    | some v => rw [hv] at h2; cases h2
  | some ds =>
    rw [hx] at h2
    dsimp only at h2 ⊢
    rw [show getNamedItem ds n = _ from h2]
    cases hv : value (declared e decls) n with
    | none => rfl
    | some v => rfl

/-! ### New elements -/

theorem getDefault_other {b a : A} (hb : ∃ n, b.nm = plain n) (ha : ∃ n, a.nm = plain n) (hn : a.nm.name ≠ [])
    (h : b.nm.name ≠ a.nm.name) : getDefault [b] a = [a] := by
  obtain ⟨n, hb⟩ := hb
  obtain ⟨m, ha⟩ := ha
  have hm : m ≠ [] := by rw [ha] at hn; exact hn
  have hnm : n ≠ m := by rw [ha, hb] at h; exact h
  have h1 : getNamedItemNS [b] a.nm.uri a.nm.name = none := by
    unfold getNamedItemNS
    rw [List.find?_eq_none]
    intro c hc
    cases List.mem_singleton.1 hc
    rw [ha, hb]
    unfold namespaceAndNameIs plain
    have h5 : (([] : Str) == m) = false := by simp; exact hm
    simp [h5, hnm]
  unfold getDefault
  rw [h1]
  show setNamedItemNS [b] a = [a]
  unfold setNamedItemNS
  rw [setBy, if_pos (by rw [ha, hb]; rfl)]

theorem fold_last (ds : List (Str × Str)) (x : Str × Str) (hd : ((x :: ds).map Prod.fst).Nodup)
    (hn : ∀ y ∈ x :: ds, y.1 ≠ []) : (ds.map dflt).foldl getDefault [dflt x] = [dflt ((x :: ds).getLast (by simp))] := by
  induction ds generalizing x with
  | nil => rfl
  | cons y ds ih =>
    have hc := List.nodup_cons.1 (show (x.1 :: (y :: ds).map Prod.fst).Nodup from hd)
    rw [List.map_cons, List.foldl_cons, getDefault_other ⟨_, rfl⟩ ⟨_, rfl⟩ (hn y (by simp)), ih y hc.2 (fun z hz => hn z (by simp [hz]))]
    · rw [List.getLast_cons (show y :: ds ≠ [] by simp)]
    · intro h
      exact hc.1 (by rw [show x.1 = y.1 from h]; simp)

/-- What a new element has: of the defaults the last. -/
theorem create_eq (decls : List Decl) (e : Str) (hd : ((declared e decls).map Prod.fst).Nodup)
    (hn : ∀ x ∈ declared e decls, x.1 ≠ []) :
    create (docType decls) e = ((declared e decls).getLast?.map dflt).toList := by
  have h := exemplar_eq decls e hd
  have key : create (docType decls) e = ((declared e decls).map dflt).foldl getDefault [] := by
    rw [← h]
    unfold create getDefaults getDefaultAttrs
    cases exemplar (docType decls) e with
    | none => rfl
    | some ds => rfl
  rw [key]
  cases hds : declared e decls with
  | nil => rfl
  | cons x ds =>
    rw [hds] at hd hn
    rw [List.map_cons, List.foldl_cons]
    have h1 : getDefault [] (dflt x) = [dflt x] := rfl
    rw [h1, fold_last ds x hd hn, List.getLast?_eq_some_getLast (by simp)]; rfl

/-! ### Histories -/

def R (l : List A) (s : Spec.DefaultAttr.Atts) : Prop :=
  Flat l ∧ (names l).Nodup ∧ ∀ n, (getNamedItem l n).map (fun a => (a.value, a.specified)) = s n

theorem flat_dflt (x : Str × Str) (h : x.1 ≠ []) : FlatA (dflt x) := ⟨rfl, rfl, .inl rfl, h⟩

theorem R_set {l : List A} {s : Spec.DefaultAttr.Atts} (h : R l s) (a : A) (ha : FlatA a) :
    R (setNamedItem l a) (put s a.nm.name (some (a.value, a.specified))) := by
  refine ⟨flat_setBy h.1 ha, nodup_set h.2.1, fun n => ?_⟩
  rw [get_setNamedItem]
  unfold put
  by_cases hn : n = a.nm.name
  · rw [if_pos hn, if_pos hn]; rfl
  · rw [if_neg hn, if_neg hn]; exact h.2.2 n

theorem value_mem {ds : List (Str × Str)} {n v : Str} (h : value ds n = some v) : (n, v) ∈ ds := by
  unfold value at h
  cases hf : ds.find? (fun x => x.1 == n) with
  | none => rw [hf] at h; cases h
  | some x =>
    rw [hf] at h; cases h
    have := List.mem_of_find?_eq_some hf
    have h2 := List.find?_some hf
    have h3 : x.1 = n := by simpa using h2
    rw [← h3]; exact this

theorem cut_none {q : Str} (h : ':' ∉ q) : cut q = none := by
  induction q with
  | nil => rfl
  | cons c q ih =>
    rw [cut, if_neg (fun hc => h (by simp [hc])), ih (fun hq => h (by simp [hq]))]; rfl

theorem attrNS_plain {q : Str} (h : ':' ∉ q) (hx : q ≠ "xmlns".toList) : attrNS [] q = .ok ⟨q, false, [], [], q⟩ := by
  unfold attrNS
  have hx' : q ≠ xmlns := hx
  rw [cut_none h]
  dsimp only
  rw [if_neg hx', show (decide (q = xmlns)) = false from decide_eq_false hx']
  rfl

theorem checkName_ne {nameCh : Char → Bool} {n : Str} (h : checkName nameCh n = true) : n ≠ [] := by
  rintro rfl; simp [checkName] at h

theorem getLast?_toList_mem {ds : List (Str × Str)} {x : Str × Str} (h : x ∈ ds.getLast?.toList) : x ∈ ds := by
  cases ds with
  | nil => cases h
  | cons y ds =>
    rw [List.getLast?_eq_some_getLast (by simp)] at h
    cases List.mem_singleton.1 h
    exact List.getLast_mem _

theorem R_create (decls : List Decl) (e : Str) (hd : ((declared e decls).map Prod.fst).Nodup)
    (hn : ∀ x ∈ declared e decls, x.1 ≠ []) :
    R (create (docType decls) e) (fallback (declared e decls).getLast?.toList) := by
  have h : create (docType decls) e = ((declared e decls).getLast?.toList).map dflt := by
    rw [create_eq decls e hd hn]; cases (declared e decls).getLast? <;> rfl
  rw [h]
  refine ⟨?_, ?_, fun n => ?_⟩
  · intro a ha
    obtain ⟨x, hx, rfl⟩ := List.mem_map.1 ha
    exact flat_dflt x (hn x (getLast?_toList_mem hx))
  · cases (declared e decls).getLast? <;> simp [names]
  · rw [get_map_dflt]; unfold fallback; rw [Option.map_map]; rfl

theorem R_step (nameCh : Char → Bool) (decls : List Decl) (e : Str) (hd : ((declared e decls).map Prod.fst).Nodup)
    (hn : ∀ x ∈ declared e decls, x.1 ≠ []) {l : List A} {s : Spec.DefaultAttr.Atts} (h : R l s) (op : Op) (ho : ByName op) :
    R (step nameCh (docType decls) e l op).1
      (Spec.DefaultAttr.step nameCh (declared e decls) (fallback (declared e decls).getLast?.toList) s op).1 ∧
    (step nameCh (docType decls) e l op).2 =
      (Spec.DefaultAttr.step nameCh (declared e decls) (fallback (declared e decls).getLast?.toList) s op).2 := by
  have hs : ∀ n, s n = none ↔ getNamedItem l n = none := fun n => by rw [← h.2.2 n, Option.map_eq_none_iff]
  cases op with
  | setAttribute n v =>
    unfold step Spec.DefaultAttr.step createElement
    dsimp only
    by_cases hc : checkName nameCh n = true
    · rw [if_pos hc, if_pos hc]
      exact ⟨R_set h ⟨plain n, v, true⟩ ⟨rfl, rfl, .inl rfl, checkName_ne hc⟩, rfl⟩
    · rw [if_neg hc, if_neg hc]; exact ⟨h, rfl⟩
  | setAttributeNS u q v =>
    obtain ⟨rfl, h1, h2⟩ := ho
    unfold step Spec.DefaultAttr.step createAttributeNS
    dsimp only
    by_cases hc : checkName nameCh q = true
    · rw [if_pos hc, if_pos hc, attrNS_plain h1 h2]; dsimp only
      rw [setNS_flat h.1 rfl rfl (checkName_ne hc)]
      exact ⟨R_set h ⟨⟨q, false, [], [], q⟩, v, true⟩ ⟨rfl, rfl, .inr rfl, checkName_ne hc⟩, rfl⟩
    · rw [if_neg hc, if_neg hc]; exact ⟨h, rfl⟩
  | removeAttribute n =>
    unfold step Spec.DefaultAttr.step
    dsimp only
    cases hr : removeBy (nameIs n) l with
    | none =>
      rw [if_pos ((hs n).2 (removeBy_none.1 hr))]; exact ⟨h, rfl⟩
    | some l' =>
      have hne : ¬ s n = none := by
        intro hc
        rw [removeBy_none.2 ((hs n).1 hc)] at hr; cases hr
      rw [if_neg hne]
      obtain ⟨i1, i2, i3⟩ := removeBy_some hr h.2.1
      have hR : R l' (put s n none) := by
        refine ⟨fun a ha => h.1 a (i3 a ha), i2, fun m => ?_⟩
        rw [i1]; unfold put
        by_cases hm : m = n
        · rw [if_pos hm, if_pos hm]; rfl
        · rw [if_neg hm, if_neg hm]; exact h.2.2 m
      refine ⟨?_, rfl⟩
      dsimp only
      rw [createDefault_eq decls e n l' hd]
      unfold fallback
      cases hv : value (declared e decls) n with
      | none => exact hR
      | some v =>
        have := R_set hR (dflt (n, v)) (flat_dflt _ (hn _ (value_mem hv)))
        have he : put (put s n none) n (some (v, false)) = put s n (some (v, false)) := by
          funext m; unfold put; by_cases hm : m = n
          · rw [if_pos hm, if_pos hm]
          · rw [if_neg hm, if_neg hm, if_neg hm]
        show R (setNamedItem l' (dflt (n, v))) (put s n (some (v, false)))
        rw [← he]; exact this
  | removeAttributeNS u n => exact absurd ho (by simp [ByName])
  | setValue n v =>
    unfold step Spec.DefaultAttr.step
    dsimp only
    refine ⟨⟨flat_setValue n v h.1, by rw [names_setValue]; exact h.2.1, fun m => ?_⟩, rfl⟩
    rw [get_setValue]
    by_cases hc : s n = none
    · rw [if_pos hc]
      by_cases hm : m = n
      · rw [if_pos hm, (hs n).1 hc, hm, hc]; rfl
      · rw [if_neg hm]; exact h.2.2 m
    · rw [if_neg hc]
      unfold put
      by_cases hm : m = n
      · rw [if_pos hm, if_pos hm]
        cases hg : getNamedItem l n with
        | none => exact absurd ((hs n).2 hg) hc
        | some a => rfl
      · rw [if_neg hm, if_neg hm]; exact h.2.2 m
  | clone =>
    unfold step Spec.DefaultAttr.step
    dsimp only
    have hcr := R_create decls e hd hn
    obtain ⟨i1, i2, i3⟩ := clone_get l h.1 h.2.1 (create (docType decls) e) hcr.1 hcr.2.1
    refine ⟨⟨i1, i2, fun m => ?_⟩, rfl⟩
    unfold clone
    rw [i3]
    dsimp only
    rw [← h.2.2 m]
    cases hg : getNamedItem l m with
    | none => exact hcr.2.2 m
    | some a =>
      obtain ⟨nm, v, sp⟩ := a
      cases sp
      · exact hcr.2.2 m
      · rfl

theorem R_run (nameCh : Char → Bool) (decls : List Decl) (e : Str) (hd : ((declared e decls).map Prod.fst).Nodup)
    (hn : ∀ x ∈ declared e decls, x.1 ≠ []) (ops : List Op) {l : List A} {s : Spec.DefaultAttr.Atts} (h : R l s)
    (ho : ∀ op ∈ ops, ByName op) :
    R (run nameCh (docType decls) e l ops).1
      (Spec.DefaultAttr.run nameCh (declared e decls) (fallback (declared e decls).getLast?.toList) s ops).1 ∧
    (run nameCh (docType decls) e l ops).2 =
      (Spec.DefaultAttr.run nameCh (declared e decls) (fallback (declared e decls).getLast?.toList) s ops).2 := by
  induction ops generalizing l s with
  | nil => exact ⟨h, rfl⟩
  | cons op ops ih =>
    obtain ⟨h1, h2⟩ := R_step nameCh decls e hd hn h op (ho op (by simp))
    obtain ⟨i1, i2⟩ := ih h1 fun o hm => ho o (by simp [hm])
    refine ⟨i1, ?_⟩
    exact congr (congrArg List.cons h2) i2

end Verif.DefaultAttr
