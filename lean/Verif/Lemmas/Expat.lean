import Verif.Lemmas.Sax
import Verif.Lemmas.Names
import Verif.Spec.Expat
set_option autoImplicit false
set_option linter.unusedSimpArgs false
set_option linter.unusedVariables false
namespace Verif.Expat
open Verif.Sax (Str NsState Context mmInsert mmFind nsFind Sorted)
open Verif.SaxFilter (Ev)

theorem callbacks_append : ∀ (x y : List Callback) (r r1 : Reader) (o1 : List Call), callbacks r x = .ok r1 o1 →
    ∀ (r2 : Reader) (o2 : List Call), callbacks r1 y = .ok r2 o2 → callbacks r (x ++ y) = .ok r2 (o1 ++ o2)
  | [], y, r, r1, o1, h, r2, o2, h2 => by
    simp only [callbacks, Res.ok.injEq] at h
    obtain ⟨rfl, rfl⟩ := h
    simpa using h2
  | c :: x, y, r, r1, o1, h, r2, o2, h2 => by
    rw [callbacks] at h
    rw [List.cons_append, callbacks]
    cases hc : callback r c with
    | thrown _ => rw [hc] at h; cases h
    | ub => rw [hc] at h; cases h
    | ok r' o =>
      rw [hc] at h
      simp only [] at h ⊢
      cases hx : callbacks r' x with
      | thrown _ => rw [hx] at h; cases h
      | ub => rw [hx] at h; cases h
      | ok r'' o' =>
        rw [hx] at h
        simp only [Res.ok.injEq] at h
        obtain ⟨rfl, rfl⟩ := h
        rw [callbacks_append x y r' r'' o' hx r2 o2 h2]
        simp

theorem callbacks_one {r r1 : Reader} {c : Callback} {o : List Call} (h : callback r c = .ok r1 o) : callbacks r [c] = .ok r1 o := by
  rw [callbacks, h]
  simp [callbacks]

/-! ## the contexts -/

def insertAll (c : Context) (ds : List (Str × Str)) : Context := ds.foldl (fun c d => mmInsert d.1 d.2 c) c

def insertKey (k : Str) : List Str → List Str
  | [] => [k]
  | e :: m => if k < e then k :: e :: m else e :: insertKey k m

/-- The order in which the prefixes are reported: that of the multimap. -/
def order (ps : List Str) : List Str := ps.foldl (fun l p => insertKey p l) []

theorem insertKey_perm (k : Str) : ∀ l, (insertKey k l).Perm (k :: l)
  | [] => .refl _
  | e :: m => by
    rw [insertKey]
    by_cases h : k < e
    · rw [if_pos h]
    · rw [if_neg h]
      exact (List.Perm.cons e (insertKey_perm k m)).trans (List.Perm.swap _ _ _)

theorem order_perm (ps : List Str) : (order ps).Perm ps := by
  have : ∀ (ps l : List Str), (ps.foldl (fun l p => insertKey p l) l).Perm (ps ++ l) := by
    intro ps
    induction ps with
    | nil => intro l; exact .refl _
    | cons p ps ih =>
      intro l
      rw [List.foldl_cons]
      refine (ih _).trans ?_
      refine ((insertKey_perm p l).append_left ps).trans ?_
      exact List.perm_middle
  simpa [order] using this ps []

theorem insert_keys (k v : Str) : ∀ c : Context, (mmInsert k v c).map (·.1) = insertKey k (c.map (·.1))
  | [] => rfl
  | e :: m => by
    rw [mmInsert, List.map_cons, insertKey]
    by_cases h : k < e.1
    · rw [if_pos h, if_pos h]; rfl
    · rw [if_neg h, if_neg h, List.map_cons, insert_keys k v m]

theorem insertAll_keys (ds : List (Str × Str)) : (insertAll [] ds).map (·.1) = order (ds.map (·.1)) := by
  have : ∀ (ds : List (Str × Str)) (c : Context),
      (insertAll c ds).map (·.1) = (ds.map (·.1)).foldl (fun l p => insertKey p l) (c.map (·.1)) := by
    intro ds
    induction ds with
    | nil => intro c; rfl
    | cons d ds ih =>
      intro c
      rw [insertAll, List.foldl_cons, List.map_cons, List.foldl_cons, ← insert_keys d.1 d.2]
      exact ih _
  exact this ds []

theorem insertAll_sorted : ∀ (ds : List (Str × Str)) (c : Context), Sorted c → Sorted (insertAll c ds)
  | [], c, h => h
  | d :: ds, c, h => insertAll_sorted ds _ (Sax.mmInsert_sorted d.1 d.2 c h)

theorem insertAll_find (p : Str) : ∀ (ds : List (Str × Str)) (c : Context), Sorted c →
    mmFind p (insertAll c ds) = (mmFind p c).or (namespaceOf ds p)
  | [], c, h => by simp [insertAll, namespaceOf]
  | d :: ds, c, h => by
    rw [insertAll, List.foldl_cons]
    have := insertAll_find p ds (mmInsert d.1 d.2 c) (Sax.mmInsert_sorted d.1 d.2 c h)
    rw [insertAll] at this
    rw [this, Sax.mmFind_insert d.1 d.2 p c h]
    unfold namespaceOf
    by_cases hp : p = d.1
    · subst hp
      rw [List.find?_cons_of_pos (by simp)]
      cases mmFind d.1 c <;> simp
    · rw [List.find?_cons_of_neg (by simpa using Ne.symm hp), if_neg (fun t => hp t.1)]

theorem namespaceOf_append (a b : Scope) (p : Str) : namespaceOf (a ++ b) p = (namespaceOf a p).or (namespaceOf b p) := by
  unfold namespaceOf
  rw [List.find?_append]
  cases List.find? (fun e => e.1 == p) a <;> simp

/-- The contexts stand for the namespaces in scope, and the innermost has these prefixes. -/
structure Stands (ns : NsState) (sc : Scope) (outer : List Str) : Prop where
  find : ∀ p, nsFind p ns = namespaceOf sc p
  last : Sax.getDeclaredPrefixes ns = some outer

theorem stands_init : Stands Sax.nsInit initial ["xml".toList] := by
  refine ⟨?_, rfl⟩
  intro p
  have : Sax.nsInit = [[(Sax.xmlPrefix, Sax.xmlUri)]] := rfl
  rw [this]
  unfold nsFind mmFind
  by_cases h : Sax.xmlPrefix = p
  · subst h; rfl
  · rw [if_neg h]
    unfold namespaceOf initial
    rw [List.find?_cons_of_neg (by simpa [Sax.xmlPrefix] using h)]
    rfl

theorem Stands.push {ns : NsState} {sc : Scope} {outer : List Str} (h : Stands ns sc outer) (ds : List (Str × Str)) :
    Stands (insertAll [] ds :: ns) (ds ++ sc) (order (ds.map (·.1))) := by
  refine ⟨?_, ?_⟩
  · intro p
    rw [nsFind, insertAll_find p ds [] List.Pairwise.nil, namespaceOf_append, h.find p]
    have : mmFind p [] = none := rfl
    rw [this, Option.none_or]
    cases namespaceOf ds p <;> simp
  · rw [Sax.getDeclaredPrefixes, insertAll_keys]

/-! ## names -/

theorem cut_eq : ∀ q : Str, cut q = parts q
  | [] => rfl
  | c :: s => by
    rw [cut, cut_eq s]
    unfold parts
    by_cases h : c = ':'
    · subst h
      rw [if_pos rfl, if_pos List.mem_cons_self]
      simp
    · rw [if_neg h]
      by_cases hs : ':' ∈ s
      · rw [if_pos hs, if_pos (List.mem_cons_of_mem _ hs)]
        simp [h]
      · rw [if_neg hs, if_neg (by simp [hs, Ne.symm h])]
        rfl

theorem isQName_of {q : Str} (h : Name q) : isQName q = true := by
  have := (Names.qname_iff (q.map Char.toNat)).mpr h
  unfold isQName
  rw [← this, Names.wide, List.map_map]
  rfl

/-! ## declarations -/

theorem declares_none {q : Str} (h : isDeclaration q = false) : declares q = none := by
  unfold isDeclaration at h
  unfold declares
  have h1 : q ≠ "xmlns".toList := by intro e; subst e; revert h; decide
  rw [if_neg h1, if_neg]
  intro t
  have h2 : "xmlns:".toList <+: q := List.isPrefixOf_iff_prefix.mp t
  have h3 : Sax.xmlnsPrefix <+: q := List.IsPrefix.trans ⟨[':'], rfl⟩ h2
  rw [List.isPrefixOf_iff_prefix.mpr h3] at h
  cases h

theorem declares_cut {q p : Str} (h : declares q = some p) : isDeclaration q = true ∧ declaredPrefix q = p := by
  unfold declares at h
  by_cases h1 : q = "xmlns".toList
  · rw [if_pos h1] at h
    cases h
    subst h1
    exact ⟨by decide, by decide⟩
  · rw [if_neg h1] at h
    by_cases h2 : "xmlns:".toList.isPrefixOf q = true
    · rw [if_pos h2] at h
      cases h
      obtain ⟨t, rfl⟩ := List.isPrefixOf_iff_prefix.mp h2
      refine ⟨List.isPrefixOf_iff_prefix.mpr ⟨':' :: t, rfl⟩, ?_⟩
      rfl
    · rw [if_neg h2] at h; cases h

theorem declarations_pushed (prefixes : Bool) : ∀ (as : List (Str × Str)) (c : Context) (ns : NsState),
    (∀ a ∈ as, "xmlns".toList.isPrefixOf a.1 = true → (declares a.1).isSome) →
    (∀ d ∈ declared as, d.1 ≠ "xml".toList ∧ d.1 ≠ "xmlns".toList) →
    declarations prefixes (c :: ns) true as = some (insertAll c (declared as) :: ns, true,
      (if prefixes then (as.filter fun a => (declares a.1).isSome).map fun a => ⟨[], [], a.1, "CDATA".toList, a.2⟩ else []),
      (declared as).map fun d => .ev (.startPrefixMapping d.1 d.2))
  | [], c, ns, _, _ => by cases prefixes <;> rfl
  | (q, v) :: as, c, ns, h1, h2 => by
    rw [declarations]
    cases hq : declares q with
    | none =>
      have hd : isDeclaration q = false := by
        cases e : isDeclaration q with
        | false => rfl
        | true => have := h1 (q, v) List.mem_cons_self e; rw [hq] at this; cases this
      have hds : declared ((q, v) :: as) = declared as := by simp [declared, hq]
      rw [hd, hds, declarations_pushed prefixes as c ns (fun a ha => h1 a (List.mem_cons_of_mem _ ha)) (by rw [← hds]; exact h2),
        List.filter_cons_of_neg (by simp [hq])]
      rfl
    | some p =>
      obtain ⟨hd, hp⟩ := declares_cut hq
      have hds : declared ((q, v) :: as) = (p, v) :: declared as := by simp [declared, hq]
      obtain ⟨n1, n2⟩ := h2 (p, v) (by rw [hds]; exact List.mem_cons_self)
      rw [hd]
      simp only [if_true]
      rw [hp]
      have : Sax.declarePrefix p v (c :: ns) = some (true, mmInsert p v c :: ns) := by
        rw [Sax.declarePrefix, if_neg]
        rintro (t | t)
        · exact n1 t
        · exact n2 t
      rw [this]
      simp only []
      rw [declarations_pushed prefixes as (mmInsert p v c) ns (fun a ha => h1 a (List.mem_cons_of_mem _ ha))
        (fun d hd' => h2 d (by rw [hds]; exact List.mem_cons_of_mem _ hd'))]
      simp only [hds, insertAll, List.foldl_cons, List.map_cons, if_true, List.nil_append]
      rw [List.filter_cons_of_pos (by simp [hq])]
      cases prefixes <;> rfl

theorem declarations_eq (prefixes : Bool) : ∀ (as : List (Str × Str)) (ns : NsState),
    (∀ a ∈ as, "xmlns".toList.isPrefixOf a.1 = true → (declares a.1).isSome) →
    (∀ d ∈ declared as, d.1 ≠ "xml".toList ∧ d.1 ≠ "xmlns".toList) →
    declarations prefixes ns false as = some (if declared as = [] then ns else insertAll [] (declared as) :: ns, decide (declared as ≠ []),
      (if prefixes then (as.filter fun a => (declares a.1).isSome).map fun a => ⟨[], [], a.1, "CDATA".toList, a.2⟩ else []),
      (declared as).map fun d => .ev (.startPrefixMapping d.1 d.2))
  | [], ns, _, _ => by cases prefixes <;> rfl
  | (q, v) :: as, ns, h1, h2 => by
    cases hq : declares q with
    | none =>
      rw [declarations]
      have hd : isDeclaration q = false := by
        cases e : isDeclaration q with
        | false => rfl
        | true => have := h1 (q, v) List.mem_cons_self e; rw [hq] at this; cases this
      have hds : declared ((q, v) :: as) = declared as := by simp [declared, hq]
      rw [hd, hds, declarations_eq prefixes as ns (fun a ha => h1 a (List.mem_cons_of_mem _ ha)) (by rw [← hds]; exact h2),
        List.filter_cons_of_neg (by simp [hq])]
      rfl
    | some p =>
      have hds : declared ((q, v) :: as) = (p, v) :: declared as := by simp [declared, hq]
      have hpush : declarations prefixes ns false ((q, v) :: as) = declarations prefixes (Sax.pushContext ns) true ((q, v) :: as) := by
        rw [declarations, declarations, (declares_cut hq).1]
        rfl
      rw [hpush, Sax.pushContext, declarations_pushed prefixes _ [] ns h1 h2, hds]
      simp

theorem processName_eq {ns : NsState} {sc : Scope} {outer : List Str} (h : Stands ns sc outer) {q : Str} (hq : Name q)
    (hp : PrefixOk sc q) (isA : Bool) : processName ns q isA = some (⟨(expand sc isA q).1, (expand sc isA q).2, q⟩, []) := by
  unfold processName expand Sax.getURI
  rw [if_pos (isQName_of hq), cut_eq]
  cases hc : parts q with
  | none => simp only [h.find]
  | some x =>
    obtain ⟨p, l⟩ := x
    simp only [h.find]
    have := hp p l hc
    cases hu : (namespaceOf sc p).getD [] with
    | nil => exact absurd hu this
    | cons a b => simp

theorem attributes_eq {ns : NsState} {sc : Scope} {outer : List Str} (h : Stands ns sc outer) : ∀ (as : List (Str × Str)),
    (∀ a ∈ as, Name a.1) → (∀ a ∈ as, "xmlns".toList.isPrefixOf a.1 = true → (declares a.1).isSome) →
    (∀ a ∈ as, declares a.1 = none → PrefixOk sc a.1) →
    attributes ns as = ((as.filter fun a => (declares a.1).isNone).map (fun a =>
      ⟨(expand sc true a.1).1, (expand sc true a.1).2, a.1, "CDATA".toList, a.2⟩), [], true)
  | [], _, _, _ => rfl
  | (q, v) :: as, h1, h2, h3 => by
    rw [attributes]
    have ih := attributes_eq h as (fun a ha => h1 a (List.mem_cons_of_mem _ ha)) (fun a ha => h2 a (List.mem_cons_of_mem _ ha))
      (fun a ha => h3 a (List.mem_cons_of_mem _ ha))
    cases hq : declares q with
    | none =>
      have hd : isDeclaration q = false := by
        cases e : isDeclaration q with
        | false => rfl
        | true => have := h2 (q, v) List.mem_cons_self e; rw [hq] at this; cases this
      rw [hd, processName_eq h (h1 (q, v) List.mem_cons_self) (h3 (q, v) List.mem_cons_self hq), ih,
        List.filter_cons_of_pos (by simp [hq])]
      rfl
    | some p =>
      rw [(declares_cut hq).1, ih, List.filter_cons_of_neg (by simp [hq])]
      rfl

/-! ## documents -/

theorem chars_run (r : Reader) : ∀ ps : List Str, callbacks r (ps.map .characters) = .ok r (ps.map fun p => .ev (.characters p))
  | [] => rfl
  | p :: ps => by
    rw [List.map_cons, callbacks]
    simp only [callback]
    rw [chars_run r ps]
    rfl

mutual

theorem item_run {prefixes : Bool} : ∀ (i : Item) (ns : NsState) (cr : List Bool) (sc : Scope) (outer : List Str), Stands ns sc outer → ItemOk sc i →
    callbacks ⟨true, prefixes, ns, cr⟩ (itemCallbacks i) = .ok ⟨true, prefixes, ns, cr⟩ ((itemEvents (ownOrOuter order) prefixes sc outer i).map .ev)
  | .text s, ns, cr, sc, outer, h, ho => callbacks_one rfl
  | .comment s, ns, cr, sc, outer, h, ho => callbacks_one rfl
  | .pi t d, ns, cr, sc, outer, h, ho => callbacks_one rfl
  | .skipped n, ns, cr, sc, outer, h, ho => callbacks_one rfl
  | .cdata ps, ns, cr, sc, outer, h, ho => by
    rw [itemCallbacks, itemEvents]
    have e1 := callbacks_append [.startCdata] (ps.map .characters) ⟨true, prefixes, ns, cr⟩ _ _ (callbacks_one rfl) _ _ (chars_run _ ps)
    have e2 := callbacks_append _ [.endCdata] ⟨true, prefixes, ns, cr⟩ _ _ e1 _ _ (callbacks_one rfl)
    rw [List.singleton_append] at e2
    rw [e2]
    simp
  | .element q as ks, ns, cr, sc, outer, h, ho => by
    rw [ItemOk] at ho
    obtain ⟨o1, o2, o3, o4, o5, o6, o7⟩ := ho
    rw [itemCallbacks, itemEvents]
    obtain ⟨ns', en⟩ : ∃ ns', ns' = if declared as = [] then ns else insertAll [] (declared as) :: ns := ⟨_, rfl⟩
    have hs : Stands ns' (declared as ++ sc) (ownOrOuter order ((declared as).map (·.1)) outer) := by
      subst en
      by_cases hd : declared as = []
      · rw [if_pos hd, hd]
        simpa [ownOrOuter] using h
      · rw [if_neg hd]
        have : (declared as).map (·.1) ≠ [] := by simpa using hd
        rw [ownOrOuter, if_neg this]
        exact h.push _
    have e1 : callback ⟨true, prefixes, ns, cr⟩ (.start q as) = .ok ⟨true, prefixes, ns', decide (declared as ≠ []) :: cr⟩
        ((List.map (fun d : Str × Str => Ev.startPrefixMapping d.1 d.2) (declared as) ++
          [Ev.startElement (expand (declared as ++ sc) false q).1 (expand (declared as ++ sc) false q).2 q (attributesOf prefixes (declared as ++ sc) as)]).map .ev) := by
      rw [callback, startElement]
      simp only [Bool.not_true, Bool.false_eq_true, if_false]
      rw [declarations_eq prefixes as ns o3 o4, ← en]
      simp only []
      rw [attributes_eq hs as o2 o3 o6]
      simp only [if_true]
      rw [processName_eq hs o1 o5]
      simp [attributesOf]
    have e2 := items_run (prefixes := prefixes) ks ns' (decide (declared as ≠ []) :: cr) _ _ hs o7
    have e3 : callback ⟨true, prefixes, ns', decide (declared as ≠ []) :: cr⟩ (.stop q) = .ok ⟨true, prefixes, ns, cr⟩
        ((Ev.endElement (expand (declared as ++ sc) false q).1 (expand (declared as ++ sc) false q).2 q ::
          (ownOrOuter order ((declared as).map (·.1)) outer).map .endPrefixMapping).map .ev) := by
      rw [callback, endElement]
      simp only [Bool.not_true, Bool.false_eq_true, if_false]
      rw [processName_eq hs o1 o5]
      simp only []
      rw [hs.last]
      simp only []
      by_cases hd : declared as = []
      · rw [if_pos hd] at en
        subst en
        rw [if_neg (by simp [hd])]
        simp
      · rw [if_neg hd] at en
        subst en
        rw [if_pos (by simp [hd])]
        simp [Sax.popContext]
    have e4 := callbacks_append _ _ _ _ _ (callbacks_append [.start q as] _ _ _ _ (callbacks_one e1) _ _ e2) _ _ (callbacks_one e3)
    rw [List.singleton_append] at e4
    rw [e4]
    simp
  termination_by i => sizeOf i

theorem items_run {prefixes : Bool} : ∀ (is : List Item) (ns : NsState) (cr : List Bool) (sc : Scope) (outer : List Str), Stands ns sc outer → ItemsOk sc is →
    callbacks ⟨true, prefixes, ns, cr⟩ (itemsCallbacks is) = .ok ⟨true, prefixes, ns, cr⟩ ((itemsEvents (ownOrOuter order) prefixes sc outer is).map .ev)
  | [], ns, cr, sc, outer, h, ho => by rw [itemsCallbacks, itemsEvents]; rfl
  | i :: is, ns, cr, sc, outer, h, ho => by
    rw [ItemsOk] at ho
    rw [itemsCallbacks, itemsEvents, List.map_append]
    exact callbacks_append _ _ _ _ _ (item_run i ns cr sc outer h ho.1) _ _ (items_run is ns cr sc outer h ho.2)
  termination_by is => sizeOf is

end

/-! ## without the ends of mappings -/

mutual

theorem item_notEnd {prefixes : Bool} (f g : List Str → List Str → List Str) : ∀ (i : Item) (sc : Scope) (o o' : List Str),
    (itemEvents f prefixes sc o i).filter notEnd = (itemEvents g prefixes sc o' i).filter notEnd
  | .text s, sc, o, o' => rfl
  | .comment s, sc, o, o' => rfl
  | .pi t d, sc, o, o' => rfl
  | .skipped n, sc, o, o' => rfl
  | .cdata ps, sc, o, o' => rfl
  | .element q as ks, sc, o, o' => by
    have hn : ∀ l : List Str, (l.map Ev.endPrefixMapping).filter notEnd = [] := by
      intro l; rw [List.filter_eq_nil_iff]; intro e he; obtain ⟨p, _, rfl⟩ := List.mem_map.mp he; simp [notEnd]
    rw [itemEvents, itemEvents]
    simp only [List.filter_append, List.filter_cons, hn]
    rw [items_notEnd f g ks _ (f _ o) (g _ o')]
  termination_by i => sizeOf i

theorem items_notEnd {prefixes : Bool} (f g : List Str → List Str → List Str) : ∀ (is : List Item) (sc : Scope) (o o' : List Str),
    (itemsEvents f prefixes sc o is).filter notEnd = (itemsEvents g prefixes sc o' is).filter notEnd
  | [], sc, o, o' => rfl
  | i :: is, sc, o, o' => by
    rw [itemsEvents, itemsEvents, List.filter_append, List.filter_append, item_notEnd f g i sc o o', items_notEnd f g is sc o o']
  termination_by is => sizeOf is

end

/-! ## without namespaces, and with declarations everywhere -/

mutual

theorem item_raw {r : Reader} (hr : r.namespaces = false) : ∀ i : Item, callbacks r (itemCallbacks i) = .ok r ((itemRaw i).map .ev)
  | .text s => callbacks_one rfl
  | .comment s => callbacks_one rfl
  | .pi t d => callbacks_one rfl
  | .skipped n => callbacks_one rfl
  | .cdata ps => by
    rw [itemCallbacks, itemRaw]
    have e1 := callbacks_append [.startCdata] (ps.map .characters) r _ _ (callbacks_one rfl) _ _ (chars_run _ ps)
    have e2 := callbacks_append _ [.endCdata] r _ _ e1 _ _ (callbacks_one rfl)
    rw [List.singleton_append] at e2
    rw [e2]
    simp
  | .element q as ks => by
    rw [itemCallbacks, itemRaw]
    have e1 : callback r (.start q as) = .ok r [.ev (.startElement [] [] q (as.map fun a => ⟨[], [], a.1, "CDATA".toList, a.2⟩))] := by
      rw [callback, startElement, hr]
      rfl
    have e3 : callback r (.stop q) = .ok r [.ev (.endElement [] [] q)] := by
      rw [callback, endElement, hr]
      rfl
    have e4 := callbacks_append _ _ _ _ _ (callbacks_append [.start q as] _ _ _ _ (callbacks_one e1) _ _ (items_raw hr ks)) _ _ (callbacks_one e3)
    rw [List.singleton_append] at e4
    rw [e4]
    simp
  termination_by i => sizeOf i

theorem items_raw {r : Reader} (hr : r.namespaces = false) : ∀ is : List Item, callbacks r (itemsCallbacks is) = .ok r ((itemsRaw is).map .ev)
  | [] => by rw [itemsCallbacks, itemsRaw]; rfl
  | i :: is => by
    rw [itemsCallbacks, itemsRaw, List.map_append]
    exact callbacks_append _ _ _ _ _ (item_raw hr i) _ _ (items_raw hr is)
  termination_by is => sizeOf is

end

mutual

theorem item_declares {prefixes : Bool} (ord : List Str → List Str) : ∀ (i : Item) (sc : Scope) (o o' : List Str), ItemDeclares i →
    itemEvents (ownOrOuter ord) prefixes sc o i = itemEvents (own ord) prefixes sc o' i
  | .text s, sc, o, o', h => rfl
  | .comment s, sc, o, o', h => rfl
  | .pi t d, sc, o, o', h => rfl
  | .skipped n, sc, o, o', h => rfl
  | .cdata ps, sc, o, o', h => rfl
  | .element q as ks, sc, o, o', h => by
    rw [ItemDeclares] at h
    have e : ownOrOuter ord ((declared as).map (·.1)) o = own ord ((declared as).map (·.1)) o' := by
      rw [ownOrOuter, if_neg (by simpa using h.1), own]
    rw [itemEvents, itemEvents, e]
    rw [items_declare ord ks _ _ (own ord ((declared as).map (·.1)) o') h.2]
  termination_by i => sizeOf i

theorem items_declare {prefixes : Bool} (ord : List Str → List Str) : ∀ (is : List Item) (sc : Scope) (o o' : List Str), ItemsDeclare is →
    itemsEvents (ownOrOuter ord) prefixes sc o is = itemsEvents (own ord) prefixes sc o' is
  | [], sc, o, o', h => rfl
  | i :: is, sc, o, o', h => by
    rw [ItemsDeclare] at h
    rw [itemsEvents, itemsEvents, item_declares ord i sc o o' h.1, items_declare ord is sc o o' h.2]
  termination_by is => sizeOf is

end

end Verif.Expat
