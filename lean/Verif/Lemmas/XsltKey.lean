import Verif.Spec.XsltKey
import Verif.Lemmas.XPathEval
import Verif.Props.XPathAxes
set_option autoImplicit false
set_option linter.unusedSimpArgs false
set_option linter.unusedVariables false
/-!
# Keys
-/
namespace Verif.XsltKey
open Verif.XTree Verif.XPath Verif.XPathEval
open Verif.Spec.XPathAxes Verif.Spec.XPathNodeSet Verif.Spec.XPathEval Verif.Spec.XsltKey

/-! ## maps -/

def nodesAt (m : NodeMap) (s : List Char) : List XN := (m.find s).nodes

def AllForward (m : NodeMap) : Prop := ∀ s ns, m.lookup s = some ns → ns.forward = true

theorem push_lookup (m : NodeMap) (id s : List Char) (x : XN) :
    List.lookup s (m.push id x) = if s = id then some (((List.lookup id m).getD {}).push x) else List.lookup s m := by
  induction m with
  | nil =>
    by_cases h : s = id
    · subst h; simp [NodeMap.push]
    · have h2 : (s == id) = false := by simpa using h
      simp only [NodeMap.push, List.lookup, h2, if_neg h]
  | cons p m ih =>
    obtain ⟨i, ns⟩ := p
    simp only [NodeMap.push]
    by_cases hi : i = id
    · subst hi
      rw [if_pos rfl]
      by_cases h : s = i
      · subst h; simp
      · have h2 : (s == i) = false := by simpa using h
        simp only [List.lookup, h2, if_neg h]
    · rw [if_neg hi]
      by_cases h : s = i
      · subst h; simp [hi]
      · have h2 : (s == i) = false := by simpa using h
        have h3 : (id == i) = false := by simpa using fun e => hi e.symm
        simp only [List.lookup, h2, h3]
        exact ih

theorem push_nodesAt (m : NodeMap) (id s : List Char) (x : XN) :
    nodesAt (m.push id x) s = nodesAt m s ++ if s = id then [x] else [] := by
  unfold nodesAt NodeMap.find
  rw [push_lookup]
  by_cases h : s = id
  · subst h
    rw [if_pos rfl, if_pos rfl]
    cases List.lookup s m <;> rfl
  · rw [if_neg h, if_neg h, List.append_nil]

theorem push_forward {m : NodeMap} (h : AllForward m) (id : List Char) (x : XN) : AllForward (m.push id x) := by
  intro s ns e
  rw [push_lookup] at e
  by_cases hs : s = id
  · rw [if_pos hs] at e
    cases e
    cases hl : List.lookup id m with
    | none => rfl
    | some ns => exact h id ns hl
  · rw [if_neg hs] at e
    exact h s ns e

/-- `x` is pushed for each of the strings. -/
def pushAll (x : XN) : List (List Char) → NodeMap → NodeMap
  | [], m => m
  | s :: ss, m => pushAll x ss (m.push s x)

theorem pushAll_nodesAt (x : XN) (s : List Char) : ∀ (ss : List (List Char)) (m : NodeMap),
    nodesAt (pushAll x ss m) s = nodesAt m s ++ (ss.filter (fun t => t = s)).map fun _ => x
  | [], m => by simp [pushAll]
  | t :: ss, m => by
    rw [pushAll, pushAll_nodesAt x s ss, push_nodesAt]
    by_cases h : s = t
    · subst h; simp
    · have : ¬ t = s := fun e => h e.symm
      simp [h, this]

theorem pushAll_forward (x : XN) : ∀ (ss : List (List Char)) {m : NodeMap}, AllForward m → AllForward (pushAll x ss m)
  | [], _, h => h
  | s :: ss, _, h => pushAll_forward x ss (push_forward h s x)

theorem find_forward {m : NodeMap} (h : AllForward m) (s : List Char) : (m.find s).forward = true ∨ nodesAt m s = [] := by
  unfold nodesAt NodeMap.find
  cases hl : m.lookup s with
  | none => exact .inr rfl
  | some ns => exact .inl (h s ns hl)

/-! ## filling a map -/

section
variable {E : Env} {K : Nat → Prop}

/-- For all fuel but too little. -/
def Sure {α : Type} (r : Nat → α) (a : α) : Prop := ∃ F, ∀ f, F ≤ f → r f = a

theorem sure_addIds (hK : Documents E.w K) (x : XN) : ∀ (ys : List XN) (m : NodeMap), (∀ y ∈ ys, NodeIn E.w K y) →
    Sure (fun f => addIds E f x ys m) (pushAll x (ys.map (stringValue E.w)) m, .val ())
  | [], m, _ => ⟨0, fun _ _ => rfl⟩
  | y :: ys, m, h => by
    obtain ⟨F, hF⟩ := stringOf_ends hK (h y (.head _))
    obtain ⟨G, hG⟩ := sure_addIds hK x ys (m.push (stringValue E.w y) x) (fun z hz => h z (.tail _ hz))
    refine ⟨max F G, fun f hf => ?_⟩
    have h1 := hF f (by omega)
    simp only [addIds, h1]
    exact hG f (by omega)

theorem shows_nodes {m : XVal} {l : List XN} (h : Shows m (.nodes l)) : (∀ z, z ∈ m.nodeSet.nodes ↔ z ∈ l) ∧
    (m.nodeSet.nodes = l ∨ m.nodeSet.nodes = l.reverse) := by
  cases m with
  | nodes ns =>
    have := h.2
    simp only [XVal.nodeSet]
    cases hf : ns.forward with
    | true => rw [this, hf]; simp
    | false => rw [this, hf]; simp
  | _ => exact h.elim

/-- What a node adds to the entry of a string. -/
structure Adds (E : Env) (k : KeySpec) (x : XN) (s : List Char) (l : List XN) : Prop where
  only : ∀ y ∈ l, y = x
  iff : l ≠ [] ↔ k.pattern x ∧ StringsOf E.w E.cv (k.use x) s
  once : Distinct E.w k → l.length ≤ 1

theorem sure_addNode (hK : Documents E.w K) {d : Decl} {k : KeySpec} (hs : Stands E K d k) (c : Context) (x : XN)
    (hx : NodeIn E.w K x) (m : NodeMap) : ∃ m', Sure (fun f => addNode E f d c x m) (m', .val ()) ∧
      (AllForward m → AllForward m') ∧ ∀ s, ∃ l, nodesAt m' s = nodesAt m s ++ l ∧ Adds E k x s l := by
  by_cases hm : k.pattern x
  · obtain ⟨v, h1, F, hF⟩ := hs.use_eq c x hx hm
    obtain ⟨l, e, h2⟩ := hs.nodes x hx hm
    rw [e] at h1
    obtain ⟨h3, h4⟩ := shows_nodes h1
    obtain ⟨G, hG⟩ := sure_addIds hK x v.nodeSet.nodes m (fun y hy => h2 y ((h3 y).1 hy))
    refine ⟨pushAll x (v.nodeSet.nodes.map (stringValue E.w)) m, ⟨max F G, fun f hf => ?_⟩, pushAll_forward x _, fun s => ⟨_, pushAll_nodesAt x s _ m, ?_, ?_, ?_⟩⟩
    · have g1 := hF f (by omega)
      have g2 := hG f (by omega)
      simp only [addNode]
      rw [if_pos ((hs.pattern_iff c x hx).2 hm), g1]
      exact g2
    · intro y hy
      obtain ⟨_, _, rfl⟩ := List.mem_map.1 hy
      rfl
    · simp only [ne_eq, List.map_eq_nil_iff, List.filter_eq_nil_iff, List.mem_map, decide_eq_true_eq, e, StringsOf]
      constructor
      · intro h
        refine ⟨hm, ?_⟩
        apply Classical.byContradiction
        intro hn
        apply h
        rintro a ⟨z, hz, rfl⟩ rfl
        exact hn ⟨z, (h3 z).1 hz, rfl⟩
      · rintro ⟨_, z, hz, rfl⟩ h
        exact h _ ⟨z, (h3 z).2 hz, rfl⟩ rfl
    · intro hd
      have hn : (v.nodeSet.nodes.map (stringValue E.w)).Nodup := by
        have := hd x l hm e
        rcases h4 with h4 | h4 <;> rw [h4]
        · exact this
        · rw [List.map_reverse]
          exact List.pairwise_reverse.2 (this.imp fun h => h.symm)
      rw [List.length_map]
      have hf := hn.filter (fun t => decide (t = s))
      generalize hl : (v.nodeSet.nodes.map (stringValue E.w)).filter (fun t => decide (t = s)) = L at hf
      have ha : ∀ t ∈ L, t = s := by
        intro t ht
        rw [← hl] at ht
        simpa using (List.mem_filter.1 ht).2
      match L, ha, hf with
      | [], _, _ => simp
      | [a], _, _ => simp
      | a :: b :: L, ha, hf =>
        exfalso
        have h5 := ha a (by simp)
        have h6 := ha b (by simp)
        subst h5; subst h6
        simp at hf
  · refine ⟨m, ⟨0, fun f _ => ?_⟩, id, fun s => ⟨[], by simp, by simp, ?_, by simp⟩⟩
    · simp only [addNode]
      rw [if_neg (fun h => hm ((hs.pattern_iff c x hx).1 h))]
    · simp [hm]

theorem sure_addNodes (hK : Documents E.w K) {d : Decl} {k : KeySpec} (hs : Stands E K d k) (c : Context) :
    ∀ (xs : List XN) (m : NodeMap), (∀ x ∈ xs, NodeIn E.w K x) → InOrder E.w xs →
    ∃ m', Sure (fun f => addNodes E f d c xs m) (m', .val ()) ∧ (AllForward m → AllForward m') ∧
      ∀ s, ∃ l, nodesAt m' s = nodesAt m s ++ l ∧
        (∀ y, y ∈ l ↔ y ∈ xs ∧ k.pattern y ∧ StringsOf E.w E.cv (k.use y) s) ∧ (Distinct E.w k → InOrder E.w l)
  | [], m, _, _ => ⟨m, ⟨0, fun _ _ => rfl⟩, id, fun s => ⟨[], by simp, by simp, fun _ => List.Pairwise.nil⟩⟩
  | x :: xs, m, hx, ho => by
    obtain ⟨m1, ⟨F, hF⟩, h1, h2⟩ := sure_addNode hK hs c x (hx x (.head _)) m
    obtain ⟨hb, ho'⟩ := List.pairwise_cons.1 ho
    obtain ⟨m2, ⟨G, hG⟩, h3, h4⟩ := sure_addNodes hK hs c xs m1 (fun y hy => hx y (.tail _ hy)) ho'
    refine ⟨m2, ⟨max F G, fun f hf => ?_⟩, fun h => h3 (h1 h), fun s => ?_⟩
    · have g1 := hF f (by omega)
      have g2 := hG f (by omega)
      simp only [addNodes] at g1 g2 ⊢
      rw [g1]
      exact g2
    · obtain ⟨l1, e1, a1⟩ := h2 s
      obtain ⟨l2, e2, a2, a3⟩ := h4 s
      refine ⟨l1 ++ l2, by rw [e2, e1, List.append_assoc], fun y => ?_, fun hd => ?_⟩
      · rw [List.mem_append, a2 y, List.mem_cons]
        constructor
        · rintro (h | ⟨g1, g2⟩)
          · have := a1.only y h
            subst this
            exact ⟨.inl rfl, a1.iff.1 (List.ne_nil_of_mem h)⟩
          · exact ⟨.inr g1, g2⟩
        · rintro ⟨rfl | g1, g2⟩
          · left
            obtain ⟨z, hz⟩ := List.exists_mem_of_ne_nil _ (a1.iff.2 g2)
            rwa [← a1.only z hz]
          · exact .inr ⟨g1, g2⟩
      · refine List.pairwise_append.2 ⟨?_, a3 hd, ?_⟩
        · match l1, a1.once hd with
          | [], _ => exact List.Pairwise.nil
          | [a], _ => exact List.pairwise_singleton _ _
          | a :: b :: l, h => simp at h
        · intro a ha b hb'
          rw [a1.only a ha]
          exact hb b ((a2 b).1 hb').1

/-- The map is right. -/
structure MapOk (E : Env) (k : KeySpec) (doc : Nat) (m : NodeMap) : Prop where
  forward : AllForward m
  mem : ∀ s y, y ∈ nodesAt m s ↔ y.1 = doc ∧ XNode (E.w.tree doc) y.2 ∧ k.pattern y ∧ StringsOf E.w E.cv (k.use y) s
  order : Distinct E.w k → ∀ s, InOrder E.w (nodesAt m s)

theorem sure_populate (hK : Documents E.w K) {d : Decl} {k : KeySpec} (hs : Stands E K d k) (c : Context)
    (hc : K (documentOf E c)) : ∃ m, Sure (fun f => populate E f d c) (m, .val ()) ∧ MapOk E k (documentOf E c) m := by
  obtain ⟨l, F, hF, h1, _, h2⟩ := Verif.Props.XPathAxes.C35_partial _ (hK.dom _ hc) (hK.expanded _ hc) [] trivial
    .descendantOrSelf (by simp) (by simp) (by simp)
  have h2 := h2 (by simp [Reverse])
  obtain ⟨m, ⟨G, hG⟩, g1, g2⟩ := sure_addNodes hK hs c (l.map fun r => (documentOf E c, r)) []
    (fun x hx => by obtain ⟨r, hr, rfl⟩ := List.mem_map.1 hx; exact ⟨hc, ((h1 r).1 hr).1⟩)
    (List.pairwise_map.2 (h2.imp (by intro a b h; simp only [DocBefore, if_pos]; exact h)))
  refine ⟨m, ⟨max F G, fun f hf => ?_⟩, g1 (by intro s ns h; cases h), fun s y => ?_, fun hd s => ?_⟩
  · have e1 := hF f (by omega)
    have e2 := hG f (by omega)
    simp only [populate, e1]
    exact e2
  · obtain ⟨l', e, g3, _⟩ := g2 s
    have e' : nodesAt m s = l' := e
    rw [e', g3 y]
    constructor
    · rintro ⟨hy, g⟩
      obtain ⟨r, hr, rfl⟩ := List.mem_map.1 hy
      exact ⟨rfl, ((h1 r).1 hr).1, g⟩
    · rintro ⟨hy, hx, g⟩
      obtain ⟨i, r⟩ := y
      simp only at hy hx
      subst hy
      refine ⟨List.mem_map.2 ⟨r, (h1 r).2 ⟨hx, ?_⟩, rfl⟩, g⟩
      have hna := hs.noAttributes _ ⟨hc, hx⟩ g.1
      cases r with
      | nil => exact .inl rfl
      | cons st r => exact .inr ⟨⟨st :: r, by simp, by simp⟩, hna⟩
  · obtain ⟨l', e, _, g3⟩ := g2 s
    have e' : nodesAt m s = l' := e
    rw [e']
    exact g3 hd

/-! ## look up -/

def KeyOk (E : Env) (K : Nat → Prop) (k : Key) (sp : KeySpec) : Prop :=
  Stands E K k.decl sp ∧ ∀ doc m, k.cache.lookup doc = some m → MapOk E sp doc m

/-- The nodes found are right. -/
structure FoundOk (E : Env) (sp : KeySpec) (doc : Nat) (s : List Char) (ns : NodeSet) : Prop where
  forward : ns.forward = true ∨ ns.nodes = []
  mem : ∀ y, y ∈ ns.nodes ↔ y.1 = doc ∧ XNode (E.w.tree doc) y.2 ∧ sp.pattern y ∧ StringsOf E.w E.cv (sp.use y) s
  order : Distinct E.w sp → InOrder E.w ns.nodes

theorem MapOk.found {sp : KeySpec} {doc : Nat} {m : NodeMap} (h : MapOk E sp doc m) (s : List Char) :
    FoundOk E sp doc s (m.find s) :=
  ⟨find_forward h.forward s, h.mem s, fun hd => h.order hd s⟩

theorem sure_lookup (hK : Documents E.w K) {k : Key} {sp : KeySpec} (h : KeyOk E K k sp) (s : List Char) (c : Context)
    (hc : K (documentOf E c)) : ∃ k' ns, Sure (fun f => k.lookup E f s c) (k', .val ns) ∧ KeyOk E K k' sp ∧
      FoundOk E sp (documentOf E c) s ns := by
  cases hl : k.cache.lookup (documentOf E c) with
  | some m =>
    refine ⟨k, m.find s, ⟨0, fun f _ => ?_⟩, h, (h.2 _ _ hl).found s⟩
    simp only [Key.lookup, hl]
  | none =>
    obtain ⟨m, ⟨F, hF⟩, h1⟩ := sure_populate hK h.1 c hc
    refine ⟨{ k with cache := (documentOf E c, m) :: k.cache }, m.find s, ⟨F, fun f hf => ?_⟩, ⟨h.1, ?_⟩, h1.found s⟩
    · have := hF f hf
      simp only [Key.lookup, hl]
      simp only at this
      rw [this]
    · intro doc m' e
      simp only [List.lookup] at e
      by_cases hd : doc = documentOf E c
      · subst hd
        simp only [beq_self_eq_true] at e
        cases e
        exact h1
      · have : (doc == documentOf E c) = false := by simpa using hd
        rw [this] at e
        exact h.2 doc m' e

/-- Keys and what they stand for, one by one. -/
inductive AllOk (E : Env) (K : Nat → Prop) : List Key → List KeySpec → Prop where
  | nil : AllOk E K [] []
  | cons (k : Key) (sp : KeySpec) (ks : List Key) (sps : List KeySpec) (h : KeyOk E K k sp) (rest : AllOk E K ks sps) :
      AllOk E K (k :: ks) (sp :: sps)

/-- Nodes of a document by a condition. -/
def Of (E : Env) (doc : Nat) (P : XN → Prop) (y : XN) : Prop := y.1 = doc ∧ XNode (E.w.tree doc) y.2 ∧ P y

theorem of_in {doc : Nat} (hd : K doc) {P : XN → Prop} {y : XN} (h : Of E doc P y) : NodeIn E.w K y := by
  obtain ⟨rfl, h, _⟩ := h
  exact ⟨hd, h⟩

/-- One more piece at the end. -/
theorem inv_append (hw : Forest E.w) (hK : Documents E.w K) (hsrt : StdSort (nodesLessThan E.w) E.srt) {ns : NodeSet}
    (h : NSInv E.w (NodeIn E.w K) ns) (xs : List XN) (hx : ∀ x ∈ xs, NodeIn E.w K x) :
    NSInv E.w (NodeIn E.w K) (ns.insert ns.nodes.length xs) ∧
      ∀ x, x ∈ (ns.insert ns.nodes.length xs).nodes ↔ x ∈ ns.nodes ∨ x ∈ xs := by
  obtain ⟨h1, h2⟩ := inv_step hw (usual hK) hsrt h (.insert ns.nodes.length xs)
    (fun x hx' => hx x (by simpa [added] using hx'))
  refine ⟨h1, fun x => ?_⟩
  have := h2 x
  simp only [NodeSet.step] at this
  simpa [added] using this

/-- Among the keys of the list one that gives the node. -/
def Any (E : Env) (sps : List KeySpec) (s : List Char) (y : XN) : Prop :=
  ∃ sp ∈ sps, sp.pattern y ∧ StringsOf E.w E.cv (sp.use y) s

theorem sure_lookupAll (hw : Forest E.w) (hK : Documents E.w K) (hsrt : StdSort (nodesLessThan E.w) E.srt)
    (s : List Char) (c : Context) (hc : K (documentOf E c)) {ks : List Key} {sps : List KeySpec} (h : AllOk E K ks sps) :
    ∀ (ns : NodeSet), NSInv E.w (NodeIn E.w K) ns → ∃ ks' ns', Sure (fun f => lookupAll E f s c ks ns) (ks', .val ns') ∧
      AllOk E K ks' sps ∧ NSInv E.w (NodeIn E.w K) ns' ∧
      ∀ y, y ∈ ns'.nodes ↔ y ∈ ns.nodes ∨ Of E (documentOf E c) (Any E sps s) y := by
  induction h with
  | nil =>
    intro ns hn
    refine ⟨[], ns, ⟨0, fun _ _ => rfl⟩, .nil, hn, fun y => ?_⟩
    simp [Of, Any]
  | cons k sp ks sps hk _ ih =>
    intro ns hn
    obtain ⟨k', ns1, ⟨F, hF⟩, g1, g2⟩ := sure_lookup hK hk s c hc
    have hin : ∀ x ∈ ns1.nodes, NodeIn E.w K x := by
      intro x hx
      obtain ⟨e, hx, _⟩ := (g2.mem x).1 hx
      exact ⟨by rw [e]; exact hc, by rw [e]; exact hx⟩
    obtain ⟨i1, i2⟩ := inv_append hw hK hsrt hn ns1.nodes hin
    obtain ⟨ks', ns2, ⟨G, hG⟩, g3, g4, g5⟩ := ih _ i1
    refine ⟨k' :: ks', ns2, ⟨max F G, fun f hf => ?_⟩, .cons _ _ _ _ g1 g3, g4, fun y => ?_⟩
    · have e1 := hF f (by omega)
      have e2 := hG f (by omega)
      simp only at e1 e2
      simp only [lookupAll, e1, e2]
    · rw [g5, i2, g2.mem, or_assoc]
      refine or_congr Iff.rfl ?_
      constructor
      · rintro (⟨a, b, h⟩ | ⟨a, b, sp', m, h⟩)
        · exact ⟨a, b, sp, .head _, h⟩
        · exact ⟨a, b, sp', .tail _ m, h⟩
      · rintro ⟨a, b, sp', m, h⟩
        rcases List.mem_cons.1 m with rfl | m
        · exact .inl ⟨a, b, h⟩
        · exact .inr ⟨a, b, sp', m, h⟩

/-- What comes out of a look up. -/
structure Result (E : Env) (doc : Nat) (P : XN → Prop) (sps : List KeySpec) (ns : NodeSet) : Prop where
  forward : ns.forward = true ∨ ns.nodes = []
  mem : ∀ y, y ∈ ns.nodes ↔ Of E doc P y
  order : (∀ sp ∈ sps, Distinct E.w sp) → InOrder E.w ns.nodes

theorem ordered_result (hw : Forest E.w) (hK : Documents E.w K) (hsrt : StdSort (nodesLessThan E.w) E.srt) {ns : NodeSet}
    (h : NSInv E.w (NodeIn E.w K) ns) {doc : Nat} {P : XN → Prop} (sps : List KeySpec)
    (hm : ∀ y, y ∈ ns.nodes ↔ Of E doc P y) : Result E doc P sps (ns.toDocumentOrder E.srt) := by
  obtain ⟨h1, _, h3, h4⟩ := docOrder_spec hw (usual hK) hsrt h
  exact ⟨.inl h1, fun y => (h4 y).trans (hm y), fun _ => h3⟩

theorem inv_empty : NSInv E.w (NodeIn E.w K) {} := ⟨by simp, by simp⟩

theorem sure_many (hw : Forest E.w) (hK : Documents E.w K) (hsrt : StdSort (nodesLessThan E.w) E.srt)
    (s : List Char) (c : Context) (hc : K (documentOf E c)) {ks : List Key} {sps : List KeySpec} (h : AllOk E K ks sps)
    (hl : ∀ k, ks ≠ [k]) : ∃ ks' ns, Sure (fun f => lookupIn E f s c ks) (ks', .val ns) ∧
      AllOk E K ks' sps ∧ Result E (documentOf E c) (Any E sps s) sps ns := by
  obtain ⟨ks', ns', ⟨F, hF⟩, h1, h2, h3⟩ := sure_lookupAll hw hK hsrt s c hc h {} inv_empty
  refine ⟨ks', ns'.toDocumentOrder E.srt, ⟨F, fun f hf => ?_⟩, h1, ordered_result hw hK hsrt h2 sps (by simpa using h3)⟩
  have e := hF f hf
  simp only at e
  match ks, hl with
  | [], _ => simp only [lookupIn, e]; rfl
  | [k], hl => exact absurd rfl (hl k)
  | a :: b :: l, _ => simp only [lookupIn, e]; rfl

theorem sure_lookupIn (hw : Forest E.w) (hK : Documents E.w K) (hsrt : StdSort (nodesLessThan E.w) E.srt)
    (s : List Char) (c : Context) (hc : K (documentOf E c)) {ks : List Key} {sps : List KeySpec} (h : AllOk E K ks sps) :
    ∃ ks' ns, Sure (fun f => lookupIn E f s c ks) (ks', .val ns) ∧
      AllOk E K ks' sps ∧ Result E (documentOf E c) (Any E sps s) sps ns := by
  cases h with
  | nil => exact sure_many hw hK hsrt s c hc .nil (by simp)
  | cons k sp ks sps hk rest =>
    cases rest with
    | nil =>
      obtain ⟨k', ns, ⟨F, hF⟩, h1, h2⟩ := sure_lookup hK hk s c hc
      refine ⟨[k'], ns, ⟨F, fun f hf => ?_⟩, .cons _ _ _ _ h1 .nil, h2.forward, fun y => ?_, fun hd => h2.order (hd sp (.head _))⟩
      · have e := hF f hf
        simp only at e
        simp only [lookupIn, e]
      · rw [h2.mem]
        constructor
        · rintro ⟨a, b, h⟩; exact ⟨a, b, sp, .head _, h⟩
        · rintro ⟨a, b, sp', m, h⟩
          cases List.mem_singleton.1 m
          exact ⟨a, b, h⟩
    | cons k2 sp2 ks sps hk2 rest => exact sure_many hw hK hsrt s c hc (.cons _ _ _ _ hk (.cons _ _ _ _ hk2 rest)) (by simp)

/-! ## all keys -/

def named (sps : List KeySpec) (n : List Char) : List KeySpec := sps.filter fun sp => sp.name = n

/-- The keys of the stylesheet, at any time. -/
def KeysOk (E : Env) (K : Nat → Prop) (keys : Keys) (sps : List KeySpec) : Prop :=
  ∀ n, match List.lookup n keys with
    | none => named sps n = []
    | some l => AllOk E K l (named sps n)

theorem allOk_append {l : List Key} {sps : List KeySpec} (h : AllOk E K l sps) {k : Key} {sp : KeySpec}
    (hk : KeyOk E K k sp) : AllOk E K (l ++ [k]) (sps ++ [sp]) := by
  induction h with
  | nil => exact .cons _ _ _ _ hk .nil
  | cons a b l sps h _ ih => exact .cons _ _ _ _ h ih

theorem add_lookup (keys : Keys) (name n : List Char) (k : Key) :
    List.lookup n (keys.add name k) =
      if n = name then some ((List.lookup name keys).getD [] ++ [k]) else List.lookup n keys := by
  induction keys with
  | nil =>
    by_cases h : n = name
    · subst h; simp [Keys.add]
    · have h2 : (n == name) = false := by simpa using h
      simp only [Keys.add, List.lookup, h2, if_neg h]
  | cons p keys ih =>
    obtain ⟨i, l⟩ := p
    simp only [Keys.add]
    by_cases hi : i = name
    · subst hi
      rw [if_pos rfl]
      by_cases h : n = i
      · subst h; simp
      · have h2 : (n == i) = false := by simpa using h
        simp only [List.lookup, h2, if_neg h]
    · rw [if_neg hi]
      by_cases h : n = i
      · subst h; simp [hi]
      · have h2 : (n == i) = false := by simpa using h
        have h3 : (name == i) = false := by simpa using fun e => hi e.symm
        simp only [List.lookup, h2, h3]
        exact ih

theorem set_lookup (keys : Keys) (name n : List Char) (l : List Key) :
    List.lookup n (keys.set name l) =
      if n = name then (List.lookup name keys).map (fun _ => l) else List.lookup n keys := by
  induction keys with
  | nil => by_cases h : n = name <;> simp [Keys.set, List.lookup]
  | cons p keys ih =>
    obtain ⟨i, l'⟩ := p
    simp only [Keys.set]
    by_cases hi : i = name
    · subst hi
      rw [if_pos rfl]
      by_cases h : n = i
      · subst h; simp
      · have h2 : (n == i) = false := by simpa using h
        simp only [List.lookup, h2, if_neg h]
    · rw [if_neg hi]
      by_cases h : n = i
      · subst h; simp [hi]
      · have h2 : (n == i) = false := by simpa using h
        have h3 : (name == i) = false := by simpa using fun e => hi e.symm
        simp only [List.lookup, h2, h3]
        exact ih

theorem add_ok {keys : Keys} {sps : List KeySpec} (h : KeysOk E K keys sps) {d : Decl} {sp : KeySpec}
    (hd : Stands E K d sp) : KeysOk E K (keys.add sp.name { decl := d }) (sps ++ [sp]) := by
  have hk : KeyOk E K { decl := d } sp := ⟨hd, fun doc m e => by cases e⟩
  intro n
  have hn := h n
  rw [add_lookup]
  by_cases he : n = sp.name
  · subst he
    rw [if_pos rfl]
    have e : named (sps ++ [sp]) sp.name = named sps sp.name ++ [sp] := by simp [named]
    simp only [e]
    cases hl : List.lookup sp.name keys with
    | none =>
      rw [hl] at hn
      simp only at hn
      rw [hn]
      exact .cons _ _ _ _ hk .nil
    | some l =>
      rw [hl] at hn
      exact allOk_append hn hk
  · have e : named (sps ++ [sp]) n = named sps n := by
      have : ¬ sp.name = n := fun e => he e.symm
      simp [named, this]
    rw [if_neg he, e]
    exact hn

theorem declare_ok {ds : List (List Char × Decl)} {sps : List KeySpec} (h : Declares E K ds sps) :
    KeysOk E K (declare ds) sps := by
  have : ∀ (keys : Keys) (sps0 : List KeySpec), KeysOk E K keys sps0 →
      KeysOk E K (ds.foldl (fun ks d => ks.add d.1 { decl := d.2 }) keys) (sps0 ++ sps) := by
    induction h with
    | nil => intro keys sps0 h; simpa using h
    | cons d sp ds sps hd _ ih =>
      intro keys sps0 h
      have := ih _ _ (add_ok h hd)
      simpa using this
  exact this [] [] (fun n => rfl)

theorem any_named (sps : List KeySpec) (n s : List Char) (y : XN) : Any E (named sps n) s y ↔
    ∃ sp ∈ sps, sp.name = n ∧ sp.pattern y ∧ StringsOf E.w E.cv (sp.use y) s := by
  constructor
  · rintro ⟨sp, m, h⟩
    obtain ⟨m, e⟩ := List.mem_filter.1 m
    exact ⟨sp, m, by simpa using e, h⟩
  · rintro ⟨sp, m, e, h⟩
    exact ⟨sp, List.mem_filter.2 ⟨m, by simpa using e⟩, h⟩

theorem sure_keys (hw : Forest E.w) (hK : Documents E.w K) (hsrt : StdSort (nodesLessThan E.w) E.srt)
    {keys : Keys} {sps : List KeySpec} (h : KeysOk E K keys sps) (n s : List Char) (hn : ∃ sp ∈ sps, sp.name = n)
    (c : Context) (hc : K (documentOf E c)) :
    ∃ keys' ns, Sure (fun f => keys.lookup E f n s c) (keys', .val ns) ∧ KeysOk E K keys' sps ∧
      Result E (documentOf E c) (Any E (named sps n) s) (named sps n) ns := by
  have hl := h n
  cases e : List.lookup n keys with
  | none =>
    rw [e] at hl
    obtain ⟨sp, m, hs⟩ := hn
    have : sp ∈ named sps n := List.mem_filter.2 ⟨m, by simpa using hs⟩
    simp only at hl
    rw [hl] at this
    cases this
  | some l =>
    rw [e] at hl
    obtain ⟨l', ns, ⟨F, hF⟩, h1, h2⟩ := sure_lookupIn hw hK hsrt s c hc hl
    refine ⟨keys.set n l', ns, ⟨F, fun f hf => ?_⟩, fun n' => ?_, h2⟩
    · have := hF f hf
      simp only at this
      simp only [Keys.lookup, e, this]
    · rw [set_lookup]
      by_cases he : n' = n
      · subst he
        rw [if_pos rfl, e]
        exact h1
      · rw [if_neg he]
        exact h n'

theorem sure_union (hw : Forest E.w) (hK : Documents E.w K) (hsrt : StdSort (nodesLessThan E.w) E.srt)
    {sps : List KeySpec} (n : List Char) (hn : ∃ sp ∈ sps, sp.name = n) (c : Context) (hc : K (documentOf E c)) :
    ∀ (ys : List XN) (keys : Keys) (ns : NodeSet), (∀ y ∈ ys, NodeIn E.w K y) → KeysOk E K keys sps →
      NSInv E.w (NodeIn E.w K) ns →
      ∃ keys' ns', Sure (fun f => unionLoop E f n c ys keys ns) (keys', .val ns') ∧ KeysOk E K keys' sps ∧
        NSInv E.w (NodeIn E.w K) ns' ∧ ∀ z, z ∈ ns'.nodes ↔ z ∈ ns.nodes ∨
          Of E (documentOf E c) (fun z => ∃ y ∈ ys, Any E (named sps n) (stringValue E.w y) z) z
  | [], keys, ns, _, hk, hi => ⟨keys, ns, ⟨0, fun _ _ => rfl⟩, hk, hi, by simp [Of]⟩
  | y :: ys, keys, ns, hy, hk, hi => by
    obtain ⟨F1, h1⟩ := stringOf_ends hK (hy y (.head _))
    obtain ⟨keys1, ns1, ⟨F2, h2⟩, h3, h4⟩ := sure_keys hw hK hsrt hk n (stringValue E.w y) hn c hc
    obtain ⟨i1, i2⟩ := inv_append hw hK hsrt hi ns1.nodes (fun x hx => of_in hc ((h4.mem x).1 hx))
    obtain ⟨keys2, ns2, ⟨F3, h5⟩, h6, h7, h8⟩ := sure_union hw hK hsrt n hn c hc ys keys1 _
      (fun z hz => hy z (.tail _ hz)) h3 i1
    refine ⟨keys2, ns2, ⟨max F1 (max F2 F3), fun f hf => ?_⟩, h6, h7, fun z => ?_⟩
    · have e1 := h1 f (by omega)
      have e2 := h2 f (by omega)
      have e3 := h5 f (by omega)
      simp only at e1 e2 e3
      simp only [unionLoop, e1, e2, e3]
    · rw [h8, i2, h4.mem, or_assoc]
      refine or_congr Iff.rfl ?_
      constructor
      · rintro (⟨a, b, h⟩ | ⟨a, b, y', m, h⟩)
        · exact ⟨a, b, y, .head _, h⟩
        · exact ⟨a, b, y', .tail _ m, h⟩
      · rintro ⟨a, b, y', m, h⟩
        rcases List.mem_cons.1 m with rfl | m
        · exact .inl ⟨a, b, h⟩
        · exact .inr ⟨a, b, y', m, h⟩

theorem Result.congr {doc : Nat} {P Q : XN → Prop} {sps : List KeySpec} {ns : NodeSet} (h : Result E doc P sps ns)
    (e : ∀ y, P y ↔ Q y) : Result E doc Q sps ns :=
  ⟨h.forward, fun y => (h.mem y).trans (and_congr Iff.rfl (and_congr Iff.rfl (e y))), h.order⟩

theorem sure_key (hw : Forest E.w) (hK : Documents E.w K) (hsrt : StdSort (nodesLessThan E.w) E.srt)
    {keys : Keys} {sps : List KeySpec} (h : KeysOk E K keys sps) (x : XN) (c : Context) (hc : K (documentOf E c))
    (n : List Char) (hn : ∃ sp ∈ sps, sp.name = n) {a : XVal} {v : Val} (ha : Rep E.w K a v) :
    ∃ keys' ns, Sure (fun f => keyFunction E f keys x c n a) (keys', .val ns) ∧ KeysOk E K keys' sps ∧
      Result E (documentOf E c) (fun y => ∃ sp ∈ sps, sp.name = n ∧ sp.pattern y ∧
        ∃ s, StringsOf E.w E.cv (sp.use y) s ∧ StringsOf E.w E.cv v s) (named sps n) ns := by
  have plain : ∀ (h1 : ∀ f, keyFunction E f keys x c n a = match a.string E f with
        | .val id => keys.lookup E f n id c
        | r => (keys, r.bind fun _ => .undefined)) (h2 : ∀ s, StringsOf E.w E.cv v s ↔ s = toString E.w E.cv v),
      ∃ keys' ns, Sure (fun f => keyFunction E f keys x c n a) (keys', .val ns) ∧ KeysOk E K keys' sps ∧
        Result E (documentOf E c) (fun y => ∃ sp ∈ sps, sp.name = n ∧ sp.pattern y ∧
          ∃ s, StringsOf E.w E.cv (sp.use y) s ∧ StringsOf E.w E.cv v s) (named sps n) ns := by
    intro h1 h2
    obtain ⟨F, hF⟩ := string_ends hK ha
    obtain ⟨keys', ns, ⟨G, hG⟩, h3, h4⟩ := sure_keys hw hK hsrt h n (toString E.w E.cv v) hn c hc
    refine ⟨keys', ns, ⟨max F G, fun f hf => ?_⟩, h3, h4.congr fun y => ?_⟩
    · have e1 := hF f (by omega)
      have e2 := hG f (by omega)
      simp only at e1 e2
      simp only [h1, e1, e2]
    · rw [any_named]
      constructor
      · rintro ⟨sp, m, a, b, d⟩; exact ⟨sp, m, a, b, _, d, (h2 _).2 rfl⟩
      · rintro ⟨sp, m, a, b, s, d, e⟩
        rw [(h2 s).1 e] at d
        exact ⟨sp, m, a, b, d⟩
  rcases rep_cases ha with ⟨b, rfl, rfl⟩ | ⟨q, rfl, rfl⟩ | ⟨s, rfl, rfl⟩ | ⟨ns, l, rfl, rfl, hs, _, hl⟩
  · exact plain (fun f => rfl) (fun s => Iff.rfl)
  · exact plain (fun f => rfl) (fun s => Iff.rfl)
  · exact plain (fun f => rfl) (fun s => Iff.rfl)
  · have hm : ∀ z, z ∈ ns.nodes ↔ z ∈ l := (shows_nodes (m := .nodes ns) hs).1
    obtain ⟨keys', ns', ⟨F, hF⟩, h1, h2, h3⟩ := sure_union hw hK hsrt n hn c hc ns.nodes keys {}
      (fun y hy => hl y ((hm y).1 hy)) h inv_empty
    refine ⟨keys', ns'.toDocumentOrder E.srt, ⟨F, fun f hf => ?_⟩, h1,
      (ordered_result (P := fun z => ∃ y ∈ ns.nodes, Any E (named sps n) (stringValue E.w y) z) hw hK hsrt h2 _
        (fun z => (h3 z).trans (by simp only [List.not_mem_nil, false_or]))).congr fun z => ?_⟩
    · have e := hF f hf
      simp only at e
      simp only [keyFunction, e]
      rfl
    · constructor
      · rintro ⟨y, hy, g⟩
        obtain ⟨sp, m, a, b, d⟩ := (any_named _ _ _ _).1 g
        exact ⟨sp, m, a, b, _, d, y, (hm y).1 hy, rfl⟩
      · rintro ⟨sp, m, a, b, s, d, y, hy, rfl⟩
        exact ⟨y, (hm y).2 hy, (any_named _ _ _ _).2 ⟨sp, m, a, b, d⟩⟩

end

end Verif.XsltKey
