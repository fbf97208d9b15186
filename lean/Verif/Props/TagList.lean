import Verif.Lemmas.TagList3
import Verif.Props.Dom
set_option autoImplicit false
set_option linter.unusedSimpArgs false
set_option linter.unusedVariables false
/-!
# C23: `getElementsByTagName` is live and in document order
-/
namespace Verif.Props.TagList
open Verif.Dom
open Verif.TagList
open Verif.Spec.TagList
open Verif.Spec.Dom (Anc)

/-- The specification leaves no choice: at most one list is right. -/
theorem C23_unique {s : St} (h : Reach selfDoc s) {deep : Bool} {nm : Dom.Id → Name} {root : Dom.Id} {q : Query}
    {l l' : List Dom.Id} (h1 : Lists deep s nm root q l) (h2 : Lists deep s nm root q l') : l = l' :=
  lists_unique (reach_inv h) h1 h2

/-- After any history of edits and queries, `getLength` gives the number of elements with the name that
are now below the node, and `item` asked after it gives each of them, in document order, and null beyond
the end.  Missing from the property: the elements inside entity references, prefixes that change under a
list by tag name, and lists of the elements without namespace. -/
theorem C23_getLength_partial {w : World} (h : Hist byNamespace w) (hq : ∀ l, w.list.query ≠ .ns [] l)
    (hl : live w.s w.list.root = true) (hc : w.s.changes w.list.doc < 2 ^ 64) :
    ∃ (l : List Dom.Id) (L : TagList), Lists false w.s w.nm w.list.root w.list.query l ∧
      getLength w.s w.nm w.list = (L, .ok l.length) ∧ ∀ i, (item w.s w.nm L i).2 = .ok l[i]? := by
  have hg := hist_good h
  have after : ∀ (L : TagList), (stale w.s L = true → live w.s L.root = true ∧ populate w.s w.nm L = L) →
      ∀ i, (item w.s w.nm L i).2 = .ok L.nodes[i]? := by
    intro L hL i
    unfold item
    by_cases h0 : L.nodes.length ≤ i
    · rw [if_pos h0, List.getElem?_eq_none h0]
    · rw [if_neg h0]
      by_cases h1 : stale w.s L = true
      · obtain ⟨a, b⟩ := hL h1
        rw [if_pos h1, if_pos a]
        simp only [b]
        exact at_eq (by omega)
      · rw [if_neg h1]; exact at_eq (by omega)
  unfold getLength
  by_cases h1 : stale w.s w.list = true
  · rw [if_pos h1, if_pos hl]
    refine ⟨_, _, visit_lists hg.inv.inv w.nm hq hg.lt, rfl, ?_⟩
    exact after (populate w.s w.nm w.list) (fun _ => ⟨hl, rfl⟩)
  · rw [if_neg h1]
    exact ⟨_, _, hg.fresh hq hc h1, rfl, after w.list (fun t => absurd t h1)⟩

/-- After any history, `item` gives the right node, or null for an index that was beyond the end when the
list was last brought up to date, or reads past the end for an index that is beyond the end now. -/
theorem C23_item_partial {w : World} (h : Hist byNamespace w) (hq : ∀ l, w.list.query ≠ .ns [] l)
    (hl : live w.s w.list.root = true) (hc : w.s.changes w.list.doc < 2 ^ 64) (i : Nat) :
    ∃ l : List Dom.Id, Lists false w.s w.nm w.list.root w.list.query l ∧
      ((item w.s w.nm w.list i).2 = .ok l[i]? ∨
       (w.list.nodes.length ≤ i ∧ (item w.s w.nm w.list i).2 = .ok none) ∨
       (l.length ≤ i ∧ (item w.s w.nm w.list i).2 = .ub)) := by
  have hg := hist_good h
  have hv := visit_lists hg.inv.inv w.nm hq hg.lt
  refine ⟨_, hv, ?_⟩
  unfold item
  by_cases h0 : w.list.nodes.length ≤ i
  · rw [if_pos h0]; exact Or.inr (Or.inl ⟨h0, rfl⟩)
  · rw [if_neg h0]
    by_cases h1 : stale w.s w.list = true
    · rw [if_pos h1, if_pos hl]
      by_cases h2 : i < (visit w.s w.nm w.list.query (w.s.size + 1) w.list.root).length
      · exact Or.inl (at_eq h2)
      · exact Or.inr (Or.inr ⟨by omega, at_ub (by simp only [populate]; omega)⟩)
    · rw [if_neg h1]
      have := lists_unique hg.inv.inv (hg.fresh hq hc h1) hv
      rw [← this]
      exact Or.inl (at_eq (by omega))

/-- A node that `item` gives is always the right one. -/
theorem C23_item_node {w : World} (h : Hist byNamespace w) (hq : ∀ l, w.list.query ≠ .ns [] l)
    (hl : live w.s w.list.root = true) (hc : w.s.changes w.list.doc < 2 ^ 64) {i : Nat} {n : Dom.Id}
    (hi : (item w.s w.nm w.list i).2 = .ok (some n)) :
    ∃ l : List Dom.Id, Lists false w.s w.nm w.list.root w.list.query l ∧ l[i]? = some n := by
  obtain ⟨l, h1, h2⟩ := C23_item_partial h hq hl hc i
  refine ⟨l, h1, ?_⟩
  rw [hi] at h2
  rcases h2 with h2 | ⟨_, h2⟩ | ⟨_, h2⟩
  · exact (Res.ok.inj h2).symm
  · cases h2
  · cases h2

/-! ## examples and counterexamples -/

def names : Dom.Id → Name := fun n => ⟨['p', ':', 'a'], some ['u'], ['a']⟩

/-- A document with the elements 1 and, in it, 2 and 3; then a list is made, 2 is removed and 4 put into 3. -/
def before : List Op :=
  [.newDocument, .create 0 .element [], .create 0 .element [], .create 0 .element [], .create 0 .element [],
   .insertBefore 0 1 none, .insertBefore 1 2 none, .insertBefore 1 3 none]

def s1 : St := runOps before empty

theorem s1_reach : Reach selfDoc s1 :=
  Dom.reach_mono (fun _ _ h => Or.inl h) (Dom.reach_run Dom.bad _ _ .empty (by decide +kernel))

def L1 (q : Query) : TagList := Verif.TagList.make s1 names 0 0 q

theorem h1 (ren : Query → Prop) (q : Query) : Hist ren ⟨s1, names, L1 q⟩ :=
  .make s1 names 0 0 q s1_reach (by decide +kernel) (Or.inr (by decide +kernel)) (by decide +kernel)

def succeeds (s : St) (op : Op) : Bool :=
  match step s op with
  | .ok _ _ => true
  | _ => false

/-- One more call. -/
theorem more {ren : Query → Prop} {w : World} (h : Hist ren w) (op : Op) (hb : ¬ selfDoc w.s op)
    (ho : succeeds w.s op = true) :
    Hist ren ⟨runOps [op] w.s, w.nm, w.list⟩ := by
  unfold runOps
  unfold succeeds at ho
  cases he : step w.s op with
  | ok s' u => exact .ok w op s' w.nm h hb he (fun _ _ => rfl)
  | err e s' => rw [he] at ho; cases ho
  | diverges => rw [he] at ho; cases ho
  | ub => rw [he] at ho; cases ho

def s2 : St := runOps [.removeChild 1 (some 2)] s1
def s3 : St := runOps [.insertBefore 3 4 none] s2
def s4 : St := runOps [.insertBefore 3 4 none] s1

theorem h2 (ren : Query → Prop) (q : Query) : Hist ren ⟨s2, names, L1 q⟩ :=
  more (h1 ren q) _ (by intro t; cases t) (show succeeds s1 (.removeChild 1 (some 2)) = true by decide +kernel)

theorem h3 (ren : Query → Prop) (q : Query) : Hist ren ⟨s3, names, L1 q⟩ :=
  more (h2 ren q) _ (by rintro ⟨t, _⟩; cases t) (show succeeds s2 (.insertBefore 3 4 none) = true by decide +kernel)

theorem h4 (ren : Query → Prop) (q : Query) : Hist ren ⟨s4, names, L1 q⟩ :=
  more (h1 ren q) _ (by rintro ⟨t, _⟩; cases t) (show succeeds s1 (.insertBefore 3 4 none) = true by decide +kernel)

/-- The theorems apply to the history: the list made as 1, 2, 3 is found to be 1, 3, 4. -/
example : (L1 (.tag ['*'])).nodes = [1, 2, 3] ∧
    (getLength s3 names (L1 (.tag ['*']))).2 = .ok 3 ∧ (getLength s3 names (L1 (.tag ['*']))).1.nodes = [1, 3, 4] ∧
    (item s3 names (L1 (.tag ['*'])) 1).2 = .ok (some 3) ∧ live s3 0 = true ∧ s3.changes 0 < 2 ^ 64 := by
  decide +kernel

example : (L1 (.ns ['u'] ['a'])).nodes = [1, 2, 3] ∧ (L1 (.ns ['*'] ['b'])).nodes = [] ∧
    (L1 (.tag ['p', ':', 'a'])).nodes = [1, 2, 3] ∧ (L1 (.tag ['a'])).nodes = [] := by
  decide +kernel

/-- The property fails: an element that has come at the end since the list was last brought up to date is
not found. -/
theorem C23_violated_grown : ∃ (w : World) (l : List Dom.Id) (i : Nat), Hist byNamespace w ∧
    live w.s w.list.root = true ∧ Lists false w.s w.nm w.list.root w.list.query l ∧ i < l.length ∧
    (item w.s w.nm w.list i).2 = .ok none := by
  have hh := h4 byNamespace (.tag ['*'])
  refine ⟨⟨s4, names, L1 (.tag ['*'])⟩, _, 3, hh, by decide +kernel,
    visit_lists (hist_good hh).inv.inv names (by intro l e; cases e) (by decide +kernel), by decide +kernel, by decide +kernel⟩

/-- The property fails: with an element gone since then, `item` reads past the end of its array. -/
theorem C23_violated_shrunk : ∃ (w : World) (l : List Dom.Id) (i : Nat), Hist byNamespace w ∧
    live w.s w.list.root = true ∧ Lists false w.s w.nm w.list.root w.list.query l ∧ l.length ≤ i ∧
    (item w.s w.nm w.list i).2 = .ub := by
  have hh := h2 byNamespace (.tag ['*'])
  refine ⟨⟨s2, names, L1 (.tag ['*'])⟩, _, 2, hh, by decide +kernel,
    visit_lists (hist_good hh).inv.inv names (by intro l e; cases e) (by decide +kernel), by decide +kernel, by decide +kernel⟩

/-- The property fails: `setPrefix` renames an element, and the list does not notice. -/
theorem C23_violated_prefix : ∃ (w : World) (l : List Dom.Id), Hist (fun _ => True) w ∧
    live w.s w.list.root = true ∧ Lists false w.s w.nm w.list.root w.list.query l ∧
    (getLength w.s w.nm w.list).2 ≠ .ok l.length := by
  have hh := h1 (fun _ => True) (.tag ['p', ':', 'a'])
  have hi := (hist_good (h1 byNamespace (.tag ['*']))).inv.inv
  let nm' := upd names 2 { names 2 with nodeName := ['q', ':', 'a'] }
  refine ⟨⟨s1, nm', L1 (.tag ['p', ':', 'a'])⟩, _, .setPrefix _ 2 ['q'] nm' hh trivial (by
      show setPrefix s1 names 2 ['q'] = some nm'
      unfold setPrefix
      rw [if_neg (by decide +kernel)]
      rfl), by decide +kernel, visit_lists hi nm' (by intro l e; cases e) (by decide +kernel), by decide +kernel⟩

/-- The property fails: an element inside an entity reference is not found. -/
theorem C23_violated_entityReference : ∃ (w : World) (x : Dom.Id), Hist byNamespace w ∧
    live w.s w.list.root = true ∧ w.s.kind x = .element ∧ Below w.s w.list.root x ∧ Named w.list.query (w.nm x) ∧
    (getLength w.s w.nm w.list).2 = .ok 1 ∧ (item w.s w.nm w.list 0).2 ≠ .ok (some x) := by
  let ops : List Op := [.newDocument, .create 0 .element [], .create 0 .entityRef [], .create 0 .element [],
    .insertBefore 0 1 none, .insertBefore 1 2 none, .insertBefore 2 3 none]
  have hr : Reach selfDoc (runOps ops empty) :=
    Dom.reach_mono (fun _ _ h => Or.inl h) (Dom.reach_run Dom.bad ops _ .empty (by decide +kernel))
  refine ⟨⟨runOps ops empty, names, Verif.TagList.make (runOps ops empty) names 0 0 (.tag ['*'])⟩, 3,
    .make _ _ _ _ _ hr (by decide +kernel) (Or.inr (by decide +kernel)) (by decide +kernel), by decide +kernel,
    by decide +kernel, ?_, Or.inl rfl, by decide +kernel, by decide +kernel⟩
  exact .above _ 2 _ (by decide +kernel) (.above _ 1 _ (by decide +kernel) (.parent _ _ (by decide +kernel)))

/-- The property fails: the elements without namespace cannot be listed by their local names. -/
theorem C23_violated_noNamespace : ∃ (w : World) (x : Dom.Id), Hist byNamespace w ∧
    live w.s w.list.root = true ∧ w.s.kind x = .element ∧ Below w.s w.list.root x ∧ Named w.list.query (w.nm x) ∧
    (getLength w.s w.nm w.list).2 = .ok 0 := by
  refine ⟨⟨s1, fun _ => ⟨['a'], none, ['a']⟩, Verif.TagList.make s1 (fun _ => ⟨['a'], none, ['a']⟩) 0 0 (.ns [] ['a'])⟩, 1,
    .make _ _ _ _ _ s1_reach (by decide +kernel) (Or.inr (by decide +kernel)) (by decide +kernel), by decide +kernel,
    by decide +kernel, .parent _ _ (by decide +kernel), ⟨Or.inr rfl, Or.inr rfl⟩, by decide +kernel⟩

end Verif.Props.TagList
