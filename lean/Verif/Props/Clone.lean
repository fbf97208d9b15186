import Verif.Lemmas.Clone12
set_option autoImplicit false
set_option linter.unusedSimpArgs false
/-!
# C25: clones and imports
-/
namespace Verif.Props.Clone
open Verif.Clone
open Verif.Dom (Id Str Kind Err)
open Verif.DomNames (NsName plain)

/-- What it is to be a copy apart from everything there was: all nodes there were are as they were; the copy
has no parent and is no attribute of an element; it and all that is within it are new nodes, which belong to
the same document, and nothing that was there leads to any of them. -/
def Apart (s s' : St) (m : Id) : Prop :=
  (∀ i, i < s.base.size → node s' i = node s i) ∧
  s'.base.parent m = none ∧ s'.owner m = none ∧
  (∀ x, Within s' m x → s.base.size ≤ x ∧ x < s'.base.size) ∧
  (∀ n x, n < s.base.size → Within s' n x → ¬ Within s' m x) ∧
  (∀ x y, y ∈ s'.base.kids x → s'.base.parent y = some x)

theorem apart_of {C : Chars} {s s' : St} (h : Good C s) {k : Kind} {d : Option Nat} {m : Nat} (q : Q C s k d s' m) :
    Apart s s' m := by
  have hid := q.id
  have hu : Up m s' := hid ▸ q.up
  have hge : ∀ x, Within s' m x → s.base.size ≤ x := fun x hw => by rw [← hid]; exact within_ge hu hw
  refine ⟨q.low, q.parent, q.owner, fun x hw => ⟨hge x hw, within_lt q.good q.lt hw⟩, ?_, fun x y hy => q.good.dom.inv.child_parent hy⟩
  intro n x hn hw hw2
  exact absurd (within_old h q.low hn hw) (Nat.not_lt.mpr (hge x hw2))

/-- C25: after every history, a node that `cloneNode` gives back is apart from everything there was, and of
the document of the original. -/
theorem C25_clone_apart {C : Chars} {s s' : St} (h : Reach C s) {n m : Id} (hn : n < s.base.size)
    (hk : s.base.kind n ≠ .document) {fuel : Nat} {deep : Bool} (he : cloneNode C fuel s n deep = .ok s' m) :
    Apart s s' m ∧ Reach C s' ∧ s'.base.kind m = s.base.kind n ∧
      (s.base.kind n ≠ .doctype → s'.base.orphan m = true ∧ s.base.doc n ≠ none ∧
        ∀ x, Within s' m x → s'.base.doc x = s.base.doc n) := by
  have hg := reach_good h
  have he' := he
  unfold cloneNode at he'
  rw [if_neg hk] at he'
  have q := copyNode_safe hg hn (fun d t => by cases t) he'
  refine ⟨apart_of hg q, ?_, q.kind, ?_⟩
  · refine Reach.call s s' (.cloneNode n deep) fuel h ?_
    rw [step, if_pos ⟨hn, hk⟩, he]; rfl
  · intro hd
    obtain ⟨d, hd1, _⟩ := goesTo_doc (mode := .clone) hg hn (fun d t => by cases t) hd
    have hd1 : s.base.doc n = some d := hd1
    have hq := q.doc
    unfold docOf at hq
    rw [if_neg hd] at hq
    have hq : s'.base.doc m = s.base.doc n := hq
    refine ⟨q.orphan hd, by rw [hd1]; nofun, ?_⟩
    intro x hw
    rw [hd1] at hq ⊢
    exact within_doc q.good hq hw

/-- C25: the same for `importNode`, whose copies belong to the document it is called on. -/
theorem C25_import_apart {C : Chars} {s s' : St} (h : Reach C s) {d n m : Id} (hn : n < s.base.size)
    (hd : d < s.base.size) (hk : s.base.kind d = .document) {fuel : Nat} {deep : Bool}
    (he : importNode C fuel s d n deep = .ok s' m) :
    Apart s s' m ∧ Reach C s' ∧ s'.base.kind m = s.base.kind n ∧ s'.base.orphan m = true ∧
      ∀ x, Within s' m x → s'.base.doc x = some d := by
  have hg := reach_good h
  have he' := he
  unfold importNode at he'
  have q := copyNode_safe hg hn (fun x t => by cases t; exact ⟨hd, hk⟩) he'
  have hnd : s.base.kind n ≠ .doctype := by
    intro e
    unfold importNode at he
    cases fuel with
    | zero => rw [copyNode] at he; cases he
    | succ f =>
      rw [copyNode, if_neg (by rw [e]; nofun)] at he
      obtain ⟨s1, m1, e1, _⟩ := bind_ok he
      unfold make at e1
      rw [e] at e1
      cases e1
  refine ⟨apart_of hg q, ?_, q.kind, q.orphan hnd, ?_⟩
  · refine Reach.call s s' (.importNode d n deep) fuel h ?_
    rw [step, if_pos (by simp [isKind, hd, hk, hn]), he]; rfl
  · intro x hw
    have hq := q.doc
    unfold docOf at hq
    rw [if_neg hnd] at hq
    exact within_doc q.good hq hw

/-- C25, in part: after every history, `cloneNode` of a node with nothing in the way of a copy succeeds, and
the copy shows what the original shows, all of it if deep, else without the children.  What may be in the
way is in `Copyable`: documents and document types, attributes alike by one of the two ways of
naming, data of processing instructions set to illegal characters, and entity references that are not as a
new one would be. -/
theorem C25_clone_equal_partial {C : Chars} {s : St} (h : Reach C s) {n d : Id} (hn : n < s.base.size)
    (hd : s.base.doc n = some d) {t : Tree} (hs : Shows s t n) (hc : Copyable C (Expansion s d) false t) (deep : Bool) :
    ∃ f0 s' m, (∀ fuel, f0 ≤ fuel → cloneNode C fuel s n deep = .ok s' m) ∧
      Shows s' (if deep then t else t.shallow) m ∧ Shows s' t n := by
  have hg := reach_good h
  have hk : s.base.kind n ≠ .document := by
    rw [shows_kind hs]; cases t; rw [Copyable] at hc; exact hc.1
  have hmo : ModeOk s .clone := fun d t => by cases t
  obtain ⟨f0, s', m, e1, e2, _⟩ := copies C (Expansion s d) t .clone s n d deep hg hn hmo hd hs hc (fun _ _ x => x)
  refine ⟨f0, s', m, ?_, e2, hg.shows_upto (copyNode_safe hg hn hmo (e1 f0 (Nat.le_refl _))).low hn hs⟩
  intro fuel hf
  unfold cloneNode
  rw [if_neg hk]; exact e1 fuel hf

/-- C25, in part: the same for `importNode`.  In the way are here also names made with a namespace and an
empty local name, and in the copies the entity references are those of the document it is called on. -/
theorem C25_import_equal_partial {C : Chars} {s : St} (h : Reach C s) {n d : Id} (hn : n < s.base.size)
    (hd : d < s.base.size) (hk : s.base.kind d = .document) {t : Tree} (hs : Shows s t n)
    (hc : Copyable C (Expansion s d) true t) (deep : Bool) :
    ∃ f0 s' m, (∀ fuel, f0 ≤ fuel → importNode C fuel s d n deep = .ok s' m) ∧
      Shows s' (if deep then t else t.shallow) m ∧ Shows s' t n := by
  have hg := reach_good h
  have hmo : ModeOk s (.into d) := fun x t => by cases t; exact ⟨hd, hk⟩
  obtain ⟨f0, s', m, e1, e2, _⟩ := copies C (Expansion s d) t (.into d) s n d deep hg hn hmo rfl hs hc (fun _ _ x => x)
  exact ⟨f0, s', m, e1, e2, hg.shows_upto (copyNode_safe hg hn hmo (e1 f0 (Nat.le_refl _))).low hn hs⟩

/-- C25: after every history, the clone of a document is apart from everything there was, and all that is
within it belongs to it. -/
theorem C25_document_apart {C : Chars} {s s' : St} (h : Reach C s) {n m : Id} (hn : n < s.base.size)
    (hk : s.base.kind n = .document) {fuel : Nat} {deep : Bool} (he : cloneNode C fuel s n deep = .ok s' m) :
    Apart s s' m ∧ s'.base.kind m = .document ∧ ∀ x, Within s' m x → s'.base.doc x = some m := by
  have hg := reach_good h
  unfold cloneNode at he
  rw [if_pos hk] at he
  have q := cloneDocument_safe hg hn hk he
  have hid := q.id
  have hge : ∀ x, Within s' m x → s.base.size ≤ x := fun x hw => by rw [← hid]; exact within_ge q.up hw
  refine ⟨⟨hid ▸ q.low, q.parent, q.owner, fun x hw => ⟨hge x hw, within_lt q.good q.lt hw⟩, ?_, fun x y hy => q.good.dom.inv.child_parent hy⟩,
    q.kind, fun x hw => within_doc q.good q.doc hw⟩
  intro n x hn hw hw2
  exact absurd (within_old hg (hid ▸ q.low) hn hw) (Nat.not_lt.mpr (hge x hw2))

/-- C25, in part: after every history, the deep clone of a document with nothing in the way of a copy
succeeds and shows first the document type of the original and then all its other children.  In the way are,
beyond what is in the way of an import: a document type among the children that is not the one of the
document, or the reverse, a second element, and entity references with children, as the clone has no
entities. -/
theorem C25_document_equal_partial {C : Chars} {s : St} (h : Reach C s) {n : Id} (hn : n < s.base.size)
    {ts : List Tree} (hs : Shows s (.node .document (plain []) [] [] [] ts) n)
    (hdt : (s.base.kids n).filter (fun c => decide (s.base.kind c = .doctype)) = (s.base.dtype n).toList)
    (hel : (ts.filter Tree.isElem).length ≤ 1)
    (hco : ∀ t ∈ ts, t.notType = true → Copyable C noEntities true t) :
    ∃ f0 s' m, (∀ fuel, f0 ≤ fuel → cloneNode C fuel s n true = .ok s' m) ∧
      Shows s' (.node .document (plain []) [] [] [] (ts.filter (fun t => !t.notType) ++ ts.filter Tree.notType)) m ∧
      Shows s' (.node .document (plain []) [] [] [] ts) n := by
  have hg := reach_good h
  have hs0 := hs
  rw [Shows] at hs
  obtain ⟨hk, _, _, _, _, hks⟩ := hs
  obtain ⟨f0, s', m, e1, e2⟩ := cloneDocument_shows hg hn hk hks hdt hco hel
  have q := cloneDocument_safe hg hn hk (e1 f0 (Nat.le_refl _))
  refine ⟨f0, s', m, ?_, ?_, hg.shows_upto (q.id ▸ q.low) hn hs0⟩
  · intro fuel hf; unfold cloneNode; rw [if_pos hk]; exact e1 fuel hf
  · rw [Shows]
    refine ⟨q.kind, ?_, ?_, ?_, ?_, e2⟩
    · unfold nameOf; rw [q.kind]
    · unfold valueOf; rw [q.kind]
    · unfold idsOf; rw [q.kind]
    · unfold attrsOf; rw [q.good.attrs_nil (by rw [q.kind]; nofun)]; simp only [List.filter_nil, ShowsAll]

/-! ## a history in which everything can be copied -/

def C0 : Chars := ⟨fun c => c != ' ', fun c => decide (32 ≤ c.toNat)⟩

/-- A document with an element that has two attributes and as children a text, a processing instruction and
an entity reference; and a second, empty document. -/
def sample : List (Dom.Op ⊕ Op) :=
  [.inl .newDocument,                                    -- 0
   .inr (.createDocumentType ['r'] [['p']]),             -- 1
   .inl (.insertBefore 0 1 none),
   .inr (.addEntity 1 ['e'] [[]]),                       -- 2
   .inl (.create 0 .text ['h', 'i']),                    -- 3
   .inl (.insertBefore 2 3 none),
   .inr (.createElementNS 0 ['u'] ['p', ':', 'r']),      -- 4
   .inl (.insertBefore 0 4 none),
   .inr (.createAttribute 0 ['a']),                      -- 5
   .inr (.setAttributeNode 4 5),
   .inl (.create 0 .text ['v']),                         -- 6
   .inl (.insertBefore 5 6 none),
   .inr (.createAttributeNS 0 ['u'] ['p', ':', 'b']),    -- 7
   .inr (.setAttributeNodeNS 4 7),
   .inl (.create 0 .text ['t']),                         -- 8
   .inl (.insertBefore 4 8 none),
   .inr (.createPI 0 ['p', 'i'] ['d']),                  -- 9
   .inl (.insertBefore 4 9 none),
   .inr (.createEntityReference 0 ['e']),                -- 10, with 11
   .inl (.insertBefore 4 10 none),
   .inl .newDocument,                                    -- 12
   .inr (.createDocumentType ['r'] []),                  -- 13
   .inl (.insertBefore 12 13 none),
   .inr (.addEntity 13 ['e'] [[]]),                      -- 14
   .inl (.create 12 .text ['h', 'i']),                   -- 15
   .inl (.insertBefore 14 15 none)]

def sampleSt : St := (exec C0 empty sample).getD empty

theorem sample_ok : exec C0 empty sample = some sampleSt := by
  have : (exec C0 empty sample).isSome = true := by decide +kernel
  unfold sampleSt
  cases h : exec C0 empty sample with
  | none => rw [h] at this; cases this
  | some s => rfl

theorem sample_reach : Reach C0 sampleSt := exec_reach sample .empty sample_ok

def textTree (s : Str) : Tree := .node .text (plain []) s [] [] []

def sampleTree : Tree :=
  .node .element ⟨['p', ':', 'r'], true, ['u'], ['p'], ['r']⟩ [] []
    [.node .attr (plain ['a']) [] [] [] [textTree ['v']],
     .node .attr ⟨['p', ':', 'b'], true, ['u'], ['p'], ['b']⟩ [] [] [] []]
    [textTree ['t'], .node .pi (plain ['p', 'i']) ['d'] [] [] [],
     .node .entityRef (plain ['e']) [] [] [] [textTree ['h', 'i']]]

theorem sample_shows : Shows sampleSt sampleTree 4 := by decide +kernel

theorem sample_copyable (imp : Bool) (d : Id) (hd : d = 0 ∨ d = 12) : Copyable C0 (Expansion sampleSt d) imp sampleTree := by
  have he : Expansion sampleSt d ['e'] [textTree ['h', 'i']] := by
    rcases hd with rfl | rfl
    · have e1 : entityNamed sampleSt 0 ['e'] = some 2 := by decide +kernel
      have e2 : sampleSt.base.kids 2 = [3] := by decide +kernel
      unfold Expansion
      rw [e1]
      simp only []
      rw [e2]
      exact ⟨by decide +kernel, trivial⟩
    · have e1 : entityNamed sampleSt 12 ['e'] = some 14 := by decide +kernel
      have e2 : sampleSt.base.kids 14 = [15] := by decide +kernel
      unfold Expansion
      rw [e1]
      simp only []
      rw [e2]
      exact ⟨by decide +kernel, trivial⟩
  simp [sampleTree, textTree, Copyable, CopyableAll, Verif.Clone.Apart, Tree.name, plain, Spec.AttrMap.expanded, C0]
  exact he

/-- The clone of the sample's element. -/
example : ∃ f0 s' m, (∀ fuel, f0 ≤ fuel → cloneNode C0 fuel sampleSt 4 true = .ok s' m) ∧ Shows s' sampleTree m := by
  obtain ⟨f0, s', m, h1, h2, _⟩ := C25_clone_equal_partial sample_reach (n := 4) (d := 0) (by decide +kernel) (by decide +kernel)
    sample_shows (sample_copyable false 0 (.inl rfl)) true
  exact ⟨f0, s', m, h1, h2⟩

/-- Its import into the second document. -/
example : ∃ f0 s' m, (∀ fuel, f0 ≤ fuel → importNode C0 fuel sampleSt 12 4 true = .ok s' m) ∧ Shows s' sampleTree m := by
  obtain ⟨f0, s', m, h1, h2, _⟩ := C25_import_equal_partial sample_reach (n := 4) (d := 12) (by decide +kernel) (by decide +kernel)
    (by decide +kernel) sample_shows (sample_copyable true 12 (.inr rfl)) true
  exact ⟨f0, s', m, h1, h2⟩

/-- A document with its type between a comment and an element. -/
def docSample : List (Dom.Op ⊕ Op) :=
  [.inl .newDocument, .inl (.create 0 .comment ['c']), .inl (.insertBefore 0 1 none),
   .inr (.createDocumentType ['r'] [['p']]), .inl (.insertBefore 0 2 none),
   .inr (.createElement 0 ['r']), .inl (.insertBefore 0 3 none), .inl (.create 0 .text ['t']), .inl (.insertBefore 3 4 none)]

def docType : Tree := .node .doctype (plain ['r']) [] [['p']] [] []
def docComment : Tree := .node .comment (plain []) ['c'] [] [] []
def docElement : Tree := .node .element (plain ['r']) [] [] [] [textTree ['t']]

/-- Its clone has the type first. -/
example : ∃ s, Reach C0 s ∧ Shows s (.node .document (plain []) [] [] [] [docComment, docType, docElement]) 0 ∧
    ∃ f0 s' m, (∀ fuel, f0 ≤ fuel → cloneNode C0 fuel s 0 true = .ok s' m) ∧
      Shows s' (.node .document (plain []) [] [] [] [docType, docComment, docElement]) m := by
  have hex : ∃ s, exec C0 empty docSample = some s ∧ 0 < s.base.size ∧
      Shows s (.node .document (plain []) [] [] [] [docComment, docType, docElement]) 0 ∧
      (s.base.kids 0).filter (fun c => decide (s.base.kind c = .doctype)) = (s.base.dtype 0).toList := by
    have : (exec C0 empty docSample).any (fun s => decide (0 < s.base.size ∧
      Shows s (.node .document (plain []) [] [] [] [docComment, docType, docElement]) 0 ∧
      (s.base.kids 0).filter (fun c => decide (s.base.kind c = .doctype)) = (s.base.dtype 0).toList)) = true := by decide +kernel
    cases e : exec C0 empty docSample with
    | none => rw [e] at this; cases this
    | some s => rw [e] at this; exact ⟨s, rfl, of_decide_eq_true this⟩
  obtain ⟨s, e, h0, h1, h2⟩ := hex
  have hr := exec_reach docSample .empty e
  obtain ⟨f0, s', m, x1, x2, _⟩ := C25_document_equal_partial hr h0 h1 h2 (by decide)
    (by simp [docComment, docType, docElement, textTree, Tree.notType, Tree.kind, Copyable, CopyableAll, Verif.Clone.Apart, plain])
  exact ⟨s, hr, h1, f0, s', m, x1, x2⟩

/-! ## what is lost -/

/-- The call succeeds and then `P` holds. -/
def gives {α : Type} (x : Out α) (P : St → α → Bool) : Bool :=
  match x with
  | .ok s a => P s a
  | _ => false

theorem gives_iff {α : Type} {x : Out α} {P : St → α → Bool} (h : gives x P = true) : ∃ s a, x = .ok s a ∧ P s a = true := by
  cases x with
  | ok s a => exact ⟨s, a, rfl, h⟩
  | err _ => cases h
  | diverges => cases h
  | ub => cases h

theorem of_exec {ops : List (Dom.Op ⊕ Op)} {F : St → Bool} (h : (exec C0 empty ops).any F = true) :
    ∃ s, Reach C0 s ∧ F s = true := by
  cases e : exec C0 empty ops with
  | none => rw [e] at h; cases h
  | some s => rw [e] at h; exact ⟨s, exec_reach ops .empty e, h⟩

/-- C25 is violated: an element with an attribute made with a namespace and one made without, of the same
node name, has one attribute less in the clone. -/
theorem C25_violated_attribute : ∃ s, Reach C0 s ∧ (attrsOf s 1).length = 2 ∧
    ∃ s' m, cloneNode C0 100 s 1 true = .ok s' m ∧ (attrsOf s' m).length = 1 := by
  obtain ⟨s, h1, h2⟩ := of_exec (F := fun s => decide ((attrsOf s 1).length = 2) &&
      gives (cloneNode C0 100 s 1 true) fun s' m => decide ((attrsOf s' m).length = 1))
    (ops := [.inl .newDocument, .inr (.createElement 0 ['r']), .inr (.createAttributeNS 0 ['u'] ['p', ':', 'x']),
     .inr (.setAttributeNodeNS 1 2), .inr (.createAttribute 0 ['p', ':', 'x']), .inr (.setAttributeNodeNS 1 3)])
    (by decide +kernel)
  simp only [Bool.and_eq_true, decide_eq_true_eq] at h2
  obtain ⟨s', m, e1, e2⟩ := gives_iff h2.2
  exact ⟨s, h1, h2.1, s', m, e1, by simpa using e2⟩

/-- C25 is violated: an element whose name has a prefix and an empty local name is imported without its
namespace. -/
theorem C25_violated_namespace : ∃ s, Reach C0 s ∧ (s.nm 1).uri = ['u'] ∧
    ∃ s' m, importNode C0 100 s 0 1 true = .ok s' m ∧ (s'.nm m).uri = [] := by
  obtain ⟨s, h1, h2⟩ := of_exec (F := fun s => decide ((s.nm 1).uri = ['u']) &&
      gives (importNode C0 100 s 0 1 true) fun s' m => decide ((s'.nm m).uri = []))
    (ops := [.inl .newDocument, .inr (.createElementNS 0 ['u'] ['p', ':'])]) (by decide +kernel)
  simp only [Bool.and_eq_true, decide_eq_true_eq] at h2
  obtain ⟨s', m, e1, e2⟩ := gives_iff h2.2
  exact ⟨s, h1, h2.1, s', m, e1, by simpa using e2⟩

/-- C25 is violated: a processing instruction whose data was set later, which is not checked, cannot be
cloned. -/
theorem C25_violated_pi : ∃ s, Reach C0 s ∧ s.base.kind 1 = .pi ∧ ∀ fuel, 0 < fuel →
    cloneNode C0 fuel s 1 true = .err .invalidChar := by
  obtain ⟨s, h1, h2⟩ := of_exec (F := fun s => decide (s.base.kind 1 = .pi) && decide (s.base.data 1 = ['\x01']))
    (ops := [.inl .newDocument, .inr (.createPI 0 ['p'] ['d']), .inr (.setPIData 1 ['\x01'])]) (by decide +kernel)
  simp only [Bool.and_eq_true, decide_eq_true_eq] at h2
  refine ⟨s, h1, h2.1, ?_⟩
  intro fuel hf
  obtain ⟨f, rfl⟩ : ∃ f, fuel = f + 1 := ⟨fuel - 1, by omega⟩
  unfold cloneNode
  rw [if_neg (by rw [h2.1]; nofun), copyNode, if_neg (by rw [h2.1]; nofun)]
  have : make C0 .clone s 1 = .err .invalidChar := by
    unfold make
    rw [h2.1]
    simp only []
    rw [h2.2, if_pos]
    have : (['\x01'] : Str).all C0.char = false := by decide
    rw [this]; simp [isClone]
  rw [this]; rfl

/-- C25 is violated: an entity reference made before the document had the entity has no children, its clone
has. -/
theorem C25_violated_reference : ∃ s, Reach C0 s ∧ s.base.kind 1 = .entityRef ∧ s.base.kids 1 = [] ∧
    ∃ s' m, cloneNode C0 100 s 1 true = .ok s' m ∧ (s'.base.kids m).length = 1 := by
  obtain ⟨s, h1, h2⟩ := of_exec (F := fun s => (decide (s.base.kind 1 = .entityRef) && decide (s.base.kids 1 = [])) &&
      gives (cloneNode C0 100 s 1 true) fun s' m => decide ((s'.base.kids m).length = 1))
    (ops := [.inl .newDocument, .inr (.createEntityReference 0 ['e']), .inr (.createDocumentType ['r'] []),
      .inl (.insertBefore 0 2 none), .inr (.addEntity 2 ['e'] [[]]), .inl (.create 0 .text ['h', 'i']),
      .inl (.insertBefore 3 4 none)]) (by decide +kernel)
  simp only [Bool.and_eq_true, decide_eq_true_eq] at h2
  obtain ⟨s', m, e1, e2⟩ := gives_iff h2.2
  exact ⟨s, h1, h2.1.1, h2.1.2, s', m, e1, by simpa using e2⟩

/-- C25 is violated: the clone of a document has the document type first, without its entities, so that
entity references come out empty. -/
theorem C25_violated_document : ∃ s, Reach C0 s ∧ (s.base.kids 0).map s.base.kind = [.comment, .doctype, .element] ∧
    (s.entities 2).length = 1 ∧ s.base.kids 6 = [7] ∧ s.base.kids 4 = [6] ∧
    ∃ s' m e r, cloneNode C0 100 s 0 true = .ok s' m ∧
      (s'.base.kids m).map s'.base.kind = [.doctype, .comment, .element] ∧ (s'.base.kids m)[2]? = some e ∧
      s'.base.kids e = [r] ∧ s'.base.kind r = .entityRef ∧ s'.base.kids r = [] := by
  obtain ⟨s, h1, h2⟩ := of_exec (F := fun s => (((decide ((s.base.kids 0).map s.base.kind = [.comment, .doctype, .element]) &&
      decide ((s.entities 2).length = 1)) && decide (s.base.kids 6 = [7])) && decide (s.base.kids 4 = [6])) &&
      gives (cloneNode C0 100 s 0 true) fun s' m =>
        ((((decide ((s'.base.kids m).map s'.base.kind = [.doctype, .comment, .element]) && decide ((s'.base.kids m)[2]? = some 11)) &&
          decide (s'.base.kids 11 = [12])) && decide (s'.base.kind 12 = .entityRef)) && decide (s'.base.kids 12 = [])))
    (ops := [.inl .newDocument, .inl (.create 0 .comment []), .inl (.insertBefore 0 1 none),
      .inr (.createDocumentType ['r'] []), .inl (.insertBefore 0 2 none), .inr (.addEntity 2 ['e'] [[]]),
      .inr (.createElement 0 ['r']), .inl (.insertBefore 0 4 none), .inl (.create 0 .text ['h', 'i']), .inl (.insertBefore 3 5 none),
      .inr (.createEntityReference 0 ['e']), .inl (.insertBefore 4 6 none)]) (by decide +kernel)
  simp only [Bool.and_eq_true, decide_eq_true_eq] at h2
  obtain ⟨s', m, e1, e2⟩ := gives_iff h2.2
  simp only [Bool.and_eq_true, decide_eq_true_eq] at e2
  exact ⟨s, h1, h2.1.1.1.1, h2.1.1.1.2, h2.1.1.2, h2.1.2, s', m, 11, 12, e1, e2.1.1.1.1, e2.1.1.1.2, e2.1.1.2, e2.1.2, e2.2⟩

end Verif.Props.Clone
