import Verif.Lemmas.ElementId
set_option autoImplicit false
set_option linter.unusedSimpArgs false
/-!
# C98: getElementById gives the element in the document with the ID, and null if there is none

`addr` gives the address of each attribute: the order in which a `std::set` of pointers has them.
-/
namespace Verif.Props.ElementId
open Verif.ElementId
open Verif.DomNames (Str)
open Verif.Spec.ElementId (HasId InDocument Answers IsId IdName NoPurge AllKeep Placed)

/-- C98, for documents in which nothing is deleted, attributes with the names of IDs, once set, are given other
values only by `setValue`, the elements that have them are in the document, and they are declared for the
elements that have them: whatever is declared, whatever the calls, and wherever the attributes are in memory.
Without these it is false: `C98_violated_changed`, `C98_violated_moved`, `C98_violated_detached`,
`C98_violated_type`, `C98_violated_purged`. -/
theorem C98_partial (addr : Attr → Nat) (hinj : ∀ a b, addr a = addr b → a = b) (decls : List Decl)
    (name : Elem → Str) (ops : List Op) (hk : AllKeep decls Spec.ElementId.init ops)
    (hp : Placed decls name (Spec.ElementId.run Spec.ElementId.init ops)) (v : Str) :
    Answers decls name (Spec.ElementId.run Spec.ElementId.init ops) v (ask addr decls ops v) := by
  obtain ⟨I, K⟩ := kept_run hinj (inv_init decls) (fun a h => nomatch h) hk
  unfold ask getElementById
  rcases findId_spec I.fe I.fa v (run addr (elementIds decls) init ops).idNodes with ⟨a, ha, h1, h2⟩ | ⟨h1, h2⟩
  · rw [h2]
    obtain ⟨hm, hi⟩ := K a ha
    have hat := attrs_of I hm
    obtain ⟨hd, hid⟩ := hp _ _ (by rw [hat]; simp) hi
    exact ⟨hd, _, hid, by rw [hat, h1]⟩
  · rw [h2]
    rintro e _ ⟨n, hid, hat⟩
    obtain ⟨a, ha, hn, hv⟩ := attr_of I hat
    exact h1 a (I.ids e a ha (by rw [hn]; exact isId_idName hid)) hv

/-- The element with an ID no other element has is the one given. -/
theorem C98_only_partial (addr : Attr → Nat) (hinj : ∀ a b, addr a = addr b → a = b) (decls : List Decl)
    (name : Elem → Str) (ops : List Op) (hk : AllKeep decls Spec.ElementId.init ops)
    (hp : Placed decls name (Spec.ElementId.run Spec.ElementId.init ops)) (v : Str) (e : Elem)
    (he : HasId decls name (Spec.ElementId.run Spec.ElementId.init ops) e v)
    (hu : ∀ x, HasId decls name (Spec.ElementId.run Spec.ElementId.init ops) x v → x = e) :
    ask addr decls ops v = .elem e := by
  have h := C98_partial addr hinj decls name ops hk hp v
  cases ha : ask addr decls ops v with
  | undefined => rw [ha] at h; exact h.elim
  | null =>
    rw [ha] at h
    obtain ⟨n, hid, hat⟩ := he
    exact absurd ⟨n, hid, hat⟩ (h e (hp e n (by rw [hat]; simp) ⟨_, hid⟩).1)
  | elem x => rw [ha] at h; rw [hu x h.2]

/-- If nothing is deleted then an element with the ID, in the document or not, is reason enough not to answer
null: attributes may be set, set again and removed, and elements moved, in any way. -/
theorem C98_null (addr : Attr → Nat) (hinj : ∀ a b, addr a = addr b → a = b) (decls : List Decl)
    (name : Elem → Str) (ops : List Op) (hk : ∀ op ∈ ops, NoPurge op) (v : Str) (e : Elem)
    (he : HasId decls name (Spec.ElementId.run Spec.ElementId.init ops) e v) :
    ∃ x, ask addr decls ops v = .elem x := by
  have I := inv_run hinj (inv_init decls) hk
  unfold ask getElementById
  rcases findId_spec I.fe I.fa v (run addr (elementIds decls) init ops).idNodes with ⟨a, ha, h1, h2⟩ | ⟨h1, h2⟩
  · exact ⟨_, h2⟩
  · obtain ⟨n, hid, hat⟩ := he
    obtain ⟨a, ha, hn, hv⟩ := attr_of I hat
    exact absurd hv (h1 a (I.ids e a ha (by rw [hn]; exact isId_idName hid)))

/-- `<!ATTLIST e k ID ..>`. -/
def decl : List Decl := [⟨['e'], ['k'], true⟩]

theorem idName_k : IdName decl ['k'] := ⟨['e'], by simp [IsId, decl]⟩

/-- Two elements, one in the other; both have IDs, and one is changed; the other attribute is none. -/
def sample : List Op :=
  [.setAttribute 0 ['k'] ['x'], .appendToDocument 0, .setAttribute 1 ['k'] ['y'], .setAttribute 1 ['l'] ['x'],
   .appendChild 0 1, .setAttribute 1 ['l'] ['z'], .setValue 0 ['k'] ['w']]

example : AllKeep decl Spec.ElementId.init sample ∧
    Placed decl (fun _ => ['e']) (Spec.ElementId.run Spec.ElementId.init sample) ∧
    ask (fun a => 10 - a) decl sample ['y'] = .elem 1 ∧ ask (fun a => a) decl sample ['w'] = .elem 0 ∧
    ask (fun a => a) decl sample ['x'] = .null ∧ ask (fun a => a) decl sample ['z'] = .null := by
  have hl : ∀ n, IdName decl n → n = ['k'] := by
    rintro n ⟨e, h⟩
    simp [IsId, decl] at h
    exact h.2
  have h0 : InDocument (Spec.ElementId.run Spec.ElementId.init sample) 0 := .root 0 (by decide)
  refine ⟨?_, ?_, by decide, by decide, by decide, by decide⟩
  · refine ⟨fun _ => rfl, trivial, fun _ => by decide, fun h => ?_, trivial, fun h => ?_, trivial, trivial⟩
    · exact absurd (hl _ h) (by decide)
    · exact absurd (hl _ h) (by decide)
  · intro e n hn hid
    refine ⟨?_, ?_⟩
    · by_cases he : e = 0
      · exact he ▸ h0
      · by_cases he1 : e = 1
        · exact he1 ▸ .child 1 0 (by decide) h0
        · exfalso
          apply hn
          simp [sample, Spec.ElementId.run, Spec.ElementId.step, Spec.ElementId.init, he, he1]
    · rw [hl n hid]; simp [IsId, decl]

theorem ids_decl : elementIds decl = [['k']] := rfl

/-- Of an element whose ID is set again the old one is still answered, whatever the two are. -/
theorem C98_violated_changed (addr : Attr → Nat) (hinj : ∀ a b, addr a = addr b → a = b) (v w : Str) (h : v ≠ w) :
    let ops := [.appendToDocument 0, .setAttribute 0 ['k'] v, .setAttribute 0 ['k'] w]
    ask addr decl ops v = .elem 0 ∧ (∀ e, ¬ HasId decl (fun _ => ['e']) (Spec.ElementId.run Spec.ElementId.init ops) e v) ∧
    ¬ Answers decl (fun _ => ['e']) (Spec.ElementId.run Spec.ElementId.init ops) v (ask addr decl ops v) := by
  intro ops
  have h2 : ∀ e, ¬ HasId decl (fun _ => ['e']) (Spec.ElementId.run Spec.ElementId.init ops) e v := by
    rintro e ⟨n, hid, hat⟩
    have hn : n = ['k'] := by simpa [IsId, decl] using hid
    subst hn
    by_cases he : e = 0
    · subst he
      simp [ops, Spec.ElementId.run, Spec.ElementId.step, Spec.ElementId.init] at hat
      exact h hat.symm
    · simp [ops, Spec.ElementId.run, Spec.ElementId.step, Spec.ElementId.init, he] at hat
  have h1 : ask addr decl ops v = .elem 0 := by
    have hne : addr 1 ≠ addr 0 := fun e => by have := hinj _ _ e; contradiction
    have hw : w ≠ v := fun e => h e.symm
    unfold ask
    rw [ids_decl]
    by_cases hlt : addr 1 < addr 0
    · simp [ops, run, step, setAttribute_eq, init, setInsert, getElementById, findId, put, hlt, hw]
    · have hlt' : addr 0 < addr 1 := by omega
      simp [ops, run, step, setAttribute_eq, init, setInsert, getElementById, findId, put, hlt, hlt', hw]
  refine ⟨h1, h2, ?_⟩
  rw [h1]
  exact fun ha => h2 0 ha.2

/-- An ID taken from one element and given to another: where the attributes are in memory decides which of the
two is answered. -/
theorem C98_violated_moved (addr : Attr → Nat) (hinj : ∀ a b, addr a = addr b → a = b) (v : Str) :
    let ops := [.appendToDocument 0, .appendChild 0 1, .setAttribute 0 ['k'] v, .removeAttribute 0 ['k'],
      .setAttribute 1 ['k'] v]
    ask addr decl ops v = (if addr 0 < addr 1 then .elem 0 else .elem 1) ∧
    (∀ e, HasId decl (fun _ => ['e']) (Spec.ElementId.run Spec.ElementId.init ops) e v ↔ e = 1) ∧
    (addr 0 < addr 1 →
      ¬ Answers decl (fun _ => ['e']) (Spec.ElementId.run Spec.ElementId.init ops) v (ask addr decl ops v)) := by
  intro ops
  have h2 : ∀ e, HasId decl (fun _ => ['e']) (Spec.ElementId.run Spec.ElementId.init ops) e v ↔ e = 1 := by
    intro e
    constructor
    · rintro ⟨n, hid, hat⟩
      have hn : n = ['k'] := by simpa [IsId, decl] using hid
      subst hn
      by_cases he : e = 1
      · exact he
      · by_cases he0 : e = 0
        · subst he0
          simp [ops, Spec.ElementId.run, Spec.ElementId.step, Spec.ElementId.init] at hat
        · simp [ops, Spec.ElementId.run, Spec.ElementId.step, Spec.ElementId.init, he, he0] at hat
    · rintro rfl
      exact ⟨['k'], by simp [IsId, decl], by
        simp [ops, Spec.ElementId.run, Spec.ElementId.step, Spec.ElementId.init]⟩
  have h1 : ask addr decl ops v = (if addr 0 < addr 1 then .elem 0 else .elem 1) := by
    have hne : addr 1 ≠ addr 0 := fun e => by have := hinj _ _ e; contradiction
    unfold ask
    rw [ids_decl]
    by_cases hlt : addr 1 < addr 0
    · have hn : ¬ addr 0 < addr 1 := by omega
      simp [ops, run, step, setAttribute_eq, removeAttribute, init, setInsert, getElementById, findId, put, hlt, hn]
    · have hlt' : addr 0 < addr 1 := by omega
      simp [ops, run, step, setAttribute_eq, removeAttribute, init, setInsert, getElementById, findId, put, hlt, hlt']
  refine ⟨h1, h2, fun hlt => ?_⟩
  rw [h1, if_pos hlt]
  exact fun ha => absurd ((h2 0).1 ha.2) (by decide)

/-- An element that is taken out of the document is answered all the same. -/
theorem C98_violated_detached (addr : Attr → Nat) (v : Str) :
    let ops := [.appendToDocument 0, .setAttribute 0 ['k'] v, .removeChild 0]
    ask addr decl ops v = .elem 0 ∧ (∀ e, ¬ InDocument (Spec.ElementId.run Spec.ElementId.init ops) e) ∧
    ¬ Answers decl (fun _ => ['e']) (Spec.ElementId.run Spec.ElementId.init ops) v (ask addr decl ops v) := by
  intro ops
  have h2 : ∀ e, ¬ InDocument (Spec.ElementId.run Spec.ElementId.init ops) e := by
    intro e h
    have hp : ∀ e, (Spec.ElementId.run Spec.ElementId.init ops).place e = .out := by
      intro e
      by_cases he : e = 0
      · simp [ops, Spec.ElementId.run, Spec.ElementId.step, Spec.ElementId.init, he]
      · simp [ops, Spec.ElementId.run, Spec.ElementId.step, Spec.ElementId.init, he]
    cases h with
    | root _ h => rw [hp] at h; cases h
    | child _ p h _ => rw [hp] at h; cases h
  have h1 : ask addr decl ops v = .elem 0 := by
    unfold ask
    rw [ids_decl]
    simp [ops, run, step, setAttribute_eq, init, setInsert, getElementById, findId, put]
  refine ⟨h1, h2, ?_⟩
  rw [h1]
  exact fun ha => h2 0 ha.1

/-- What is an ID for elements of one name is taken for one on all elements. -/
theorem C98_violated_type (addr : Attr → Nat) (other v : Str) (h : other ≠ ['e']) :
    let ops := [.appendToDocument 0, .setAttribute 0 ['k'] v]
    ask addr decl ops v = .elem 0 ∧
    (∀ e, ¬ HasId decl (fun _ => other) (Spec.ElementId.run Spec.ElementId.init ops) e v) ∧
    ¬ Answers decl (fun _ => other) (Spec.ElementId.run Spec.ElementId.init ops) v (ask addr decl ops v) := by
  intro ops
  have h2 : ∀ e, ¬ HasId decl (fun _ => other) (Spec.ElementId.run Spec.ElementId.init ops) e v := by
    rintro e ⟨n, hid, _⟩
    simp [IsId, decl] at hid
    exact h hid.1
  have h1 : ask addr decl ops v = .elem 0 := by
    unfold ask
    rw [ids_decl]
    simp [ops, run, step, setAttribute_eq, init, setInsert, getElementById, findId, put]
  refine ⟨h1, h2, ?_⟩
  rw [h1]
  exact fun ha => h2 0 ha.2

/-- Once an element with an ID is purged, with whatever it has in it, asking is undefined, whatever is asked for. -/
theorem C98_violated_purged (addr : Attr → Nat) (v w : Str) :
    ask addr decl [.appendToDocument 0, .appendChild 0 1, .appendChild 1 2, .setAttribute 2 ['k'] v, .purgeChild 1] w =
      .undefined := by
  unfold ask
  rw [ids_decl]
  simp [run, step, setAttribute_eq, purgeChild, under, init, setInsert, getElementById, findId, put, setNode]

end Verif.Props.ElementId
