import Verif.Lemmas.Dom8
import Verif.Props.Dom
set_option autoImplicit false
set_option linter.unusedSimpArgs false
set_option linter.unusedVariables false
/-!
# C19, C21, C22: text in the DOM tree
-/
namespace Verif.Props.DomText
open Verif.Dom Verif.Props.Dom
open Verif.Spec.Dom (Anc)

/-- A document (0) with the root element (1) whose children are the text nodes 2 "ab", 3 "" and 4 "c", the
element 5 with the empty text node 6, and the CDATA section 7 "def"; 8 is a text node without parent, 9 a
CDATA section without parent. -/
def textOps : List Op :=
  [.newDocument, .create 0 .element [], .create 0 .text "ab".toList, .create 0 .text [], .create 0 .text "c".toList,
   .create 0 .element [], .create 0 .text [], .create 0 .cdata "def".toList, .create 0 .text "gh".toList,
   .create 0 .cdata "ij".toList,
   .insertBefore 0 1 none, .insertBefore 1 2 none, .insertBefore 1 3 none, .insertBefore 1 4 none,
   .insertBefore 1 5 none, .insertBefore 5 6 none, .insertBefore 1 7 none]

def textDoc : St := runOps textOps empty

theorem textDoc_reach : Reach selfDoc textDoc := reach_run _ _ _ .empty (by decide +kernel)

/-! ## C19 -/

theorem step_normalize {s : St} {n : Id} {x : Out Unit} (he : step s (.normalize n) = x) (hx : x ≠ .ub) :
    live s n = true ∧ normalize s n = x := by
  rw [step] at he
  split at he
  · exact ⟨by assumption, he⟩
  · exact absurd he.symm hx

/-- After `normalize` no child list in the subtree has an empty text node or two adjacent ones; what the
children of every node say is unchanged; child lists only lose nodes; nothing outside of the subtree
changes. -/
theorem C19_normalize {s s' : St} (h : Reach selfDoc s) {n : Id} (he : step s (.normalize n) = .ok s' ()) :
    (∀ q, (q = n ∨ Anc (getParent s') n q) → Normal s' (s'.kids q)) ∧
    (∀ q, content s' (s'.kids q) = content s (s.kids q)) ∧
    (∀ q, (s'.kids q).Sublist (s.kids q)) ∧
    (∀ q, q ≠ n → ¬ Anc (getParent s) n q → s'.kids q = s.kids q ∧ s'.data q = s.data q) ∧
    s'.kind = s.kind := by
  have i := reach_inv2 h
  obtain ⟨hl, he⟩ := step_normalize he (by simp)
  have hl := live_iff.mp hl
  have hp := normalize_post (E := True) i hl.1 hl.2 (fun _ _ _ => trivial)
  rw [he] at hp
  have hp : NormOk s n [] (s.kids n) s' := hp
  rw [funext i.inv.getParent_eq, funext hp.inv.inv.getParent_eq]
  refine ⟨?_, hp.same, hp.shrink, ?_, hp.frame.2.1⟩
  · rintro q (rfl | t)
    · obtain ⟨r, h1, h2, _⟩ := hp.here
      rw [h1]; exact h2
    · obtain ⟨x, hx, hb⟩ := anc_child t
      exact hp.below x ((hp.shrink n).subset (hp.inv.inv.wf.par x n hx)) q hb
  · intro q hq hna
    have : ∀ c ∈ s.kids n, ¬ AncEq s.parent c q := by
      intro c hc hb
      have hpc := i.inv.child_parent hc
      rcases hb with e | t
      · rw [← e] at hna; exact hna (.parent _ _ hpc)
      · exact hna (anc_trans (.parent _ _ hpc) t)
    exact ⟨hp.out q hq this, hp.dat q this⟩

/-- `normalize` returns or throws, and it returns if no node of the subtree is read only. -/
theorem C19_ends {s : St} (h : Reach selfDoc s) {n : Id} (hl : live s n = true) :
    ((∃ s', step s (.normalize n) = .ok s' ()) ∨ ∃ e s', step s (.normalize n) = .err e s') ∧
    ((∀ q, (q = n ∨ Anc (getParent s) n q) → s.ro q = false) → ∃ s', step s (.normalize n) = .ok s' ()) := by
  have i := reach_inv2 h
  have hst : step s (.normalize n) = normalize s n := by rw [step, if_pos hl]
  have hl := live_iff.mp hl
  rw [hst]
  constructor
  · have hp := normalize_post (E := True) i hl.1 hl.2 (fun _ _ _ => trivial)
    cases hx : normalize s n with
    | ok s' a => exact Or.inl ⟨s', rfl⟩
    | err e s' => exact Or.inr ⟨e, s', rfl⟩
    | diverges => rw [hx] at hp; exact hp.elim
    | ub => rw [hx] at hp; exact hp.elim
  · intro hro
    rw [funext i.inv.getParent_eq] at hro
    have hp := normalize_post (E := False) i hl.1 hl.2 (by
      intro x hx hr
      have : s.ro x = false := hro x (by
        rcases hx with e | t
        · exact Or.inl e.symm
        · exact Or.inr t)
      rw [hr] at this; cases this)
    cases hx : normalize s n with
    | ok s' a => exact ⟨s', rfl⟩
    | err e s' => rw [hx] at hp; exact hp.elim
    | diverges => rw [hx] at hp; exact hp.elim
    | ub => rw [hx] at hp; exact hp.elim

example : live textDoc 0 = true ∧ ∃ s', step textDoc (.normalize 0) = .ok s' () ∧
    s'.kids 1 = [2, 5, 7] ∧ s'.data 2 = "abc".toList ∧ s'.kids 5 = [] := by
  refine ⟨by decide +kernel, _, rfl, ?_, ?_, ?_⟩ <;> decide +kernel

/-! ## C21 -/

theorem cut_exists (d : Str) (off cnt : Int) (h1 : 0 ≤ off) (h2 : off ≤ d.length) (h3 : 0 ≤ cnt) :
    Cut d off cnt (d.take off.toNat) ((d.drop off.toNat).take cnt.toNat) (d.drop (off.toNat + cnt.toNat)) := by
  refine ⟨?_, ?_, ?_⟩
  · rw [List.append_assoc]
    have : (d.drop off.toNat).take cnt.toNat ++ d.drop (off.toNat + cnt.toNat) = d.drop off.toNat := by
      rw [← List.drop_drop, List.take_append_drop]
    rw [this, List.take_append_drop]
  · rw [List.length_take]; omega
  · rw [List.length_take, List.length_drop]; omega

/-- `substringData`. -/
theorem C21_substring (s : St) (n : Id) (off cnt : Int) :
    ((off < 0 ∨ (s.data n).length < off ∨ cnt < 0) ∧ substringData s n off cnt = .err .indexSize s) ∨
    (0 ≤ off ∧ off ≤ (s.data n).length ∧ 0 ≤ cnt ∧ ∃ pre mid post, Cut (s.data n) off cnt pre mid post ∧
      substringData s n off cnt = .ok s mid) := by
  unfold substringData badOffset
  by_cases h1 : off < 0 ∨ (s.data n).length < off
  · left
    refine ⟨by omega, ?_⟩
    rw [if_pos]; simpa using h1
  · by_cases h2 : cnt < 0
    · left
      refine ⟨by omega, ?_⟩
      rw [if_neg (by simpa using h1), if_pos h2]
    · right
      refine ⟨by omega, by omega, by omega, _, _, _, cut_exists _ off cnt (by omega) (by omega) (by omega), ?_⟩
      rw [if_neg (by simpa using h1), if_neg h2]

/-- `setData` and `appendData`. -/
theorem C21_set_append {s : St} {n : Id} (hl : live s n = true) (hk : charKind (s.kind n) = true) (arg : Str) :
    (s.ro n = true ∧ step s (.charEdit n (.set arg)) = .err .readOnly s ∧
      step s (.charEdit n (.append arg)) = .err .readOnly s) ∨
    (s.ro n = false ∧ step s (.charEdit n (.set arg)) = .ok { s with data := upd s.data n arg } () ∧
      step s (.charEdit n (.append arg)) = .ok { s with data := upd s.data n (s.data n ++ arg) } ()) := by
  rw [step, step, if_pos (by simp [hl, hk])]
  simp only [charEdit, setData, appendData, hl, hk, Bool.and_self, if_true]
  cases hr : s.ro n
  · right; exact ⟨rfl, rfl, rfl⟩
  · left; exact ⟨rfl, rfl, rfl⟩

/-- `insertData`: an error changes nothing. -/
theorem C21_insert {s : St} {n : Id} (hl : live s n = true) (hk : charKind (s.kind n) = true) (off : Int) (arg : Str) :
    (s.ro n = true ∧ step s (.charEdit n (.insert off arg)) = .err .readOnly s) ∨
    (s.ro n = false ∧ (off < 0 ∨ (s.data n).length < off) ∧
      step s (.charEdit n (.insert off arg)) = .err .indexSize s) ∨
    (s.ro n = false ∧ 0 ≤ off ∧ off ≤ (s.data n).length ∧ ∃ pre post, s.data n = pre ++ post ∧ (pre.length : Int) = off ∧
      step s (.charEdit n (.insert off arg)) = .ok { s with data := upd s.data n (pre ++ arg ++ post) } ()) := by
  have hst : step s (.charEdit n (.insert off arg)) = insertData s n off arg := by
    rw [step, if_pos (by simp [hl, hk])]; rfl
  rw [hst]
  unfold insertData badOffset
  cases hr : s.ro n with
  | true => left; exact ⟨rfl, by simp⟩
  | false =>
    right
    simp only [Bool.false_eq_true, if_false]
    by_cases h1 : off < 0 ∨ (s.data n).length < off
    · left
      refine ⟨trivial, h1, ?_⟩
      rw [if_pos]; simpa using h1
    · right
      refine ⟨trivial, by omega, by omega, (s.data n).take off.toNat, (s.data n).drop off.toNat, ?_, ?_, ?_⟩
      · rw [List.take_append_drop]
      · rw [List.length_take]; omega
      · rw [if_neg (by simpa using h1)]; rfl

/-- `deleteData`. -/
theorem C21_delete {s : St} {n : Id} (hl : live s n = true) (hk : charKind (s.kind n) = true) (off cnt : Int) :
    (s.ro n = true ∧ step s (.charEdit n (.delete off cnt)) = .err .readOnly s) ∨
    (s.ro n = false ∧ (off < 0 ∨ (s.data n).length < off ∨ cnt < 0) ∧
      step s (.charEdit n (.delete off cnt)) = .err .indexSize s) ∨
    (s.ro n = false ∧ 0 ≤ off ∧ off ≤ (s.data n).length ∧ 0 ≤ cnt ∧ ∃ pre mid post, Cut (s.data n) off cnt pre mid post ∧
      step s (.charEdit n (.delete off cnt)) = .ok { s with data := upd s.data n (pre ++ post) } ()) := by
  have hst : step s (.charEdit n (.delete off cnt)) = deleteData s n off cnt := by
    rw [step, if_pos (by simp [hl, hk])]; rfl
  rw [hst]
  unfold deleteData badOffset
  cases hr : s.ro n with
  | true => left; exact ⟨rfl, by simp⟩
  | false =>
    right
    simp only [Bool.false_eq_true, if_false]
    by_cases h1 : off < 0 ∨ (s.data n).length < off
    · left
      refine ⟨trivial, by omega, ?_⟩
      rw [if_pos]; simpa using h1
    · by_cases h2 : cnt < 0
      · left
        refine ⟨trivial, by omega, ?_⟩
        rw [if_neg (by simpa using h1), if_pos h2]
      · right
        refine ⟨trivial, by omega, by omega, by omega, _, _, _,
          cut_exists _ off cnt (by omega) (by omega) (by omega), ?_⟩
        rw [if_neg (by simpa using h1), if_neg h2, List.append_nil]; rfl

/-- `replaceData`. -/
theorem C21_replace {s : St} {n : Id} (hl : live s n = true) (hk : charKind (s.kind n) = true) (off cnt : Int)
    (arg : Str) :
    (s.ro n = true ∧ step s (.charEdit n (.replace off cnt arg)) = .err .readOnly s) ∨
    (s.ro n = false ∧ (off < 0 ∨ (s.data n).length < off ∨ cnt < 0) ∧
      step s (.charEdit n (.replace off cnt arg)) = .err .indexSize s) ∨
    (s.ro n = false ∧ 0 ≤ off ∧ off ≤ (s.data n).length ∧ 0 ≤ cnt ∧ ∃ pre mid post, Cut (s.data n) off cnt pre mid post ∧
      step s (.charEdit n (.replace off cnt arg)) = .ok { s with data := upd s.data n (pre ++ arg ++ post) } ()) := by
  have hst : step s (.charEdit n (.replace off cnt arg)) = replaceData s n off cnt arg := by
    rw [step, if_pos (by simp [hl, hk])]; rfl
  rw [hst]
  unfold replaceData badOffset
  cases hr : s.ro n with
  | true => left; exact ⟨rfl, by simp⟩
  | false =>
    right
    simp only [Bool.false_eq_true, if_false]
    by_cases h1 : off < 0 ∨ (s.data n).length < off
    · left
      refine ⟨trivial, by omega, ?_⟩
      rw [if_pos]; simpa using h1
    · by_cases h2 : cnt < 0
      · left
        refine ⟨trivial, by omega, ?_⟩
        rw [if_neg (by simpa using h1), if_pos h2]
      · right
        refine ⟨trivial, by omega, by omega, by omega, _, _, _,
          cut_exists _ off cnt (by omega) (by omega) (by omega), ?_⟩
        rw [if_neg (by simpa using h1), if_neg h2]; rfl

example : live textDoc 7 = true ∧ charKind (textDoc.kind 7) = true ∧ Cut (textDoc.data 7) 1 9 ['d'] ['e', 'f'] [] := by
  unfold Cut; decide +kernel

/-! ## C22 -/

/-- Splitting a text node or CDATA section that has a parent, at a valid offset: it succeeds, the new node
follows immediately, the two texts are the old one cut at the offset, and nothing else changes. -/
theorem C22_split_partial {s : St} (h : Reach selfDoc s) {n p : Id} (hl : live s n = true)
    (hk : s.kind n = .text ∨ s.kind n = .cdata) (hro : s.ro n = false) {k : Nat} (hle : k ≤ (s.data n).length)
    {l1 l2 : List Id} (hp : s.kids p = l1 ++ n :: l2) :
    ∃ s' m, step s (.splitText n k) = .ok s' () ∧ live s m = false ∧ s'.kids p = l1 ++ n :: m :: l2 ∧
      (∀ q, q ≠ p → s'.kids q = s.kids q) ∧ s'.data n ++ s'.data m = s.data n ∧ (s'.data n).length = k ∧
      s'.kind m = s.kind n ∧ s'.doc m = s.doc n ∧ live s' m = true ∧
      (∀ x, x ≠ n → x ≠ m → s'.data x = s.data x ∧ s'.kind x = s.kind x) := by
  have i := reach_inv2 h
  have hl' := live_iff.mp hl
  obtain ⟨u, hu, h1, h2, h3, h4, h5, h6, h7⟩ := splitText_in i hl'.2 hk hro hle hp
  have hst : step s (.splitText n k) = .ok u () := by
    rw [step, if_pos (by rw [hl]; simpa using hk), hu]; rfl
  have hne : n ≠ s.size := fun e => by rw [e] at hl'; exact Nat.lt_irrefl _ hl'.1
  refine ⟨u, s.size, hst, ?_, h1, h2, ?_, ?_, ?_, h6, ?_, ?_⟩
  · unfold live; simp
  · rw [h5, upd_same, upd_ne _ _ hne, upd_same, List.take_append_drop]
  · rw [h5, upd_ne _ _ hne, upd_same, List.length_take]; omega
  · rw [h4, upd_same]
  · unfold live
    rw [h3, h7, i.fresh _ (Nat.le_refl _)]
    simp
  · intro x hx1 hx2
    rw [h5, h4, upd_ne _ _ hx2, upd_ne _ _ hx1, upd_ne _ _ hx2]
    exact ⟨rfl, rfl⟩

/-- An offset that is negative or too large is refused and changes nothing. -/
theorem C22_refused {s : St} {n : Id} (hl : live s n = true) (hk : s.kind n = .text ∨ s.kind n = .cdata) {off : Int}
    (hro : s.ro n = false) (ho : off < 0 ∨ (s.data n).length < off) :
    step s (.splitText n off) = .err .indexSize s := by
  rw [step, if_pos (by rw [hl]; simpa using hk)]
  unfold splitText
  rw [hro]
  rcases C21_substring s n off ((s.data n).length - off) with ⟨_, t⟩ | ⟨h1, h2, _⟩
  · simp [t, Out.bind]
  · omega

example : live textDoc 2 = true ∧ textDoc.kind 2 = .text ∧ textDoc.ro 2 = false ∧ 1 ≤ (textDoc.data 2).length ∧
    textDoc.kids 1 = [] ++ 2 :: [3, 4, 5, 7] := by decide +kernel

/-- A text node without parent: the rest of the text is in a node that no one refers to, and that is not
deleted with the document. -/
theorem C22_violated_loose : ∃ s', step textDoc (.splitText 8 1) = .ok s' () ∧ s'.data 8 = ['g'] ∧
    s'.next 8 = none ∧ live s' 10 = true ∧ s'.doc 10 = some 0 ∧ 10 ∉ destroyed s' 0 := by
  refine ⟨_, rfl, ?_, ?_, ?_, ?_, ?_⟩ <;> decide +kernel

/-- A CDATA section without parent: a null pointer is dereferenced. -/
theorem C22_violated_cdata : step textDoc (.splitText 9 1) = .ub := rfl

end Verif.Props.DomText
