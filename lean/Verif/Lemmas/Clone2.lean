import Verif.Lemmas.Clone
set_option autoImplicit false
set_option linter.unusedSimpArgs false
set_option linter.unusedVariables false
namespace Verif.Clone
open Verif.Dom (Str Kind Err upd upd_ne upd_same)
open Verif.DomNames (NsName plain)
open Verif.Spec.Dom (Anc)

/-! ## appending a new node to a new node -/

theorem adopt_same {f : Nat → Option Nat} {k : Nat} {v : Option Nat} (h : f k = v) : upd f k v = f := by
  funext i
  by_cases e : i = k
  · subst e; rw [upd_same, h]
  · rw [upd_ne _ _ e]

theorem dom_append' {b : Dom.St} (h : Dom.Inv2 b) (hf : ∀ n, b.freed n = false) {m k d : Nat} (hm : m < b.size)
    (hk : k < b.size) (hmk : m ≠ k) (hok : Dom.insertOk b m k) (hfr : b.kind k ≠ .fragment)
    (hpk : b.parent k = none) (hanc : ¬ Dom.AncEq b.parent k m) (hdm : b.doc m = some d)
    (hc : (b.doc k = b.doc m ∧ Dom.childAllowed (b.kind m) (b.kind k) = true) ∨
      (b.doc k = none ∧ b.kind k = .doctype)) :
    ∃ u, Dom.appendChild b m k = .ok (Dom.docInserted u m k) () ∧ Dom.Inv2 u ∧ u.size = b.size ∧ u.kind = b.kind ∧
      u.freed = b.freed ∧ u.ro = b.ro ∧ u.data = b.data ∧ u.root = b.root ∧ u.dtype = b.dtype ∧
      u.doc = upd b.doc k (b.doc m) ∧ u.kids = upd b.kids m (b.kids m ++ [k]) ∧
      u.parent = upd b.parent k (some m) ∧ u.orphan = upd b.orphan k false ∧
      ∀ i, i ≠ k → i ∉ b.kids m → u.prev i = b.prev i ∧ u.next i = b.next i := by
  have hck : Dom.childKind (b.kind k) = true := by
    rcases hc with ⟨_, hc⟩ | ⟨_, hc⟩
    · exact (Dom.childAllowed_kind hc).1
    · rw [hc]; rfl
  have hkd : b.kind k ≠ .document := Dom.childKind_not_doc hck
  have hinv := h.inv
  -- the document
  let b1 : Dom.St := { b with doc := upd b.doc k (b.doc m) }
  have i1 : Dom.Inv b1 ∧ Dom.checkCanAdd b m k = .ok b1 () := by
    rcases hc with ⟨e1, e2⟩ | ⟨e1, e2⟩
    · have : b1 = b := by
        show { b with doc := upd b.doc k (b.doc m) } = b
        rw [adopt_same e1]
      rw [this]
      exact ⟨hinv, Dom.checkCanAdd_ok hinv hm (e1.trans hdm) hdm hkd hanc hok.2.2.2 e2⟩
    · have hd := hinv.docok m d hm hdm
      refine ⟨?_, by unfold Dom.checkCanAdd; rw [e1]⟩
      have hkids : ∀ p, k ∉ b.kids p := hinv.not_child hpk
      refine ⟨hinv.wf, hinv.lt, hinv.kinds, ?_, ?_, ?_, hinv.closed, ?_⟩
      · intro n hn e
        have e : upd b.doc k (b.doc m) n = none := e
        by_cases x : n = k
        · subst x; exact e2
        · rw [upd_ne _ _ x] at e; exact hinv.nodoc n hn e
      · intro n hn e
        show upd b.doc k (b.doc m) n = _
        by_cases x : n = k
        · subst x; exact absurd e hkd
        · rw [upd_ne _ _ x]; exact hinv.selfdoc n hn e
      · intro p c hx
        show upd b.doc k (b.doc m) c = upd b.doc k (b.doc m) p
        have x1 : c ≠ k := by intro e; subst e; exact hkids p hx
        have x2 : p ≠ k := by
          intro e; subst e
          have := (hinv.kinds _ _ hx).1
          rw [e2] at this; cases this
        rw [upd_ne _ _ x1, upd_ne _ _ x2]; exact hinv.owner p c hx
      · intro n e hn he
        have he : upd b.doc k (b.doc m) n = some e := he
        by_cases x : n = k
        · subst x; rw [upd_same, hdm] at he; cases he; exact hd
        · rw [upd_ne _ _ x] at he; exact hinv.docok n e hn he
  obtain ⟨i1, hcc⟩ := i1
  have hr1 : b1.doc k = b1.doc m := by
    show upd b.doc k (b.doc m) k = upd b.doc k (b.doc m) m
    rw [upd_same, upd_ne _ _ hmk]
  have hdk : b1.doc k ≠ none := by
    show upd b.doc k (b.doc m) k ≠ none
    rw [upd_same, hdm]; simp
  rcases Dom.link_cases i1 (p := m) (c := k) none hm hk hok.1 hck hr1 hpk hanc ((hf k).trans (hf m).symm) with
    ⟨r, hr, _⟩ | ⟨u, hl, iu, fu, du, ru, tu, pu, _, ku, _, _⟩
  · cases hr
  have ku : u.kids = upd b.kids m (b.kids m ++ [k]) := by rw [ku]; rfl
  have horph : u.orphan = upd b.orphan k false := Dom.link_orphan (s := b1) hl hpk hdk
  refine ⟨u, ?_, ⟨iu, ?_, ?_, ?_⟩, fu.size, fu.kind, fu.freed, fu.ro, fu.data, ru, tu, du, ku, pu,
    horph, ?_⟩
  · unfold Dom.appendChild Dom.insertBefore
    rw [Dom.insertV_go hok, if_neg hfr]
    unfold Dom.insertPlain
    rw [hcc]
    show (((Dom.removeIfRequired b1 k).bind fun s _ => Dom.link s m k none).bind _) = _
    have : Dom.removeIfRequired b1 k = .ok b1 () := by
      unfold Dom.removeIfRequired
      rw [i1.getParent_eq]
      show (match b.parent k with | none => _ | some q => _) = _
      rw [hpk]
    rw [this]
    show ((Dom.link b1 m k none).bind _) = _
    rw [hl]
    rfl
  · intro p c hx
    rw [ku] at hx
    rw [fu.kind]
    show b.kind c ≠ _ → Dom.childAllowed (b.kind p) (b.kind c) = true
    by_cases e : p = m
    · subst e
      rw [upd_same] at hx
      rcases List.mem_append.mp hx with hx | hx
      · exact h.allow p c hx
      · rw [List.mem_singleton] at hx; subst hx
        intro e
        rcases hc with ⟨_, hc⟩ | ⟨_, hc⟩
        · exact hc
        · exact absurd hc e
    · rw [upd_ne _ _ e] at hx; exact h.allow p c hx
  · intro p c hx
    rw [ku] at hx
    rw [fu.ro]
    show b.ro p = true → b.ro c = true
    by_cases e : p = m
    · subst e; intro t; rw [hok.2.2.2] at t; cases t
    · rw [upd_ne _ _ e] at hx; exact h.rodown p c hx
  · intro n hn
    rw [fu.freed]; exact hf n
  · intro i hi hx
    have hlast : (b.kids m).getLast? ≠ some i := fun e => hx (List.mem_of_getLast? e)
    unfold Dom.link at hl
    simp only [] at hl
    cases hl
    rw [Dom.mc_prev, Dom.mc_next]
    show (Dom.setParent _ k m).prev i = _ ∧ (Dom.setParent _ k m).next i = _
    unfold Dom.setParent
    simp only []
    have hn : Dom.updOpt b.next (b.kids m).getLast? (some k) i = b.next i := by
      rw [Dom.updOpt_apply, if_neg hlast]
    by_cases hl : (b.kids m).getLast? = none
    · have hl' : (b1.kids m).getLast? = none := hl
      simp only [hl', if_true]
      exact ⟨rfl, by rw [show Dom.updOpt b1.next none (some k) = b.next from rfl]⟩
    · have hl' : ¬ (b1.kids m).getLast? = none := hl
      simp only [hl', if_false]
      exact ⟨upd_ne _ _ hi, hn⟩

theorem anc_none {b : Dom.St} {m k : Nat} (hmk : m ≠ k) (hpm : b.parent m = none) : ¬ Dom.AncEq b.parent k m := by
  rintro (e | e)
  · exact hmk e.symm
  · cases e with
    | parent _ h => rw [hpm] at h; cases h
    | above _ _ h _ => rw [hpm] at h; cases h

/-- A node without children is above no other. -/
theorem anc_leaf {b : Dom.St} (h : Dom.Inv2 b) {m k : Nat} (hmk : m ≠ k) (hk : b.kids k = []) : ¬ Dom.AncEq b.parent k m := by
  rintro (e | e)
  · exact hmk e.symm
  · obtain ⟨x, hx⟩ : ∃ x, b.parent x = some k := by
      clear hmk
      induction e with
      | parent x h => exact ⟨_, h⟩
      | above x y h _ ih => exact ih
    have := h.inv.wf.par x k hx
    rw [hk] at this; cases this

theorem dom_append {b : Dom.St} (h : Dom.Inv2 b) (hf : ∀ n, b.freed n = false) {m k d : Nat} (hm : m < b.size)
    (hk : k < b.size) (hmk : m ≠ k) (hok : Dom.insertOk b m k) (hfr : b.kind k ≠ .fragment)
    (hpk : b.parent k = none) (hpm : b.parent m = none) (hdm : b.doc m = some d)
    (hc : (b.doc k = b.doc m ∧ Dom.childAllowed (b.kind m) (b.kind k) = true) ∨
      (b.doc k = none ∧ b.kind k = .doctype)) :
    ∃ u, Dom.appendChild b m k = .ok (Dom.docInserted u m k) () ∧ Dom.Inv2 u ∧ u.size = b.size ∧ u.kind = b.kind ∧
      u.freed = b.freed ∧ u.ro = b.ro ∧ u.data = b.data ∧ u.root = b.root ∧ u.dtype = b.dtype ∧
      u.doc = upd b.doc k (b.doc m) ∧ u.kids = upd b.kids m (b.kids m ++ [k]) ∧
      u.parent = upd b.parent k (some m) ∧ u.orphan = upd b.orphan k false ∧
      ∀ i, i ≠ k → i ∉ b.kids m → u.prev i = b.prev i ∧ u.next i = b.next i :=
  dom_append' h hf hm hk hmk hok hfr hpk (anc_none hmk hpm) hdm hc

end Verif.Clone
