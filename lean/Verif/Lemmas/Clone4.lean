import Verif.Lemmas.Clone3
set_option autoImplicit false
set_option linter.unusedSimpArgs false
set_option linter.unusedVariables false
namespace Verif.Clone
open Verif.Dom (Str Kind Err upd upd_ne upd_same)
open Verif.DomNames (NsName plain)

/-! ## read only -/

theorem below_ge {s : St} {m : Nat} (hu : Up m s) : ∀ (fuel : Nat) (n x : Nat), m ≤ n → x ∈ below s fuel n → m ≤ x
  | 0, n, x, _, h => by rw [below] at h; cases h
  | fuel + 1, n, x, hn, h => by
    rw [below] at h
    rcases List.mem_cons.mp h with rfl | h
    · exact hn
    · obtain ⟨j, hj, hx⟩ := List.mem_flatMap.mp h
      have : n < j := hu n j hn (List.mem_append.mp hj)
      exact below_ge hu fuel j x (by omega) hx

theorem below_closed {C : Chars} {s : St} (h : Good C s) {m : Nat} (hu : Up m s) : ∀ (fuel : Nat) (n p c : Nat), m ≤ n →
    s.base.size < fuel + n → p ∈ below s fuel n → c ∈ s.base.kids p → c ∈ below s fuel n
  | 0, n, p, c, _, _, hp, _ => by rw [below] at hp; cases hp
  | fuel + 1, n, p, c, hn, hf, hp, hc => by
    rw [below] at hp ⊢
    apply List.mem_cons_of_mem
    apply List.mem_flatMap.mpr
    rcases List.mem_cons.mp hp with rfl | hp
    · refine ⟨c, List.mem_append_left _ hc, ?_⟩
      have h1 : c < s.base.size := (h.dom.inv.lt p c hc).1
      have h2 : p < c := hu p c hn (.inl hc)
      obtain ⟨f, rfl⟩ : ∃ f, fuel = f + 1 := ⟨fuel - 1, by omega⟩
      rw [below]; exact List.mem_cons_self
    · obtain ⟨j, hj, hx⟩ := List.mem_flatMap.mp hp
      have : n < j := hu n j hn (List.mem_append.mp hj)
      exact ⟨j, hj, below_closed h hu fuel j p c (by omega) (by omega) hx hc⟩

theorem setOrphan_good {C : Chars} {s : St} (h : Good C s) (m : Nat) : Good C (setOrphan s m) :=
  ⟨orphan_inv2 h.dom _, h.live, h.attr, h.made, h.dt, h.root, h.ent⟩

theorem setReadOnly_good {C : Chars} {s : St} (h : Good C s) {m : Nat} (hu : Up m s) : Good C (setReadOnly s m) := by
  refine ⟨⟨h.dom.inv.of_tree rfl rfl rfl rfl rfl rfl rfl rfl, h.dom.allow, ?_, h.dom.fresh⟩, h.live, h.attr, h.made,
    h.dt, h.root, h.ent⟩
  intro p c hc hp
  have hp : (if p ∈ below s (s.base.size + 1) m then true else s.base.ro p) = true := hp
  show (if c ∈ below s (s.base.size + 1) m then true else s.base.ro c) = true
  by_cases hb : p ∈ below s (s.base.size + 1) m
  · rw [if_pos (below_closed h hu _ m p c (Nat.le_refl _) (by omega) hb hc)]
  · rw [if_neg hb] at hp
    have := h.dom.rodown p c hc hp
    rw [this]; simp

theorem setReadOnly_low {s : St} {m : Nat} (hu : Up m s) : Upto m s (setReadOnly s m) := by
  intro i hi
  have : i ∉ below s (s.base.size + 1) m := fun t => by
    have := below_ge hu _ m i (Nat.le_refl _) t
    omega
  simp only [node, setReadOnly, if_neg this]

theorem setOrphan_low {s : St} {m : Nat} : Upto m s (setOrphan s m) := by
  intro i hi
  have : i ≠ m := by omega
  simp only [node, setOrphan, upd_ne _ _ this]

/-! ## the new node -/

theorem made_checked {C : Chars} {k : Kind} {ns : Bool} {r : NsName} (h : Made C k ns r) (hk : k = .element ∨ k = .attr) :
    DomNames.checkName C.name r.name = true := by
  have h1 : ∀ {f : Str → Str → Except Err NsName},
      (if DomNames.checkName C.name r.name then f r.uri r.name else .error .invalidChar) = .ok r →
      DomNames.checkName C.name r.name = true := by
    intro f e
    by_cases hc : DomNames.checkName C.name r.name = true
    · exact hc
    · rw [if_neg hc] at e; cases e
  rcases hk with rfl | rfl
  · unfold Made at h
    cases ns with
    | true => exact h1 (f := DomNames.elementNS) h
    | false => exact h1 (f := fun _ n => .ok (plain n)) h
  · unfold Made at h
    cases ns with
    | true => exact h1 (f := DomNames.attrNS) h
    | false => exact h1 (f := fun _ n => .ok (plain n)) h

theorem made_plain {C : Chars} {k : Kind} {r : NsName} (h : Made C k false r) (hk : k = .element ∨ k = .attr) :
    r = plain r.name := by
  have h1 : DomNames.createElement C.name r.name = .ok r := by
    rcases hk with rfl | rfl
    · exact h
    · exact h
  unfold DomNames.createElement at h1
  by_cases hc : DomNames.checkName C.name r.name = true
  · rw [if_pos hc] at h1; exact (Except.ok.inj h1).symm
  · rw [if_neg hc] at h1; cases h1

/-- The name of the copy. -/
theorem remake_spec {C : Chars} {s : St} (h : Good C s) {n : Nat} (hn : n < s.base.size) (mode : Mode) {isAttr : Bool}
    (hk : s.base.kind n = if isAttr then .attr else .element) :
    ∃ r ns, remake C s n mode isAttr = .ok (r, ns) ∧ Made C (s.base.kind n) ns r ∧
      ((isClone mode = true ∨ (s.nm n).localName ≠ [] ∨ s.nm n = plain (s.nm n).name) → r = s.nm n) := by
  have hm := h.made n hn
  have hk2 : s.base.kind n = .element ∨ s.base.kind n = .attr := by
    cases isAttr
    · left; exact hk
    · right; exact hk
  have hch := made_checked hm hk2
  cases mode with
  | clone =>
    refine ⟨s.nm n, s.isNS n, ?_, hm, fun _ => rfl⟩
    unfold remake
    cases hns : s.isNS n with
    | true =>
      rw [hns] at hm
      cases isAttr with
      | true =>
        have hk : s.base.kind n = .attr := hk
        rw [hk] at hm
        simp only [if_true]
        have hm : DomNames.createAttributeNS C.name (s.nm n).uri (s.nm n).name = .ok (s.nm n) := hm
        rw [hm]; rfl
      | false =>
        have hk : s.base.kind n = .element := hk
        rw [hk] at hm
        simp only [if_true, Bool.false_eq_true, if_false]
        have hm : DomNames.createElementNS C.name (s.nm n).uri (s.nm n).name = .ok (s.nm n) := hm
        rw [hm]; rfl
    | false =>
      rw [hns] at hm
      simp only [Bool.false_eq_true, if_false]
      have hp := made_plain hm hk2
      unfold DomNames.createElement
      rw [if_pos hch, ← hp]; rfl
  | into d =>
    by_cases hl : (s.nm n).localName = []
    · refine ⟨plain (s.nm n).name, false, ?_, ?_, ?_⟩
      · unfold remake; simp only []; rw [if_pos hl]
      · rcases hk2 with e | e
        · rw [e]; show DomNames.createElement C.name (s.nm n).name = _
          unfold DomNames.createElement; rw [if_pos hch]
        · rw [e]; show DomNames.createElement C.name (s.nm n).name = _
          unfold DomNames.createElement; rw [if_pos hch]
      · rintro (t | t | t)
        · cases t
        · exact absurd hl t
        · exact t.symm
    · have hns : s.isNS n = true := by
        cases e : s.isNS n with
        | true => rfl
        | false =>
          rw [e] at hm
          have := made_plain hm hk2
          rw [this] at hl
          exact absurd rfl hl
      rw [hns] at hm
      refine ⟨s.nm n, true, ?_, hm, fun _ => rfl⟩
      unfold remake
      simp only []
      rw [if_neg hl]
      cases isAttr with
      | true =>
        have hk : s.base.kind n = .attr := hk
        rw [hk] at hm
        have hm : DomNames.createAttributeNS C.name (s.nm n).uri (s.nm n).name = .ok (s.nm n) := hm
        unfold DomNames.createAttributeNS at hm
        rw [if_pos hch] at hm
        simp only [if_true]
        rw [hm]; rfl
      | false =>
        have hk : s.base.kind n = .element := hk
        rw [hk] at hm
        have hm : DomNames.createElementNS C.name (s.nm n).uri (s.nm n).name = .ok (s.nm n) := hm
        unfold DomNames.createElementNS at hm
        rw [if_pos hch] at hm
        simp only [Bool.false_eq_true, if_false]
        rw [hm]; rfl

/-- The document of a copy. -/
def docOf (s : St) (n : Nat) (mode : Mode) : Option Nat :=
  if s.base.kind n = .doctype then none else goesTo s n mode

theorem target_eq (s : St) (n : Nat) (mode : Mode) : target s n mode = goesTo s n mode := by cases mode <;> rfl

/-- The new node, if there is one. -/
theorem make_spec {C : Chars} {s : St} (h : Good C s) {n : Nat} (hn : n < s.base.size) {mode : Mode} {s1 : St} {m : Nat}
    (hm : make C mode s n = .ok s1 m) :
    m = s.base.size ∧ s.base.kind n ≠ .document ∧ s.base.kind n ≠ .entityRef ∧ ∃ r ns data ids o,
      s1 = new s (s.base.kind n) (docOf s n mode) r ns data ids o ∧ Made C (s.base.kind n) ns r ∧
      (s.base.kind n ≠ .entity → s.base.kind n ≠ .doctype → o = true) ∧
      ((s.base.kind n = .element ∨ s.base.kind n = .attr) → (isClone mode = true ∨ (s.nm n).localName ≠ [] ∨ s.nm n = plain (s.nm n).name) →
        r = s.nm n) ∧
      (s.base.kind n ≠ .element → s.base.kind n ≠ .attr → r = nameOf s n) ∧ data = valueOf s n ∧ ids = idsOf s n := by
  unfold make at hm
  simp only [target_eq] at hm
  unfold docOf nameOf valueOf idsOf
  cases hk : s.base.kind n with
  | element =>
    rw [hk] at hm; simp only [] at hm
    obtain ⟨r, ns, e, e2, e3⟩ := remake_spec (isAttr := false) h hn mode hk
    rw [e] at hm; simp only [] at hm
    cases hm
    rw [hk] at e2
    exact ⟨rfl, nofun, nofun, r, ns, _, _, _, by simp, e2, fun _ _ => rfl, fun _ => e3, fun t => absurd rfl t, rfl, rfl⟩
  | attr =>
    rw [hk] at hm; simp only [] at hm
    obtain ⟨r, ns, e, e2, e3⟩ := remake_spec (isAttr := true) h hn mode hk
    rw [e] at hm; simp only [] at hm
    cases hm
    rw [hk] at e2
    exact ⟨rfl, nofun, nofun, r, ns, _, _, _, by simp, e2, fun _ _ => rfl, fun _ => e3, fun _ t => absurd rfl t, rfl, rfl⟩
  | pi =>
    rw [hk] at hm; simp only [] at hm
    have hmd := h.made n hn
    rw [hk] at hmd
    have hmd : DomNames.checkName C.name (s.nm n).name = true := hmd
    split at hm
    · cases hm
    · cases hm
      exact ⟨rfl, nofun, nofun, plain (s.nm n).name, false, _, _, _, by simp, hmd, fun _ _ => rfl, fun t => by simp at t, fun _ _ => rfl, rfl, rfl⟩
  | text | cdata | comment | fragment | entity | «notation» =>
    rw [hk] at hm; simp only [] at hm
    cases hm
    exact ⟨rfl, nofun, nofun, _, _, _, _, _, by simp; rfl, trivial, fun t _ => by simp at t ⊢, fun t => by simp at t, fun _ _ => rfl, rfl, rfl⟩
  | doctype =>
    rw [hk] at hm; simp only [] at hm
    split at hm
    · cases hm
      exact ⟨rfl, nofun, nofun, _, _, _, _, _, by simp; rfl, trivial, fun _ t => absurd rfl t, fun t => by simp at t, fun _ _ => rfl, rfl, rfl⟩
    · cases hm
  | document =>
    rw [hk] at hm; simp only [] at hm
    split at hm <;> cases hm
  | entityRef => rw [hk] at hm; simp only [] at hm; cases hm

end Verif.Clone
