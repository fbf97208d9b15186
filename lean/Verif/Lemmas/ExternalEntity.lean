import Verif.Spec.ExternalEntity
set_option autoImplicit false
set_option linter.unusedSimpArgs false
set_option linter.unusedVariables false
namespace Verif.ExternalEntity
open Verif.Spec.ExternalEntity

theorem find_append (m : Map) (k v k' : Str) :
    find (m ++ [(k, v)]) k' = match find m k' with
      | some w => some w
      | none => if k = k' then some v else none := by
  unfold find
  rw [List.find?_append]
  cases h : m.find? fun x => x.1 == k' with
  | some x => rfl
  | none =>
    by_cases hk : k = k'
    · subst hk; simp
    · have hb : (k == k') = false := by simpa using hk
      simp [hb, hk]

theorem find_insert (m : Map) (k v k' : Str) :
    find (insertKey m k v) k' = match find m k' with
      | some w => some w
      | none => if k = k' then some v else none := by
  unfold insertKey
  cases h : find m k with
  | none => exact find_append m k v k'
  | some w =>
    cases h' : find m k' with
    | some w' => rfl
    | none =>
      have hk : ¬ k = k' := fun e => by rw [e, h'] at h; cases h
      simp only [if_neg hk]

theorem find_insert_some {m : Map} {k v k' w : Str} (h : find (insertKey m k v) k' = some w) :
    find m k' = some w ∨ (k = k' ∧ v = w) := by
  rw [find_insert] at h
  cases h' : find m k' with
  | some w' => rw [h'] at h; exact .inl h
  | none =>
    rw [h'] at h
    by_cases hk : k = k'
    · simp only [if_pos hk] at h; exact .inr ⟨hk, Option.some.inj h⟩
    · simp only [if_neg hk] at h; cases h

theorem find_insert_mono {m : Map} {k v k' : Str} (h : ∃ w, find m k' = some w) :
    ∃ w, find (insertKey m k v) k' = some w := by
  obtain ⟨w, h⟩ := h
  exact ⟨w, by rw [find_insert, h]⟩

theorem find_insert_self (m : Map) (k v : Str) : ∃ w, find (insertKey m k v) k = some w := by
  rw [find_insert]
  cases find m k with
  | some w => exact ⟨w, rfl⟩
  | none => exact ⟨v, by simp⟩

/-- What is in the map, `D` being all that is ever declared and `ents` what is declared in the document. -/
structure Inv (c : Cfg) (D ents : List Ent) (m : Map) : Prop where
  from' : ∀ k v, find m k = some v → k = [] ∨ ∃ d ∈ D, (d.sys = k ∨ d.pub = some k) ∧ v = saxName d
  has : ∀ d ∈ ents, (c.lexical = true ∨ d.kind = .general) → ∃ v, find m d.sys = some v
  sub : ∀ d ∈ ents, d ∈ D
  name : ∀ d ∈ ents, saxName d ≠ []

theorem construct_cases {pub : Option Str} {k : Str} (h : construct pub = k) : k = [] ∨ pub = some k := by
  cases pub with
  | none => exact .inl h.symm
  | some p => exact .inr (congrArg some h)

theorem inv_insert {c : Cfg} {D ents : List Ent} {m : Map} (I : Inv c D ents m) {e : Ent} (he : e ∈ D)
    (hn : saxName e ≠ []) : Inv c D (e :: ents) (insertKey (insertKey m (construct e.pub) (saxName e)) e.sys (saxName e)) := by
  refine ⟨?_, ?_, ?_, ?_⟩
  · intro k v h
    rcases find_insert_some h with h | ⟨h, hv⟩
    · rcases find_insert_some h with h | ⟨h, hv⟩
      · exact I.from' k v h
      · rcases construct_cases h with h | h
        · exact .inl h
        · exact .inr ⟨e, he, .inr h, hv.symm⟩
    · exact .inr ⟨e, he, .inl h, hv.symm⟩
  · intro d hd hk
    rcases List.mem_cons.1 hd with hd | hd
    · subst hd; exact find_insert_self _ _ _
    · exact find_insert_mono (find_insert_mono (I.has d hd hk))
  · intro d hd
    rcases List.mem_cons.1 hd with hd | hd
    · exact hd ▸ he
    · exact I.sub d hd
  · intro d hd
    rcases List.mem_cons.1 hd with hd | hd
    · exact hd ▸ hn
    · exact I.name d hd

theorem source_right (c : Cfg) (pub sys : Str) : entitySource c pub sys (source c pub sys) := by
  unfold entitySource source
  cases c.resolver with
  | none => rfl
  | some f =>
    dsimp only
    cases h1 : (f pub sys).pub with
    | nil =>
      cases h2 : (f pub sys).sys with
      | nil => simp [h1, h2]
      | cons a l => simp [h1, h2]
    | cons a l => simp [h1]

theorem toLexical_eq (c : Cfg) {n : Str} (r : Rep) (h : n ≠ []) : toLexical c n r = say c.lexical r := by
  unfold toLexical say
  cases n with
  | nil => exact absurd rfl h
  | cons a l => simp

theorem toContent_eq (c : Cfg) (r : Rep) : toContent c r = say c.content r := rfl

theorem dtd_eq : dtd = "[dtd]".toList := by decide

theorem run_right {c : Cfg} (hc : c.lexical = true ∨ c.resolving = false) {D : List Ent} (hD : Distinct D) :
    ∀ (evs : Evs) {m : Map} {ents : List Ent}, Inv c D ents m → WellFormed c.resolving ents evs →
      (∀ d ∈ declared evs, d ∈ D) →
      Right c evs (run c m evs).2 ∧ Inv c D (scope c.resolving ents evs) (run c m evs).1
  | .done, m, ents, I, _, _ => ⟨.done, I⟩
  | .doctype pub (some sys) rest, m, ents, I, hw, hd => by
    have I' : Inv c D (⟨.subset, "[dtd]".toList, pub, sys⟩ :: ents) (startDoctypeDecl c m pub (some sys)) := by
      have hmem := hd ⟨.subset, "[dtd]".toList, pub, sys⟩ List.mem_cons_self
      have hne : saxName ⟨.subset, "[dtd]".toList, pub, sys⟩ ≠ [] := by
        show "[dtd]".toList ≠ []
        decide
      unfold startDoctypeDecl
      by_cases hl : c.lexical = true
      · rw [if_pos hl, dtd_eq]
        exact inv_insert I hmem hne
      · rw [if_neg hl]
        refine ⟨I.from', ?_, ?_, ?_⟩
        · intro d hd' hk
          rcases List.mem_cons.1 hd' with h | h
          · subst h
            rcases hk with hk | hk
            · exact absurd hk hl
            · cases hk
          · exact I.has d h hk
        · intro d hd'
          rcases List.mem_cons.1 hd' with h | h
          · exact h ▸ hmem
          · exact I.sub d h
        · intro d hd'
          rcases List.mem_cons.1 hd' with h | h
          · exact h ▸ hne
          · exact I.name d h
    obtain ⟨h1, h2⟩ := run_right hc hD rest I' hw (fun d h => hd d (List.mem_cons_of_mem _ h))
    exact ⟨.doctype _ _ _ _ h1, h2⟩
  | .doctype pub none rest, m, ents, I, hw, hd => by
    have hpub : pub = none := hw.1
    subst hpub
    have I' : Inv c D ents (startDoctypeDecl c m none none) := by
      unfold startDoctypeDecl
      split
      · refine ⟨?_, fun d hd' hk => find_insert_mono (find_insert_mono (I.has d hd' hk)), I.sub, I.name⟩
        intro k v h
        rcases find_insert_some h with h | ⟨h, hv⟩
        · rcases find_insert_some h with h | ⟨h, hv⟩
          · exact I.from' k v h
          · exact .inl h.symm
        · exact .inl h.symm
      · exact I
    obtain ⟨h1, h2⟩ := run_right hc hD rest I' hw.2 hd
    exact ⟨.doctype _ _ _ _ h1, h2⟩
  | .declare e rest, m, ents, I, hw, hd => by
    have hmem := hd e List.mem_cons_self
    have hkind : e.kind = .general := by
      cases h : e.kind with
      | general => rfl
      | parameter => exact absurd h (hD.1 e hmem).1
      | subset => exact absurd h hw.2.1
    have hsax : saxName e = e.name := by unfold saxName; rw [hkind]
    have I' : Inv c D (e :: ents) (entityDeclaration m e) := by
      have := inv_insert I hmem (by rw [hsax]; exact hw.1)
      rw [hsax] at this
      exact this
    obtain ⟨h1, h2⟩ := run_right hc hD rest I' hw.2.2 (fun d h => hd d (List.mem_cons_of_mem _ h))
    exact ⟨.declare _ _ _ h1, h2⟩
  | .characters s rest, m, ents, I, hw, hd => by
    obtain ⟨h1, h2⟩ := run_right hc hD rest I hw hd
    exact ⟨.characters _ _ _ h1, h2⟩
  | .nextDocument rest, m, ents, I, hw, hd => by
    have I' : Inv c D [] m := ⟨I.from', (fun d h => by cases h), (fun d h => by cases h), (fun d h => by cases h)⟩
    obtain ⟨h1, h2⟩ := run_right hc hD rest I' hw hd
    exact ⟨.nextDocument _ _ h1, h2⟩
  | .ref e content rest, m, ents, I, hw, hd => by
    obtain ⟨hmem, hgen, hwc, hwr⟩ := hw
    have hdc : ∀ d ∈ declared content, d ∈ D := fun d h => hd d (List.mem_append_left _ h)
    have hdr : ∀ d ∈ declared rest, d ∈ D := fun d h => hd d (List.mem_append_right _ h)
    obtain ⟨v, hv⟩ := I.has e hmem (hc.imp id hgen)
    have hname : v = saxName e := by
      rcases I.from' e.sys v hv with h | ⟨d, hdD, hk, hvd⟩
      · exact absurd h (hD.1 e (I.sub e hmem)).2
      · rw [hvd]; exact hD.2 d hdD e (I.sub e hmem) hk
    have hne := I.name e hmem
    have hix : index m e.sys = (m, saxName e) := by unfold index; rw [hv, hname]
    unfold run
    rw [hix]
    cases hr : c.resolving with
    | false =>
      rw [hr] at hwr hwc
      obtain ⟨h1, h2⟩ := run_right hc hD rest I (by rw [hr]; exact hwr) hdr
      dsimp only
      rw [if_pos (by rfl)]
      have hemp : (saxName e).isEmpty = false := by
        cases h : saxName e with
        | nil => exact absurd h hne
        | cons => rfl
      rw [hemp, if_neg Bool.false_ne_true, toContent_eq]
      refine ⟨.skipped _ _ _ _ hr h1, ?_⟩
      rw [hr] at h2
      exact h2
    | true =>
      rw [hr] at hwr hwc
      obtain ⟨h1, h2⟩ := run_right hc hD content I (by rw [hr]; exact hwc) hdc
      obtain ⟨h3, h4⟩ := run_right hc hD rest h2 (by rw [hr]; exact hwr) hdr
      dsimp only
      rw [if_neg (by simp)]
      rw [toLexical_eq c _ hne, toLexical_eq c _ hne]
      refine ⟨?_, ?_⟩
      · have := Right.read e content rest _ _ _ hr (source_right c (e.pub.getD []) e.sys) h1 h3
        simpa [construct, List.append_assoc] using this
      · rw [hr] at h4
        exact h4

/-- Without a LexicalHandler what is read is not reported by name. -/
theorem run_quiet {c : Cfg} (hl : c.lexical = false) (hr : c.resolving = true) :
    ∀ (evs : Evs) (m : Map), Right c evs (run c m evs).2
  | .done, m => .done
  | .doctype pub sys rest, m => .doctype _ _ _ _ (run_quiet hl hr rest _)
  | .declare e rest, m => .declare _ _ _ (run_quiet hl hr rest _)
  | .characters s rest, m => .characters _ _ _ (run_quiet hl hr rest _)
  | .nextDocument rest, m => .nextDocument _ _ (run_quiet hl hr rest _)
  | .ref e content rest, m => by
    unfold run
    dsimp only
    rw [if_neg (by rw [hr]; simp)]
    have h1 := run_quiet hl hr content (index m e.sys).1
    have h2 := run_quiet hl hr rest (run c (index m e.sys).1 content).1
    have := Right.read e content rest _ _ _ hr (source_right c (e.pub.getD []) e.sys) h1 h2
    have hlex : ∀ n r, toLexical c n r = [] := by intro n r; unfold toLexical; rw [hl]; simp
    rw [hlex, hlex]
    simpa [construct, say, hl] using this

end Verif.ExternalEntity
