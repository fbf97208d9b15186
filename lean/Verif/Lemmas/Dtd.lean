import Verif.Spec.Dtd
set_option autoImplicit false
set_option linter.unusedSimpArgs false
set_option linter.unusedVariables false
namespace Verif.Dtd
open Verif.Spec.Dtd hiding Str

/-! ## Content models -/

theorem quant_occurs (q : Quant) : quantText q = occurs q := by cases q <;> rfl

theorem joined_cons (c : Char) (s : Str) (ss : List Str) :
    joined c (s :: ss) = s ++ (ss.flatMap fun x => c :: x) := by
  induction ss generalizing s with
  | nil => simp [joined]
  | cons x ss ih => rw [joined, ih]; simp; exact fun h => nomatch h

theorem joined_two (c : Char) (s s' : Str) (ss : List Str) :
    joined c (s :: s' :: ss) = s ++ c :: joined c (s' :: ss) := rfl

theorem more_flat (c : Char) (cs : List Content) :
    convertMore c cs = cs.flatMap fun x => c :: convert true x := by
  induction cs with
  | nil => rw [convertMore]; rfl
  | cons x cs ih => rw [convertMore, ih]; rfl

theorem all_joined (c : Char) (cs : List Content) : convertAll c cs = joined c (cs.map (convert true)) := by
  cases cs with
  | nil => rw [convertAll]; rfl
  | cons x cs =>
    rw [convertAll, more_flat, List.map_cons, joined_cons, List.flatMap_map]

theorem cps_map {ps : List Particle} (h : ∀ p ∈ ps, Cp p (convert true p.expat)) :
    Cps ps ((ps.map Particle.expat).map (convert true)) := by
  induction ps with
  | nil => exact .nil
  | cons p ps ih =>
    exact .cons _ _ _ _ (h p List.mem_cons_self) (ih fun x hx => h x (List.mem_cons_of_mem _ hx))

theorem group_convert (b : Bool) {t : CType} {c : Char} (ht : (t = .choice ∧ c = '|') ∨ (t = .seq ∧ c = ','))
    {ps : List Particle} (hn : ps ≠ []) (q : Quant) :
    convert b (.mk t q [] (ps.map Particle.expat)) =
      ['('] ++ joined c ((ps.map Particle.expat).map (convert true)) ++ [')'] ++ occurs q := by
  have hne : (ps.map Particle.expat).isEmpty = false := by
    cases ps with
    | nil => exact absurd rfl hn
    | cons p ps => rfl
  rw [convert, hne, all_joined, quant_occurs]
  rcases ht with ⟨rfl, rfl⟩ | ⟨rfl, rfl⟩
  · simp [opening, concatenator]
  · simp [opening, concatenator]

theorem cp_convert {p : Particle} (h : p.Fine) : Cp p (convert true p.expat) := by
  induction h with
  | name n q hn =>
    rw [Particle.expat, convert, quant_occurs]
    have := Cp.name n q hn
    simpa [opening] using this
  | choice ps q hl _ ih =>
    rw [Particle.expat, group_convert true (.inl ⟨rfl, rfl⟩) (by intro e; rw [e] at hl; simp at hl)]
    exact .choice _ _ _ hl (cps_map ih)
  | seq ps q hl _ ih =>
    rw [Particle.expat, group_convert true (.inr ⟨rfl, rfl⟩) (by intro e; rw [e] at hl; simp at hl)]
    exact .seq _ _ _ hl (cps_map ih)

theorem derives_convert {m : Model} (h : m.Fine) : Derives m (convert false m.expat) := by
  cases h with
  | empty =>
    have : convert false Model.empty.expat = kw "EMPTY" := by simp [Model.expat, convert, opening, quantText]
    rw [this]; exact .empty
  | any =>
    have : convert false Model.any.expat = kw "ANY" := by simp [Model.expat, convert, opening, quantText]
    rw [this]; exact .any
  | pcdata star =>
    cases star
    · have : convert false (Model.mixed [] false).expat = kw "(#PCDATA)" := by
        simp [Model.expat, convert, opening, quantText]
      rw [this]; exact .pcdata
    · have : convert false (Model.mixed [] true).expat = kw "(#PCDATA)*" := by
        have e : kw "(#PCDATA)*" = kw "(#PCDATA)" ++ ['*'] := by decide +kernel
        rw [e]
        simp [Model.expat, convert, opening, quantText]
      rw [this]; exact .pcdataStar
  | choice ps q hp =>
    have hc := cp_convert hp
    cases hp with
    | choice _ _ hl hf =>
      have hn : ps ≠ [] := by intro e; rw [e] at hl; simp at hl
      rw [Particle.expat, group_convert true (.inl ⟨rfl, rfl⟩) hn] at hc
      rw [Model.expat, Particle.expat, group_convert false (.inl ⟨rfl, rfl⟩) hn]
      exact .choice _ _ _ hc
  | seq ps q hp =>
    have hc := cp_convert hp
    cases hp with
    | seq _ _ hl hf =>
      have hn : ps ≠ [] := by intro e; rw [e] at hl; simp at hl
      rw [Particle.expat, group_convert true (.inr ⟨rfl, rfl⟩) hn] at hc
      rw [Model.expat, Particle.expat, group_convert false (.inr ⟨rfl, rfl⟩) hn]
      exact .seq _ _ _ hc

/-! A text has one reading. -/

/-- What can stand after a particle. -/
def Stop (r : Str) : Prop := ∀ c, r.head? = some c → c = ',' ∨ c = '|' ∨ c = ')'

def nameChar (c : Char) : Prop :=
  c ∉ ['(', ')', ',', '|', '?', '*', '+', '#', ' ', '\n', '\t', '\r', '"', '>', '[']

theorem name_prefix : ∀ {n n' t t' : Str}, (∀ c ∈ n, nameChar c) → (∀ c ∈ n', nameChar c) →
    (∀ c, t.head? = some c → ¬ nameChar c) → (∀ c, t'.head? = some c → ¬ nameChar c) →
    n ++ t = n' ++ t' → n = n' ∧ t = t' := by
  intro n
  induction n with
  | nil =>
    intro n' t t' _ h' ht _ e
    cases n' with
    | nil => exact ⟨rfl, e⟩
    | cons c n' =>
      rw [List.nil_append] at e
      exact absurd (h' c List.mem_cons_self) (ht c (by rw [e]; rfl))
  | cons c n ih =>
    intro n' t t' h h' ht ht' e
    cases n' with
    | nil =>
      rw [List.nil_append] at e
      exact absurd (h c List.mem_cons_self) (ht' c (by rw [← e]; rfl))
    | cons c' n' =>
      simp only [List.cons_append, List.cons.injEq] at e
      obtain ⟨rfl, e⟩ := e
      obtain ⟨rfl, rfl⟩ := ih (fun x hx => h x (List.mem_cons_of_mem _ hx))
        (fun x hx => h' x (List.mem_cons_of_mem _ hx)) ht ht' e
      exact ⟨rfl, rfl⟩

theorem occurs_prefix {q q' : Quant} {r r' : Str} (h : Stop r) (h' : Stop r') (e : occurs q ++ r = occurs q' ++ r') :
    q = q' ∧ r = r' := by
  have k : ∀ {c : Char} {x : Str}, Stop (c :: x) → c = ',' ∨ c = '|' ∨ c = ')' := fun h => h _ rfl
  cases q <;> cases q' <;> simp [occurs] at e
  case none.none => exact ⟨rfl, e⟩
  case opt.opt => exact ⟨rfl, e⟩
  case rep.rep => exact ⟨rfl, e⟩
  case plus.plus => exact ⟨rfl, e⟩
  all_goals first
    | (rw [e] at h; rcases k h with c | c | c <;> cases c)
    | (rw [← e] at h'; rcases k h' with c | c | c <;> cases c)

theorem occurs_head {q : Quant} {r : Str} (h : Stop r) : ∀ c, (occurs q ++ r).head? = some c → ¬ nameChar c := by
  intro c hc
  cases q
  · rcases h c (by simpa [occurs] using hc) with rfl | rfl | rfl <;> simp [nameChar]
  · simp [occurs] at hc; subst hc; simp [nameChar]
  · simp [occurs] at hc; subst hc; simp [nameChar]
  · simp [occurs] at hc; subst hc; simp [nameChar]

theorem cp_head {p : Particle} {s : Str} (h : Cp p s) : ∃ c x, s = c :: x ∧ c ≠ ')' ∧ c ≠ '#' := by
  cases h with
  | name n q hn =>
    obtain ⟨h1, h2⟩ := hn
    cases n with
    | nil => exact absurd rfl h1
    | cons c n =>
      have := h2 c List.mem_cons_self
      refine ⟨c, n ++ occurs q, rfl, ?_, ?_⟩
      · rintro rfl; simp at this
      · rintro rfl; simp at this
  | choice ps q ss hl hc => exact ⟨'(', _, rfl, by decide, by decide⟩
  | seq ps q ss hl hc => exact ⟨'(', _, rfl, by decide, by decide⟩

/-- The reading of a list, given that of its members. -/
theorem cps_unique {N : Nat}
    (ih : ∀ {p p' : Particle} {s s' r r' : Str}, s.length < N → Cp p s → Cp p' s' → Stop r → Stop r' →
      s ++ r = s' ++ r' → p = p' ∧ r = r') {c c' : Char} (hc : c = '|' ∨ c = ',') (hc' : c' = '|' ∨ c' = ',') :
    ∀ {ps ps' : List Particle} {ss ss' : List Str} {r r' : Str}, ps ≠ [] → ps' ≠ [] → Cps ps ss → Cps ps' ss' →
      (joined c ss).length < N →
      joined c ss ++ ')' :: r = joined c' ss' ++ ')' :: r' →
      ps = ps' ∧ r = r' ∧ (2 ≤ ps.length → c = c') := by
  have sc : ∀ x : Str, Stop (c :: x) := by
    intro x d hd
    cases hd
    rcases hc with rfl | rfl
    · exact .inr (.inl rfl)
    · exact .inl rfl
  have sc' : ∀ x : Str, Stop (c' :: x) := by
    intro x d hd
    cases hd
    rcases hc' with rfl | rfl
    · exact .inr (.inl rfl)
    · exact .inl rfl
  have sp : ∀ x : Str, Stop (')' :: x) := by
    intro x d hd
    cases hd
    exact .inr (.inr rfl)
  have ne : c ≠ ')' := by rcases hc with rfl | rfl <;> decide
  have ne' : c' ≠ ')' := by rcases hc' with rfl | rfl <;> decide
  intro ps
  induction ps with
  | nil => intro _ _ _ _ _ h; exact absurd rfl h
  | cons p ps ihp =>
    intro ps' ss ss' r r' _ hn' h h' hN e
    cases h with
    | cons _ _ s ss hp hs =>
      cases h' with
      | nil => exact absurd rfl hn'
      | cons p' ps' s' ss' hp' hs' =>
        cases hs with
        | nil =>
          cases hs' with
          | nil =>
            simp only [joined] at e hN
            obtain ⟨rfl, e⟩ := ih hN hp hp' (sp _) (sp _) e
            cases e
            exact ⟨rfl, rfl, fun h => absurd h (by simp)⟩
          | cons p2 ps2 s2 ss2 hp2 hs2 =>
            simp only [joined, List.append_assoc, List.cons_append] at e hN
            obtain ⟨_, e⟩ := ih hN hp hp' (sp _) (sc' _) e
            cases e
            exact absurd rfl ne'
        | cons p1 ps1 s1 ss1 hp1 hs1 =>
          have hs : s.length < N ∧ (joined c (s1 :: ss1)).length < N := by
            simp only [joined, List.length_append, List.length_cons] at hN
            omega
          cases hs' with
          | nil =>
            simp only [joined, List.append_assoc, List.cons_append] at e hN
            obtain ⟨_, e⟩ := ih hs.1 hp hp' (sc _) (sp _) e
            cases e
            exact absurd rfl ne
          | cons p2 ps2 s2 ss2 hp2 hs2 =>
            rw [joined_two, joined_two] at e
            simp only [List.append_assoc, List.cons_append] at e
            obtain ⟨rfl, e⟩ := ih hs.1 hp hp' (sc _) (sc' _) e
            simp only [List.cons.injEq] at e
            obtain ⟨ec, e⟩ := e
            obtain ⟨h1, h2, _⟩ := ihp (by simp) (by simp) (Cps.cons _ _ _ _ hp1 hs1) (Cps.cons _ _ _ _ hp2 hs2) hs.2 e
            exact ⟨by rw [h1], h2, fun _ => ec⟩

theorem cp_unique : ∀ (N : Nat) {p p' : Particle} {s s' r r' : Str}, s.length < N → Cp p s → Cp p' s' → Stop r →
    Stop r' → s ++ r = s' ++ r' → p = p' ∧ r = r' := by
  intro N
  induction N with
  | zero => intro _ _ _ _ _ _ h; exact absurd h (Nat.not_lt_zero _)
  | succ N ih =>
    intro p p' s s' r r' hN h h' hr hr' e
    have group : ∀ {c c' : Char} {ps ps' : List Particle} {ss ss' : List Str} {q q' : Quant}
        (_ : c = '|' ∨ c = ',') (_ : c' = '|' ∨ c' = ',') (_ : ps ≠ []) (_ : ps' ≠ []) (_ : Cps ps ss)
        (_ : Cps ps' ss') (_ : (['('] ++ joined c ss ++ [')'] ++ occurs q).length < N + 1)
        (_ : (['('] ++ joined c ss ++ [')'] ++ occurs q) ++ r = (['('] ++ joined c' ss' ++ [')'] ++ occurs q') ++ r'),
        ps = ps' ∧ q = q' ∧ r = r' ∧ (2 ≤ ps.length → c = c') := by
      intro c c' ps ps' ss ss' q q' hc hc' hn hn' h h' hN e
      have e' : joined c ss ++ ')' :: (occurs q ++ r) = joined c' ss' ++ ')' :: (occurs q' ++ r') := by
        simpa using e
      obtain ⟨h1, h2, h3⟩ := cps_unique (N := N) (fun hl => ih hl) hc hc' hn hn' h h' (by simp at hN; omega) e'
      obtain ⟨h4, h5⟩ := occurs_prefix hr hr' h2
      exact ⟨h1, h4, h5, h3⟩
    have ne : ∀ {k : Nat} {ps : List Particle}, k + 1 ≤ ps.length → ps ≠ [] := by
      intro k ps h e; rw [e] at h; simp at h
    have paren : ∀ {n : Str} {q : Quant} {x : Str}, Name n → (n ++ occurs q) ++ r = '(' :: x → False := by
      intro n q x hn e
      cases n with
      | nil => exact hn.1 rfl
      | cons a n =>
        simp only [List.cons_append, List.cons.injEq] at e
        have := hn.2 a List.mem_cons_self
        rw [e.1] at this
        simp at this
    have paren' : ∀ {n : Str} {q : Quant} {x : Str}, Name n → '(' :: x = (n ++ occurs q) ++ r' → False := by
      intro n q x hn e
      cases n with
      | nil => exact hn.1 rfl
      | cons a n =>
        simp only [List.cons_append, List.cons.injEq] at e
        have := hn.2 a List.mem_cons_self
        rw [← e.1] at this
        simp at this
    cases h with
    | name n q hn =>
      cases h' with
      | name n' q' hn' =>
        rw [List.append_assoc, List.append_assoc] at e
        obtain ⟨rfl, e2⟩ := name_prefix (t := occurs q ++ r) (t' := occurs q' ++ r') hn.2 hn'.2 (occurs_head hr)
          (occurs_head hr') e
        obtain ⟨rfl, rfl⟩ := occurs_prefix hr hr' e2
        exact ⟨rfl, rfl⟩
      | choice ps' q' ss' hl' hs' => exact (paren hn e).elim
      | seq ps' q' ss' hl' hs' => exact (paren hn e).elim
    | choice ps q ss hl hs =>
      cases h' with
      | name n' q' hn' => exact (paren' hn' e).elim
      | choice ps' q' ss' hl' hs' =>
        obtain ⟨rfl, rfl, h3, _⟩ := group (.inl rfl) (.inl rfl) (ne hl) (ne hl') hs hs' hN e
        exact ⟨rfl, h3⟩
      | seq ps' q' ss' hl' hs' =>
        obtain ⟨_, _, _, h4⟩ := group (.inl rfl) (.inr rfl) (ne hl) (ne hl') hs hs' hN e
        exact absurd (h4 hl) (by decide)
    | seq ps q ss hl hs =>
      cases h' with
      | name n' q' hn' => exact (paren' hn' e).elim
      | choice ps' q' ss' hl' hs' =>
        obtain ⟨h1, _, _, h4⟩ := group (.inr rfl) (.inl rfl) (ne hl) (ne hl') hs hs' hN e
        exact absurd (h4 (by rw [h1]; exact hl')) (by decide)
      | seq ps' q' ss' hl' hs' =>
        obtain ⟨rfl, rfl, h3, _⟩ := group (.inr rfl) (.inr rfl) (ne hl) (ne hl') hs hs' hN e
        exact ⟨rfl, h3⟩

theorem stop_nil : Stop [] := fun c h => nomatch h

theorem particle_unique {p p' : Particle} {s : Str} (h : Cp p s) (h' : Cp p' s) : p = p' :=
  (cp_unique (s.length + 1) (Nat.lt_succ_self _) h h' stop_nil stop_nil (r := []) (r' := []) rfl).1

/-- The text of a choice or a sequence begins with a parenthesis and something that is not `#`. -/
theorem group_head {p : Particle} {s : Str} (h : Cp p s) (hp : ∀ n q, p ≠ .name n q) :
    ∃ c x, s = '(' :: c :: x ∧ c ≠ '#' := by
  have key : ∀ {k : Char} {ps : List Particle} {ss : List Str} {q : Quant}, ps ≠ [] → Cps ps ss →
      ∃ c x, ['('] ++ joined k ss ++ [')'] ++ occurs q = '(' :: c :: x ∧ c ≠ '#' := by
    intro k ps ss q hn hs
    cases hs with
    | nil => exact absurd rfl hn
    | cons p ps s ss hp hs =>
      obtain ⟨c, x, rfl, _, hc⟩ := cp_head hp
      rw [joined_cons]
      exact ⟨c, _, rfl, hc⟩
  cases h with
  | name n q hn => exact absurd rfl (hp n q)
  | choice ps q ss hl hs => exact key (by intro e; rw [e] at hl; simp at hl) hs
  | seq ps q ss hl hs => exact key (by intro e; rw [e] at hl; simp at hl) hs

theorem names_cps {ns : List Str} (h : ∀ n ∈ ns, Name n) : Cps (ns.map fun n => .name n .none) ns := by
  induction ns with
  | nil => exact .nil
  | cons n ns ih =>
    refine .cons _ _ _ _ ?_ (ih fun x hx => h x (List.mem_cons_of_mem _ hx))
    have := Cp.name n .none (h n List.mem_cons_self)
    simpa [occurs] using this

theorem derives_head {m : Model} {s : Str} (h : Derives m s) :
    (m = .empty ∧ s = (kw "EMPTY")) ∨ (m = .any ∧ s = (kw "ANY")) ∨
    (∃ ns b x, m = .mixed ns b ∧ s = '(' :: '#' :: x) ∨
    (∃ p c x, m = .children p ∧ Cp p s ∧ s = '(' :: c :: x ∧ c ≠ '#') := by
  cases h with
  | empty => exact .inl ⟨rfl, rfl⟩
  | any => exact .inr (.inl ⟨rfl, rfl⟩)
  | pcdata => exact .inr (.inr (.inl ⟨_, _, (kw "PCDATA)"), rfl, by decide +kernel⟩))
  | pcdataStar => exact .inr (.inr (.inl ⟨_, _, (kw "PCDATA)*"), rfl, by decide +kernel⟩))
  | mixed n ns hn =>
    refine .inr (.inr (.inl ⟨_, _, (kw "PCDATA|") ++ joined '|' (n :: ns) ++ (kw ")*"), rfl, ?_⟩))
    have : (kw "(#PCDATA|") = '(' :: '#' :: (kw "PCDATA|") := by decide +kernel
    rw [this]
    rfl
  | choice ps q s hc =>
    obtain ⟨c, x, h1, h2⟩ := group_head hc (fun _ _ e => nomatch e)
    exact .inr (.inr (.inr ⟨_, c, x, rfl, hc, h1, h2⟩))
  | seq ps q s hc =>
    obtain ⟨c, x, h1, h2⟩ := group_head hc (fun _ _ e => nomatch e)
    exact .inr (.inr (.inr ⟨_, c, x, rfl, hc, h1, h2⟩))

end Verif.Dtd
