import Verif.Lemmas.XsltDomSink
set_option autoImplicit false
set_option linter.unusedSimpArgs false
set_option linter.unusedVariables false
/-! Lemmas about the sink that builds a DOM: whole transformations. -/
namespace Verif.XsltDomSink
open Verif.Xslt (QN OAttr Event Instrs Out execs)
open Verif.Xslt (Last feed feed1 tell told NamesOk PfxOk erase autoPrefix)
open Verif.XTree (Tree Data Kind)
open Verif.Spec.XsltOutput (Res readTags sections section1 listed results Consistents)
open Verif.Spec.XsltDomSink

/-- What the DOM asks of the names in a result. -/
def ResOk (C : Chars) : Res → Prop
  | .start _ l as => Nm C l ∧ ∀ a ∈ as, Nm C a.2.1
  | .pi t s => DomNames.checkName C.name t = true ∧ s.all C.char = true
  | _ => True

theorem told_mem {evs : List Event} {e : Event} (he : e ∈ evs) {r : Res} (hr : r ∈ tell e) : r ∈ told evs :=
  List.mem_flatMap.mpr ⟨e, he, hr⟩

theorem init_good (cd : List (Str × Str)) : Good cd {} [] [] ([], false) .other [] :=
  ⟨rfl, ⟨false, rfl⟩, Or.inr ⟨rfl, rfl, rfl⟩, rfl, rfl, ⟨trivial, Or.inl rfl⟩, fun e => by cases e⟩

theorem put_ne (acc : List Res) (r : Res) : put true acc r ≠ [] := by
  cases r with
  | text s =>
    rw [put]
    split <;> simp
  | _ => simp [put]

theorem fold_ne (rs : List Res) (acc : List Res) (h : acc ≠ []) : rs.foldl (put true) acc ≠ [] := by
  induction rs generalizing acc with
  | nil => exact h
  | cons r rs ih => exact ih _ (put_ne acc r)

theorem joinedEmpty_ne (rs : List Res) (h : rs ≠ []) : joinedEmpty rs ≠ [] := by
  cases rs with
  | nil => exact absurd rfl h
  | cons r rs => exact fold_ne rs _ (put_ne [] r)

theorem joined_same (rs : List Res) (h : .text [] ∉ rs) (acc : List Res) :
    rs.foldl (put true) acc = rs.foldl (put false) acc := by
  induction rs generalizing acc with
  | nil => rfl
  | cons r rs ih =>
    simp only [List.mem_cons, not_or] at h
    have : put true acc r = put false acc r := by
      cases r with
      | text s =>
        have hs : s ≠ [] := by intro e; subst e; exact h.1 rfl
        simp [put, hs]
      | _ => rfl
    rw [List.foldl_cons, List.foldl_cons, this]
    exact ih h.2 _

theorem transform_events {C : Chars} {ns : Str → Str} (cd : List (Str × Str)) (is : Instrs) (h : Consistents ns is)
    (hr : ∀ r ∈ results is, ResOk C r) :
    ∃ evs, (execs { cdata := cd, wantDecs := false } is).out = evs ∧ told evs = results is ∧
      (∀ e ∈ evs, Fine C ns e) ∧ (∃ x', sections cd ([], false) evs = some (x', false)) ∧ (∃ y', feed .other evs = some y') ∧
      ∃ rs, readTags [] evs = some (rs, []) := by
  have hs := Verif.Xslt.steps is (Verif.Xslt.Consistents.plain ns is h) { cdata := cd, wantDecs := false }
    (Verif.Xslt.init_idle cd false)
  obtain ⟨evs, ho, ht, hc, _, hf, hn⟩ := hs.trace
  obtain ⟨h1, h2⟩ := hn ns [] rfl h (Verif.Xslt.init_inv ns cd false)
  have hcl : Verif.Xslt.isOpen (execs { cdata := cd, wantDecs := false } is) = false := by
    unfold Verif.Xslt.isOpen Verif.Xslt.isCDATA
    rw [hs.elements]
    simp
  rw [hcl] at hc
  have hfine : ∀ e ∈ evs, Fine C ns e := by
    intro e he
    refine ⟨h2 e he, ?_⟩
    cases e with
    | startElement q u as =>
      have := hr (.start u q.2 (as.map erase)) (by rw [← h1]; exact told_mem he (by simp [tell]))
      refine ⟨this.1, ?_⟩
      intro a ha
      exact this.2 (erase a) (List.mem_map.mpr ⟨a, ha, rfl⟩)
    | pi t s => exact hr (.pi t s) (by rw [← h1]; exact told_mem he (by simp [tell]))
    | _ => trivial
  exact ⟨evs, by rw [ho]; rfl, h1, hfine, ⟨_, hc⟩, ⟨_, hf⟩, ⟨_, ht []⟩⟩

theorem transform_good {C : Chars} {ns : Str → Str} (hC : CharsOk C) (hns : ∀ p, p ≠ [] → ns p ≠ [] → Nm C p)
    (cd : List (Str × Str)) (is : Instrs) (h : Consistents ns is) (hr : ∀ r ∈ results is, ResOk C r) :
    (results is = [] → transform C cd false is = .done none) ∧
    (results is ≠ [] → ∃ top, transform C cd false is =
        .done (some (.node { kind := .fragment, name := "#document-fragment".toList } [] top)) ∧
      nodesAll top = joinedEmpty (results is) ∧ SectionedAll cd false top) := by
  obtain ⟨evs, hout, h1, hfine, ⟨_, hc⟩, ⟨_, hf⟩, ⟨_, ht⟩⟩ := transform_events (C := C) cd is h hr
  obtain ⟨k, top, hrun, hg⟩ := run_good hC hns evs (init_good cd) hfine hc hf [] rfl _ ht
  have hacc : (told evs).foldl (put true) [] = joinedEmpty (results is) := by rw [h1]; rfl
  rw [hacc] at hg
  have htr : transform C cd false is = .done (node k) := by
    rw [transform, hout]
    show (match run C {} evs with | .done k => _ | .throws => _ | .undefined => _) = _
    rw [hrun]
  constructor
  · intro hne
    rw [htr]
    have hev : told evs = [] := by rw [h1, hne]
    have : k.frag = none := by
      rcases hg.wrote with hw | ⟨_, hw, _⟩
      · exfalso
        -- only events that tell nothing: the sink has not been written to
        have key : ∀ (l : List Event) (y y' : Last), told l = [] → feed y l = some y' → y = .other →
            ∀ k0 k1, run C k0 l = .done k1 → k1 = k0 := by
          intro l
          induction l with
          | nil => intro _ _ _ _ _ k0 k1 hk; simp only [run, Outcome.done.injEq] at hk; exact hk.symm
          | cons e es ih =>
            intro y y' htl hfe hy k0 k1 hk
            subst hy
            rw [feed] at hfe
            cases e with
            | startCDATA =>
              simp only [feed1, if_true] at hfe
              exact ih _ _ (by simpa [told, tell] using htl) hfe rfl k0 k1 (by simpa [run, step] using hk)
            | endCDATA => simp [feed1] at hfe
            | _ => simp [told, tell] at htl
        have := key evs _ _ hev hf rfl {} k hrun
        rw [this] at hw
        simp at hw
      · exact hw
    simp [node, this]
  · intro hne
    refine ⟨top, ?_, ?_, ?_⟩
    · rw [htr]
      rcases hg.wrote with ⟨_, hw⟩ | ⟨_, _, hw⟩
      · simp [node, hw]
      · exact absurd hw (joinedEmpty_ne _ hne)
    · exact hg.lin
    · exact level_done hg.inner (fun _ => rfl)

/-! The characters of wide strings, and of strings of bytes. -/

theorem bytes_name (c : Char) (h : c.toNat < 128) : bytes.name c = wide.name c := by
  show DomNames.byteNameChar c = DomNames.wideNameChar c
  simp [DomNames.byteNameChar, DomNames.wideNameChar, h]

theorem auto_chars (i : Nat) (c : Char) (h : c ∈ autoPrefix i) : c ∈ "auto-ns0123456789".toList := by
  unfold autoPrefix at h
  rcases List.mem_append.mp h with h | h
  · have : ∀ c ∈ ['a', 'u', 't', 'o', '-', 'n', 's'], c ∈ "auto-ns0123456789".toList := by decide
    exact this c h
  · have := Nat.isDigit_of_mem_toDigits (by omega) (by omega) h
    simp only [Char.isDigit, Bool.and_eq_true, decide_eq_true_eq] at this
    obtain ⟨h1, h2⟩ := this
    have h1 : 48 ≤ c.toNat := h1
    have h2 : c.toNat ≤ 57 := h2
    have hc : c = Char.ofNat c.toNat := (Char.ofNat_toNat c).symm
    generalize c.toNat = n at *
    have : n = 48 ∨ n = 49 ∨ n = 50 ∨ n = 51 ∨ n = 52 ∨ n = 53 ∨ n = 54 ∨ n = 55 ∨ n = 56 ∨ n = 57 := by omega
    rw [hc]
    rcases this with h | h | h | h | h | h | h | h | h | h <;> rw [h] <;> decide

theorem wide_ok : CharsOk wide := by
  have h : ∀ c ∈ "auto-ns0123456789".toList, wide.name c = true := by decide +kernel
  exact ⟨by decide +kernel, fun i c hc => h c (auto_chars i c hc), by decide +kernel⟩

theorem bytes_ok : CharsOk bytes := by
  have h : ∀ c ∈ "auto-ns0123456789".toList, bytes.name c = true := by decide +kernel
  exact ⟨by decide +kernel, fun i c hc => h c (auto_chars i c hc), by decide +kernel⟩

theorem nc_wide {s : Str} (h : Verif.Spec.DomNames.NCName s) : Nm wide s := by
  obtain ⟨h1, h2⟩ := Props.DomNames.ncname_nameChar h
  exact ⟨h1, fun hc => (h2 _ hc).2 rfl, fun c hc => (Props.DomNames.wide_iff c).mpr (h2 c hc).1⟩

theorem nc_bytes {s : Str} (h : Verif.Spec.DomNames.NCName s) (ha : Ascii s) : Nm bytes s := by
  have := nc_wide h
  exact ⟨this.ne, this.colon, fun c hc => by rw [bytes_name c (ha c hc)]; exact this.all c hc⟩

theorem xmlName_chars {s : Str} (h : Verif.Spec.DomNames.XmlName s) :
    s ≠ [] ∧ ∀ c ∈ s, wide.name c = true := by
  obtain ⟨c, t, hs, hc, ht⟩ := h
  unfold Verif.Spec.DomNames.codes at hs
  cases s with
  | nil => cases hs
  | cons d s =>
    simp only [List.map_cons, List.cons.injEq] at hs
    obtain ⟨h1, h2⟩ := hs
    refine ⟨by simp, ?_⟩
    intro x hx
    refine (Props.DomNames.wide_iff x).mpr ?_
    rcases List.mem_cons.mp hx with hx | hx
    · subst hx
      rw [h1]
      rcases hc with hc | hc | hc
      · exact .inl hc
      · rw [hc]; exact .inr (.inr (.inr (.inr (.inl rfl))))
      · rw [hc]; exact .inr (.inr (.inr (.inr (.inr (.inl rfl)))))
    · exact ht x.toNat (by rw [← h2]; exact List.mem_map.mpr ⟨x, hx, rfl⟩)

theorem char_wide {c : Char} (h : Verif.Spec.Xml.Char c.toNat) : wide.char c = true := by
  show XmlChars.isChar c.toNat = true
  unfold Verif.Spec.Xml.Char at h
  simp only [XmlChars.isChar, Bool.or_eq_true, beq_iff_eq, Bool.and_eq_true, decide_eq_true_eq]
  omega

theorem res_wide {r : Res} (h : Nameable r) : ResOk wide r := by
  cases r with
  | start u l as => exact ⟨nc_wide h.1, fun a ha => nc_wide (h.2 a ha)⟩
  | pi t s =>
    obtain ⟨h1, h2⟩ := xmlName_chars h.1
    exact ⟨checkName_of h1 h2, List.all_eq_true.mpr fun c hc => char_wide (h.2 c hc)⟩
  | _ => trivial

theorem res_bytes {r : Res} (h : Nameable r) (ha : Seven r) : ResOk bytes r := by
  cases r with
  | start u l as => exact ⟨nc_bytes h.1 ha.1, fun a hm => nc_bytes (h.2 a hm) (ha.2 a hm)⟩
  | pi t s =>
    obtain ⟨h1, h2⟩ := xmlName_chars h.1
    refine ⟨checkName_of h1 fun c hc => by rw [bytes_name c (ha.1 c hc)]; exact h2 c hc, ?_⟩
    refine List.all_eq_true.mpr fun c hc => ?_
    have : bytes.char c = wide.char c := by
      show XmlChars.isChar _ = XmlChars.isChar _
      rw [if_pos (ha.2 c hc)]
    rw [this]
    exact char_wide (h.2 c hc)
  | _ => trivial

end Verif.XsltDomSink
