import Verif.Spec.XsltOutputDecl
import Verif.Lemmas.Text
set_option autoImplicit false
set_option linter.unusedSimpArgs false
set_option linter.unusedVariables false
namespace Verif.XsltOutputDecl
open Verif.Spec.XsltOutputDecl

/-! the words of a list -/

theorem copy_append (w rest : Str) (hw : ∀ c ∈ w, Text.isSpace c = false)
    (hr : rest = [] ∨ ∃ c r, rest = c :: r ∧ Text.isSpace c = true) : Text.copyWord (w ++ rest) = (w, rest) := by
  induction w with
  | nil =>
    rcases hr with rfl | ⟨c, r, rfl, hc⟩
    · rfl
    · simp [Text.copyWord, hc]
  | cons c w ih =>
    rw [List.cons_append, Text.copyWord, if_neg (by rw [hw c (by simp)]; decide), ih fun c hc => hw c (by simp [hc])]

theorem skip_word (w rest : Str) (hn : w ≠ []) (hw : ∀ c ∈ w, Text.isSpace c = false) :
    Text.skipSpaces (w ++ rest) = w ++ rest := by
  cases w with
  | nil => exact absurd rfl hn
  | cons c w => rw [List.cons_append, Text.skipSpaces, if_neg (by rw [hw c (by simp)]; decide)]

theorem skip_space (s : Str) : Text.skipSpaces (' ' :: s) = Text.skipSpaces s := by
  rw [Text.skipSpaces, if_pos (by decide)]

theorem readWords_join : ∀ (ws : List Str), ws ≠ [] →
    (∀ w ∈ ws, w ≠ [] ∧ ∀ c ∈ w, Text.isSpace c = false) → ∀ k, ws.length ≤ k → ∀ s,
    Text.skipSpaces s = Text.skipSpaces (Spec.Text.joinSpace ws) → readWords k s = ws
  | [], h, _, _, _, _, _ => absurd rfl h
  | [w], _, hg, k, hk, s, hs => by
    obtain ⟨k, rfl⟩ : ∃ j, k = j + 1 := ⟨k - 1, by simp at hk; omega⟩
    obtain ⟨h1, h2⟩ := hg w (by simp)
    have h3 := skip_word w [] h1 h2
    have h4 := copy_append w [] h2 (Or.inl rfl)
    rw [List.append_nil] at h3 h4
    unfold readWords extract
    have hj : Spec.Text.joinSpace [w] = w := rfl
    rw [hs, hj, h3, h4]
    exact if_pos rfl
  | w :: w' :: ws, _, hg, k, hk, s, hs => by
    obtain ⟨k, rfl⟩ : ∃ j, k = j + 1 := ⟨k - 1, by simp at hk; omega⟩
    obtain ⟨h1, h2⟩ := hg w (by simp)
    have h3 := skip_word w (' ' :: Spec.Text.joinSpace (w' :: ws)) h1 h2
    have h4 := copy_append w (' ' :: Spec.Text.joinSpace (w' :: ws)) h2 (Or.inr ⟨_, _, rfl, by decide⟩)
    unfold readWords extract
    have hj : Spec.Text.joinSpace (w :: w' :: ws) = w ++ ' ' :: Spec.Text.joinSpace (w' :: ws) := rfl
    rw [hs, hj, h3, h4]
    dsimp only
    rw [if_neg (by simp)]
    rw [readWords_join (w' :: ws) (by simp) (fun x hx => hg x (by simp [hx])) k (by simp at hk ⊢; omega) _ (skip_space _)]

theorem length_join : ∀ (ws : List Str), (∀ w ∈ ws, w ≠ []) → ws.length ≤ (Spec.Text.joinSpace ws).length
  | [], _ => by simp
  | [w], h => by
    have := List.length_pos_iff.2 (h w (by simp))
    show 1 ≤ w.length
    omega
  | w :: w' :: ws, h => by
    have := length_join (w' :: ws) fun x hx => h x (by simp [hx])
    show _ ≤ (w ++ ' ' :: Spec.Text.joinSpace (w' :: ws)).length
    simp at this ⊢
    omega

theorem words_nil : Spec.Text.words [] = [] := rfl

/-- What is read of a list: its words; or if it is blank, and not empty, one word that is empty. -/
theorem extract_eq (names : Str → Option EName) (v : Str) :
    extractCDATAElements names v =
      if v ≠ [] ∧ Spec.Text.words v = [] then [[]].mapM names else (Spec.Text.words v).mapM names := by
  unfold extractCDATAElements
  by_cases hv : v = []
  · subst hv
    simp [words_nil]
  rw [if_neg hv, Text.normalize_eq]
  by_cases hw : Spec.Text.words v = []
  · rw [if_pos ⟨hv, hw⟩, hw]
    rfl
  · rw [if_neg fun h => hw h.2]
    have hg := Text.words_good v
    rw [readWords_join _ hw (fun w hw' => ⟨(hg w hw').1, fun c hc => by rw [Text.isSpace_eq]; exact (hg w hw').2 c hc⟩) _
      (by have := length_join _ fun w hw' => (hg w hw').1; omega) _ rfl]

theorem mapM_none {α β : Type} (f : α → Option β) : ∀ l : List α, l.mapM f = none ↔ ∃ x ∈ l, f x = none
  | [] => by simp
  | a :: l => by
    rw [List.mapM_cons]
    cases h : f a with
    | none => simp [h]
    | some b =>
      have := mapM_none f l
      cases hl : l.mapM f with
      | none => simp [hl] at this ⊢; obtain ⟨x, hx, hx'⟩ := this; exact Or.inr ⟨x, hx, hx'⟩
      | some r =>
        simp [hl] at this
        simp [h]
        exact this

theorem mapM_mem {α β : Type} (f : α → Option β) : ∀ (l : List α) (r : List β), l.mapM f = some r →
    ∀ y, y ∈ r ↔ ∃ x ∈ l, f x = some y
  | [], r, h, y => by simp at h; subst h; simp
  | a :: l, r, h, y => by
    rw [List.mapM_cons] at h
    cases ha : f a with
    | none => simp [ha] at h
    | some b =>
      cases hl : l.mapM f with
      | none => simp [ha, hl] at h
      | some r' =>
        simp [ha, hl] at h
        subst h
        have := mapM_mem f l r' hl y
        simp [this, ha]
        exact or_congr_left eq_comm

/-! attributes -/

theorem parameter_iff (n : Str) : Parameter n ↔ ∃ r ∈ rules, r.1 = n := by
  have h : default'.map (fun d => d.1.toList) = rules.map fun r => r.1 := by decide +kernel
  have h1 : Parameter n ↔ n ∈ default'.map fun d => d.1.toList := by simp [Parameter]
  rw [h1, h]
  simp

theorem default_lookup : ∀ d ∈ default', ((rules.find? fun r => r.1 = d.1.toList).map fun r => r.2.1) = some d.2.toList := by
  decide +kernel

theorem allowed_valid (n v : Str) (h : Allowed n v) :
    (match rules.find? (fun r => r.1 = n) with
    | none => false
    | some r => r.2.2.isEmpty || r.2.2.contains v) = true := by
  cases h with
  | method v hm =>
    simp only [List.mem_cons, List.not_mem_nil, or_false] at hm
    rcases hm with rfl | rfl | rfl <;> decide +kernel
  | yesno n v h1 h2 =>
    simp only [List.mem_cons, List.not_mem_nil, or_false] at h1 h2
    rcases h1 with rfl | rfl | rfl <;> rcases h2 with rfl | rfl <;> decide +kernel
  | any n _ h1 =>
    have : ∀ n ∈ ["version", "encoding", "doctype-public", "doctype-system", "cdata-section-elements", "media-type"],
        (rules.find? (fun r => r.1 = n.toList)).map (fun r => r.2.2) = some [] := by decide +kernel
    have h2 := this n h1
    cases hf : rules.find? (fun r => r.1 = n.toList) with
    | none => rw [hf] at h2; cases h2
    | some r =>
      rw [hf] at h2
      simp only [Option.map_some, Option.some.injEq] at h2
      simp [h2]

theorem validate_iff (a : Attr) (h : a.uri = []) : validate a = true ↔ Allowed a.name a.value := by
  unfold validate
  rw [if_pos h]
  constructor
  · intro hv
    cases hf : rules.find? (fun r => r.1 = a.name) with
    | none => rw [hf] at hv; cases hv
    | some r =>
      rw [hf] at hv
      have h1 := List.mem_of_find?_eq_some hf
      have h2 := List.find?_some hf
      simp only [decide_eq_true_eq] at h2
      rw [← h2]
      simp only [Bool.or_eq_true, List.isEmpty_iff, List.contains_iff_mem] at hv
      simp only [rules, List.mem_cons, List.not_mem_nil, or_false] at h1
      rcases h1 with rfl | rfl | rfl | rfl | rfl | rfl | rfl | rfl | rfl | rfl <;>
        simp only [List.mem_cons, List.not_mem_nil, or_false, reduceCtorEq, false_or] at hv
      · rcases hv with hv | hv | hv <;> rw [hv]
        · exact .method "xml" (by simp)
        · exact .method "html" (by simp)
        · exact .method "text" (by simp)
      · exact .any "version" _ (by simp)
      · exact .any "encoding" _ (by simp)
      · rcases hv with hv | hv <;> rw [hv]
        · exact .yesno "omit-xml-declaration" "yes" (by simp) (by simp)
        · exact .yesno "omit-xml-declaration" "no" (by simp) (by simp)
      · rcases hv with hv | hv <;> rw [hv]
        · exact .yesno "standalone" "yes" (by simp) (by simp)
        · exact .yesno "standalone" "no" (by simp) (by simp)
      · exact .any "doctype-public" _ (by simp)
      · exact .any "doctype-system" _ (by simp)
      · exact .any "cdata-section-elements" _ (by simp)
      · rcases hv with hv | hv <;> rw [hv]
        · exact .yesno "indent" "yes" (by simp) (by simp)
        · exact .yesno "indent" "no" (by simp) (by simp)
      · exact .any "media-type" _ (by simp)
  · exact allowed_valid _ _

theorem validate_foreign (a : Attr) (h : a.uri ≠ []) : validate a = true ↔
    (a.uri = "http://www.w3.org/XML/1998/namespace".toList → a.name = "space".toList →
      a.value = "default".toList ∨ a.value = "preserve".toList) := by
  unfold validate
  rw [if_neg h]
  by_cases h1 : a.uri = xmlUri
  · by_cases h2 : a.name = "space".toList
    · rw [if_pos (by simp [h1, h2])]
      have h1' : a.uri = "http://www.w3.org/XML/1998/namespace".toList := h1
      simp only [h1', h2, List.contains_iff_mem, List.mem_cons, List.not_mem_nil, or_false, true_implies]
    · rw [if_neg fun h => h2 (of_decide_eq_true ((Bool.and_eq_true _ _).mp h).2)]
      simp only [true_iff]
      exact fun _ h => absurd h h2
  · rw [if_neg (by simp [h1])]
    simp only [true_iff]
    exact fun h => absurd h h1

theorem gatherLoop_none : ∀ (as : List Attr) (s : Settings), (∀ a ∈ as, a.name ≠ []) →
    (gatherLoop as s = none ↔ ∃ a ∈ as, validate a = false)
  | [], s, _ => by simp [gatherLoop]
  | a :: as, s, h => by
    rw [gatherLoop, if_neg (h a (by simp))]
    have ih := gatherLoop_none as (fun n => if n = a.name then some a.value else s n) fun b hb => h b (by simp [hb])
    cases hv : validate a with
    | false => simp [hv]
    | true =>
      dsimp only
      rw [if_pos rfl, ih]
      simp [hv]

theorem gatherLoop_other : ∀ (as : List Attr) (s s' : Settings) (n : Str), gatherLoop as s = some s' →
    (∀ a ∈ as, a.name ≠ n) → s' n = s n
  | [], s, s', n, h, _ => by cases h; rfl
  | a :: as, s, s', n, h, ho => by
    rw [gatherLoop] at h
    split at h
    · exact gatherLoop_other as s s' n h fun b hb => ho b (by simp [hb])
    · dsimp only at h
      split at h
      · rw [gatherLoop_other as _ s' n h fun b hb => ho b (by simp [hb])]
        exact if_neg fun e => ho a (by simp) e.symm
      · cases h

theorem gatherLoop_this : ∀ (as : List Attr) (s s' : Settings) (a : Attr), gatherLoop as s = some s' → a ∈ as →
    a.name ≠ [] → (∀ b ∈ as, b.name = a.name → b.value = a.value) → s' a.name = some a.value
  | [], s, s', a, h, hm, _, _ => by cases hm
  | b :: as, s, s', a, h, hm, hn, hu => by
    by_cases hl : ∃ c ∈ as, c.name = a.name
    · obtain ⟨c, hc, hc'⟩ := hl
      have hcv := hu c (by simp [hc]) hc'
      rw [gatherLoop] at h
      rw [← hc', ← hcv]
      have key : ∀ s, gatherLoop as s = some s' → s' c.name = some c.value := fun s h =>
        gatherLoop_this as s s' c h hc (hc' ▸ hn) fun d hd e => by
          rw [hu d (by simp [hd]) (e.trans hc'), hcv]
      split at h
      · exact key _ h
      · dsimp only at h
        split at h
        · exact key _ h
        · cases h
    · have hb : a = b := by
        rcases List.mem_cons.1 hm with rfl | hm
        · rfl
        · exact absurd ⟨a, hm, rfl⟩ hl
      subst hb
      rw [gatherLoop, if_neg hn] at h
      dsimp only at h
      split at h
      · rw [gatherLoop_other as _ s' a.name h fun c hc e => hl ⟨c, hc, e⟩]
        exact if_pos rfl
      · cases h

theorem gather_gives {o : Out} {s : Settings} (hg : gather o.atts = some s) (hw : WellFormed o) (hf : NoForeign o)
    {n v : Str} (hp : Parameter n) (h : Gives o n v) : s n = some v := by
  obtain ⟨a, ha, hu, rfl, rfl⟩ := h
  refine gatherLoop_this _ _ _ a hg ha (hw.1 a ha) fun b hb e => ?_
  have hbu : b.uri = [] := Classical.byContradiction fun hne => hf b hb hne (e ▸ hp)
  rw [hw.2 b hb a ha (hbu.trans hu.symm) e]

theorem gather_default {o : Out} {s : Settings} (hg : gather o.atts = some s) (hf : NoForeign o)
    {d : String × String} (hd : d ∈ default') (h : ∀ v, ¬ Gives o d.1.toList v) : s d.1.toList = some d.2.toList := by
  rw [gatherLoop_other _ _ _ d.1.toList hg]
  · exact default_lookup d hd
  · intro a ha e
    have hau : a.uri = [] := Classical.byContradiction fun hne => hf a ha hne (e ▸ ⟨d, hd, rfl⟩)
    exact h a.value ⟨a, ha, hau, e, rfl⟩

theorem cdata_parameter : Parameter "cdata-section-elements".toList := ⟨("cdata-section-elements", ""), by simp [default'], rfl⟩

/-- The list, as it is read. -/
theorem list_cases {o : Out} {s : Settings} (hg : gather o.atts = some s) (hw : WellFormed o) (hf : NoForeign o) :
    (∃ v, Gives o "cdata-section-elements".toList v ∧ (s cdataElements).getD [] = v) ∨
    ((∀ v, ¬ Gives o "cdata-section-elements".toList v) ∧ (s cdataElements).getD [] = []) := by
  by_cases h : ∃ v, Gives o "cdata-section-elements".toList v
  · obtain ⟨v, hv⟩ := h
    refine Or.inl ⟨v, hv, ?_⟩
    show (s "cdata-section-elements".toList).getD [] = v
    rw [gather_gives hg hw hf cdata_parameter hv]
    rfl
  · refine Or.inr ⟨fun v hv => h ⟨v, hv⟩, ?_⟩
    have := gather_default hg hf (d := ("cdata-section-elements", "")) (by simp [default']) fun v hv => h ⟨v, hv⟩
    show (s "cdata-section-elements".toList).getD [] = []
    rw [this]
    simp

theorem gives_unique {o : Out} (hw : WellFormed o) {n v v' : Str} (h : Gives o n v) (h' : Gives o n v') : v = v' := by
  obtain ⟨a, ha, hu, hn, rfl⟩ := h
  obtain ⟨b, hb, hu', hn', rfl⟩ := h'
  rw [hw.2 a ha b hb (hu.trans hu'.symm) (hn.trans hn'.symm)]

theorem gather_none {o : Out} (hw : WellFormed o) : gather o.atts = none ↔
    ¬ ((∀ n v, Gives o n v → Allowed n v) ∧
      ∀ a ∈ o.atts, a.uri = "http://www.w3.org/XML/1998/namespace".toList → a.name = "space".toList →
        a.value = "default".toList ∨ a.value = "preserve".toList) := by
  rw [gather, gatherLoop_none _ _ hw.1]
  constructor
  · rintro ⟨a, ha, hv⟩ ⟨h1, h2⟩
    by_cases hu : a.uri = []
    · rw [(validate_iff a hu).2 (h1 _ _ ⟨a, ha, hu, rfl, rfl⟩)] at hv; cases hv
    · rw [(validate_foreign a hu).2 (h2 a ha)] at hv; cases hv
  · intro h
    refine Classical.byContradiction fun hn => h ⟨?_, ?_⟩
    · rintro n v ⟨a, ha, hu, rfl, rfl⟩
      refine (validate_iff a hu).1 ?_
      cases hv : validate a with
      | true => rfl
      | false => exact absurd ⟨a, ha, hv⟩ hn
    · intro a ha h1
      have hu : a.uri ≠ [] := by rw [h1]; decide +kernel
      refine (validate_foreign a hu).1 ?_ h1
      cases hv : validate a with
      | true => rfl
      | false => exact absurd ⟨a, ha, hv⟩ hn

/-- One `xsl:output` is refused exactly if it has an error. -/
theorem declare_none {o : Out} (hw : WellFormed o) (hf : NoForeign o) (hb : NotBlank o) (st : St) :
    declare st o = none ↔ ¬ Valid o := by
  unfold declare
  cases hg : gather o.atts with
  | none =>
    simp only [true_iff]
    exact fun hv => (gather_none hw).1 hg ⟨hv.1, hv.2.1⟩
  | some s =>
    have h12 : _ := Classical.byContradiction fun h => by
      have := (gather_none hw).2 h
      rw [hg] at this
      cases this
    dsimp only
    have key : extractCDATAElements o.names ((s cdataElements).getD []) = none ↔
        ∃ v, Gives o "cdata-section-elements".toList v ∧ ∃ w ∈ Spec.Text.words v, o.names w = none := by
      rcases list_cases hg hw hf with ⟨v, hv, e⟩ | ⟨hn, e⟩
      · rw [e, extract_eq, if_neg (by rcases hb v hv with rfl | h <;> simp_all), mapM_none]
        exact ⟨fun h => ⟨v, hv, h⟩, fun ⟨v', hv', h⟩ => gives_unique hw hv hv' ▸ h⟩
      · rw [e]
        refine ⟨fun h => by simp [extractCDATAElements] at h, fun ⟨v, hv, _⟩ => absurd hv (hn v)⟩
    cases he : extractCDATAElements o.names ((s cdataElements).getD []) with
    | none =>
      simp only [true_iff]
      obtain ⟨v, hv, w, hw', hn⟩ := key.1 he
      exact fun h => h.2.2 v hv w hw' hn
    | some c =>
      simp only [reduceCtorEq, false_iff, Classical.not_not]
      refine ⟨h12.1, h12.2, fun v hv w hw' hn => ?_⟩
      rw [key.2 ⟨v, hv, w, hw', hn⟩] at he
      cases he

theorem declareAll_none : ∀ (outs : List Out), (∀ o ∈ outs, WellFormed o ∧ NoForeign o ∧ NotBlank o) → ∀ st,
    (declareAll st outs = none ↔ ∃ o ∈ outs, ¬ Valid o)
  | [], _, st => by simp [declareAll]
  | o :: os, h, st => by
    obtain ⟨h1, h2, h3⟩ := h o (by simp)
    have hd := declare_none h1 h2 h3 st
    rw [declareAll]
    cases hc : declare st o with
    | none =>
      simp only [true_iff]
      exact ⟨o, by simp, hd.1 hc⟩
    | some st' =>
      have hv : ¬ ¬ Valid o := fun hn => by rw [hd.2 hn] at hc; cases hc
      dsimp only
      rw [declareAll_none os (fun x hx => h x (by simp [hx])) st']
      simp only [List.mem_cons, exists_eq_or_imp]
      exact ⟨Or.inr, fun hh => hh.resolve_left hv⟩

theorem declare_cdata {o : Out} (hw : WellFormed o) (hf : NoForeign o) (he : o.names [] = none) {st st' : St}
    (h : declare st o = some st') (e : EName) : e ∈ st'.cdata ↔ e ∈ st.cdata ∨
      ∃ v, Gives o "cdata-section-elements".toList v ∧ ∃ w ∈ Spec.Text.words v, o.names w = some e := by
  unfold declare at h
  cases hg : gather o.atts with
  | none => rw [hg] at h; cases h
  | some s =>
    rw [hg] at h
    dsimp only at h
    cases hc : extractCDATAElements o.names ((s cdataElements).getD []) with
    | none => rw [hc] at h; cases h
    | some c =>
      rw [hc] at h
      cases h
      show e ∈ st.cdata ++ c ↔ _
      rw [List.mem_append]
      refine or_congr_right ?_
      rcases list_cases hg hw hf with ⟨v, hv, ev⟩ | ⟨hn, ev⟩
      · rw [ev, extract_eq] at hc
        split at hc
        · simp [he] at hc
        · rw [mapM_mem _ _ _ hc e]
          exact ⟨fun h => ⟨v, hv, h⟩, fun ⟨v', hv', h⟩ => gives_unique hw hv hv' ▸ h⟩
      · rw [ev] at hc
        simp [extractCDATAElements] at hc
        subst hc
        simp only [List.not_mem_nil, false_iff]
        exact fun ⟨v, hv, _⟩ => hn v hv

theorem declareAll_cdata : ∀ (outs : List Out), (∀ o ∈ outs, WellFormed o ∧ NoForeign o ∧ o.names [] = none) →
    ∀ st st', declareAll st outs = some st' → ∀ e, e ∈ st'.cdata ↔ e ∈ st.cdata ∨ Listed outs e
  | [], _, st, st', h, e => by cases h; simp [Listed]
  | o :: os, hh, st, st', h, e => by
    rw [declareAll] at h
    cases hc : declare st o with
    | none => rw [hc] at h; cases h
    | some st1 =>
      rw [hc] at h
      obtain ⟨h1, h2, h3⟩ := hh o (by simp)
      rw [declareAll_cdata os (fun x hx => hh x (by simp [hx])) st1 st' h e, declare_cdata h1 h2 h3 hc e, or_assoc]
      refine or_congr_right ?_
      unfold Listed
      simp only [List.mem_cons, exists_eq_or_imp]

theorem declareAll_last : ∀ (pre : List Out) (o : Out) (st st' : St), declareAll st (pre ++ [o]) = some st' →
    gather o.atts = some st'.settings
  | [], o, st, st', h => by
    rw [List.nil_append, declareAll] at h
    cases hc : declare st o with
    | none => rw [hc] at h; cases h
    | some st1 =>
      rw [hc] at h
      cases h
      unfold declare at hc
      cases hg : gather o.atts with
      | none => rw [hg] at hc; cases hc
      | some s =>
        rw [hg] at hc
        dsimp only at hc
        split at hc
        · cases hc
        · cases hc; rfl
  | p :: pre, o, st, st', h => by
    rw [List.cons_append, declareAll] at h
    cases hc : declare st p with
    | none => rw [hc] at h; cases h
    | some st1 =>
      rw [hc] at h
      exact declareAll_last pre o st1 st' h

end Verif.XsltOutputDecl
