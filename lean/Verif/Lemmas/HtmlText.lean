import Verif.Spec.HtmlText
import Verif.Lemmas.HtmlSchema
set_option autoImplicit false
set_option linter.unusedSimpArgs false
set_option linter.unusedVariables false
/-! # Lemmas about the text of HTML documents -/
namespace Verif.Taggle
open Spec

variable {cfg : Cfg} {fuel : Nat} {full : Nat → Bool}

theorem text_append : ∀ a b : List Ev, text (a ++ b) = text a ++ text b
  | [], b => rfl
  | e :: a, b => by
    cases e <;> simp [text, text_append a b]

def Silent (es : List Ev) : Prop := text es = []

theorem silent_open (S : Schema) (e : Elem) : text (openMappings cfg S e) = [] := by
  unfold openMappings
  rw [text_append]
  have h : ∀ l : List Att, text (l.map fun a => Ev.startPrefix (prefixOf a.qName) a.uri) = [] := by
    intro l
    induction l with
    | nil => rfl
    | cons a l ih => exact ih
  rw [h]
  split <;> rfl

theorem silent_close (S : Schema) (e : Elem) : text (closeMappings cfg S e) = [] := by
  unfold closeMappings
  rw [text_append]
  have h : ∀ l : List Att, text (l.map fun a => Ev.endPrefix (prefixOf a.qName)) = [] := by
    intro l
    induction l with
    | nil => rfl
    | cons a l ih => exact ih
  rw [h]
  split <;> rfl

theorem text_push (s : St) (e : Elem) : text (push cfg s e).out = text s.out := by
  have : (push cfg s e).out = s.out ++ (openMappings cfg s.schema (clean e) ++
      [.startElement (reported cfg (clean e).ty).1 (reported cfg (clean e).ty).2 (clean e).ty.name
        (clean e).atts]) := rfl
  rw [this, text_append, text_append, silent_open]
  simp [text]

theorem text_pop (s : St) : text (pop cfg s).out = text s.out := by
  unfold pop
  cases hs : s.stack with
  | nil => rfl
  | cons e rest =>
    show text (s.out ++ (.endElement (reported cfg e.ty).1 (reported cfg e.ty).2 e.ty.name ::
      closeMappings cfg s.schema e)) = _
    rw [text_append]
    show _ ++ text (closeMappings cfg s.schema e) = _
    rw [silent_close, List.append_nil]

theorem text_restartablyPop (s : St) : text (restartablyPop cfg s).out = text s.out := by
  unfold restartablyPop
  cases hs : s.stack with
  | nil => rfl
  | cons e rest =>
    simp only []
    by_cases hc : (cfg.restartElements && e.ty.has fRestart) = true
    · rw [if_pos hc]; exact text_pop s
    · rw [if_neg hc]; exact text_pop s

theorem text_restartLoop (e : Option Elem) : ∀ (l : List Elem) (s : St),
    text (restartLoop cfg e l s).out = text s.out
  | [], s => by rw [restartLoop]
  | x :: rest, s => by
    rw [restartLoop]
    by_cases hc : (canContain s.top x.ty && e.all (fun e => canContain x.ty e.ty)) = true
    · rw [if_pos hc, text_restartLoop e rest, text_push]
    · rw [if_neg hc]

theorem text_restart (e : Option Elem) (s : St) : text (restart cfg e s).out = text s.out :=
  text_restartLoop e s.saved s

theorem text_popN : ∀ (n : Nat) (s : St), text (popN cfg n s).out = text s.out
  | 0, s => rfl
  | n + 1, s => by rw [popN, text_popN n, text_restartablyPop]

theorem text_popUpto : ∀ (n : Nat) (s : St), text (popUpto cfg n s).out = text s.out
  | 0, s => rfl
  | n + 1, s => by
    rw [popUpto]
    by_cases hl : s.stack.length ≤ 2
    · rw [if_pos hl]
    · rw [if_neg hl, text_popUpto n, text_restartablyPop]

theorem text_popPreclosed : ∀ (l : List Elem) (s : St), text (popPreclosed cfg l s).out = text s.out
  | [], s => rfl
  | e :: rest, s => by
    rw [popPreclosed]
    by_cases hp : e.preclosed = true
    · rw [if_pos hp, text_popPreclosed rest, text_pop]
    · rw [if_neg hp]

theorem text_popAll : ∀ (l : List Elem) (s : St), text (popAll cfg l s).out = text s.out
  | [], s => rfl
  | [_], s => rfl
  | _ :: b :: rest, s => by rw [popAll, text_popAll (b :: rest), text_pop]; simp

theorem text_etagName (s : St) (name : Str) : text (etagName cfg s name).out = text s.out := by
  unfold etagName
  cases hf : s.stack.findIdx? (fun e => e.ty.name == name) with
  | none => rfl
  | some i =>
    simp only []
    by_cases hl : s.stack.length ≤ i + 2
    · rw [if_pos hl]
    · rw [if_neg hl, text_restart, text_popPreclosed]
      by_cases hn : ((s.stack.take i).any (fun e => e.ty.has fNoforce)) = true
      · rw [if_pos hn]
      · rw [if_neg hn, text_pop, text_popN]

theorem text_etagBasic (s : St) (b : Str) : text (etagBasic cfg s b).out = text s.out := by
  unfold etagBasic
  simp only []
  by_cases hb : b ≠ []
  · rw [if_pos hb]
    cases s.schema.getType (makeName cfg b) with
    | none => rfl
    | some t => simp only []; rw [text_etagName]
  · rw [if_neg hb, text_etagName]

theorem text_pushChain : ∀ (l : List Elem) (s : St), text (pushChain cfg l s).out = text s.out
  | [], s => rfl
  | e :: rest, s => by
    rw [pushChain, text_pushChain rest, text_restart]
    by_cases hn : e.ty.name ≠ "<pcdata>".toList
    · rw [if_pos hn, text_push]
    · rw [if_neg hn]

theorem text_rectify {s t : St} {e : Elem} (ht : rectify cfg fuel s e = .ok t) :
    text t.out = text s.out := by
  unfold rectify at ht
  cases hc : climb cfg s fuel e [] with
  | throws => rw [hc] at ht; exact absurd ht (by simp)
  | ub => rw [hc] at ht; exact absurd ht (by simp)
  | diverges => rw [hc] at ht; exact absurd ht (by simp)
  | ok r =>
    obtain ⟨i, l⟩ := r
    rw [hc] at ht
    simp only [Out.ok.injEq] at ht
    subst ht
    show text (pushChain cfg l (popUpto cfg i s)).out = _
    rw [text_pushChain, text_popUpto]

/-- What one token adds to the text. -/
inductive Adds : Tok → Str → Prop
  | text (b : Str) : Adds (.pcdata b) b
  | blank (b : Str) : Blank b → Adds (.pcdata b) []
  | end' (b : Str) : Adds (.etag b) ("</".toList ++ b ++ ">".toList)
  | other (t : Tok) : (∀ b, t ≠ .pcdata b) → Adds t []

theorem space_blank {b : Str} (h : b.all (fun c => XmlChars.isSpace (schar c)) = true) : Blank b := by
  intro c hc
  have := List.all_eq_true.1 h c hc
  rw [schar_space] at this
  have h2 : c = ' ' ∨ c = '\t' ∨ c = '\n' ∨ c = '\r' := by
    simpa [Verif.Spec.Text.space, or_assoc] using this
  exact h2

theorem adds_handle {s t : St} {tok : Tok} (ht : handle cfg fuel s tok = .ok t) :
    ∃ r, Adds tok r ∧ text t.out = text s.out ++ r := by
  have skip : ∀ (tok : Tok) (t : St), (∀ b, tok ≠ .pcdata b) → text t.out = text s.out →
      ∃ r, Adds tok r ∧ text t.out = text s.out ++ r :=
    fun tok t h1 h2 => ⟨[], .other tok h1, by rw [h2, List.append_nil]⟩
  cases tok with
  | adup b =>
    simp only [handle, Out.ok.injEq] at ht; subst ht
    refine skip _ _ (by simp) ?_
    unfold adup
    cases s.newElement with
    | none => rfl
    | some e => simp only []; split <;> rfl
  | aname b =>
    simp only [handle, Out.ok.injEq] at ht; subst ht
    refine skip _ _ (by simp) ?_
    unfold aname
    cases s.newElement <;> rfl
  | aval b =>
    simp only [handle, Out.ok.injEq] at ht; subst ht
    refine skip _ _ (by simp) ?_
    unfold aval
    cases s.newElement with
    | none => rfl
    | some e => simp only []; split <;> rfl
  | cmnt b =>
    simp only [handle, Out.ok.injEq] at ht; subst ht
    refine skip _ _ (by simp) ?_
    show text (s.out ++ [.comment b]) = _
    rw [text_append]; simp [text]
  | decl b =>
    simp only [handle] at ht
    unfold decl at ht
    cases hs : split b with
    | none => rw [hs] at ht; exact absurd ht (by simp)
    | some v =>
      rw [hs] at ht
      simp only [] at ht
      refine skip _ _ (by simp) ?_
      by_cases hd : v.head? = some "DOCTYPE".toList
      · rw [if_pos hd] at ht
        by_cases hp : s.doctypeIsPresent = true
        · rw [if_pos hp] at ht; simp only [Out.ok.injEq] at ht; subst ht; rfl
        · rw [if_neg hp] at ht
          by_cases hw : (declWords v).1 ≠ []
          · rw [if_pos hw] at ht; simp only [Out.ok.injEq] at ht; subst ht
            show text (s.out ++ [.startDTD _ _ _, .endDTD]) = _
            rw [text_append]; simp [text]
          · rw [if_neg hw] at ht; simp only [Out.ok.injEq] at ht; subst ht; rfl
      · rw [if_neg hd] at ht; simp only [Out.ok.injEq] at ht; subst ht; rfl
  | entity b =>
    simp only [handle, Out.ok.injEq] at ht; subst ht
    exact skip _ _ (by simp) rfl
  | etag b =>
    simp only [handle, Out.ok.injEq] at ht; subst ht
    unfold etag etagCdata
    by_cases hc : (cfg.cdataElements && s.top.has fCdata) = true
    · rw [if_pos hc]
      by_cases hl : lower b = lower s.top.name
      · rw [if_pos hl]; exact skip _ _ (by simp) (text_etagBasic s b)
      · rw [if_neg hl]
        refine ⟨_, .end' b, ?_⟩
        show text (s.out ++ [.characters "</".toList, .characters b, .characters ">".toList]) = _
        rw [text_append]; simp [text]
    · rw [if_neg hc]; exact skip _ _ (by simp) (text_etagBasic s b)
  | gi b =>
    simp only [handle, Out.ok.injEq] at ht; subst ht
    refine skip _ _ (by simp) ?_
    unfold gi
    cases s.newElement with
    | some e0 => rfl
    | none =>
      simp only []
      split
      · rfl
      · split
        · rfl
        · split
          · rfl
          · split <;> rfl
  | pcdata b =>
    simp only [handle] at ht
    unfold pcdata at ht
    by_cases hbe : b = []
    · rw [if_pos hbe] at ht; simp only [Out.ok.injEq] at ht; subst ht
      exact ⟨b, .text b, by rw [hbe, List.append_nil]⟩
    · rw [if_neg hbe] at ht
      by_cases hw : (b.all (fun c => XmlChars.isSpace (schar c)) && !canContain s.top s.pcdata.ty) = true
      · rw [if_pos hw] at ht; simp only [Out.ok.injEq] at ht; subst ht
        rw [Bool.and_eq_true] at hw
        refine ⟨[], .blank b (space_blank hw.1), ?_⟩
        rw [List.append_nil]
        by_cases hiw : cfg.ignorableWhitespace = true
        · rw [if_pos hiw]
          show text (s.out ++ [.ignorable b]) = _
          rw [text_append]; simp [text]
        · rw [if_neg hiw]
      · rw [if_neg hw] at ht
        cases hre : rectify cfg fuel s s.pcdata with
        | ok s' =>
          rw [hre] at ht; simp only [Out.ok.injEq] at ht; subst ht
          refine ⟨b, .text b, ?_⟩
          show text (s'.out ++ [.characters b]) = _
          rw [text_append, text_rectify hre]; simp [text]
        | throws => rw [hre] at ht; exact absurd ht (by simp)
        | ub => rw [hre] at ht; exact absurd ht (by simp)
        | diverges => rw [hre] at ht; exact absurd ht (by simp)
  | pi b =>
    simp only [handle, Out.ok.injEq] at ht; subst ht
    refine skip _ _ (by simp) ?_
    unfold procInst
    cases s.newElement with
    | some e0 => rfl
    | none =>
      simp only []
      split
      · rfl
      · show text (s.out ++ [.pi _ _]) = _
        rw [text_append]; simp [text]
  | pitarget b =>
    simp only [handle, Out.ok.injEq] at ht; subst ht
    refine skip _ _ (by simp) ?_
    unfold pitarget
    cases s.newElement <;> rfl
  | stagc b =>
    simp only [handle] at ht
    unfold stagc at ht
    refine skip _ _ (by simp) ?_
    cases hn : s.newElement with
    | none => rw [hn] at ht; simp only [Out.ok.injEq] at ht; subst ht; rfl
    | some e0 =>
      rw [hn] at ht; simp only [] at ht
      cases hre : rectify cfg fuel s e0 with
      | ok s' =>
        rw [hre] at ht; simp only [Out.ok.injEq] at ht; subst ht
        by_cases hm : s'.top.model = mEmpty
        · rw [if_pos hm, text_etagBasic, text_rectify hre]
        · rw [if_neg hm, text_rectify hre]
      | throws => rw [hre] at ht; exact absurd ht (by simp)
      | ub => rw [hre] at ht; exact absurd ht (by simp)
      | diverges => rw [hre] at ht; exact absurd ht (by simp)
  | stage b =>
    simp only [handle] at ht
    unfold stage at ht
    refine skip _ _ (by simp) ?_
    cases hn : s.newElement with
    | none => rw [hn] at ht; simp only [Out.ok.injEq] at ht; subst ht; rfl
    | some e0 =>
      rw [hn] at ht; simp only [] at ht
      cases hre : rectify cfg fuel s e0 with
      | ok s' =>
        rw [hre] at ht; simp only [Out.ok.injEq] at ht; subst ht
        rw [text_etagBasic, text_rectify hre]
      | throws => rw [hre] at ht; exact absurd ht (by simp)
      | ub => rw [hre] at ht; exact absurd ht (by simp)
      | diverges => rw [hre] at ht; exact absurd ht (by simp)

theorem kept_handleAll : ∀ (ts : List Tok) (s t : St), handleAll cfg fuel s ts = .ok t →
    ∃ r, Kept ts r ∧ text t.out = text s.out ++ r
  | [], s, t, ht => by
    rw [handleAll] at ht; simp only [Out.ok.injEq] at ht; subst ht
    exact ⟨[], .nil, by simp⟩
  | tok :: ts, s, t, ht => by
    rw [handleAll] at ht
    cases hh : handle cfg fuel { s with cdata := false } tok with
    | ok s' =>
      rw [hh] at ht
      obtain ⟨r, hr, h1⟩ := adds_handle hh
      obtain ⟨r2, hr2, h2⟩ := kept_handleAll ts s' t ht
      refine ⟨r ++ r2, ?_, by rw [h2, h1, List.append_assoc]⟩
      cases hr with
      | text => exact .text _ ts r2 hr2
      | blank _ hb => exact .blank _ ts r2 hb hr2
      | end' => exact .end' _ ts r2 hr2
      | other _ ho => exact .other tok ts r2 ho hr2
    | throws => rw [hh] at ht; exact absurd ht (by simp)
    | ub => rw [hh] at ht; exact absurd ht (by simp)
    | diverges => rw [hh] at ht; exact absurd ht (by simp)

theorem text_eof {s t : St} (ht : eof cfg fuel s = .ok t) : text t.out = text s.out := by
  unfold eof at ht
  have key : ∀ s' : St, text ((popAll cfg s'.stack s').emits
      ((if (popAll cfg s'.stack s').schema.uri ≠ [] then [.endPrefix (popAll cfg s'.stack s').schema.prefix']
        else []) ++ [.endDocument])).out = text s'.out := by
    intro s'
    show text ((popAll cfg s'.stack s').out ++ _) = _
    rw [text_append, text_popAll, text_append]
    split <;> simp [text]
  cases hv : s.virgin with
  | false =>
    rw [hv] at ht
    simp only [Bool.false_eq_true, if_false, Out.ok.injEq] at ht
    subst ht
    exact key s
  | true =>
    rw [hv] at ht
    simp only [if_true] at ht
    cases hre : rectify cfg fuel s s.pcdata with
    | ok s' =>
      rw [hre] at ht
      simp only [Out.ok.injEq] at ht
      subst ht
      rw [← text_rectify hre]
      exact key s'
    | throws => rw [hre] at ht; exact absurd ht (by simp)
    | ub => rw [hre] at ht; exact absurd ht (by simp)
    | diverges => rw [hre] at ht; exact absurd ht (by simp)

theorem text_start (S : Schema) (seen : Bool) : text (start cfg S seen).out = [] := by
  show text (.startDocument :: (if S.uri ≠ [] then [.startPrefix S.prefix' S.uri] else [])) = []
  split <;> rfl

/-! ### Text without markup -/

/-- What is needed of a schema: text goes into `body`, that into `html`. -/
structure TextFacts (S : Schema) (r pc body html : EType) : Prop where
  root : S.getType "<root>".toList = some r
  pcdata : S.getType "<pcdata>".toList = some pc
  name : pc.name = "<pcdata>".toList
  out1 : canContain r pc = false
  up1 : ∃ i k, pc.parent = some i ∧ S.types[i]? = some (k, body)
  out2 : canContain r body = false
  up2 : ∃ i k, body.parent = some i ∧ S.types[i]? = some (k, html)
  in3 : canContain r html = true
  in2 : canContain html body = true
  in1 : canContain body pc = true
  names : body.name ≠ "<pcdata>".toList ∧ html.name ≠ "<pcdata>".toList
  plain : body.has fCdata = false ∧ html.has fCdata = false

structure TextSt (S : Schema) (r pc : EType) (s : St) (d : Str) : Prop where
  schema : s.schema = S
  pcd : s.pcdata.ty = pc
  saved : s.saved = []
  cases : (s.stack.map (·.ty) = [r] ∧ text s.out = [] ∧ Blank d) ∨
    (canContain s.top pc = true ∧ ∃ w, Blank w ∧ d = w ++ text s.out)

theorem blank_append {a b : Str} (ha : Blank a) (hb : Blank b) : Blank (a ++ b) := by
  intro c hc
  rcases List.mem_append.1 hc with h | h
  · exact ha c h
  · exact hb c h

theorem top_of {s : St} {r : EType} (h : s.stack.map (·.ty) = [r]) : s.top = r := by
  cases hs : s.stack with
  | nil => rw [hs] at h; simp at h
  | cons e l => rw [hs] at h; simp at h; unfold St.top; rw [hs]; exact h.1

theorem pcdata_text {S : Schema} {r pc body html : EType} (hF : TextFacts S r pc body html)
    (hf : 3 ≤ fuel) {s : St} {d b : Str} (h : TextSt S r pc s d) (hc : s.cdata = false) :
    ∃ s', pcdata cfg fuel s b = .ok s' ∧ TextSt S r pc s' (d ++ b) ∧ s'.cdata = false := by
  unfold pcdata
  by_cases hbe : b = []
  · rw [if_pos hbe]; exact ⟨s, rfl, by rw [hbe, List.append_nil]; exact h, hc⟩
  · rw [if_neg hbe]
    obtain ⟨f, rfl⟩ : ∃ f, fuel = f + 3 := ⟨fuel - 3, by omega⟩
    rcases h.cases with ⟨hst, ht, hd⟩ | ⟨htop, w, hw, hd⟩
    · have htop := top_of hst
      have hno : canContain s.top s.pcdata.ty = false := by rw [htop, h.pcd]; exact hF.out1
      by_cases hsp : b.all (fun c => XmlChars.isSpace (schar c)) = true
      · rw [if_pos (by rw [hsp, hno]; rfl)]
        refine ⟨_, rfl, ?_, ?_⟩
        · by_cases hiw : cfg.ignorableWhitespace = true
          · rw [if_pos hiw]
            refine ⟨h.schema, h.pcd, h.saved, .inl ⟨hst, ?_, blank_append hd (space_blank hsp)⟩⟩
            show text (s.out ++ [.ignorable b]) = _
            rw [text_append, ht]; rfl
          · rw [if_neg hiw]
            exact ⟨h.schema, h.pcd, h.saved, .inl ⟨hst, ht, blank_append hd (space_blank hsp)⟩⟩
        · split <;> exact hc
      · rw [if_neg (by rw [Bool.not_eq_true] at hsp; rw [hsp]; simp)]
        obtain ⟨i, k, hp1, hg1⟩ := hF.up1
        obtain ⟨j, k2, hp2, hg2⟩ := hF.up2
        have hfind : ∀ t : EType, canContain r t = false →
            s.stack.findIdx? (fun x => canContain x.ty t) = none := by
          intro t ht
          rw [List.findIdx?_eq_none_iff]
          intro x hx
          have : x.ty ∈ s.stack.map (·.ty) := List.mem_map.2 ⟨x, hx, rfl⟩
          rw [hst] at this
          simp at this
          rw [this]; exact ht
        have hyes : s.stack.findIdx? (fun x => canContain x.ty html) = some 0 := by
          cases hs : s.stack with
          | nil => rw [hs] at hst; simp at hst
          | cons e l =>
            rw [hs] at hst; simp at hst
            rw [List.findIdx?_cons, hst.1, hF.in3]; rfl
        have hcl : climb cfg s (f + 3) s.pcdata [] =
            .ok (0, [newElem cfg html, newElem cfg body, s.pcdata]) := by
          rw [climb, h.pcd, hfind pc hF.out1]
          simp only []
          rw [hp1]
          simp only []
          rw [h.schema, hg1]
          simp only []
          rw [climb, show (newElem cfg body).ty = body from rfl, hfind body hF.out2]
          simp only []
          rw [hp2]
          simp only []
          rw [h.schema, hg2]
          simp only []
          rw [climb, show (newElem cfg html).ty = html from rfl, hyes]
        unfold rectify
        rw [hcl]
        simp only []
        refine ⟨_, rfl, ?_, ?_⟩
        · rw [show popUpto cfg 0 s = s from rfl, pushChain]
          rw [if_pos (show (newElem cfg html).ty.name ≠ _ from hF.names.2)]
          have hrs : ∀ (e : Option Elem) (s : St), s.saved = [] → restart cfg e s = { s with saved := [] } := by
            intro e s hs; unfold restart; rw [hs, restartLoop]
          rw [hrs _ (push cfg s (newElem cfg html)) h.saved, pushChain]
          rw [if_pos (show (newElem cfg body).ty.name ≠ _ from hF.names.1),
            hrs _ (push cfg { push cfg s (newElem cfg html) with saved := [] } (newElem cfg body)) rfl,
            pushChain]
          rw [if_neg (by rw [h.pcd]; simp [hF.name]), hrs _ _ (by rfl), pushChain]
          refine ⟨h.schema, h.pcd, rfl, .inr ⟨hF.in1, d, hd, ?_⟩⟩
          show d ++ b = d ++ text ((push cfg { push cfg s (newElem cfg html) with saved := [] }
            (newElem cfg body)).out ++ [.characters b])
          rw [text_append, text_push]
          show _ = _ ++ (text (push cfg s (newElem cfg html)).out ++ _)
          rw [text_push, ht]; simp [text]
        · rw [show popUpto cfg 0 s = s from rfl, pushChain]
          rw [if_pos (show (newElem cfg html).ty.name ≠ _ from hF.names.2)]
          have hrs : ∀ (e : Option Elem) (s : St), s.saved = [] → restart cfg e s = { s with saved := [] } := by
            intro e s hs; unfold restart; rw [hs, restartLoop]
          rw [hrs _ (push cfg s (newElem cfg html)) h.saved, pushChain]
          rw [if_pos (show (newElem cfg body).ty.name ≠ _ from hF.names.1),
            hrs _ (push cfg { push cfg s (newElem cfg html) with saved := [] } (newElem cfg body)) rfl,
            pushChain]
          rw [if_neg (by rw [h.pcd]; simp [hF.name]), hrs _ _ (by rfl), pushChain]
          show (s.cdata || (cfg.cdataElements && html.has fCdata) ||
            (cfg.cdataElements && body.has fCdata)) = false
          rw [hc, hF.plain.1, hF.plain.2]; simp
    · have hyes : canContain s.top s.pcdata.ty = true := by rw [h.pcd]; exact htop
      rw [if_neg (by rw [hyes]; simp)]
      have hcl : climb cfg s (f + 3) s.pcdata [] = .ok (0, [s.pcdata]) := by
        have : s.stack.findIdx? (fun x => canContain x.ty s.pcdata.ty) = some 0 := by
          unfold St.top at hyes
          cases hs : s.stack with
          | nil => rw [hs] at hyes; exact absurd hyes (by simp [canContain, nullType])
          | cons e l => rw [hs] at hyes; rw [List.findIdx?_cons, hyes]; rfl
        rw [climb, this]
      unfold rectify
      rw [hcl]
      simp only []
      have hpc : pushChain cfg [s.pcdata] (popUpto cfg 0 s) = { s with saved := [] } := by
        rw [show popUpto cfg 0 s = s from rfl, pushChain]
        rw [if_neg (by rw [h.pcd]; simp [hF.name])]
        unfold restart
        rw [h.saved, restartLoop, pushChain]
      rw [hpc]
      refine ⟨_, rfl, ⟨h.schema, h.pcd, rfl, .inr ⟨htop, w, hw, ?_⟩⟩, hc⟩
      show d ++ b = w ++ text (s.out ++ [.characters b])
      rw [text_append, hd]; simp [text]

theorem call_text {S : Schema} {r pc body html : EType} (hF : TextFacts S r pc body html)
    (hf : 3 ≤ fuel) {sc : Sc} {s : St} {d b : Str} (h : TextSt S r pc s d) :
    ∃ s', call cfg fuel (sc, s) (.pcdata b) = .ok (sc, s') ∧ TextSt S r pc s' (d ++ b) := by
  obtain ⟨s', h1, h2, h3⟩ := pcdata_text (cfg := cfg) (s := { s with cdata := false }) (b := b) hF hf
    (d := d) ⟨h.schema, h.pcd, h.saved, h.cases⟩ rfl
  refine ⟨s', ?_, h2⟩
  have h1' : handle cfg fuel { s with cdata := false } (.pcdata b) = .ok s' := h1
  unfold call
  rw [h1']
  simp only []
  rw [h3]; rfl

theorem search_eq (st a m : Nat) (exc : List Int)
    (hx : ∀ ch ∈ tableChars, ch ∉ exc → search st ch stateTable 0 0 = (a, m))
    (h1 : search st 1 stateTable 0 0 = (a, m)) (ha : a ≠ 0) :
    ∀ (ch : Int) (n : Nat), ch ∉ exc → search st ch stateTable 0 n = (a, m) := by
  intro ch n hch
  have key : search st ch stateTable 0 0 = (a, m) := by
    by_cases hc : ch ∈ tableChars
    · exact hx ch hc hch
    · rw [← h1]
      apply search_fresh
      intro r hr
      refine ⟨fun h => hc (h ▸ table_chars r hr), fun h => ?_⟩
      have := table_chars r hr
      rw [h] at this
      exact absurd this (by decide)
  rw [← (search_next st ch stateTable 0 0 n).2 rfl (by rw [key]; exact ha)]
  exact key

theorem search_char (ch : Int) (n : Nat) (h : ch ∉ [(-1 : Int), 38, 60]) :
    search sPcdata ch stateTable 0 n = (aSave, sPcdata) :=
  search_eq sPcdata aSave sPcdata [(-1 : Int), 38, 60] (by decide +kernel) (by decide +kernel) (by decide) ch n h

theorem search_one (st : Nat) (ch : Int) (a m : Nat) (h : search st ch stateTable 0 0 = (a, m))
    (ha : a ≠ 0) (n : Nat) : search st ch stateTable 0 n = (a, m) := by
  rw [← (search_next st ch stateTable 0 0 n).2 rfl (by rw [h]; exact ha)]
  exact h

theorem search_amp (n : Nat) : search sPcdata 38 stateTable 0 n = (aEntityStart, sEnt) :=
  search_one _ _ _ _ (by decide +kernel) (by decide) n

theorem search_eof (n : Nat) : search sPcdata (-1) stateTable 0 n = (aPcdata, sDone) :=
  search_one _ _ _ _ (by decide +kernel) (by decide) n

theorem search_ent (st : Nat) (hst : st = sEnt ∨ st = sNcr ∨ st = sXncr) (ch : Int) (h : ch ≠ -1) (n : Nat) :
    search st ch stateTable 0 n = (aEntity, st) := by
  refine search_eq st aEntity st [(-1 : Int)] ?_ ?_ (by decide) ch n (by simpa using h)
  · rcases hst with rfl | rfl | rfl <;> decide +kernel
  · rcases hst with rfl | rfl | rfl <;> decide +kernel

theorem act_save (ch : Int) (p : Sc × St) : act cfg fuel full aSave ch p = save cfg fuel full ch p := rfl
theorem act_start (ch : Int) (p : Sc × St) : act cfg fuel full aEntityStart ch p =
    (give cfg fuel .pcdata p).bind (save cfg fuel full ch) := rfl
theorem act_pcdata (ch : Int) (p : Sc × St) : act cfg fuel full aPcdata ch p =
    give cfg fuel .pcdata p := rfl
theorem act_entity (ch : Int) (p : Sc × St) : act cfg fuel full aEntity ch p =
    entityAction cfg fuel full ch p := rfl

/-- In the middle of text. -/
structure InText (S : Schema) (r pc : EType) (p : Sc × St) (rest v : Str) : Prop where
  state : p.1.state = sPcdata
  live : p.1.input.failed = false
  rest : p.1.input.rest = rest
  text : ∃ d, TextSt S r pc p.2 d ∧ v = d ++ p.1.buf

theorem byte_char (c : Char) (h : c.toNat < 256) : byte (c.toNat : Int) = c :=
  char_eq (byte_toNat c.toNat h)

theorem readChar_plain (i : In) (c : Char) (rest : Str) (hl : i.failed = false) (hr : i.rest = c :: rest)
    (hc : c.toNat ≠ 13) : readChar i = ((c.toNat : Int), { i with done := c :: i.done, rest := rest }) := by
  have hn : i.next = ((c.toNat : Int), { i with done := c :: i.done, rest := rest }) := by
    unfold In.next
    rw [if_neg (by rw [hl]; simp), hr]
  unfold readChar
  simp only []
  rw [hn, if_neg (by
    intro h
    have h' : (c.toNat : Int) = 13 := h
    exact hc (by omega))]

theorem save_text {S : Schema} {r pc body html : EType} (hF : TextFacts S r pc body html)
    (hf : 3 ≤ fuel) (ch : Int) {p : Sc × St} {d : Str} (h : TextSt S r pc p.2 d) :
    ∃ q d', save cfg fuel full ch p = .ok q ∧ TextSt S r pc q.2 d' ∧
      d' ++ q.1.buf = d ++ p.1.buf ++ [byte ch] ∧ q.1.input = p.1.input ∧ q.1.next = p.1.next ∧
      (p.1.state ≠ sPcdata → p.1.state ≠ sCdata → q.1.buf = p.1.buf ++ [byte ch] ∧ q.2 = p.2 ∧ d' = d) := by
  unfold save
  by_cases hfl : full p.1.saves = true ∧ (p.1.state = sPcdata ∨ p.1.state = sCdata)
  · simp only []
    rw [if_pos hfl]
    obtain ⟨s', h1, h2⟩ := call_text (cfg := cfg) (sc := p.1) (b := p.1.buf) hF hf h
    rw [show call cfg fuel p (.pcdata p.1.buf) = .ok (p.1, s') from h1]
    refine ⟨_, _, rfl, h2, ?_, rfl, rfl, ?_⟩
    · show d ++ p.1.buf ++ ([] ++ [byte ch]) = _
      simp
    · intro a b
      rcases hfl.2 with h | h
      · exact absurd h a
      · exact absurd h b
  · simp only []
    rw [if_neg hfl]
    exact ⟨_, d, rfl, h, by simp, rfl, rfl, fun _ _ => ⟨rfl, rfl, rfl⟩⟩

theorem turn_char {S : Schema} {r pc body html : EType} (hF : TextFacts S r pc body html)
    (hf : 3 ≤ fuel) {p : Sc × St} {c : Char} {rest v : Str} (h : InText S r pc p (c :: rest) v)
    (h1 : c ≠ '<') (h2 : c ≠ '&') (h3 : 32 ≤ c.toNat ∨ c = '\t' ∨ c = '\n') (h4 : c.toNat < 256) :
    ∃ q, turn cfg fuel full p = .ok q ∧ InText S r pc q rest (v ++ [c]) := by
  have hrd := readChar_plain p.1.input c rest h.live h.rest (by
    rcases h3 with h | rfl | rfl
    · omega
    · decide
    · decide)
  obtain ⟨d, hd, hv⟩ := h.text
  unfold turn
  simp only []
  rw [hrd]
  simp only []
  rw [if_neg (by
    refine fun hn => hn ?_
    rcases h3 with h | rfl | rfl
    · left; exact_mod_cast h
    · right; right; left; rfl
    · right; left; rfl)]
  rw [h.state, search_char _ _ (by
    intro hm
    simp only [List.mem_cons, List.not_mem_nil, or_false] at hm
    rcases hm with hm | hm | hm
    · omega
    · exact h2 (char_eq (by exact_mod_cast hm))
    · exact h1 (char_eq (by exact_mod_cast hm))), act_save]
  obtain ⟨q, d', e1, e2, e3, e4, e5, _⟩ := save_text (cfg := cfg) (full := full) hF hf (c.toNat : Int)
    (p := ({ state := sPcdata, input := { p.1.input with done := c :: p.1.input.done, rest := rest },
             next := sPcdata, buf := p.1.buf, saves := p.1.saves }, p.2)) hd
  rw [e1]
  refine ⟨_, rfl, e5, ?_, ?_, d', e2, ?_⟩
  · show q.1.input.failed = false
    rw [e4]; exact h.live
  · show q.1.input.rest = rest
    rw [e4]
  · show v ++ [c] = d' ++ q.1.buf
    rw [e3, hv, byte_char c h4]

theorem turn_newline {S : Schema} {r pc body html : EType} (hF : TextFacts S r pc body html)
    (hf : 3 ≤ fuel) {p : Sc × St} {rest v : Str} (h : InText S r pc p ('\r' :: '\n' :: rest) v) :
    ∃ q, turn cfg fuel full p = .ok q ∧ InText S r pc q rest (v ++ ['\n']) := by
  have hrd : readChar p.1.input =
      (10, { p.1.input with done := '\n' :: '\r' :: p.1.input.done, rest := rest }) := by
    have hl := h.live
    have hr := h.rest
    obtain ⟨⟨⟨done, rest', failed⟩, st, nx, buf, sv⟩, s⟩ := p
    simp only [] at hl hr
    subst hl hr
    rfl
  obtain ⟨d, hd, hv⟩ := h.text
  unfold turn
  simp only []
  rw [hrd]
  simp only []
  rw [if_neg (by refine fun hn => hn ?_; decide)]
  rw [h.state, search_char _ _ (by decide), act_save]
  obtain ⟨q, d', e1, e2, e3, e4, e5, _⟩ := save_text (cfg := cfg) (full := full) hF hf 10
    (p := ({ state := sPcdata, input := { p.1.input with done := '\n' :: '\r' :: p.1.input.done, rest := rest },
             next := sPcdata, buf := p.1.buf, saves := p.1.saves }, p.2)) hd
  rw [e1]
  refine ⟨_, rfl, e5, ?_, ?_, d', e2, ?_⟩
  · show q.1.input.failed = false
    rw [e4]; exact h.live
  · show q.1.input.rest = rest
    rw [e4]
  · show v ++ ['\n'] = d' ++ q.1.buf
    rw [e3, hv, show byte 10 = '\n' from by decide]

/-- In the middle of a reference. -/
structure InRef (S : Schema) (r pc : EType) (p : Sc × St) (st : Nat) (name rest v : Str) : Prop where
  state : p.1.state = st
  live : p.1.input.failed = false
  rest : p.1.input.rest = rest
  buf : p.1.buf = '&' :: name
  text : TextSt S r pc p.2 v

theorem turn_amp {S : Schema} {r pc body html : EType} (hF : TextFacts S r pc body html)
    (hf : 3 ≤ fuel) {p : Sc × St} {rest v : Str} (h : InText S r pc p ('&' :: rest) v) :
    ∃ q, turn cfg fuel full p = .ok q ∧ InRef S r pc q sEnt [] rest v := by
  have hrd := readChar_plain p.1.input '&' rest h.live h.rest (by decide)
  obtain ⟨d, hd, hv⟩ := h.text
  unfold turn
  simp only []
  rw [hrd]
  simp only []
  rw [if_neg (by refine fun hn => hn ?_; decide)]
  rw [h.state, show (('&'.toNat : Nat) : Int) = 38 from rfl, search_amp, act_start]
  unfold give
  simp only []
  obtain ⟨s1, c1, c2⟩ := call_text (cfg := cfg)
    (sc := { state := sPcdata, input := { p.1.input with done := '&' :: p.1.input.done, rest := rest },
             next := sEnt, buf := p.1.buf, saves := p.1.saves }) (b := p.1.buf) hF hf hd
  rw [c1]
  show ∃ q, ((save cfg fuel full 38
    ({ state := sPcdata, input := { p.1.input with done := '&' :: p.1.input.done, rest := rest },
       next := sEnt, buf := [], saves := p.1.saves }, s1)).bind _) = _ ∧ _
  obtain ⟨q, d', e1, e2, e3, e4, e5, _⟩ := save_text (cfg := cfg) (full := full) hF hf 38
    (p := ({ state := sPcdata, input := { p.1.input with done := '&' :: p.1.input.done, rest := rest },
             next := sEnt, buf := [], saves := p.1.saves }, s1)) c2
  rw [e1]
  -- the buffer was empty before, so it is one character now
  have hb : q.1.buf = ['&'] ∧ d' = d ++ p.1.buf := by
    unfold save at e1
    by_cases hfl : full p.1.saves = true ∧ (True ∨ sPcdata = sCdata)
    · simp only [] at e1
      rw [if_pos hfl] at e1
      obtain ⟨s2, h1, h2⟩ := call_text (cfg := cfg)
        (sc := { state := sPcdata, input := { p.1.input with done := '&' :: p.1.input.done, rest := rest },
                 next := sEnt, buf := [], saves := p.1.saves }) (b := []) hF hf c2
      rw [h1] at e1
      simp only [Out.bind, clear, Out.ok.injEq] at e1
      have hq : q.1.buf = ['&'] := by rw [← e1]; rfl
      refine ⟨hq, ?_⟩
      rw [hq] at e3
      have := List.append_inj_left' e3 rfl
      simpa using this
    · simp only [] at e1
      rw [if_neg hfl] at e1
      simp only [Out.bind, clear, Out.ok.injEq] at e1
      have hq : q.1.buf = ['&'] := by rw [← e1]; rfl
      refine ⟨hq, ?_⟩
      rw [hq] at e3
      have := List.append_inj_left' e3 rfl
      simpa using this
  refine ⟨_, rfl, e5, ?_, ?_, hb.1, ?_⟩
  · show q.1.input.failed = false
    rw [e4]; exact h.live
  · show q.1.input.rest = rest
    rw [e4]
  · show TextSt S r pc q.2 v
    rw [hv, ← hb.2]; exact e2

theorem ent_states {st : Nat} (h : st = sEnt ∨ st = sNcr ∨ st = sXncr) : st ≠ sPcdata ∧ st ≠ sCdata := by
  rcases h with rfl | rfl | rfl <;> decide

theorem turn_goes {S : Schema} {r pc body html : EType} (hF : TextFacts S r pc body html)
    (hf : 3 ≤ fuel) {p : Sc × St} {st st' : Nat} {c : Char} {name rest v : Str}
    (h : InRef S r pc p st name (c :: rest) v) (hst : st = sEnt ∨ st = sNcr ∨ st = sXncr)
    (hc : 32 ≤ c.toNat ∧ c.toNat < 256) (hg : goesOn st st c = some st') :
    ∃ q, turn cfg fuel full p = .ok q ∧ InRef S r pc q st' (name ++ [c]) rest v := by
  have hrd := readChar_plain p.1.input c rest h.live h.rest (by omega)
  unfold turn
  simp only []
  rw [hrd]
  simp only []
  rw [if_neg (by refine fun hn => hn ?_; left; exact_mod_cast hc.1)]
  rw [h.state, search_ent st hst _ (by omega), act_entity]
  unfold entityAction
  simp only []
  rw [byte_char c hc.2, hg]
  simp only []
  obtain ⟨q, d', e1, e2, e3, e4, e5, e6⟩ := save_text (cfg := cfg) (full := full) hF hf (c.toNat : Int)
    (p := ({ state := st, input := { p.1.input with done := c :: p.1.input.done, rest := rest },
             next := st', buf := p.1.buf, saves := p.1.saves }, p.2)) h.text
  obtain ⟨f1, f2, f3⟩ := e6 (ent_states hst).1 (ent_states hst).2
  rw [e1]
  refine ⟨_, rfl, e5, ?_, ?_, ?_, ?_⟩
  · show q.1.input.failed = false
    rw [e4]; exact h.live
  · show q.1.input.rest = rest
    rw [e4]
  · show q.1.buf = _
    rw [f1, byte_char c hc.2]
    show p.1.buf ++ [c] = _
    rw [h.buf]; rfl
  · show TextSt S r pc q.2 v
    rw [f2]; exact h.text

theorem turn_semi {S : Schema} {r pc body html : EType} (hF : TextFacts S r pc body html)
    (hf : 3 ≤ fuel) {p : Sc × St} {st : Nat} {c : Char} {name rest v : Str}
    (h : InRef S r pc p st name (';' :: rest) v) (hst : st = sEnt ∨ st = sNcr ∨ st = sXncr)
    (hg : goesOn st st ';' = none) (hc : 32 ≤ c.toNat ∧ c.toNat < 128)
    (hl : lookupEntity S name = (c.toNat : Int)) :
    ∃ q, turn cfg fuel full p = .ok q ∧ InText S r pc q rest (v ++ [c]) := by
  have hrd := readChar_plain p.1.input ';' rest h.live h.rest (by decide)
  unfold turn
  simp only []
  rw [hrd]
  simp only []
  rw [if_neg (by refine fun hn => hn ?_; decide)]
  rw [h.state, search_ent st hst _ (by decide), act_entity]
  unfold entityAction
  simp only []
  rw [show byte ((';'.toNat : Nat) : Int) = ';' from by decide, hg]
  simp only []
  rw [h.buf]
  simp only []
  have hlk : lookupEntity p.2.schema name = (c.toNat : Int) := by rw [h.text.schema]; exact hl
  have hcall : call cfg fuel (⟨⟨';' :: p.1.input.done, rest, p.1.input.failed⟩, st, st, '&' :: name,
      p.1.saves⟩, p.2) (.entity name) =
      .ok (⟨⟨';' :: p.1.input.done, rest, p.1.input.failed⟩, st, st, '&' :: name, p.1.saves⟩,
        { p.2 with cdata := false, entity := (c.toNat : Int) }) := by
    unfold call
    simp only [handle]
    rw [hlk]
    rfl
  rw [hcall]
  have hne : (c.toNat : Int) ≠ 0 := by omega
  simp only [Out.bind, clear]
  rw [if_pos hne]
  simp only [saveEntity]
  rw [if_neg (by omega), if_neg (by omega), if_pos (by omega)]
  obtain ⟨q, d', e1, e2, e3, e4, e5, e6⟩ := save_text (cfg := cfg) (full := full) hF hf (c.toNat : Int)
    (p := ({ state := st, input := { p.1.input with done := ';' :: p.1.input.done, rest := rest },
             next := st, buf := [], saves := p.1.saves },
           { p.2 with cdata := false, entity := (c.toNat : Int) }))
    (d := v) ⟨h.text.schema, h.text.pcd, h.text.saved, h.text.cases⟩
  obtain ⟨f1, f2, f3⟩ := e6 (ent_states hst).1 (ent_states hst).2
  rw [e1]
  simp only []
  rw [if_neg (by decide)]
  simp only [toPcdata]
  refine ⟨_, rfl, rfl, ?_, ?_, v, ?_, ?_⟩
  · show q.1.input.failed = false
    rw [e4]; exact h.live
  · show q.1.input.rest = rest
    rw [e4]
  · show TextSt S r pc q.2 v
    rw [← f3]; exact e2
  · show v ++ [c] = v ++ q.1.buf
    rw [f1, byte_char c (by omega)]; rfl

theorem turn_eof {S : Schema} {r pc body html : EType} (hF : TextFacts S r pc body html)
    (hf : 3 ≤ fuel) {p : Sc × St} {v : Str} (h : InText S r pc p [] v) :
    ∃ q, turn cfg fuel full p = .ok q ∧ q.1.state = sDone ∧ TextSt S r pc q.2 v := by
  have hrd : readChar p.1.input = (-1, { p.1.input with failed := true }) := by
    have hl := h.live
    have hr := h.rest
    obtain ⟨⟨⟨done, rest', failed⟩, st, nx, buf, sv⟩, s⟩ := p
    simp only [] at hl hr
    subst hl hr
    rfl
  obtain ⟨d, hd, hv⟩ := h.text
  unfold turn
  simp only []
  rw [hrd]
  simp only []
  rw [if_neg (by refine fun hn => hn ?_; decide)]
  rw [h.state, search_eof, act_pcdata]
  unfold give
  simp only []
  obtain ⟨s1, c1, c2⟩ := call_text (cfg := cfg)
    (sc := { state := sPcdata, input := { p.1.input with failed := true },
             next := sDone, buf := p.1.buf, saves := p.1.saves }) (b := p.1.buf) hF hf hd
  rw [c1]
  exact ⟨_, rfl, rfl, by rw [hv]; exact c2⟩

/-! ### References -/

/-- The state after the characters of a reference. -/
def goPath : Nat → Str → Option Nat
  | st, [] => some st
  | st, c :: cs => (goesOn st st c).bind fun st' => goPath st' cs

theorem goesOn_states {st : Nat} {c : Char} {st' : Nat} (hst : st = sEnt ∨ st = sNcr ∨ st = sXncr)
    (h : goesOn st st c = some st') : st' = sEnt ∨ st' = sNcr ∨ st' = sXncr := by
  unfold goesOn at h
  repeat' split at h
  all_goals first
    | (simp only [Option.some.injEq] at h; subst h; first | exact .inr (.inl rfl) | exact .inr (.inr rfl) | exact hst)
    | exact absurd h (by simp)

/-- Two states of the run, the second a number of turns later. -/
def Leads (cfg : Cfg) (fuel : Nat) (full : Nat → Bool) (p q : Sc × St) : Prop :=
  ∃ k, ∀ n, scanLoop cfg fuel full (n + k) p = scanLoop cfg fuel full n q

theorem leads_turn {p q : Sc × St} (h : turn cfg fuel full p = .ok q) (hd : p.1.state ≠ sDone) :
    Leads cfg fuel full p q :=
  ⟨1, fun n => by rw [scanLoop, if_neg hd, h]; rfl⟩

theorem leads_trans {p q r : Sc × St} (h1 : Leads cfg fuel full p q) (h2 : Leads cfg fuel full q r) :
    Leads cfg fuel full p r := by
  obtain ⟨k, hk⟩ := h1
  obtain ⟨j, hj⟩ := h2
  exact ⟨j + k, fun n => by rw [← Nat.add_assoc, hk, hj]⟩

theorem ent_not_done {st : Nat} (h : st = sEnt ∨ st = sNcr ∨ st = sXncr) : st ≠ sDone := by
  rcases h with rfl | rfl | rfl <;> decide

theorem path_leads {S : Schema} {r pc body html : EType} (hF : TextFacts S r pc body html)
    (hf : 3 ≤ fuel) : ∀ (b : Str) (st st' : Nat) (name rest v : Str) (p : Sc × St),
    InRef S r pc p st name (b ++ rest) v → (st = sEnt ∨ st = sNcr ∨ st = sXncr) →
    (∀ c ∈ b, 32 ≤ c.toNat ∧ c.toNat < 256) → goPath st b = some st' →
    ∃ q, Leads cfg fuel full p q ∧ InRef S r pc q st' (name ++ b) rest v ∧
      (st' = sEnt ∨ st' = sNcr ∨ st' = sXncr)
  | [], st, st', name, rest, v, p, h, hst, hc, hg => by
    simp only [goPath, Option.some.injEq] at hg
    subst hg
    exact ⟨p, ⟨0, fun n => rfl⟩, by simpa using h, hst⟩
  | c :: b, st, st', name, rest, v, p, h, hst, hc, hg => by
    rw [goPath] at hg
    cases hgo : goesOn st st c with
    | none => rw [hgo] at hg; simp at hg
    | some st1 =>
      rw [hgo] at hg
      obtain ⟨q, h1, h2⟩ := turn_goes (cfg := cfg) (full := full) hF hf h hst (hc c (by simp)) hgo
      obtain ⟨q2, h3, h4, h5⟩ := path_leads hF hf b st1 st' (name ++ [c]) rest v q h2
        (goesOn_states hst hgo) (fun d hd => hc d (by simp [hd])) hg
      exact ⟨q2, leads_trans (leads_turn h1 (by rw [h.state]; exact ent_not_done hst)) h3,
        by simpa using h4, h5⟩

theorem digit_class {c : Char} {d : Nat} (h : Spec.Digit c d) : XmlChars.isDigit (schar c) = true := by
  have h1 : c.toNat < 128 := by have := h.1; have := h.2; omega
  unfold schar
  rw [if_pos h1]
  refine (Names.digit_iff _).2 ⟨(48, 57), by decide +kernel, ?_⟩
  have := h.1; have := h.2
  constructor <;> simp <;> omega

theorem dec_digit {c : Char} {d : Nat} (h : Spec.Digit c d) : decDigit c = some d := by
  unfold decDigit
  have := h.1; have := h.2
  rw [if_pos ⟨by omega, by omega⟩]
  congr 1; omega

theorem hex_digit {c : Char} {d : Nat} (h : Spec.HexDigit c d) : hexDigit c = some d := by
  unfold hexDigit
  rcases h with ⟨h1, h2⟩ | ⟨h1, h2, h3 | h3⟩
  · rw [if_pos ⟨by omega, by omega⟩]; congr 1; omega
  · rw [if_neg (by omega), if_neg (by omega), if_pos ⟨by omega, by omega⟩]; congr 1; omega
  · rw [if_neg (by omega), if_pos ⟨by omega, by omega⟩]; congr 1; omega

theorem numeral_all {digit : Char → Nat → Prop} {base : Nat} {s : Str} {n : Nat}
    (h : Numeral digit base s n) : s ≠ [] ∧ ∀ c ∈ s, ∃ d, digit c d := by
  induction h with
  | one c d h => exact ⟨by simp, fun x hx => by simp at hx; subst hx; exact ⟨d, h⟩⟩
  | more s v c d _ h ih =>
    refine ⟨by simp, fun x hx => ?_⟩
    rcases List.mem_append.1 hx with hx | hx
    · exact ih.2 x hx
    · simp at hx; subst hx; exact ⟨d, h⟩

theorem digitsVal_append (base : Nat) (f : Char → Option Nat) (t : Str) : ∀ (s : Str) (v : Nat),
    (∀ c ∈ s, (f c).isSome = true) →
    digitsVal base f v (s ++ t) = digitsVal base f (digitsVal base f v s) t
  | [], v, _ => rfl
  | c :: s, v, h => by
    have hc := h c (by simp)
    cases hf : f c with
    | none => rw [hf] at hc; simp at hc
    | some d =>
      simp only [List.cons_append, digitsVal, hf]
      exact digitsVal_append base f t s _ (fun x hx => h x (by simp [hx]))

theorem numeral_val {digit : Char → Nat → Prop} {base : Nat} {f : Char → Option Nat}
    (hd : ∀ c d, digit c d → f c = some d) {s : Str} {n : Nat} (h : Numeral digit base s n) :
    digitsVal base f 0 s = n := by
  induction h with
  | one c d h => simp [digitsVal, hd c d h]
  | more s v c d hs h ih =>
    rw [digitsVal_append base f [c] s 0 (fun x hx => by
      obtain ⟨d, hx⟩ := (numeral_all hs).2 x hx
      rw [hd x d hx]; rfl), ih]
    simp [digitsVal, hd c d h]

theorem toInt_small {n : Nat} (h : n < 128) : toInt n = (n : Int) := by
  unfold toInt
  simp only []
  have : min n 0x7FFFFFFFFFFFFFFF % 0x100000000 = n := by omega
  rw [this, if_pos (by omega)]

theorem path_dec : ∀ (ds : Str), (∀ c ∈ ds, ∃ d, Spec.Digit c d) → goPath sNcr ds = some sNcr
  | [], _ => rfl
  | c :: ds, h => by
    obtain ⟨d, hd⟩ := h c (by simp)
    have hx : ¬ (c = 'x' ∨ c = 'X') := by
      have := hd.1; have h2 := hd.2
      rintro (rfl | rfl)
      · simp at h2; omega
      · simp at h2; omega
    have : goesOn sNcr sNcr c = some sNcr := by
      unfold goesOn
      rw [if_neg (by rintro ⟨h, _⟩; exact absurd h (by decide)), if_neg (fun h => hx h.2),
        if_neg (by rintro ⟨h, _⟩; exact absurd h (by decide)), if_pos ⟨rfl, digit_class hd⟩]
    rw [goPath, this]
    exact path_dec ds (fun x hx => h x (by simp [hx]))

theorem hex_class {c : Char} {d : Nat} (h : Spec.HexDigit c d) :
    (XmlChars.isDigit (schar c) || hexLetter c) = true := by
  rcases h with h | ⟨h1, h2, h3⟩
  · rw [digit_class (d := d) h]; rfl
  · have hl : hexLetter c = true := by
      have key : ∀ n ∈ [65, 66, 67, 68, 69, 70, 97, 98, 99, 100, 101, 102],
          hexLetter (Char.ofNat n) = true := by decide
      have hm : c.toNat ∈ [65, 66, 67, 68, 69, 70, 97, 98, 99, 100, 101, 102] := by
        simp only [List.mem_cons, List.not_mem_nil, or_false]
        omega
      have := key _ hm
      rwa [Char.ofNat_toNat] at this
    rw [hl]; simp

theorem path_hex : ∀ (ds : Str), (∀ c ∈ ds, ∃ d, Spec.HexDigit c d) → goPath sXncr ds = some sXncr
  | [], _ => rfl
  | c :: ds, h => by
    obtain ⟨d, hd⟩ := h c (by simp)
    have : goesOn sXncr sXncr c = some sXncr := by
      unfold goesOn
      rw [if_neg (by rintro ⟨h, _⟩; exact absurd h (by decide)),
        if_neg (by rintro ⟨h, _⟩; exact absurd h (by decide)),
        if_neg (by rintro ⟨h, _⟩; exact absurd h (by decide)),
        if_neg (by rintro ⟨h, _⟩; exact absurd h (by decide)), if_pos ⟨rfl, hex_class hd⟩]
    rw [goPath, this]
    exact path_hex ds (fun x hx => h x (by simp [hx]))

theorem hex_small {c : Char} {d : Nat} (h : Spec.HexDigit c d) : 32 ≤ c.toNat ∧ c.toNat < 256 := by
  rcases h with ⟨h1, h2⟩ | ⟨h1, h2, h3 | h3⟩ <;> omega

theorem means_ok {S : Schema} (hS : S.entity = htmlEntity) {b : Str} {c : Char} (h : Means b c) :
    (∀ x ∈ b, 32 ≤ x.toNat ∧ x.toNat < 256) ∧ (∃ st, goPath sEnt b = some st) ∧
    lookupEntity S b = (c.toNat : Int) ∧ 32 ≤ c.toNat ∧ c.toNat < 128 := by
  cases h with
  | dec ds n _ hn hc h1 h2 =>
    have hall := numeral_all hn
    refine ⟨?_, ⟨sNcr, ?_⟩, ?_, by omega, by omega⟩
    · intro x hx
      rcases List.mem_cons.1 hx with rfl | hx
      · decide
      · obtain ⟨d, hd⟩ := hall.2 x hx
        have := hd.1; have := hd.2; omega
    · rw [goPath, show goesOn sEnt sEnt '#' = some sNcr from by decide]
      exact path_dec ds hall.2
    · have hs : strtol10 ds = (n : Int) := by
        unfold strtol10
        rw [numeral_val (fun c d h => dec_digit h) hn, toInt_small h2]
      cases ds with
      | nil => exact absurd rfl hall.1
      | cons x ds =>
        obtain ⟨d, hd⟩ := hall.2 x (by simp)
        unfold lookupEntity
        simp only []
        rw [if_neg (by
          have := hd.1; have h2 := hd.2
          rintro (rfl | rfl)
          · simp at h2; omega
          · simp at h2; omega), hs, hc]
  | hex x ds n _ hx hn hc h1 h2 =>
    have hall := numeral_all hn
    refine ⟨?_, ⟨sXncr, ?_⟩, ?_, by omega, by omega⟩
    · intro y hy
      rcases List.mem_cons.1 hy with rfl | hy
      · decide
      · rcases List.mem_cons.1 hy with rfl | hy
        · rcases hx with rfl | rfl <;> decide
        · obtain ⟨d, hd⟩ := hall.2 y hy
          exact hex_small hd
    · rw [goPath, show goesOn sEnt sEnt '#' = some sNcr from by decide]
      show goPath sNcr (x :: ds) = _
      rw [goPath, show goesOn sNcr sNcr x = some sXncr from by rcases hx with rfl | rfl <;> decide]
      exact path_hex ds hall.2
    · unfold lookupEntity
      simp only []
      rw [if_pos hx]
      have hv := numeral_val (fun c d h => hex_digit h) hn
      have : strtol16 ds = toInt (digitsVal 16 hexDigit 0 ds) := by
        unfold strtol16
        split
        · rename_i _ y z rest
          rw [if_neg]
          rintro ⟨hy, _⟩
          obtain ⟨d, hd⟩ := hall.2 y (by simp)
          have := hex_digit hd
          rcases hy with rfl | rfl <;> revert this <;> simp [hexDigit]
        · rfl
      rw [this, hv, toInt_small h2, hc]
  | lt =>
    exact ⟨by decide, ⟨sEnt, by decide +kernel⟩, by
      show lookupEntity S ['l', 't'] = _
      unfold lookupEntity; rw [hS]; decide +kernel, by decide, by decide⟩
  | gt =>
    exact ⟨by decide, ⟨sEnt, by decide +kernel⟩, by
      show lookupEntity S ['g', 't'] = _
      unfold lookupEntity; rw [hS]; decide +kernel, by decide, by decide⟩
  | amp =>
    exact ⟨by decide, ⟨sEnt, by decide +kernel⟩, by
      show lookupEntity S ['a', 'm', 'p'] = _
      unfold lookupEntity; rw [hS]; decide +kernel, by decide, by decide⟩
  | quot =>
    exact ⟨by decide, ⟨sEnt, by decide +kernel⟩, by
      show lookupEntity S ['q', 'u', 'o', 't'] = _
      unfold lookupEntity; rw [hS]; decide +kernel, by decide, by decide⟩

theorem semi_stops {st : Nat} (hst : st = sEnt ∨ st = sNcr ∨ st = sXncr) : goesOn st st ';' = none := by
  rcases hst with rfl | rfl | rfl <;> decide +kernel

theorem text_leads {S : Schema} {r pc body html : EType} (hF : TextFacts S r pc body html)
    (hS : S.entity = htmlEntity) (hf : 3 ≤ fuel) {src t : Str} (h : PlainText src t) :
    ∀ (p : Sc × St) (v : Str), InText S r pc p src v →
    ∃ q, Leads cfg fuel full p q ∧ q.1.state = sDone ∧ TextSt S r pc q.2 (v ++ t) := by
  have nd : ∀ (p : Sc × St) (a b : Str), InText S r pc p a b → p.1.state ≠ sDone := by
    intro p a b h; rw [h.state]; decide
  induction h with
  | nil =>
    intro p v h
    obtain ⟨q, h1, h2, h3⟩ := turn_eof (cfg := cfg) (full := full) hF hf h
    exact ⟨q, leads_turn h1 (nd _ _ _ h), h2, by simpa using h3⟩
  | char c s t h1 h2 h3 h4 _ ih =>
    intro p v h
    obtain ⟨q, g1, g2⟩ := turn_char (cfg := cfg) (full := full) hF hf h h1 h2 h3 h4
    obtain ⟨q2, g3, g4, g5⟩ := ih q _ g2
    exact ⟨q2, leads_trans (leads_turn g1 (nd _ _ _ h)) g3, g4, by simpa using g5⟩
  | newline s t _ ih =>
    intro p v h
    obtain ⟨q, g1, g2⟩ := turn_newline (cfg := cfg) (full := full) hF hf h
    obtain ⟨q2, g3, g4, g5⟩ := ih q _ g2
    exact ⟨q2, leads_trans (leads_turn g1 (nd _ _ _ h)) g3, g4, by simpa using g5⟩
  | ref b c s t hm _ ih =>
    intro p v h
    obtain ⟨m1, ⟨st, m2⟩, m3, m4, m5⟩ := means_ok hS hm
    obtain ⟨q, g1, g2⟩ := turn_amp (cfg := cfg) (full := full) hF hf h
    obtain ⟨q2, g3, g4, hst⟩ := path_leads (cfg := cfg) (full := full) hF hf b sEnt st [] (';' :: s) v q g2
      (.inl rfl) m1 m2
    obtain ⟨q3, g5, g6⟩ := turn_semi (cfg := cfg) (full := full) hF hf g4 hst (semi_stops hst) ⟨m4, m5⟩
      (by simpa using m3)
    obtain ⟨q4, g7, g8, g9⟩ := ih q3 _ g6
    exact ⟨q4, leads_trans (leads_turn g1 (nd _ _ _ h)) (leads_trans g3
      (leads_trans (leads_turn g5 (by rw [g4.state]; exact ent_not_done hst)) g7)), g8,
      by simpa using g9⟩

theorem scanLoop_more : ∀ (n : Nat) (p q : Sc × St), scanLoop cfg fuel full n p = .ok q →
    ∀ k, scanLoop cfg fuel full (n + k) p = .ok q
  | 0, p, q, h, k => by
    rw [scanLoop] at h
    by_cases hd : p.1.state = sDone
    · rw [if_pos hd] at h
      cases k with
      | zero => rw [Nat.add_zero, scanLoop, if_pos hd]; exact h
      | succ k => rw [← Nat.add_assoc, scanLoop, if_pos hd]; exact h
    · rw [if_neg hd] at h; exact absurd h (by simp)
  | n + 1, p, q, h, k => by
    rw [scanLoop] at h
    rw [show n + 1 + k = (n + k) + 1 from by omega, scanLoop]
    by_cases hd : p.1.state = sDone
    · rw [if_pos hd] at h ⊢; exact h
    · rw [if_neg hd] at h ⊢
      cases ht : turn cfg fuel full p with
      | ok r =>
        rw [ht] at h
        exact scanLoop_more n r q h k
      | throws => rw [ht] at h; exact absurd h (by simp [Out.bind])
      | ub => rw [ht] at h; exact absurd h (by simp [Out.bind])
      | diverges => rw [ht] at h; exact absurd h (by simp [Out.bind])

theorem plain_bytes {src t : Str} (h : PlainText src t) : Bytes src := by
  induction h with
  | nil => intro c hc; simp at hc
  | char c s t _ _ _ h4 _ ih =>
    intro x hx
    rcases List.mem_cons.1 hx with rfl | hx
    · exact h4
    · exact ih x hx
  | newline s t _ ih =>
    intro x hx
    simp only [List.mem_cons] at hx
    rcases hx with rfl | rfl | hx
    · decide
    · decide
    · exact ih x hx
  | ref b c s t hm _ ih =>
    intro x hx
    simp only [List.mem_cons, List.mem_append] at hx
    rcases hx with rfl | hx | rfl | hx
    · decide
    · exact ((means_ok (S := emptySchema) rfl hm).1 x hx).2
    · decide
    · exact ih x hx

end Verif.Taggle

namespace Verif.Taggle
open Spec

/-! ### The document type declaration -/

theorem splitLoop_word (v : Str) : ∀ (w rest : Str) (e s : Nat) (lc : Option Char),
    (∀ c ∈ w, Verif.Spec.Text.space c = false ∧ c ≠ '\'' ∧ c ≠ '"') →
    ∃ lc', splitLoop v (w ++ rest) e (some s) false false lc =
      splitLoop v rest (e + w.length) (some s) false false lc'
  | [], rest, e, s, lc, _ => ⟨lc, rfl⟩
  | c :: w, rest, e, s, lc, h => by
    obtain ⟨h1, h2, h3⟩ := h c (by simp)
    obtain ⟨lc', hl⟩ := splitLoop_word v w rest (e + 1) s (some c) (fun x hx => h x (by simp [hx]))
    refine ⟨lc', ?_⟩
    rw [List.cons_append, splitLoop.eq_def]
    simp only []
    rw [if_neg (by simp [h2]), if_neg (by simp [h3]), if_pos (by rfl), schar_space, if_neg (by rw [h1]; simp)]
    show splitLoop v (w ++ rest) (e + 1) (some s) false false (some c) = _
    rw [hl]
    congr 1
    simp; omega

theorem split_doctype {b name : Str} (hw : Verif.Spec.Text.words b = ["DOCTYPE".toList, name])
    (hq : ∀ c ∈ name, c ≠ '\'' ∧ c ≠ '"') : split b = some ["DOCTYPE".toList, name] := by
  have hg := Text.words_good b
  rw [hw] at hg
  have hn := hg name (by simp)
  have hv : Text.normalizeWhitespace b = "DOCTYPE".toList ++ ' ' :: name := by
    rw [Text.normalize_eq, hw]; rfl
  unfold split
  simp only []
  rw [hv, if_neg (by simp)]
  obtain ⟨lc, h1⟩ := splitLoop_word ("DOCTYPE".toList ++ ' ' :: name) "DOCTYPE".toList (' ' :: name) 0 0 none
    (by decide)
  rw [h1, splitLoop.eq_def]
  simp only []
  rw [if_neg (by simp), if_neg (by simp), if_pos (by rfl), if_pos (by decide)]
  cases name with
  | nil => exact absurd rfl hn.1
  | cons c cs =>
    have hc := hn.2 c (by simp)
    have hcq := hq c (by simp)
    have hs : splitLoop ("DOCTYPE".toList ++ ' ' :: c :: cs) (c :: cs) (0 + "DOCTYPE".toList.length + 1) none
        false false (some ' ') = some [c :: cs] := by
      rw [splitLoop.eq_def]
      simp only []
      rw [if_neg (by simp [hcq.1]), if_neg (by simp [hcq.2]), if_pos (by rfl), schar_space,
        if_neg (by rw [hc]; simp)]
      obtain ⟨lc2, h2⟩ := splitLoop_word ("DOCTYPE".toList ++ ' ' :: c :: cs) cs [] 9 8 (some c)
        (fun x hx => ⟨hn.2 x (by simp [hx]), hq x (by simp [hx])⟩)
      rw [List.append_nil] at h2
      show splitLoop _ cs 9 (some 8) false false (some c) = _
      rw [h2, splitLoop.eq_def]
      simp only [substr]
      congr 2
      show (c :: cs).take _ = _
      rw [List.take_of_length_le (by simp; omega)]
    rw [hs]
    rfl

end Verif.Taggle
