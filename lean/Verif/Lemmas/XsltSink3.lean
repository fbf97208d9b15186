import Verif.Lemmas.XsltSink2
set_option autoImplicit false
set_option linter.unusedSimpArgs false
set_option linter.unusedVariables false
/-!
# The prefixes in the events of a transformation
-/
namespace Verif.XsltSink
open Verif.Xslt (Str QN OAttr Event Instr Instrs Out exec execs transform NsStack Scope strXmlns findPrefix autoPrefix
  declareNamespace nsBind mapSet mapFind nsPush nsPop nsDeclarations flushElement flushCurrent attPut attSetValue emit)
open Verif.Spec.Xml (nameChar)
open Verif.Spec.XsltOutput (Plain Plains)
open Verif.Spec.DomStream (NCName)
open Verif.Spec.XsltSink

/-- A prefix in a scope. -/
def SP (p : Str) : Prop := GP p ∧ p ≠ strXmlns

def GoodStart : Event → Prop
  | .startElement q _ atts => GP q.1 ∧ ∀ a ∈ atts, GoodAtt a
  | _ => True

def GoodScopes (l : List (Scope × Scope)) : Prop := ∀ sc ∈ l, (∀ e ∈ sc.1, SP e.1) ∧ ∀ e ∈ sc.2, SP e.2

/-- Text comes right after the start of a CDATA section. -/
def Follows : List Event → Prop
  | [] => True
  | .startCDATA :: .characters _ :: es => Follows es
  | .startCDATA :: _ => False
  | _ :: es => Follows es

theorem follows_append (a b : List Event) (ha : Follows a) (hb : Follows b) : Follows (a ++ b) := by
  induction a using Follows.induct with
  | case1 => exact hb
  | case2 t es ih => exact ih ha
  | case3 es h => rw [Follows] at ha; · cases ha
                  · exact h
  | case4 e es h1 h2 ih =>
    rw [Follows] at ha
    · rw [List.cons_append, Follows]
      · exact ih ha
      · intro t es' he; exact absurd he (h2)
      · exact h2
    · exact h1
    · exact h2

structure PInv (s : Out) : Prop where
  sc : GoodScopes s.ns.scopes
  el : ∀ e ∈ s.elements, GP e.1.1
  att : ∀ a ∈ s.atts, GoodAtt a
  ev : ∀ e ∈ s.out, GoodStart e
  fo : Follows s.out

theorem ite_inv {c : Prop} [Decidable c] {a b : Out} (ha : PInv a) (hb : PInv b) : PInv (if c then a else b) := by
  split
  · exact ha
  · exact hb

theorem digit_name {c : Char} (h : c.isDigit = true) : nameChar c = true ∧ c ≠ ':' := by
  have h2 : 48 ≤ c.toNat ∧ c.toNat ≤ 57 := by
    simp only [Char.isDigit, Bool.and_eq_true, decide_eq_true_eq] at h
    exact h
  have : ∀ n : Fin 58, 48 ≤ n.val → nameChar (Char.ofNat n.val) = true ∧ Char.ofNat n.val ≠ ':' := by decide +kernel
  have h3 := this ⟨c.toNat, by omega⟩ h2.1
  simpa using h3

theorem auto_good (i : Nat) : SP (autoPrefix i) := by
  refine ⟨.inr ⟨by simp [autoPrefix], ?_⟩, ?_⟩
  · intro c hc
    rw [autoPrefix, List.mem_append] at hc
    rcases hc with hc | hc
    · have : ∀ c ∈ ['a', 'u', 't', 'o', '-', 'n', 's'], nameChar c = true ∧ c ≠ ':' := by decide +kernel
      exact this c hc
    · exact digit_name (Nat.isDigit_of_mem_toDigits (by decide) (by decide) hc)
  · intro h
    have := congrArg List.head? h
    simp [autoPrefix, strXmlns] at this

theorem nil_good : SP [] := ⟨.inl rfl, by decide⟩

theorem findPrefix_good {l : List (Scope × Scope)} (h : GoodScopes l) (u : Str) : SP (findPrefix u l) := by
  induction l with
  | nil => exact nil_good
  | cons s l ih =>
    rw [findPrefix]
    cases hm : mapFind u s.2 with
    | none => exact ih fun x hx => h x (by simp [hx])
    | some p =>
      have h2 := (h s (by simp)).2
      have : ∀ m : Scope, (∀ e ∈ m, SP e.2) → mapFind u m = some p → SP p := by
        intro m
        induction m with
        | nil => intro _ hm; cases hm
        | cons e m ihm =>
          intro hh hm
          rw [mapFind] at hm
          by_cases he : e.1 = u
          · rw [if_pos he] at hm
            cases hm
            exact hh e (by simp)
          · rw [if_neg he] at hm
            exact ihm (fun x hx => hh x (by simp [hx])) hm
      exact this s.2 h2 hm

theorem bind_good {p : Str} (u : Str) (hp : SP p) {n : NsStack} (h : GoodScopes n.scopes) :
    GoodScopes (nsBind p u n).scopes := by
  rw [nsBind]
  cases hs : n.scopes with
  | nil => simp only; rw [hs]; intro x hx; cases hx
  | cons s rest =>
    rw [hs] at h
    simp only
    intro x hx
    rcases List.mem_cons.1 hx with rfl | hx
    · obtain ⟨h1, h2⟩ := h s (by simp)
      refine ⟨?_, ?_⟩
      · intro e he
        simp only [mapSet, List.mem_cons, List.mem_filter] at he
        rcases he with rfl | he
        · exact hp
        · exact h1 e he.1
      · intro e he
        simp only [mapSet, List.mem_cons, List.mem_filter] at he
        rcases he with rfl | he
        · exact hp
        · exact h2 e he.1
    · exact h x (by simp [hx])

theorem declare_good {p : Str} (u : Str) (a : Bool) (hp : GP p) {n : NsStack} (h : GoodScopes n.scopes) :
    GoodScopes (declareNamespace p u a n).scopes := by
  rw [declareNamespace]
  by_cases h1 : findPrefix u n.scopes ≠ []
  · rw [if_pos h1]; exact h
  · rw [if_neg h1]
    by_cases h2 : ((a && p.isEmpty) || decide (p = strXmlns)) = true
    · rw [if_pos h2]
      exact bind_good u (auto_good _) (n := { n with autoNs := n.autoNs + 1 }) h
    · rw [if_neg h2]
      refine bind_good u ⟨hp, ?_⟩ h
      intro hc
      simp [hc] at h2

theorem push_good {n : NsStack} (h : GoodScopes n.scopes) : GoodScopes (nsPush n).scopes := by
  intro x hx
  rcases List.mem_cons.1 hx with rfl | hx
  · simp
  · exact h x hx

theorem pop_good {n : NsStack} (h : GoodScopes n.scopes) : GoodScopes (nsPop n).scopes :=
  fun x hx => h x (List.mem_of_mem_tail hx)

theorem xmlns_name : NCName strXmlns := ⟨by decide, by decide +kernel⟩

theorem decls_good {n : NsStack} (h : GoodScopes n.scopes) : ∀ a ∈ nsDeclarations n, GoodAtt a := by
  intro a ha
  rw [nsDeclarations] at ha
  cases hs : n.scopes with
  | nil => rw [hs] at ha; cases ha
  | cons s rest =>
    rw [hs] at ha h
    simp only [List.mem_map, List.mem_filter] at ha
    obtain ⟨e, ⟨he, _⟩, rfl⟩ := ha
    have h1 := (h s (by simp)).1 e he
    by_cases h0 : e.1 = []
    · simp only [GoodAtt, h0, if_true]
      exact ⟨.inl rfl, fun _ => xmlns_name⟩
    · simp only [GoodAtt, if_neg h0]
      exact ⟨.inr xmlns_name, fun _ => h1.1.resolve_left h0⟩

theorem emit_inv {s : Out} (h : PInv s) {e : Event} (he : GoodStart e) (hc : e ≠ .startCDATA) : PInv (emit e s) := by
  refine ⟨h.sc, h.el, h.att, ?_, ?_⟩
  · intro x hx
    rcases List.mem_append.1 hx with hx | hx
    · exact h.ev x hx
    · simp only [List.mem_singleton] at hx
      subst hx
      exact he
  · refine follows_append _ [e] h.fo ?_
    cases e with
    | startCDATA => exact absurd rfl hc
    | _ => trivial

theorem emit_cdata {s : Out} (h : PInv s) (ch : Str) : PInv (emit (.characters ch) (emit .startCDATA s)) := by
  refine ⟨h.sc, h.el, h.att, ?_, ?_⟩
  · intro x hx
    rcases List.mem_append.1 hx with hx | hx
    · rcases List.mem_append.1 hx with hx | hx
      · exact h.ev x hx
      · simp only [List.mem_singleton] at hx
        subst hx
        trivial
    · simp only [List.mem_singleton] at hx
      subst hx
      trivial
  · have := follows_append _ [.startCDATA, .characters ch] h.fo trivial
    simpa [emit] using this

theorem flushElement_inv {s : Out} (h : PInv s) : PInv (flushElement s) := by
  rw [flushElement]
  by_cases h1 : s.pendingElement = false ∨ s.pendingAttribute ≠ none
  · rw [if_pos h1]; exact h
  · rw [if_neg h1]
    by_cases h2 : s.textMode = true
    · rw [if_pos h2]; exact h
    · rw [if_neg h2]
      have hatt : ∀ a ∈ (if s.wantDecs then (if s.wantDecs then s.atts ++ nsDeclarations s.ns else s.atts) ++
          nsDeclarations (nsPop s.ns) else (if s.wantDecs then s.atts ++ nsDeclarations s.ns else s.atts)), GoodAtt a := by
        by_cases hw : s.wantDecs = true
        · rw [if_pos hw, if_pos hw]
          intro a ha
          rcases List.mem_append.1 ha with ha | ha
          · rcases List.mem_append.1 ha with ha | ha
            · exact h.att a ha
            · exact decls_good h.sc a ha
          · exact decls_good (pop_good h.sc) a ha
        · rw [if_neg hw, if_neg hw]
          exact h.att
      cases he : s.elements with
      | nil =>
        simp only
        refine ⟨pop_good h.sc, ?_, hatt, h.ev, h.fo⟩
        intro e hh
        cases hh
      | cons e es =>
        simp only
        refine emit_inv (e := .startElement e.1 e.2 _) ?_ ⟨h.el e (by simp [he]), hatt⟩ (by simp)
        exact ⟨pop_good h.sc, fun x hx => h.el x (by rw [he]; exact hx), hatt, h.ev, h.fo⟩

theorem flushCurrent_inv {s : Out} (h : PInv s) : PInv (flushCurrent s) := by
  rw [flushCurrent]
  by_cases h1 : s.pendingText = true
  · rw [if_pos h1]
    refine flushElement_inv ?_
    by_cases h2 : Verif.Xslt.isCDATA s = true
    · rw [if_pos h2]
      have := emit_inv h (e := .endCDATA) trivial (by simp)
      exact ⟨this.sc, this.el, this.att, this.ev, this.fo⟩
    · rw [if_neg h2]
      exact ⟨h.sc, h.el, h.att, h.ev, h.fo⟩
  · rw [if_neg h1]
    exact flushElement_inv h

theorem startElement_inv {s : Out} (h : PInv s) {p : Str} (l u : Str) (hp : GP p) :
    PInv (Verif.Xslt.startElement s p l u).2 := by
  rw [Verif.Xslt.startElement]
  by_cases hb : s.buffering ≠ 0
  · rw [if_pos hb]; exact h
  · rw [if_neg hb]
    have h := flushCurrent_inv h
    have hn : GoodScopes (if u ≠ [] then declareNamespace p u false (nsPush (flushCurrent s).ns)
        else nsPush (flushCurrent s).ns).scopes := by
      by_cases hu : u ≠ []
      · rw [if_pos hu]
        exact declare_good u false hp (push_good h.sc)
      · rw [if_neg hu]
        exact push_good h.sc
    refine ⟨push_good hn, ?_, ?_, h.ev, h.fo⟩
    · intro e he
      rcases List.mem_cons.1 he with rfl | he
      · exact (findPrefix_good hn u).1
      · exact h.el e he
    · intro a ha; cases ha

theorem endElement_inv {s : Out} (h : PInv s) (l u : Str) : PInv (Verif.Xslt.endElement s l u) := by
  rw [Verif.Xslt.endElement]
  by_cases hb : s.buffering ≠ 0
  · rw [if_pos hb]; exact ⟨h.sc, h.el, h.att, h.ev, h.fo⟩
  · rw [if_neg hb]
    have h := flushCurrent_inv h
    by_cases ht : (flushCurrent s).textMode = true
    · simp only [if_pos ht]
      exact ⟨pop_good h.sc, h.el, h.att, h.ev, h.fo⟩
    · simp only [if_neg ht]
      have h2 := emit_inv h (e := .endElement (findPrefix u (flushCurrent s).ns.scopes, l) u) trivial (by simp)
      refine ⟨pop_good h2.sc, ?_, h2.att, h2.ev, h2.fo⟩
      intro e he
      exact h2.el e (List.mem_of_mem_tail he)

theorem attPut_good {b : OAttr} (hb : GoodAtt b) {l : List OAttr} (h : ∀ a ∈ l, GoodAtt a) : ∀ a ∈ attPut b l, GoodAtt a := by
  induction l with
  | nil => intro a ha; rw [attPut, List.mem_singleton] at ha; subst ha; exact hb
  | cons x l ih =>
    intro a ha
    rw [attPut] at ha
    split at ha
    · rcases List.mem_cons.1 ha with rfl | ha
      · have := h x (by simp)
        refine ⟨this.1, fun hd => this.2 ?_⟩
        intro hn
        refine hd ?_
        simp only [Verif.Spec.XsltOutput.declaration] at hn ⊢
        split at hn
        · cases hn
        · rename_i h1
          rw [if_neg h1]
          split at hn
          · cases hn
          · rename_i h2
            rw [if_neg h2]
      · exact h a (by simp [ha])
    · rcases List.mem_cons.1 ha with rfl | ha
      · exact h a (by simp)
      · exact ih (fun y hy => h y (by simp [hy])) a ha

theorem attSet_good (v : Str) {l : List OAttr} (h : ∀ a ∈ l, GoodAtt a) : ∀ i, ∀ a ∈ attSetValue v i l, GoodAtt a := by
  induction l with
  | nil => intro i a ha; cases i <;> cases ha
  | cons x l ih =>
    intro i a ha
    cases i with
    | zero =>
      rw [attSetValue] at ha
      rcases List.mem_cons.1 ha with rfl | ha
      · have := h x (by simp)
        refine ⟨this.1, fun hd => this.2 ?_⟩
        intro hn
        refine hd ?_
        simp only [Verif.Spec.XsltOutput.declaration] at hn ⊢
        split at hn
        · cases hn
        · rename_i h1
          rw [if_neg h1]
          split at hn
          · cases hn
          · rename_i h2
            rw [if_neg h2]
      · exact h a (by simp [ha])
    | succ i =>
      rw [attSetValue] at ha
      rcases List.mem_cons.1 ha with rfl | ha
      · exact h a (by simp)
      · exact ih (fun y hy => h y (by simp [hy])) i a ha

theorem startAttribute_inv {s : Out} (h : PInv s) {p : Str} (l u : Str) (hp : GP p) :
    PInv (Verif.Xslt.startAttribute s p l u) := by
  rw [Verif.Xslt.startAttribute]
  by_cases hb : s.buffering ≠ 0
  · rw [if_pos hb]; exact ⟨h.sc, h.el, h.att, h.ev, h.fo⟩
  · rw [if_neg hb]
    by_cases hq : s.pendingElement = false
    · simp only [if_pos hq]; exact ⟨h.sc, h.el, h.att, h.ev, h.fo⟩
    · simp only [if_neg hq]
      have hn : GoodScopes (if u ≠ [] then declareNamespace p u true s.ns else s.ns).scopes := by
        by_cases hu : u ≠ []
        · rw [if_pos hu]; exact declare_good u true hp h.sc
        · rw [if_neg hu]; exact h.sc
      refine ⟨hn, h.el, attPut_good ?_ h.att, h.ev, h.fo⟩
      have hf := findPrefix_good hn u
      refine ⟨hf.1, fun hd => ?_⟩
      by_cases hl : l = strXmlns
      · subst hl
        exact xmlns_name
      · refine absurd ?_ hd
        simp only [Verif.Spec.XsltOutput.declaration]
        rw [if_neg (show _ ≠ Verif.Spec.XsltOutput.xmlns from hf.2), if_neg]
        intro hc
        exact hl (Prod.mk.inj hc).2

theorem endAttribute_inv {s : Out} (h : PInv s) : PInv (Verif.Xslt.endAttribute s) := by
  rw [Verif.Xslt.endAttribute]
  simp only [Verif.Xslt.popBuffering]
  refine ite_inv ⟨h.sc, h.el, h.att, h.ev, h.fo⟩ ?_
  · cases hp : s.pendingAttribute with
    | none => exact ⟨h.sc, h.el, h.att, h.ev, h.fo⟩
    | some i => exact ⟨h.sc, h.el, attSet_good _ h.att _, h.ev, h.fo⟩

theorem characters_inv {s : Out} (h : PInv s) (ch : Str) : PInv (Verif.Xslt.characters s ch) := by
  rw [Verif.Xslt.characters]
  by_cases hb : s.buffering ≠ 0
  · rw [if_pos hb]
    by_cases h1 : s.buffering = 1
    · rw [if_pos h1]; exact ⟨h.sc, h.el, h.att, h.ev, h.fo⟩
    · rw [if_neg h1]; exact h
  · rw [if_neg hb]
    have h := flushElement_inv h
    cases hp : (flushElement s).pendingAttribute with
    | some i => simp only [hp]; exact ⟨h.sc, h.el, attSet_good _ h.att _, h.ev, h.fo⟩
    | none =>
      simp only [hp]
      by_cases h1 : (flushElement s).pendingText = true
      · rw [if_pos h1]; exact emit_inv (e := .characters ch) h trivial (by simp)
      · rw [if_neg h1]
        split
        · refine emit_cdata ?_ ch
          exact ⟨h.sc, h.el, h.att, h.ev, h.fo⟩
        · refine emit_inv (e := .characters ch) ?_ trivial (by simp)
          exact ⟨h.sc, h.el, h.att, h.ev, h.fo⟩

theorem startComment_inv {s : Out} (h : PInv s) : PInv (Verif.Xslt.startComment s) := by
  rw [Verif.Xslt.startComment]
  by_cases hb : s.buffering ≠ 0
  · rw [if_pos hb]; exact ⟨h.sc, h.el, h.att, h.ev, h.fo⟩
  · rw [if_neg hb]
    exact flushCurrent_inv ⟨h.sc, h.el, h.att, h.ev, h.fo⟩

theorem endComment_inv {s : Out} (h : PInv s) : PInv (Verif.Xslt.endComment s) := by
  rw [Verif.Xslt.endComment]
  simp only [Verif.Xslt.popBuffering]
  refine ite_inv ⟨h.sc, h.el, h.att, h.ev, h.fo⟩ (ite_inv ⟨h.sc, h.el, h.att, h.ev, h.fo⟩ ?_)
  · · rw [Verif.Xslt.commentText_eq]
      refine emit_inv (e := .comment _) ?_ trivial (by simp)
      exact ⟨h.sc, h.el, h.att, h.ev, h.fo⟩

theorem startPI_inv {s : Out} (h : PInv s) (t : Str) : PInv (Verif.Xslt.startPI s t) := by
  rw [Verif.Xslt.startPI]
  by_cases hb : s.buffering ≠ 0
  · rw [if_pos hb]; exact ⟨h.sc, h.el, h.att, h.ev, h.fo⟩
  · rw [if_neg hb]
    have := flushCurrent_inv (s := { s with buffering := 1, buffer := [] }) ⟨h.sc, h.el, h.att, h.ev, h.fo⟩
    exact ⟨this.sc, this.el, this.att, this.ev, this.fo⟩

theorem endPI_inv {s : Out} (h : PInv s) : PInv (Verif.Xslt.endPI s) := by
  rw [Verif.Xslt.endPI]
  simp only [Verif.Xslt.popBuffering]
  refine ite_inv ⟨h.sc, h.el, h.att, h.ev, h.fo⟩ (ite_inv ⟨h.sc, h.el, h.att, h.ev, h.fo⟩ ?_)
  · · rw [Verif.Xslt.piData_eq]
      refine emit_inv (e := .pi _ _) ?_ trivial (by simp)
      exact ⟨h.sc, h.el, h.att, h.ev, h.fo⟩

mutual
theorem exec_inv (i : Instr) (hp : Prefixed i) (hq : Plain i) (s : Out) (h : PInv s) : PInv (exec s i) := by
  match i with
  | .text t => rw [exec]; exact characters_inv h t
  | .element p l u b =>
    rw [Prefixed] at hp
    rw [Plain] at hq
    rw [exec]
    by_cases hb : (Verif.Xslt.startElement s p l u).1 = true
    · rw [if_pos hb]
      exact endElement_inv (execs_inv b hp.2 hq _ (startElement_inv h l u hp.1)) l u
    · rw [if_neg hb]
      exact startElement_inv h l u hp.1
  | .attr p l u b =>
    rw [Prefixed] at hp
    rw [Plain] at hq
    rw [exec]
    exact endAttribute_inv (execs_inv b hp.2 hq _ (startAttribute_inv h l u hp.1))
  | .copyAttribute u l q v => rw [Plain] at hq; cases hq
  | .comment b =>
    rw [Prefixed] at hp
    rw [Plain] at hq
    rw [exec]
    exact endComment_inv (execs_inv b hp hq _ (startComment_inv h))
  | .pi t b =>
    rw [Prefixed] at hp
    rw [Plain] at hq
    rw [exec]
    exact endPI_inv (execs_inv b hp hq _ (startPI_inv h t))

theorem execs_inv (is : Instrs) (hp : PrefixedAll is) (hq : Plains is) (s : Out) (h : PInv s) : PInv (execs s is) := by
  match is with
  | .nil => rw [execs]; exact h
  | .cons i rest =>
    rw [PrefixedAll] at hp
    rw [Plains] at hq
    rw [execs]
    exact execs_inv rest hp.2 hq.2 _ (exec_inv i hp.1 hq.1 s h)
end

theorem transform_inv (cdata : List (Str × Str)) (is : Instrs) (hp : PrefixedAll is) (hq : Plains is) :
    (∀ e ∈ transform cdata is, GoodStart e) ∧ Follows (transform cdata is) := by
  have h0 : PInv { cdata := cdata } := by
    refine ⟨?_, ?_, ?_, ?_, trivial⟩
    · intro x hx
      rw [show ({ cdata := cdata } : Out).ns.scopes = [([], [])] from rfl, List.mem_singleton] at hx
      subst hx
      simp
    all_goals intro x hx; cases hx
  have := execs_inv is hp hq _ h0
  exact ⟨this.ev, this.fo⟩

end Verif.XsltSink
