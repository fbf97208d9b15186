import Verif.Spec.DomStream
import Verif.Lemmas.XmlReader
set_option autoImplicit false
set_option linter.unusedSimpArgs false
set_option linter.unusedVariables false
/-!
# Reading a serialised DOM node
-/
namespace Verif.DomStream
open Verif.XmlReader
open Verif.Spec.Xml hiding Str
open Verif.Spec.DomStream

/-! ## Names -/

theorem ncname_name {n : Str} (h : NCName n) : XmlReader.Name n := ⟨h.1, fun c hc => (h.2 c hc).1⟩

theorem ncname_colon {n : Str} (h : NCName n) : ':' ∉ n := fun hc => (h.2 _ hc).2 rfl

theorem cutColon_none (n : Str) (h : ':' ∉ n) : cutColon n = none := by
  induction n with
  | nil => rfl
  | cons c n ih =>
    simp only [List.mem_cons, not_or] at h
    rw [cutColon, if_neg (Ne.symm h.1), ih h.2]; rfl

theorem cutColon_some (p l : Str) (h : ':' ∉ p) : cutColon (p ++ ':' :: l) = some (p, l) := by
  induction p with
  | nil => rfl
  | cons c p ih =>
    simp only [List.mem_cons, not_or] at h
    rw [List.cons_append, cutColon, if_neg (Ne.symm h.1), ih h.2]; rfl

/-- A name with its prefix. -/
def qname (p l : Str) : Str := if p.isEmpty then l else p ++ ':' :: l

theorem qname_name {p l : Str} (hl : NCName l) (hp : p = [] ∨ NCName p) : XmlReader.Name (qname p l) := by
  unfold qname
  rcases hp with hp | hp
  · subst hp; exact ncname_name hl
  · rw [if_neg (by have := hp.1; cases p <;> simp_all)]
    refine ⟨by simp, ?_⟩
    intro c hc
    rcases List.mem_append.mp hc with hc | hc
    · exact (hp.2 c hc).1
    · rcases List.mem_cons.mp hc with hc | hc
      · rw [hc]; decide
      · exact (hl.2 c hc).1

theorem cutColon_qname {p l : Str} (hl : NCName l) (hp : p = [] ∨ NCName p) :
    cutColon (qname p l) = if p = [] then none else some (p, l) := by
  unfold qname
  rcases hp with hp | hp
  · subst hp; exact cutColon_none l (ncname_colon hl)
  · rw [if_neg (by have := hp.1; cases p <;> simp_all), if_neg hp.1]
    exact cutColon_some p l (ncname_colon hp)

/-! ## Maps -/

theorem mapFind_mem {u p : Str} {m : Map} (h : mapFind u m = some p) : (u, p) ∈ m := by
  induction m with
  | nil => simp [mapFind] at h
  | cons e m ih =>
    rw [mapFind] at h
    by_cases he : e.1 = u
    · rw [if_pos he] at h
      cases h
      rw [← he]; exact List.mem_cons_self
    · rw [if_neg he] at h; exact List.mem_cons_of_mem _ (ih h)

theorem mapFind_none {u : Str} {m : Map} (h : mapFind u m = none) : ∀ p, (u, p) ∉ m := by
  induction m with
  | nil => simp
  | cons e m ih =>
    rw [mapFind] at h
    by_cases he : e.1 = u
    · rw [if_pos he] at h; cases h
    · rw [if_neg he] at h
      intro p hp
      rcases List.mem_cons.mp hp with hp | hp
      · rw [← hp] at he; exact he rfl
      · exact ih h p hp

theorem mapFind_of_mem {u p : Str} {m : Map} (h : (u, p) ∈ m) : (mapFind u m).isSome := by
  cases hf : mapFind u m with
  | some q => rfl
  | none => exact (mapFind_none hf p h).elim

/-- Putting a new key in. -/
theorem mapPut_perm {u p : Str} {m : Map} (h : mapFind u m = none) : (mapPut u p m).Perm ((u, p) :: m) := by
  induction m with
  | nil => exact List.Perm.refl _
  | cons e m ih =>
    rw [mapFind] at h
    by_cases he : e.1 = u
    · rw [if_pos he] at h; cases h
    · rw [if_neg he] at h
      rw [mapPut, if_neg he]
      by_cases hlt : u < e.1
      · rw [if_pos hlt]
      · rw [if_neg hlt]
        exact (List.Perm.cons e (ih h)).trans (List.Perm.swap _ _ _)

/-- What the prefix stack holds. -/
structure Inv (pf : Str → Str) (st : List Map) : Prop where
  entry : ∀ m ∈ st, ∀ e ∈ m, e.1 ≠ [] ∧ e.2 = pf e.1 ∧ (e.2 = [] ∨ NCName e.2)
  keys : ∀ m ∈ st, (m.map (·.1)).Nodup

/-- A URI has a prefix. -/
def Declared (u : Str) (st : List Map) : Prop := ∃ m ∈ st, ∃ p, (u, p) ∈ m

theorem isUriDeclared_some {u p : Str} {st : List Map} (h : isUriDeclared u st = some p) :
    ∃ m ∈ st, (u, p) ∈ m := by
  induction st with
  | nil => simp [isUriDeclared] at h
  | cons m st ih =>
    rw [isUriDeclared] at h
    cases hf : mapFind u m with
    | some q =>
      rw [hf] at h; cases h
      exact ⟨m, List.mem_cons_self, mapFind_mem hf⟩
    | none =>
      rw [hf] at h
      obtain ⟨m', h1, h2⟩ := ih h
      exact ⟨m', List.mem_cons_of_mem _ h1, h2⟩

theorem isUriDeclared_none {u : Str} {st : List Map} (h : isUriDeclared u st = none) : ∀ m ∈ st, mapFind u m = none := by
  induction st with
  | nil => simp
  | cons m st ih =>
    rw [isUriDeclared] at h
    cases hf : mapFind u m with
    | some q => rw [hf] at h; cases h
    | none =>
      rw [hf] at h
      intro m' hm
      rcases List.mem_cons.mp hm with hm | hm
      · rw [hm]; exact hf
      · exact ih h m' hm

theorem isUriDeclared_declared {u : Str} {st : List Map} (h : Declared u st) : (isUriDeclared u st).isSome := by
  cases hf : isUriDeclared u st with
  | some p => rfl
  | none =>
    obtain ⟨m, hm, p, hp⟩ := h
    exact (mapFind_none (isUriDeclared_none hf m hm) p hp).elim

/-- What a name does to the stack. -/
structure Grows (pf : Str → Str) (st st' : List Map) : Prop where
  inv : Inv pf st'
  tail : st'.tail = st.tail
  ne : st' ≠ []
  more : ∀ u, Declared u st → Declared u st'

theorem Grows.refl {pf : Str → Str} {st : List Map} (h : Inv pf st) (hn : st ≠ []) : Grows pf st st :=
  ⟨h, rfl, hn, fun _ h => h⟩

theorem Grows.trans {pf : Str → Str} {a b c : List Map} (h1 : Grows pf a b) (h2 : Grows pf b c) : Grows pf a c :=
  ⟨h2.inv, h2.tail.trans h1.tail, h2.ne, fun u h => h2.more u (h1.more u h)⟩

theorem declareTop_grows {pf : Str → Str} {u : Str} {st : List Map} (h : Inv pf st) (hn : st ≠ [])
    (hu : u ≠ []) (hp : pf u = [] ∨ NCName (pf u)) (hd : isUriDeclared u st = none) :
    Grows pf st (declareTop u (pf u) st) ∧ Declared u (declareTop u (pf u) st) := by
  cases st with
  | nil => exact (hn rfl).elim
  | cons m st =>
    have hf := isUriDeclared_none hd m List.mem_cons_self
    have hperm := mapPut_perm (p := pf u) hf
    refine ⟨⟨⟨?_, ?_⟩, rfl, by simp [declareTop], ?_⟩, ?_⟩
    · intro m' hm' e he
      rcases List.mem_cons.mp hm' with hm' | hm'
      · rw [hm'] at he
        rcases List.mem_cons.mp (hperm.mem_iff.mp he) with he | he
        · rw [he]; exact ⟨hu, rfl, hp⟩
        · exact h.entry m List.mem_cons_self e he
      · exact h.entry m' (List.mem_cons_of_mem _ hm') e he
    · intro m' hm'
      rcases List.mem_cons.mp hm' with hm' | hm'
      · rw [hm']
        have := (hperm.map (·.1)).nodup_iff
        rw [this, List.map_cons, List.nodup_cons]
        refine ⟨?_, h.keys m List.mem_cons_self⟩
        intro hc
        obtain ⟨e, he, hee⟩ := List.mem_map.mp hc
        exact mapFind_none hf e.2 (by rw [show u = e.1 from hee.symm]; exact he)
      · exact h.keys m' (List.mem_cons_of_mem _ hm')
    · rintro v ⟨m', hm', p, hp'⟩
      rcases List.mem_cons.mp hm' with hm' | hm'
      · rw [hm'] at hp'
        exact ⟨_, List.mem_cons_self, p, hperm.mem_iff.mpr (List.mem_cons_of_mem _ hp')⟩
      · exact ⟨m', List.mem_cons_of_mem _ hm', p, hp'⟩
    · exact ⟨_, List.mem_cons_self, pf u, hperm.mem_iff.mpr List.mem_cons_self⟩

/-- A name in a namespace. -/
theorem checkName_uri {pf : Str → Str} {u p l n : Str} {b : Bool} {s : S} (h : Inv pf s.stack)
    (hn : s.stack ≠ []) (hu : u ≠ []) (hpf : p = pf u) (hp : p = [] ∨ NCName p) (hb : b = true → p ≠ []) :
    (checkName u p l n b s).2 = qname (pf u) l ∧
    Grows pf s.stack (checkName u p l n b s).1.stack ∧ Declared u (checkName u p l n b s).1.stack ∧
    (checkName u p l n b s).1.counter = s.counter ∧
    (Declared u s.stack → (checkName u p l n b s).1 = s) := by
  have hue : u.isEmpty = false := by cases u <;> simp_all
  have hq : ∀ q : Str, (if q.isEmpty then [] else q ++ [':']) ++ l = qname q l := by
    intro q; unfold qname; cases q <;> simp
  unfold checkName
  rw [hue]
  simp only [Bool.false_eq_true, if_false]
  cases hd : isUriDeclared u s.stack with
  | some q =>
    obtain ⟨m, hm, hq'⟩ := isUriDeclared_some hd
    have hqe := (h.entry m hm _ hq').2.1
    simp only at hqe
    refine ⟨?_, Grows.refl h hn, ⟨m, hm, q, hq'⟩, rfl, fun _ => rfl⟩
    simp only
    rw [hq, hqe]
  | none =>
    have hc : (b && p.isEmpty) = false := by
      cases b with
      | false => rfl
      | true => have := hb rfl; cases p <;> simp_all
    simp only [hc, Bool.false_eq_true, if_false]
    have := declareTop_grows h hn hu (hpf ▸ hp) hd
    rw [← hpf] at this
    refine ⟨by rw [hq, hpf], this.1, this.2, trivial, ?_⟩
    intro hdec
    have := isUriDeclared_declared hdec
    rw [hd] at this; cases this

/-! ## Attributes -/

/-- An attribute as it is written. -/
def attQName (pf : Str → Str) (a : Att) : Str :=
  if a.uri = [] then a.nodeName else qname (pf a.uri) a.localName

def printed (pf : Str → Str) (as : List Att) : List (Str × Str) :=
  (as.filter (fun a => !isDecl a)).map fun a => (attQName pf a, a.value)

theorem skipped_eq {pf : Str → Str} {a : Att} (h : AttOk pf a) : skipped a = isDecl a := by
  unfold skipped isDecl xmlnsName
  rcases h with h | ⟨_, h⟩ | ⟨_, h, _⟩
  · unfold isDecl at h
    rw [Bool.or_assoc, h, Bool.or_true]
  · have := h.1
    have : a.nodeName.isEmpty = false := by cases hh : a.nodeName <;> simp_all
    rw [this, Bool.false_or]
  · have : a.nodeName.isEmpty = false := by cases hh : a.nodeName <;> simp_all
    rw [this, Bool.false_or]

theorem streamAtts_spec {pf : Str → Str} (n : Str) (as : List Att) (ha : ∀ a ∈ as, AttOk pf a) :
    ∀ (s : S) (acc : List (Str × Str)), Inv pf s.stack → s.stack ≠ [] →
    run (inTag n acc) (streamAtts as s).2 = (inTag n (acc ++ printed pf as), []) ∧
    Grows pf s.stack (streamAtts as s).1.stack ∧
    ∀ a ∈ as, isDecl a = false → a.uri ≠ [] → Declared a.uri (streamAtts as s).1.stack := by
  induction as with
  | nil =>
    intro s acc h hn
    exact ⟨by simp [streamAtts, printed, run], Grows.refl h hn, by simp⟩
  | cons a as ih =>
    intro s acc h hn
    have hok := ha a List.mem_cons_self
    have ih := ih (fun b hb => ha b (List.mem_cons_of_mem _ hb))
    rw [streamAtts, skipped_eq hok]
    cases hd : isDecl a with
    | true =>
      rw [if_pos rfl]
      obtain ⟨h1, h2, h3⟩ := ih s acc h hn
      refine ⟨?_, h2, ?_⟩
      · rw [h1]
        simp [printed, hd]
      · intro b hb hbd hbu
        rcases List.mem_cons.mp hb with hb | hb
        · rw [hb, hd] at hbd; cases hbd
        · exact h3 b hb hbd hbu
    | false =>
      rw [if_neg (by simp)]
      have key : XmlReader.Name (attQName pf a) ∧
          (checkName a.uri a.prefix' a.localName a.nodeName true s).2 = attQName pf a ∧
          Grows pf s.stack (checkName a.uri a.prefix' a.localName a.nodeName true s).1.stack ∧
          (a.uri ≠ [] → Declared a.uri (checkName a.uri a.prefix' a.localName a.nodeName true s).1.stack) := by
        rcases hok with hc | ⟨hu, hnm⟩ | ⟨hu, _, hl, hp, hnp⟩
        · rw [hd] at hc; cases hc
        · have hname : attQName pf a = a.nodeName := by unfold attQName; rw [if_pos hu]
          have hcn : checkName a.uri a.prefix' a.localName a.nodeName true s = (s, a.nodeName) := by
            unfold checkName; rw [hu]; rfl
          rw [hname, hcn]
          exact ⟨ncname_name hnm, rfl, Grows.refl h hn, fun hc => (hc hu).elim⟩
        · have hname : attQName pf a = qname (pf a.uri) a.localName := by unfold attQName; rw [if_neg hu]
          have hc := checkName_uri (n := a.nodeName) (l := a.localName) (b := true) h hn hu hp
            (.inr (hp ▸ hnp)) (fun _ => by rw [hp]; exact hnp.1)
          rw [hname]
          exact ⟨qname_name hl (.inr hnp), hc.1, hc.2.1, fun _ => hc.2.2.1⟩
      obtain ⟨k1, k2, k3, k4⟩ := key
      obtain ⟨h1, h2, h3⟩ := ih (checkName a.uri a.prefix' a.localName a.nodeName true s).1
        (acc ++ [(attQName pf a, a.value)]) k3.inv k3.ne
      refine ⟨?_, k3.trans h2, ?_⟩
      · have r := run_trans (run_attribute n acc (attQName pf a) a.value k1) h1
        have hp : acc ++ printed pf (a :: as) = acc ++ [(attQName pf a, a.value)] ++ printed pf as := by
          simp [printed, hd]
        rw [hp]
        simp only [k2]
        simpa using r
      · intro b hb hbd hbu
        rcases List.mem_cons.mp hb with hb | hb
        · rw [hb]; exact h2.more _ (k4 (hb ▸ hbu))
        · exact h3 b hb hbd hbu

/-! ## Declarations -/

/-- A declaration as it is written. -/
def declAtt (e : Str × Str) : Str × Str :=
  (if e.2.isEmpty then xmlnsName else xmlnsName ++ ':' :: e.2, e.1)

theorem declAtt_name {e : Str × Str} (h : e.2 = [] ∨ NCName e.2) : XmlReader.Name (declAtt e).1 := by
  have hx : ∀ c ∈ xmlnsName, nameChar c = true := by decide +kernel
  unfold declAtt
  rcases h with h | h
  · rw [h]; exact ⟨by simp [xmlnsName], hx⟩
  · rw [if_neg (by have := h.1; cases hh : e.2 <;> simp_all)]
    refine ⟨by simp, ?_⟩
    intro c hc
    rcases List.mem_append.mp hc with hc | hc
    · exact hx c hc
    · rcases List.mem_cons.mp hc with hc | hc
      · rw [hc]; decide
      · exact (h.2 c hc).1

theorem streamDecls_spec (n : Str) (m : Map) (h : ∀ e ∈ m, e.2 = [] ∨ NCName e.2) :
    ∀ acc, run (inTag n acc) (streamDecls m) = (inTag n (acc ++ m.map declAtt), []) := by
  induction m with
  | nil => intro acc; simp [streamDecls, run]
  | cons e m ih =>
    intro acc
    have h1 := run_attribute n acc (declAtt e).1 e.1 (declAtt_name (h e List.mem_cons_self))
    have h2 := ih (fun x hx => h x (List.mem_cons_of_mem _ hx)) (acc ++ [((declAtt e).1, e.1)])
    have r := run_trans h1 h2
    have he : streamDecls (e :: m) = ' ' :: (declAtt e).1 ++ '=' :: '"' :: Text.attributeEscape e.1 ++ ['"'] ++ streamDecls m := by
      obtain ⟨u, p⟩ := e
      rw [streamDecls]
      unfold declAtt
      cases p <;> simp
    rw [he]
    simpa [declAtt] using r

/-! ## Resolving -/

/-- The scopes a reader has for a stack. -/
def scopesOf (st : List Map) : List (List (Str × Str)) := st.map fun m => m.map fun e => (e.2, e.1)

theorem declares_declAtt {e : Str × Str} (h : e.2 = [] ∨ NCName e.2) : declares (declAtt e) = some (e.2, e.1) := by
  rcases h with h | h
  · unfold declAtt declares
    rw [h]; rfl
  · have he : declAtt e = (xmlnsName ++ ':' :: e.2, e.1) := by
      unfold declAtt
      rw [if_neg (by have := h.1; cases hh : e.2 <;> simp_all)]
    rw [he]
    unfold declares
    have hc : cutColon (xmlnsName ++ ':' :: e.2) = some (xmlnsName, e.2) :=
      cutColon_some _ _ (by decide +kernel)
    simp only
    rw [if_neg (by intro hc; have := congrArg List.length hc; simp [xmlnsName] at this), hc]
    simp [xmlnsName]

theorem declares_printed {pf : Str → Str} (hx : Prefixes pf) {a : Att} (h : AttOk pf a) (hd : isDecl a = false) :
    declares (attQName pf a, a.value) = none := by
  rcases h with hc | ⟨hu, hn⟩ | ⟨hu, _, hl, hp, hnp⟩
  · rw [hd] at hc; cases hc
  · have hne : a.nodeName ≠ ['x', 'm', 'l', 'n', 's'] := by
      intro hc; unfold isDecl at hd; simp [hc] at hd
    unfold attQName declares
    rw [if_pos hu]
    simp only
    rw [if_neg hne, cutColon_none _ (ncname_colon hn)]
  · unfold attQName declares
    rw [if_neg hu]
    simp only
    have hc := cutColon_qname hl (.inr hnp)
    rw [if_neg hnp.1] at hc
    have hne : qname (pf a.uri) a.localName ≠ ['x', 'm', 'l', 'n', 's'] := by
      intro he; rw [he] at hc; exact absurd hc (by rw [cutColon_none _ (by decide +kernel)]; simp)
    rw [if_neg hne, hc]
    simp only
    rw [if_neg (hx.2 _)]

theorem bound_declared {pf : Str → Str} (hx : Prefixes pf) {st : List Map} (h : Inv pf st) {u : Str} (hu : u ≠ [])
    (hd : Declared u st) : bound (pf u) (scopesOf st) = some u := by
  induction st with
  | nil => obtain ⟨m, hm, _⟩ := hd; cases hm
  | cons m st ih =>
    rw [scopesOf, List.map_cons, bound]
    cases hf : List.find? (fun d => decide (d.1 = pf u)) (m.map fun e => (e.2, e.1)) with
    | some d =>
      simp only
      have h1 := List.find?_some hf
      have h2 := List.mem_of_find?_eq_some hf
      obtain ⟨e, he, hee⟩ := List.mem_map.mp h2
      have h3 := h.entry m List.mem_cons_self e he
      have h4 : e.2 = pf u := by
        have := of_decide_eq_true h1
        rw [← hee] at this; exact this
      rw [← hee]
      show some e.1 = some u
      rw [hx.1 e.1 u h3.1 hu (by rw [← h3.2.1, h4])]
    | none =>
      simp only
      refine ih ⟨fun m' hm' => h.entry m' (List.mem_cons_of_mem _ hm'), fun m' hm' => h.keys m' (List.mem_cons_of_mem _ hm')⟩ ?_
      obtain ⟨m', hm', p, hp⟩ := hd
      rcases List.mem_cons.mp hm' with hm' | hm'
      · rw [hm'] at hp
        have h3 := h.entry m List.mem_cons_self _ hp
        rw [List.find?_eq_none] at hf
        have := hf (p, u) (List.mem_map.mpr ⟨(u, p), hp, rfl⟩)
        simp only at h3
        simp [h3.2.1] at this
      · exact ⟨m', hm', p, hp⟩

theorem bound_default {pf : Str → Str} (hnd : ∀ v, v ≠ [] → pf v ≠ []) {st : List Map} (h : Inv pf st) :
    bound [] (scopesOf st) = none := by
  induction st with
  | nil => rfl
  | cons m st ih =>
    rw [scopesOf, List.map_cons, bound]
    have : List.find? (fun d => decide (d.1 = ([] : Str))) (m.map fun e => (e.2, e.1)) = none := by
      rw [List.find?_eq_none]
      intro d hd
      obtain ⟨e, he, hee⟩ := List.mem_map.mp hd
      have h3 := h.entry m List.mem_cons_self e he
      rw [← hee]
      simp only [decide_eq_true_eq]
      rw [h3.2.1]
      exact hnd _ h3.1
    rw [this]
    exact ih ⟨fun m' hm' => h.entry m' (List.mem_cons_of_mem _ hm'), fun m' hm' => h.keys m' (List.mem_cons_of_mem _ hm')⟩

/-- The name of an element as it is written. -/
def elemQName (pf : Str → Str) (u l n : Str) : Str := if u = [] then n else qname (pf u) l

theorem elementName_spec {pf : Str → Str} (hx : Prefixes pf) {st : List Map} (h : Inv pf st) {u p l n : Str}
    (h1 : u = [] → NCName n ∧ ∀ v, v ≠ [] → pf v ≠ [])
    (h2 : u ≠ [] → NCName l ∧ p = pf u ∧ (p = [] ∨ NCName p)) (hd : u ≠ [] → Declared u st) :
    elementName (scopesOf st) (elemQName pf u l n) = some (if u = [] then ([], n) else (u, l)) := by
  unfold elementName elemQName
  by_cases hu : u = []
  · rw [if_pos hu, if_pos hu, cutColon_none _ (ncname_colon (h1 hu).1)]
    simp only
    rw [bound_default (h1 hu).2 h]; rfl
  · obtain ⟨hl, hp, hnp⟩ := h2 hu
    rw [hp] at hnp
    rw [if_neg hu, if_neg hu, cutColon_qname hl hnp]
    have hb := bound_declared hx h hu (hd hu)
    by_cases hpe : pf u = []
    · rw [if_pos hpe]
      rw [hpe] at hb
      simp only
      rw [hb]
      unfold qname
      rw [hpe]; rfl
    · rw [if_neg hpe]
      simp only
      rw [hb]; rfl

theorem resolveAtts_decls (scs : List (List (Str × Str))) (m : Map) (h : ∀ e ∈ m, e.2 = [] ∨ NCName e.2) :
    resolveAtts scs (m.map declAtt) = some [] := by
  induction m with
  | nil => rfl
  | cons e m ih =>
    rw [List.map_cons, resolveAtts, declares_declAtt (h e List.mem_cons_self)]
    exact ih (fun x hx => h x (List.mem_cons_of_mem _ hx))

theorem resolveAtts_spec {pf : Str → Str} (hx : Prefixes pf) {st : List Map} (h : Inv pf st) (m : Map)
    (hm : ∀ e ∈ m, e.2 = [] ∨ NCName e.2) (as : List Att) (ha : ∀ a ∈ as, AttOk pf a)
    (hd : ∀ a ∈ as, isDecl a = false → a.uri ≠ [] → Declared a.uri st) :
    resolveAtts (scopesOf st) (printed pf as ++ m.map declAtt) =
      some ((as.filter (fun a => !isDecl a)).map fun a => (attName a, a.value)) := by
  induction as with
  | nil => exact resolveAtts_decls _ m hm
  | cons a as ih =>
    have ih := ih (fun b hb => ha b (List.mem_cons_of_mem _ hb)) (fun b hb => hd b (List.mem_cons_of_mem _ hb))
    unfold printed
    rw [List.filter_cons]
    cases hda : isDecl a with
    | true => exact ih
    | false =>
      simp only [Bool.not_false, if_true, List.map_cons, List.cons_append]
      rw [resolveAtts, declares_printed hx (ha a List.mem_cons_self) hda]
      simp only
      have hn : attributeName (scopesOf st) (attQName pf a) = some (attName a) := by
        unfold attributeName attQName attName
        rcases ha a List.mem_cons_self with hc | ⟨hu, hn⟩ | ⟨hu, _, hl, hp, hnp⟩
        · rw [hda] at hc; cases hc
        · rw [if_pos hu, if_pos hu, cutColon_none _ (ncname_colon hn)]
        · rw [if_neg hu, if_neg hu, cutColon_qname hl (.inr hnp), if_neg hnp.1]
          simp only
          rw [bound_declared hx h hu (hd a List.mem_cons_self hda hu)]; rfl
      unfold printed at ih
      rw [hn, ih]

theorem filterMap_declares {pf : Str → Str} (hx : Prefixes pf) (as : List Att) (ha : ∀ a ∈ as, AttOk pf a)
    (m : Map) (hm : ∀ e ∈ m, e.2 = [] ∨ NCName e.2) :
    (printed pf as ++ m.map declAtt).filterMap declares = m.map fun e => (e.2, e.1) := by
  rw [List.filterMap_append]
  have h1 : (printed pf as).filterMap declares = [] := by
    rw [List.filterMap_eq_nil_iff]
    intro x hxm
    unfold printed at hxm
    obtain ⟨a, haf, rfl⟩ := List.mem_map.mp hxm
    have := List.mem_filter.mp haf
    exact declares_printed hx (ha a this.1) (by simpa using this.2)
  rw [h1, List.nil_append]
  clear h1
  induction m with
  | nil => rfl
  | cons e m ih =>
    rw [List.map_cons, List.filterMap_cons, declares_declAtt (hm e List.mem_cons_self)]
    simp only [List.map_cons]
    rw [ih (fun x hx => hm x (List.mem_cons_of_mem _ hx))]

theorem attQName_inj {pf : Str → Str} (hx : Prefixes pf) {a b : Att} (ha : AttOk pf a) (hb : AttOk pf b)
    (hda : isDecl a = false) (hdb : isDecl b = false) (h : attQName pf a = attQName pf b) : attName a = attName b := by
  unfold attQName at h
  unfold attName
  rcases ha with hc | ⟨hu, hn⟩ | ⟨hu, _, hl, hp, hnp⟩
  · rw [hda] at hc; cases hc
  · rcases hb with hc | ⟨hu', hn'⟩ | ⟨hu', _, hl', hp', hnp'⟩
    · rw [hdb] at hc; cases hc
    · rw [if_pos hu, if_pos hu'] at *; rw [h]
    · rw [if_pos hu, if_neg hu'] at h
      have h1 := cutColon_none _ (ncname_colon hn)
      rw [h, cutColon_qname hl' (.inr hnp'), if_neg hnp'.1] at h1
      cases h1
  · rcases hb with hc | ⟨hu', hn'⟩ | ⟨hu', _, hl', hp', hnp'⟩
    · rw [hdb] at hc; cases hc
    · rw [if_neg hu, if_pos hu'] at h
      have h1 := cutColon_none _ (ncname_colon hn')
      rw [← h, cutColon_qname hl (.inr hnp), if_neg hnp.1] at h1
      cases h1
    · rw [if_neg hu, if_neg hu'] at *
      have h1 := cutColon_qname hl (.inr hnp)
      have h2 := cutColon_qname hl' (.inr hnp')
      rw [if_neg hnp.1] at h1
      rw [if_neg hnp'.1, ← h, h1] at h2
      simp only [Option.some.injEq, Prod.mk.injEq] at h2
      rw [hx.1 _ _ hu hu' h2.1, h2.2]

theorem written_nodup {pf : Str → Str} (hx : Prefixes pf) (as : List Att) (ha : ∀ a ∈ as, AttOk pf a)
    (hn : ((as.filter (fun a => !isDecl a)).map attName).Nodup) (m : Map)
    (hm : ∀ e ∈ m, e.1 ≠ [] ∧ e.2 = pf e.1 ∧ (e.2 = [] ∨ NCName e.2)) (hk : (m.map (·.1)).Nodup) :
    ((printed pf as ++ m.map declAtt).map (·.1)).Nodup := by
  rw [List.map_append, List.nodup_append]
  refine ⟨?_, ?_, ?_⟩
  · unfold printed
    rw [List.map_map]
    unfold List.Nodup at hn ⊢
    rw [List.pairwise_map] at hn ⊢
    refine List.Pairwise.imp_of_mem ?_ hn
    intro a b hma hmb hab hc
    have h1 := List.mem_filter.mp hma
    have h2 := List.mem_filter.mp hmb
    exact hab (attQName_inj hx (ha a h1.1) (ha b h2.1) (by simpa using h1.2) (by simpa using h2.2) hc)
  · rw [List.map_map]
    unfold List.Nodup at hk ⊢
    rw [List.pairwise_map] at hk ⊢
    refine List.Pairwise.imp_of_mem ?_ hk
    intro a b hma hmb hab hc
    have h1 := hm a hma
    have h2 := hm b hmb
    have d1 := declares_declAtt h1.2.2
    have d2 := declares_declAtt h2.2.2
    have hc' : (declAtt a).1 = (declAtt b).1 := hc
    have e2 : a.2 = b.2 := by
      unfold declAtt at hc'
      by_cases ha : a.2.isEmpty <;> by_cases hb : b.2.isEmpty
      · simp_all
      · rw [if_pos ha, if_neg hb] at hc'; exfalso; simp [xmlnsName] at hc'
      · rw [if_neg ha, if_pos hb] at hc'; exfalso; simp [xmlnsName] at hc'
      · rw [if_neg ha, if_neg hb] at hc'; simpa using hc'
    exact hab (hx.1 _ _ h1.1 h2.1 (by rw [← h1.2.1, ← h2.2.1, e2]))
  · intro x hx1 y hy1 hxy
    obtain ⟨p, hp, rfl⟩ := List.mem_map.mp hx1
    obtain ⟨d, hd, rfl⟩ := List.mem_map.mp hy1
    unfold printed at hp
    obtain ⟨a, haf, rfl⟩ := List.mem_map.mp hp
    obtain ⟨e, he, rfl⟩ := List.mem_map.mp hd
    have h1 := List.mem_filter.mp haf
    have n1 := declares_printed hx (ha a h1.1) (by simpa using h1.2)
    have n2 := declares_declAtt (hm e he).2.2
    unfold declares at n1 n2
    simp only at n1 n2 hxy
    rw [hxy] at n1
    split at n1
    · cases n1
    · rename_i hne
      rw [if_neg hne] at n2
      split at n1
      · rename_i p l hcut
        rw [hcut] at n2
        split at n1
        · cases n1
        · rename_i hpx
          simp only at n2
          rw [if_neg hpx] at n2; cases n2
      · rename_i hcut
        rw [hcut] at n2; cases n2

/-! ## CDATA sections -/

theorem findIn_none {pat : Str} {s : Str} (h : findIn pat s = none) : ¬ pat <:+: s := by
  induction s with
  | nil =>
    rw [findIn] at h
    intro hc
    rw [List.infix_nil.mp hc] at h
    cases h
  | cons c s ih =>
    rw [findIn] at h
    by_cases hp : pat.isPrefixOf (c :: s)
    · rw [if_pos hp] at h; cases h
    · rw [if_neg hp] at h
      rw [List.infix_cons_iff]
      rintro (hc | hc)
      · exact hp (List.isPrefixOf_iff_prefix.mpr hc)
      · exact ih (by simpa using h) hc

theorem findIn_some {pat : Str} {s : Str} : ∀ {n : Nat}, findIn pat s = some n →
    (∃ a b, s = a ++ pat ++ b ∧ a.length = n) ∧ ∀ k < n, ¬ pat <+: s.drop k := by
  induction s with
  | nil =>
    intro n h
    rw [findIn] at h
    by_cases hp : pat.isEmpty
    · rw [if_pos hp] at h; cases h
      exact ⟨⟨[], [], by cases pat <;> simp_all, rfl⟩, by simp⟩
    · rw [if_neg hp] at h; cases h
  | cons c s ih =>
    intro n h
    rw [findIn] at h
    by_cases hp : pat.isPrefixOf (c :: s)
    · rw [if_pos hp] at h; cases h
      obtain ⟨b, hb⟩ := List.isPrefixOf_iff_prefix.mp hp
      exact ⟨⟨[], b, by simp [hb], rfl⟩, by simp⟩
    · rw [if_neg hp] at h
      cases hf : findIn pat s with
      | none => rw [hf] at h; cases h
      | some m =>
        rw [hf] at h
        cases h
        obtain ⟨⟨a, b, hab, hl⟩, hk⟩ := ih hf
        refine ⟨⟨c :: a, b, by simp [hab], by simp [hl]⟩, ?_⟩
        intro k hlt
        cases k with
        | zero => intro hc; exact hp (List.isPrefixOf_iff_prefix.mpr hc)
        | succ k => exact hk k (Nat.lt_of_succ_lt_succ hlt)

/-- One section. -/
theorem run_section (p : Str) (h : ¬ cdataClose <:+: p) :
    run .content (startCDATA ++ p ++ endCDATA) = (.content, .cdataStart :: chars p ++ [.cdataEnd]) :=
  by
  have h1 := run_trans run_cdataStart (run_cdataText p [] (by simpa using h))
  have h2 := run_trans h1 (run_cdataEnd p h)
  simpa [startCDATA, endCDATA] using h2

theorem streamCDATA_parts (s : Str) (h : OnceAtMost s) : ∃ parts : List Str,
    streamCDATA s = parts.flatMap (fun p => startCDATA ++ p ++ endCDATA) ∧ parts.flatten = s ∧
    ∀ p ∈ parts, ¬ cdataClose <:+: p := by
  unfold streamCDATA findFrom
  rw [List.drop_zero]
  cases hf : findIn endMarker s with
  | none =>
    refine ⟨[s], by simp, by simp, ?_⟩
    intro p hp
    rw [List.mem_singleton.mp hp]
    exact findIn_none hf
  | some b =>
    obtain ⟨⟨a, r, hs, hl⟩, hk⟩ := findIn_some hf
    have hm : endMarker = [']', ']'] ++ ['>'] := rfl
    have h1 : s.take (b + 2) = a ++ [']', ']'] := by
      rw [hs, hm, ← hl]
      rw [show a ++ ([']', ']'] ++ ['>']) ++ r = (a ++ [']', ']']) ++ ('>' :: r) by simp]
      exact List.take_left' (by simp)
    have h2 : s.drop (b + 2) = '>' :: r := by
      rw [hs, hm, ← hl]
      rw [show a ++ ([']', ']'] ++ ['>']) ++ r = (a ++ [']', ']']) ++ ('>' :: r) by simp]
      exact List.drop_left' (by simp)
    have hr : ¬ cdataClose <:+: r := by
      rintro ⟨x, y, hxy⟩
      refine h a x y ?_
      rw [hs, ← hxy]
      show a ++ endMarker ++ _ = _
      simp [endMarker, cdataClose]
    have hr2 : ¬ cdataClose <:+: '>' :: r := by
      rw [List.infix_cons_iff]
      rintro (hc | hc)
      · exact absurd (List.cons_prefix_cons.mp hc).1 (by decide)
      · exact hr hc
    have ha : ¬ cdataClose <:+: a ++ [']', ']'] := by
      rintro ⟨x, y, hxy⟩
      have hlen := congrArg List.length hxy
      simp [cdataClose] at hlen
      refine hk x.length (by omega) ?_
      refine ⟨y ++ '>' :: r, ?_⟩
      rw [hs, show a ++ endMarker ++ r = (a ++ [']', ']']) ++ '>' :: r by simp [endMarker], ← hxy]
      rw [show x ++ cdataClose ++ y ++ '>' :: r = x ++ (cdataClose ++ (y ++ '>' :: r)) by simp]
      rw [List.drop_left]; rfl
    have hf2 : findIn endMarker (s.drop (b + 2)) = none := by
      cases hh : findIn endMarker (s.drop (b + 2)) with
      | none => rfl
      | some k =>
        obtain ⟨⟨x, y, hxy, _⟩, _⟩ := findIn_some hh
        rw [h2] at hxy
        exact (hr2 ⟨x, y, hxy.symm⟩).elim
    refine ⟨[a ++ [']', ']'], '>' :: r], ?_, ?_, ?_⟩
    · simp only [Option.map_some, Nat.add_zero]
      have hlen : s.length = (s.length - 1) + 1 := by
        rw [hs]; simp [endMarker]; omega
      rw [hlen, cdataLoop]
      simp only [List.drop_zero]
      unfold findFrom
      rw [hf2, h1, h2]
      simp
    · rw [hs]; simp [endMarker]
    · intro p hp
      simp only [List.mem_cons, List.not_mem_nil, or_false] at hp
      rcases hp with hp | hp
      · rw [hp]; exact ha
      · rw [hp]; exact hr2

theorem run_parts (parts : List Str) (h : ∀ p ∈ parts, ¬ cdataClose <:+: p) :
    run .content (parts.flatMap (fun p => startCDATA ++ p ++ endCDATA)) =
      (.content, parts.flatMap fun p => .cdataStart :: chars p ++ [.cdataEnd]) := by
  induction parts with
  | nil => rfl
  | cons p parts ih =>
    rw [List.flatMap_cons, List.flatMap_cons]
    exact run_trans (run_section p (h p List.mem_cons_self)) (ih fun q hq => h q (List.mem_cons_of_mem _ hq))

/-! ## Nodes -/

/-- What is written for a node reads as the tokens given. -/
def Written (st : List Map) (out : Str) (exp : List RTok) : Prop :=
  ∃ toks, run .content out = (.content, toks) ∧ (∀ rest names, nested (toks ++ rest) names = nested rest names) ∧
    ∀ rest r, resolve (scopesOf st) rest = some r → resolve (scopesOf st) (toks ++ rest) = some (exp ++ r)

theorem Written.nil (st : List Map) : Written st [] [] := ⟨[], rfl, fun _ _ => rfl, fun _ _ h => h⟩

theorem Written.append {st : List Map} {a b : Str} {x y : List RTok} (h1 : Written st a x) (h2 : Written st b y) :
    Written st (a ++ b) (x ++ y) := by
  obtain ⟨t1, r1, n1, s1⟩ := h1
  obtain ⟨t2, r2, n2, s2⟩ := h2
  refine ⟨t1 ++ t2, run_trans r1 r2, ?_, ?_⟩
  · intro rest names
    rw [List.append_assoc, n1, n2]
  · intro rest r h
    rw [List.append_assoc, s1 _ _ (s2 _ _ h), List.append_assoc]

theorem resolve_chars (scs : List (List (Str × Str))) (s : Str) (rest : List Tok) (r : List RTok)
    (h : resolve scs rest = some r) : resolve scs (chars s ++ rest) = some (s.map RTok.char ++ r) := by
  induction s with
  | nil => exact h
  | cons c s ih =>
    show (resolve scs (chars s ++ rest)).map _ = _
    rw [ih]; rfl

theorem nested_charsToks (s : Str) (rest : List Tok) (names : List Str) :
    nested (chars s ++ rest) names = nested rest names := by
  induction s with
  | nil => rfl
  | cons c s ih => simpa [chars, nested] using ih

theorem Written.chars {st : List Map} {out s : Str} (h : run .content out = (.content, chars s)) :
    Written st out (s.map RTok.char) :=
  ⟨_, h, nested_charsToks s, resolve_chars _ s⟩

theorem Written.parts (st : List Map) (parts : List Str) (h : ∀ p ∈ parts, ¬ cdataClose <:+: p) :
    Written st (parts.flatMap (fun p => startCDATA ++ p ++ endCDATA)) (parts.flatten.map RTok.char) := by
  induction parts with
  | nil => exact Written.nil st
  | cons p parts ih =>
    rw [List.flatMap_cons, List.flatten_cons, List.map_append]
    refine Written.append ?_ (ih fun q hq => h q (List.mem_cons_of_mem _ hq))
    refine ⟨_, run_section p (h p List.mem_cons_self), ?_, ?_⟩
    · intro rest names
      show nested ((.cdataStart :: XmlReader.chars p ++ [.cdataEnd]) ++ rest) names = _
      have := nested_charsToks p (.cdataEnd :: rest) names
      simpa [nested] using this
    · intro rest r hr
      have h1 : resolve (scopesOf st) (.cdataEnd :: rest) = some r := hr
      have := resolve_chars _ p _ _ h1
      show resolve _ (XmlReader.chars p ++ [.cdataEnd] ++ rest) = _
      simpa using this

/-! ## Elements -/

theorem ancestorMap_inv {pf : Str → Str} (anc : List (Str × Str)) (h : AncOk pf anc) :
    ∀ m, Inv pf [m] → Inv pf [ancestorMap anc m] := by
  induction anc with
  | nil => intro m hm; exact hm
  | cons e anc ih =>
    intro m hm
    have ih := ih (fun x hx => h x (List.mem_cons_of_mem _ hx))
    obtain ⟨u, p⟩ := e
    rw [ancestorMap]
    by_cases hu : u.isEmpty
    · rw [if_pos hu]; exact ih m hm
    · rw [if_neg hu]
      by_cases hf : (mapFind u m).isSome
      · rw [if_pos hf]; exact ih m hm
      · rw [if_neg hf]
        have hue : u ≠ [] := by cases u <;> simp_all
        have he := h (u, p) List.mem_cons_self hue
        simp only at he
        refine ih _ ?_
        have hn : mapFind u m = none := by cases hh : mapFind u m <;> simp_all
        have := (declareTop_grows hm (by simp) hue (he.1 ▸ he.2)
          (by rw [isUriDeclared, hn]; rfl)).1.inv
        rw [← he.1] at this
        exact this

/-- The stack a start tag starts from. -/
theorem start_inv {pf : Str → Str} {anc : List (Str × Str)} (ha : AncOk pf anc) {s : S} (h : Inv pf s.stack)
    (s0 : S) (hs0 : s0 = if s.stack.isEmpty then ⟨[ancestorMap anc []], 0⟩ else { s with stack := [] :: s.stack }) :
    Inv pf s0.stack ∧ s0.stack ≠ [] ∧ s0.stack.tail = s.stack := by
  have he : Inv pf [([] : Map)] := ⟨by simp, by simp⟩
  subst hs0
  by_cases hs : s.stack.isEmpty
  · rw [if_pos hs]
    refine ⟨ancestorMap_inv anc ha [] he, by simp, ?_⟩
    cases hh : s.stack <;> simp_all
  · rw [if_neg hs]
    refine ⟨⟨?_, ?_⟩, by simp, rfl⟩
    · intro m hm e hme
      rcases List.mem_cons.mp hm with hm | hm
      · rw [hm] at hme; cases hme
      · exact h.entry m hm e hme
    · intro m hm
      rcases List.mem_cons.mp hm with hm | hm
      · rw [hm]; simp
      · exact h.keys m hm

/-- The name of an element, anywhere. -/
theorem checkName_elem {pf : Str → Str} {u p l n : Str} {s : S} (h : Inv pf s.stack) (hn : s.stack ≠ [])
    (h2 : u ≠ [] → NCName l ∧ p = pf u ∧ (p = [] ∨ NCName p)) :
    (checkName u p l n false s).2 = elemQName pf u l n ∧
    Grows pf s.stack (checkName u p l n false s).1.stack ∧
    (u ≠ [] → Declared u (checkName u p l n false s).1.stack) ∧
    ((u ≠ [] → Declared u s.stack) → (checkName u p l n false s).1 = s) := by
  unfold elemQName
  by_cases hu : u = []
  · have hc : checkName u p l n false s = (s, n) := by unfold checkName; rw [hu]; rfl
    rw [hc, if_pos hu]
    exact ⟨rfl, Grows.refl h hn, fun hc => (hc hu).elim, fun _ => rfl⟩
  · obtain ⟨hl, hp, hnp⟩ := h2 hu
    have := checkName_uri (l := l) (n := n) (b := false) h hn hu hp hnp (by simp)
    rw [if_neg hu]
    exact ⟨this.1, this.2.1, fun _ => this.2.2.1, fun hd => this.2.2.2.2 (hd hu)⟩

theorem elemQName_name {pf : Str → Str} {u p l n : Str} (h1 : u = [] → NCName n ∧ ∀ v, v ≠ [] → pf v ≠ [])
    (h2 : u ≠ [] → NCName l ∧ p = pf u ∧ (p = [] ∨ NCName p)) : XmlReader.Name (elemQName pf u l n) := by
  unfold elemQName
  by_cases hu : u = []
  · rw [if_pos hu]; exact ncname_name (h1 hu).1
  · rw [if_neg hu]
    obtain ⟨hl, hp, hnp⟩ := h2 hu
    exact qname_name hl (hp ▸ hnp)

/-- A start tag: the reader is inside the tag, with attributes that resolve. -/
theorem prefixMapper_spec {pf : Str → Str} (hx : Prefixes pf) (sort : List Att → List Att)
    (hsort : ∀ l, (sort l).Perm l) {anc : List (Str × Str)} (hanc : AncOk pf anc) {s : S} (h : Inv pf s.stack)
    {u p l n : Str} {atts : List Att} (h1 : u = [] → NCName n ∧ ∀ v, v ≠ [] → pf v ≠ [])
    (h2 : u ≠ [] → NCName l ∧ p = pf u ∧ (p = [] ∨ NCName p)) (ha : ∀ a ∈ atts, AttOk pf a)
    (hnd : ((atts.filter (fun a => !isDecl a)).map attName).Nodup) :
    ∃ as : List (Str × Str),
      run .content ('<' :: (prefixMapper sort anc u p l n atts s).2) = (inTag (elemQName pf u l n) as, []) ∧
      Inv pf (prefixMapper sort anc u p l n atts s).1.stack ∧
      (prefixMapper sort anc u p l n atts s).1.stack ≠ [] ∧
      (prefixMapper sort anc u p l n atts s).1.stack.tail = s.stack ∧
      (u ≠ [] → Declared u (prefixMapper sort anc u p l n atts s).1.stack) ∧
      as.filterMap declares :: scopesOf s.stack = scopesOf (prefixMapper sort anc u p l n atts s).1.stack ∧
      (as.map (·.1)).Nodup ∧
      resolveAtts (scopesOf (prefixMapper sort anc u p l n atts s).1.stack) as =
        some (((sort atts).filter (fun a => !isDecl a)).map fun a => (attName a, a.value)) := by
  unfold prefixMapper
  generalize hs0 : (if s.stack.isEmpty then (⟨[ancestorMap anc []], 0⟩ : S) else { s with stack := [] :: s.stack }) = s0
  obtain ⟨i0, ne0, t0⟩ := start_inv hanc h s0 hs0.symm
  obtain ⟨c1, c2, c3, _⟩ := checkName_elem (p := p) (n := n) i0 ne0 h2
  have ha' : ∀ a ∈ sort atts, AttOk pf a := fun a hm => ha a ((hsort atts).mem_iff.mp hm)
  obtain ⟨a1, a2, a3⟩ := streamAtts_spec (elemQName pf u l n) (sort atts) ha'
    (checkName u p l n false s0).1 [] c2.inv c2.ne
  simp only []
  generalize hs2 : streamAtts (sort atts) (checkName u p l n false s0).1 = r2 at a1 a2 a3 ⊢
  obtain ⟨s2, o2⟩ := r2
  simp only at a1 a2 a3 ⊢
  cases hst : s2.stack with
  | nil => exact (a2.ne hst).elim
  | cons m st =>
    have hinv := a2.inv
    have hm : ∀ e ∈ m, e.1 ≠ [] ∧ e.2 = pf e.1 ∧ (e.2 = [] ∨ NCName e.2) :=
      hinv.entry m (by rw [hst]; exact List.mem_cons_self)
    have hm' : ∀ e ∈ m, e.2 = [] ∨ NCName e.2 := fun e he => (hm e he).2.2
    have htail : st = s.stack := by
      have := a2.tail.trans (c2.tail.trans t0)
      rw [hst] at this; exact this
    refine ⟨printed pf (sort atts) ++ m.map declAtt, ?_, hst ▸ hinv, by simp, ?_, ?_, ?_, ?_, ?_⟩
    · have r1 := run_open (elemQName pf u l n) (elemQName_name h1 h2)
      have r3 := streamDecls_spec (elemQName pf u l n) m hm' ([] ++ printed pf (sort atts))
      have r := run_trans (run_trans (show run .content ('<' :: elemQName pf u l n) = (inTag (elemQName pf u l n) [], []) from r1) a1) r3
      rw [c1]
      simpa [top] using r
    · rw [← htail]; rfl
    · intro hu
      have := a2.more u (c3 hu)
      rw [hst] at this; exact this
    · rw [filterMap_declares hx _ ha' m hm']
      rw [← htail]; rfl
    · refine written_nodup hx _ ha' ?_ m hm (hinv.keys m (by rw [hst]; exact List.mem_cons_self))
      exact (((hsort atts).filter _).map _).nodup_iff.mpr hnd
    · exact resolveAtts_spec hx (hst ▸ hinv) m hm' _ ha' (fun a hma hda hua => by
        have := a3 a hma hda hua
        rw [hst] at this; exact this)

theorem run_piSpace (t d : Str) (ht : XmlReader.Name t) (hd : PiData d) :
    run .content ('<' :: '?' :: t ++ ' ' :: d ++ ['?', '>']) = (.content, [.pi t d]) := by
  cases d with
  | cons c d => simpa using run_pi t (c :: d) ht hd
  | nil =>
    have hq : '?' ∉ t := fun hc => (nameChar_ne (ht.2 _ hc)).2.2.2.2.2.2.2.2.2.2 rfl
    have hw : ∀ c ∈ t, isWhite c = false := fun c hc => (nameChar_ne (ht.2 _ hc)).1
    have := run_piRaw (t ++ [' ']) (piClose_infix t _ hq (by decide))
    rw [splitPi_data t [] hw] at this
    simpa using this

theorem Written.tok {st : List Map} {out : Str} {t : Tok} {r : RTok} (h : run .content out = (.content, [t]))
    (hn : ∀ rest names, nested (t :: rest) names = nested rest names)
    (hr : ∀ rest, resolve (scopesOf st) (t :: rest) = (resolve (scopesOf st) rest).map (r :: ·)) :
    Written st out [r] :=
  ⟨[t], h, hn, fun rest x hx => by
    show resolve _ (t :: rest) = _
    rw [hr, hx]; rfl⟩

theorem declaration_written (st : List Map) : Written st declaration
    [.pi ['x', 'm', 'l'] ['v', 'e', 'r', 's', 'i', 'o', 'n', '=', '"', '1', '.', '0', '"'], .char '\n'] := by
  refine ⟨[.pi ['x', 'm', 'l'] ['v', 'e', 'r', 's', 'i', 'o', 'n', '=', '"', '1', '.', '0', '"'], .char '\n'],
    by decide +kernel, fun _ _ => rfl, ?_⟩
  intro rest r h
  show ((resolve _ rest).map _).map _ = _
  rw [h]; rfl

mutual
theorem streamNode_spec {pf : Str → Str} (hx : Prefixes pf) (sort : List Att → List Att)
    (hsort : ∀ l, (sort l).Perm l) : ∀ (node : Node), Ok pf node → ∀ (anc : List (Str × Str)) (s : S),
    AncOk pf anc → Inv pf s.stack →
    (streamNode sort anc node s).1.stack = s.stack ∧
    Written s.stack (streamNode sort anc node s).2 (expected sort node)
  | .document cs, hok, anc, s, hanc, h => by
    rw [Ok] at hok
    obtain ⟨h1, h2⟩ := streamChildren_spec hx sort hsort cs hok [] s (by intro e he; cases he) h
    rw [streamNode, expected]
    exact ⟨h1, (declaration_written s.stack).append h2⟩
  | .fragment cs, hok, anc, s, hanc, h => by
    rw [Ok] at hok
    rw [streamNode, expected]
    exact streamChildren_spec hx sort hsort cs hok [] s (by intro e he; cases he) h
  | .element u p l n atts cs, hok, anc, s, hanc, h => by
    rw [Ok] at hok
    obtain ⟨k1, k2, k3, k4, k5⟩ := hok
    obtain ⟨as, r1, i1, ne1, t1, d1, sc1, nd1, ra1⟩ :=
      prefixMapper_spec (anc := anc) (n := n) hx sort hsort hanc h k1 k2 k3 k4
    have en := elementName_spec hx i1 k1 k2 d1
    rw [streamNode, expected]
    generalize hpm : prefixMapper sort anc u p l n atts s = pm at r1 i1 ne1 t1 d1 sc1 ra1 en ⊢
    obtain ⟨s1, o1⟩ := pm
    simp only at r1 i1 ne1 t1 d1 sc1 ra1 en ⊢
    have opens : ∀ rest r, resolve (scopesOf s1.stack) rest = some r →
        resolve (scopesOf s.stack) (.open' (elemQName pf u l n) as :: rest) =
          some (.open' (if u = [] then ([], n) else (u, l))
            (((sort atts).filter (fun a => !isDecl a)).map fun a => (attName a, a.value)) :: r) := by
      intro rest r hr
      rw [resolve]
      rw [sc1, if_pos nd1, en, ra1, hr]
    have closes : ∀ rest r, resolve (scopesOf s.stack) rest = some r →
        resolve (scopesOf s1.stack) (.close (elemQName pf u l n) :: rest) =
          some (.close (if u = [] then ([], n) else (u, l)) :: r) := by
      intro rest r hr
      rw [resolve]
      have : (scopesOf s1.stack).tail = scopesOf s.stack := by
        rw [← sc1]; rfl
      rw [en, this, hr]
    cases cs with
    | nil =>
      rw [if_pos (by rfl)]
      refine ⟨t1, [.open' (elemQName pf u l n) as, .close (elemQName pf u l n)], ?_, ?_, ?_⟩
      · have := run_trans r1 (inTag_slash (elemQName pf u l n) as)
        simpa using this
      · intro rest names
        show (decide (_ = _) && nested rest names) = _
        simp
      · intro rest r hr
        have := opens _ _ (closes _ _ hr)
        rw [expectedAll]
        exact this
    | cons c cs =>
      rw [if_neg (by simp)]
      have hanc' : AncOk pf ((u, p) :: anc) := by
        intro e he hu
        rcases List.mem_cons.mp he with he | he
        · rw [he] at hu ⊢; exact (k2 hu).2
        · exact hanc e he hu
      obtain ⟨c1, toks, c2, c3, c4⟩ := streamChildren_spec hx sort hsort (c :: cs) k5 ((u, p) :: anc) s1 hanc' i1
      generalize hsc : streamChildren sort ((u, p) :: anc) (c :: cs) s1 = sc at c1 c2 ⊢
      obtain ⟨s2, o2⟩ := sc
      simp only at c1 c2 ⊢
      obtain ⟨e1, e2, e3, e4⟩ := checkName_elem (p := p) (n := n) (s := s2) (c1 ▸ i1) (c1 ▸ ne1) k2
      have e4 := e4 (c1 ▸ d1)
      unfold prefixMapperPop
      simp only [if_true]
      refine ⟨by simp only [e4, c1, t1],
        .open' (elemQName pf u l n) as :: toks ++ [.close (elemQName pf u l n)], ?_, ?_, ?_⟩
      · rw [e1]
        have r2 := run_trans (run_trans (run_trans r1 (inTag_gt (elemQName pf u l n) as)) c2)
          (run_close (elemQName pf u l n) (elemQName_name k1 k2))
        simpa using r2
      · intro rest names
        show nested (toks ++ [.close (elemQName pf u l n)] ++ rest) (elemQName pf u l n :: names) = _
        rw [List.append_assoc, c3]
        show (decide (_ = _) && nested rest names) = _
        simp
      · intro rest r hr
        have := opens _ _ (c4 _ _ (closes _ _ hr))
        simpa using this
  | .text t, _, anc, s, _, _ => by
    rw [streamNode, expected]
    exact ⟨rfl, Written.chars (run_text t)⟩
  | .cdata t, hok, anc, s, _, _ => by
    rw [Ok] at hok
    rw [streamNode, expected]
    obtain ⟨parts, h1, h2, h3⟩ := streamCDATA_parts t hok
    refine ⟨rfl, ?_⟩
    have := Written.parts s.stack parts h3
    rw [← h1, h2] at this
    exact this
  | .comment t, hok, anc, s, _, _ => by
    rw [Ok] at hok
    rw [streamNode, expected]
    exact ⟨rfl, Written.tok (run_comment t hok) (fun _ _ => rfl) (fun _ => rfl)⟩
  | .pi t d, hok, anc, s, _, _ => by
    rw [Ok] at hok
    rw [streamNode, expected]
    exact ⟨rfl, Written.tok (run_piSpace t d (ncname_name hok.1) hok.2) (fun _ _ => rfl) (fun _ => rfl)⟩
  | .entityRef n, hok, anc, s, _, _ => by
    rw [Ok] at hok
    rw [streamNode, expected]
    exact ⟨rfl, Written.tok (run_entity n (ncname_name hok.1) hok.2) (fun _ _ => rfl) (fun _ => rfl)⟩
  | .other, _, anc, s, _, _ => by
    rw [streamNode, expected]
    exact ⟨rfl, Written.nil _⟩

theorem streamChildren_spec {pf : Str → Str} (hx : Prefixes pf) (sort : List Att → List Att)
    (hsort : ∀ l, (sort l).Perm l) : ∀ (cs : List Node), OkAll pf cs → ∀ (anc : List (Str × Str)) (s : S),
    AncOk pf anc → Inv pf s.stack →
    (streamChildren sort anc cs s).1.stack = s.stack ∧
    Written s.stack (streamChildren sort anc cs s).2 (expectedAll sort cs)
  | [], _, anc, s, _, _ => by
    rw [streamChildren, expectedAll]
    exact ⟨rfl, Written.nil _⟩
  | c :: cs, hok, anc, s, hanc, h => by
    rw [OkAll] at hok
    obtain ⟨h1, h2⟩ := streamNode_spec hx sort hsort c hok.1 anc s hanc h
    obtain ⟨h3, h4⟩ := streamChildren_spec hx sort hsort cs hok.2 anc (streamNode sort anc c s).1 hanc (h1 ▸ h)
    rw [streamChildren, expectedAll]
    refine ⟨h3.trans h1, ?_⟩
    rw [h1] at h4
    exact h2.append h4
end

end Verif.DomStream
