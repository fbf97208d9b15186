import Verif.Spec.XPathEval
import Verif.Lemmas.XPathPath
import Verif.Props.XPathValue
set_option autoImplicit false
set_option linter.unusedSimpArgs false
set_option linter.unusedVariables false
namespace Verif.XPathEval
open Verif.XTree Verif.XPath
open Verif.Spec.XPathAxes Verif.Spec.XPathNodeSet Verif.Spec.XPathPath Verif.Spec.XPath Verif.Spec.XPathEval

@[simp] theorem bind_val {α β : Type} (a : α) (f : α → Ev β) : (Ev.val a).bind f = f a := rfl

/-- Enough steps make it so. -/
def Ends {α : Type} (r : Nat → Ev α) (a : α) : Prop := ∃ F, ∀ f, F ≤ f → r f = .val a

theorem ends_val {α : Type} (a : α) : Ends (fun _ => Ev.val a) a := ⟨0, fun _ _ => rfl⟩

theorem ends_bind {α β : Type} {r : Nat → Ev α} {g : Nat → α → Ev β} {a : α} {b : β} (h : Ends r a)
    (h' : Ends (fun f => g f a) b) : Ends (fun f => (r f).bind (g f)) b := by
  obtain ⟨F, hF⟩ := h
  obtain ⟨G, hG⟩ := h'
  refine ⟨max F G, fun f hf => ?_⟩
  simp only
  rw [hF f (by omega)]
  exact hG f (by omega)

theorem ends_congr {α : Type} {r s : Nat → Ev α} {a : α} (h : Ends r a) (e : ∀ f, s f = r f) : Ends s a := by
  obtain ⟨F, hF⟩ := h
  exact ⟨F, fun f hf => by rw [e, hF f hf]⟩

theorem ends_of {α : Type} {r s : Nat → Ev α} {a : α} (h : Ends r a) (F : Nat) (e : ∀ f, F ≤ f → s f = r f) : Ends s a := by
  obtain ⟨G, hG⟩ := h
  exact ⟨max F G, fun f hf => by rw [e f (by omega), hG f (by omega)]⟩

section
variable {E : Env} {K : Nat → Prop}

theorem trees_of (hK : Documents E.w K) : Trees E.w K where
  dom := hK.dom
  expanded := hK.expanded
  small := hK.small
  one j k hj _ _ _ := .inl (hK.document j hj)

theorem usual (hK : Documents E.w K) : Usual E.w (NodeIn E.w K) := usual_nodes (trees_of hK)

/-! ## String values -/

theorem stringOf_ends (hK : Documents E.w K) {x : XN} (hx : NodeIn E.w K x) :
    Ends (fun f => stringOf E f x) (stringValue E.w x) := by
  obtain ⟨k, r⟩ := x
  obtain ⟨hk, hr⟩ := hx
  simp only at hk hr
  have hd := hK.dom k hk
  have he := hK.expanded k hk
  obtain ⟨n, hn⟩ := Option.isSome_iff_exists.1 (xnode_some hr)
  have key : ∀ {s : List Char}, (∃ F, ∀ f, F ≤ f → nodeStringValue (E.w.tree k) r f = .done (some s)) →
      stringValue E.w (k, r) = s → Ends (fun f => stringOf E f (k, r)) (stringValue E.w (k, r)) := by
    rintro s ⟨F, hF⟩ e
    refine ⟨F, fun f hf => ?_⟩
    simp only [stringOf]
    rw [hF f hf, e]
    rfl
  have hkinds : ∀ i up, r = .attr i :: up → n.kind = .attribute := fun i up e => hd.attrs up i n (by rw [← e]; exact hn)
  have hallchild : n.kind ≠ .attribute → AllChild r := by
    intro hne
    match r, hr with
    | [], _ => intro s hs; simp at hs
    | .child i :: up, h =>
      intro s hs
      rcases List.mem_cons.1 hs with rfl | hs
      · exact ⟨i, rfl⟩
      · exact h.1 s hs
    | .attr i :: up, _ => exact absurd (hkinds i up rfl) hne
  have inner : n.kind = .document ∨ n.kind = .fragment ∨ n.kind = .element → _ := fun h =>
    stringValue_inner hd (hallchild (by rcases h with h | h | h <;> rw [h] <;> simp)) hn h
  have text : n.kind = .text ∨ n.kind = .cdata → Ends (fun f => stringOf E f (k, r)) (stringValue E.w (k, r)) := by
    intro h
    clear key hallchild inner
    match r, hr, hn, hkinds with
    | [], _, hn, _ =>
      simp [sub] at hn
      have := hK.document k hk
      rw [hn] at this
      rw [this] at h
      simp at h
    | .child i :: up, _, hn, _ =>
      refine ⟨0, fun f _ => ?_⟩
      simp only [stringOf]
      rw [stringValue_text hn h f]
      rcases h with h | h <;> simp only [stringValue, hn, h] <;> rfl
    | .attr i :: up, _, _, hkinds =>
      rw [hkinds i up rfl] at h
      simp at h
  cases hkd : n.kind with
  | document => exact key (inner (by simp [hkd])) (by simp only [stringValue, hn, hkd])
  | fragment => exact key (inner (by simp [hkd])) (by simp only [stringValue, hn, hkd])
  | element => exact key (inner (by simp [hkd])) (by simp only [stringValue, hn, hkd])
  | «attribute» => exact key ⟨0, fun f _ => stringValue_value hn (by simp [hkd]) f⟩ (by simp only [stringValue, hn, hkd])
  | pi => exact key ⟨0, fun f _ => stringValue_value hn (by simp [hkd]) f⟩ (by simp only [stringValue, hn, hkd])
  | comment => exact key ⟨0, fun f _ => stringValue_value hn (by simp [hkd]) f⟩ (by simp only [stringValue, hn, hkd])
  | text => exact text (by simp [hkd])
  | cdata => exact text (by simp [hkd])
  | doctype => exact absurd hkd (he r n hn).1
  | entityRef => exact absurd hkd (he r n hn).2

theorem stringsOf_ends (hK : Documents E.w K) {l : List XN} (hl : ∀ x ∈ l, NodeIn E.w K x) :
    Ends (fun f => stringsOf E f l) (l.map (stringValue E.w)) := by
  induction l with
  | nil => exact ends_val _
  | cons x xs ih =>
    refine ends_congr ?_ (fun f => by rw [stringsOf])
    exact ends_bind (stringOf_ends hK (hl x (by simp))) (ends_bind (ih fun y hy => hl y (by simp [hy])) (ends_val _))

/-! ## Values -/

/-- A value of the library and the value of XPath it is. -/
def Rep (w : World) (K : Nat → Prop) (m : XVal) (v : Val) : Prop :=
  Shows m v ∧ ∀ l, v = .nodes l → InOrder w l ∧ ∀ x ∈ l, NodeIn w K x

theorem rep_bool (b : Bool) : Rep E.w K (.bool b) (.bool b) := ⟨rfl, fun l h => by cases h⟩
theorem rep_num (n : Num) : Rep E.w K (.num n) (.num n) := ⟨rfl, fun l h => by cases h⟩
theorem rep_str (s : List Char) : Rep E.w K (.str s) (.str s) := ⟨rfl, fun l h => by cases h⟩

theorem rep_cases {m : XVal} {v : Val} (h : Rep E.w K m v) :
    (∃ b, m = .bool b ∧ v = .bool b) ∨ (∃ n, m = .num n ∧ v = .num n) ∨ (∃ s, m = .str s ∧ v = .str s) ∨
      ∃ ns l, m = .nodes ns ∧ v = .nodes l ∧ ShowsNodes ns l ∧ InOrder E.w l ∧ ∀ x ∈ l, NodeIn E.w K x := by
  obtain ⟨h1, h2⟩ := h
  cases m <;> cases v <;> simp only [Shows] at h1
  · exact .inl ⟨_, rfl, by rw [h1]⟩
  · exact .inr (.inl ⟨_, rfl, by rw [h1]⟩)
  · exact .inr (.inr (.inl ⟨_, rfl, by rw [h1]⟩))
  · obtain ⟨h3, h4⟩ := h2 _ rfl
    exact .inr (.inr (.inr ⟨_, _, rfl, rfl, h1, h3, h4⟩))

theorem shows_mem {ns : NodeSet} {l : List XN} (h : ShowsNodes ns l) (x : XN) : x ∈ ns.nodes ↔ x ∈ l := by
  rw [h.2]
  split <;> simp

theorem shows_empty {ns : NodeSet} {l : List XN} (h : ShowsNodes ns l) : ns.nodes.isEmpty = l.isEmpty := by
  rw [h.2]
  split <;> simp

theorem shows_length {ns : NodeSet} {l : List XN} (h : ShowsNodes ns l) : ns.nodes.length = l.length := by
  rw [h.2]
  split <;> simp

theorem shows_top {ns : NodeSet} {l : List XN} (h : ShowsNodes ns l) (srt : List XN → List XN) : (ns.top srt).2 = l.head? := by
  have hs : ns.sort srt = ns := by rw [NodeSet.sort, if_pos h.1]
  simp only [NodeSet.top]
  rw [hs]
  by_cases hf : ns.forward = true
  · rw [if_pos hf, h.2, if_pos hf]
  · rw [if_neg hf, h.2, if_neg hf, List.getLast?_reverse]

theorem isTrue_iff {m : XVal} {v : Val} (h : Rep E.w K m v) : m.isTrue = true ↔ toBoolean E.w v := by
  rcases rep_cases h with ⟨b, rfl, rfl⟩ | ⟨n, rfl, rfl⟩ | ⟨s, rfl, rfl⟩ | ⟨ns, l, rfl, rfl, hs, _, _⟩
  · rfl
  · exact asBool_iff (.num n)
  · exact asBool_iff (.str s)
  · simp only [XVal.isTrue, toBoolean, Val.plain, boolean]
    rw [shows_empty hs]
    simp

theorem toString_nodes (l : List XN) (cv : Conv) :
    toString E.w cv (.nodes l) = match l with | [] => [] | x :: _ => stringValue E.w x := by
  cases l <;> rfl

theorem string_ends (hK : Documents E.w K) {m : XVal} {v : Val} (h : Rep E.w K m v) :
    Ends (fun f => m.string E f) (toString E.w E.cv v) := by
  rcases rep_cases h with ⟨b, rfl, rfl⟩ | ⟨n, rfl, rfl⟩ | ⟨s, rfl, rfl⟩ | ⟨ns, l, rfl, rfl, hs, _, hl⟩
  · cases b <;> exact ⟨0, fun _ _ => rfl⟩
  · cases n <;> exact ⟨0, fun _ _ => rfl⟩
  · exact ⟨0, fun _ _ => rfl⟩
  · refine ends_congr ?_ (fun f => by rw [XVal.string])
    rw [shows_empty hs, shows_top hs]
    cases l with
    | nil => exact ends_val _
    | cons x xs =>
      exact stringOf_ends hK (hl x (by simp))

theorem number_ends (hK : Documents E.w K) {m : XVal} {v : Val} (h : Rep E.w K m v) :
    Ends (fun f => m.number E f) (toNumber E.w E.cv v) := by
  rcases rep_cases h with ⟨b, rfl, rfl⟩ | ⟨n, rfl, rfl⟩ | ⟨s, rfl, rfl⟩ | ⟨ns, l, rfl, rfl, hs, _, hl⟩
  · cases b <;> exact ⟨0, fun _ _ => rfl⟩
  · exact ⟨0, fun _ _ => rfl⟩
  · exact ⟨0, fun _ _ => rfl⟩
  · refine ends_congr ?_ (fun f => by rw [XVal.number])
    refine ends_bind (string_ends hK h) ?_
    have : toNumber E.w E.cv (.nodes l) = E.cv.number (toString E.w E.cv (.nodes l)) := by cases l <;> rfl
    rw [this]
    exact ends_val _

/-- The value in the order of the set. -/
def setValue (w : World) : XVal → Value
  | .bool b => .bool b
  | .num n => .num n
  | .str s => .str s
  | .nodes ns => .nodes (ns.nodes.map (stringValue w))

theorem value_ends (hK : Documents E.w K) {m : XVal} {v : Val} (h : Rep E.w K m v) :
    Ends (fun f => m.value E f) (setValue E.w m) := by
  rcases rep_cases h with ⟨b, rfl, rfl⟩ | ⟨n, rfl, rfl⟩ | ⟨s, rfl, rfl⟩ | ⟨ns, l, rfl, rfl, hs, _, hl⟩
  · exact ⟨0, fun _ _ => rfl⟩
  · exact ⟨0, fun _ _ => rfl⟩
  · exact ⟨0, fun _ _ => rfl⟩
  · refine ends_congr ?_ (fun f => by rw [XVal.value])
    exact ends_bind (stringsOf_ends hK fun x hx => hl x ((shows_mem hs x).1 hx)) (ends_val _)

/-- Values with the same strings, in any order. -/
def SameStrings : Value → Value → Prop
  | .nodes l, .nodes m => ∀ s, s ∈ l ↔ s ∈ m
  | .nodes _, _ | _, .nodes _ => False
  | a, b => a = b

theorem sameStrings_rep {m : XVal} {v : Val} (h : Rep E.w K m v) : SameStrings (setValue E.w m) (v.plain E.w) := by
  rcases rep_cases h with ⟨b, rfl, rfl⟩ | ⟨n, rfl, rfl⟩ | ⟨s, rfl, rfl⟩ | ⟨ns, l, rfl, rfl, hs, _, hl⟩
  · rfl
  · rfl
  · rfl
  · intro s
    simp only [List.mem_map]
    constructor
    · rintro ⟨x, hx, e⟩; exact ⟨x, (shows_mem hs x).1 hx, e⟩
    · rintro ⟨x, hx, e⟩; exact ⟨x, (shows_mem hs x).2 hx, e⟩

theorem empty_of_mem {l m : List (List Char)} (h : ∀ s, s ∈ l ↔ s ∈ m) : l = [] ↔ m = [] := by
  constructor
  · rintro rfl; exact List.eq_nil_iff_forall_not_mem.2 fun s hs => by simpa using (h s).2 hs
  · rintro rfl; exact List.eq_nil_iff_forall_not_mem.2 fun s hs => by simpa using (h s).1 hs

theorem truth_of_mem {l m : List (List Char)} (h : ∀ s, s ∈ l ↔ s ∈ m) : truth l = truth m := by
  have := empty_of_mem h
  simp only [truth]
  cases l <;> cases m <;> simp at this <;> rfl

theorem holds_same {a a' b b' : Value} (ha : SameStrings a a') (hb : SameStrings b b') (cv : Conv) (op : Cmp) :
    Holds cv op a b ↔ Holds cv op a' b' := by
  cases a <;> cases a' <;> simp only [SameStrings] at ha <;> cases b <;> cases b' <;> simp only [SameStrings] at hb <;>
    first
    | (rw [ha, hb])
    | (rw [ha]; simp only [Holds, hb, truth_of_mem hb])
    | (rw [hb]; simp only [Holds, ha, truth_of_mem ha])
    | (simp only [Holds, ha, hb])

theorem safeLess_same {m m' : XVal} {v v' : Val} (h : Rep E.w K m v) (h' : Rep E.w K m' v') (hs : SafeLess v v') :
    (∀ a b, setValue E.w m = .nodes a → setValue E.w m' = .nodes b → a ≠ [] ∧ b ≠ []) ∧
    (∀ a b, ¬ (setValue E.w m = .nodes a ∧ setValue E.w m' = .bool b)) ∧
    (∀ a b, ¬ (setValue E.w m = .bool b ∧ setValue E.w m' = .nodes a)) := by
  rcases rep_cases h with ⟨b, rfl, rfl⟩ | ⟨n, rfl, rfl⟩ | ⟨s, rfl, rfl⟩ | ⟨ns, l, rfl, rfl, e, _, hl⟩ <;>
  rcases rep_cases h' with ⟨b', rfl, rfl⟩ | ⟨n', rfl, rfl⟩ | ⟨s', rfl, rfl⟩ | ⟨ns', l', rfl, rfl, e', _, hl'⟩ <;>
  simp only [SafeLess] at hs <;> simp only [setValue] <;> try (simp; done)
  refine ⟨?_, by simp, by simp⟩
  rintro a b ha hb
  cases ha
  cases hb
  constructor
  · intro h0
    have := shows_empty e
    rw [List.map_eq_nil_iff.1 h0] at this
    exact hs.1 (by simpa using this.symm)
  · intro h0
    have := shows_empty e'
    rw [List.map_eq_nil_iff.1 h0] at this
    exact hs.2 (by simpa using this.symm)

end

end Verif.XPathEval
