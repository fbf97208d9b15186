import Verif.Lemmas.XsltRun3
set_option autoImplicit false
set_option linter.unusedSimpArgs false
set_option linter.unusedVariables false
namespace Verif.XsltRun
open Verif.XTree Verif.XPath Verif.XPathEval
open Verif.Spec.XPathAxes Verif.Spec.XPathNodeSet Verif.Spec.XPathPath Verif.Spec.XPath Verif.Spec.XPathEval
open Verif.Spec.XsltRun
open Verif.XPathParse (Expr)
open Verif.Xslt (Instr Instrs)

/-! ## Other readings -/

/-- Whatever the first says, the second says too. -/
structure Less (R R' : Reading) : Prop where
  value : ∀ vars e x i k v, R.value vars e x i k v → R'.value vars e x i k v
  children : ∀ x l, R.children x l → R'.children x l

section
variable {w : World} {cv : Conv} {R R' : Reading} {P : Stylesheet} {G : VName → Option Val}

theorem passed_less (h : Less R R') {φ : Focus} {L : Bindings} : ∀ (ps : Params) (g : Bindings),
    Passed R G φ L ps g → Passed R' G φ L ps g
  | [], _, hp => hp
  | p :: ps, _, hp => by
    obtain ⟨v, rest, h1, h2, h3, h4⟩ := hp
    exact ⟨v, rest, h1, h.value _ _ _ _ _ _ h2, passed_less h ps rest h3, h4⟩

theorem bound_less (h : Less R R') {φ : Focus} {given : Bindings} : ∀ (ps : Params) (L L' : Bindings),
    Bound R G φ given ps L L' → Bound R' G φ given ps L L'
  | [], _, _, hp => hp
  | p :: ps, L, L', hp => by
    obtain ⟨h1, v, h2, h3⟩ := hp
    refine ⟨h1, v, ?_, bound_less h ps _ _ h3⟩
    rcases h2 with h2 | ⟨h2, h4⟩
    · exact .inl h2
    · exact .inr ⟨h2, h.value _ _ _ _ _ _ h4⟩

theorem attributes_less (h : Less R R') {φ : Focus} {L : Bindings} : ∀ (as : List Attribute) (out : List Instr),
    AttributesGive w cv R G φ L as out → AttributesGive w cv R' G φ L as out
  | [], _, hp => hp
  | a :: as, out, hp => by
    obtain ⟨v, rest, h1, h2, h3⟩ := hp
    exact ⟨v, rest, h.value _ _ _ _ _ _ h1, attributes_less h as rest h2, h3⟩

theorem keys_less (h : Less R R') {φ : Focus} {L : Bindings} {l : List XN} : ∀ (ss : List SortKey)
    (ks : List (Verif.Xslt.Key XN)), KeysAre w cv R G φ L l ss ks → KeysAre w cv R' G φ L l ss ks
  | [], _, hk => hk
  | s :: ss, _, hk => by
    obtain ⟨k, rest, h1, h2, h3⟩ := hk
    obtain ⟨⟨v1, a1, a2⟩, ⟨v2, b1, b2⟩, ⟨v3, c1, c2⟩, h4⟩ := h2
    refine ⟨k, rest, h1, ⟨⟨v1, h.value _ _ _ _ _ _ a1, a2⟩, ⟨v2, h.value _ _ _ _ _ _ b1, b2⟩,
      ⟨v3, h.value _ _ _ _ _ _ c1, c2⟩, fun i y hy => ?_⟩, keys_less h ss rest h3⟩
    obtain ⟨v, d1, d2⟩ := h4 i y hy
    exact ⟨v, h.value _ _ _ _ _ _ d1, d2⟩

theorem sorted_less (h : Less R R') {φ : Focus} {L : Bindings} {l l' : List XN} {ss : List SortKey}
    (hs : SortedBy w cv R G φ L ss l l') : SortedBy w cv R' G φ L ss l l' := by
  obtain ⟨ks, h1, h2⟩ := hs
  exact ⟨ks, keys_less h _ _ h1, h2⟩

theorem gives_less (h : Less R R') {t : Task} {out : List Instr} (hg : Gives w cv R P G t out) :
    Gives w cv R' P G t out := by
  induction hg with
  | text φ L s => exact .text φ L s
  | valueOf φ L e v h1 => exact .valueOf φ L e v (h.value _ _ _ _ _ _ h1)
  | current φ L => exact .current φ L
  | ifTrue φ L t body v out h1 h2 _ ih => exact .ifTrue φ L t body v out (h.value _ _ _ _ _ _ h1) h2 ih
  | ifFalse φ L t body v h1 h2 => exact .ifFalse φ L t body v (h.value _ _ _ _ _ _ h1) h2
  | choose φ L ws out _ ih => exact .choose φ L ws out ih
  | forEach φ L e sorts body l l' out h1 hs _ ih =>
    exact .forEach φ L e sorts body l l' out (h.value _ _ _ _ _ _ h1) (sorted_less h hs) ih
  | applySelect φ L e sorts mode ps given l l' out h1 h2 hs _ ih =>
    exact .applySelect φ L e sorts mode ps given l l' out (passed_less h _ _ h1) (h.value _ _ _ _ _ _ h2) (sorted_less h hs) ih
  | applyChildren φ L sorts mode ps given l l' out h1 h2 hs _ ih =>
    exact .applyChildren φ L sorts mode ps given l l' out (passed_less h _ _ h1) (h.children _ _ h2) (sorted_less h hs) ih
  | call φ L name ps given t out h1 h2 _ ih => exact .call φ L name ps given t out (passed_less h _ _ h1) h2 ih
  | element φ L p l u as body atts out h1 _ ih =>
    exact .element φ L p l u as body atts out (attributes_less h _ _ h1) ih
  | «attribute» φ L p l u body out _ ih => exact .attribute φ L p l u body out ih
  | comment φ L body out _ ih => exact .comment φ L body out ih
  | pi φ L t body out _ ih => exact .pi φ L t body out ih
  | copyElement φ L body n out h1 h2 _ ih => exact .copyElement φ L body n out h1 h2 ih
  | copyRoot φ L body out h1 _ ih => exact .copyRoot φ L body out h1 ih
  | copyOther φ L body h1 => exact .copyOther φ L body h1
  | copyNodes φ L e l h1 => exact .copyNodes φ L e l (h.value _ _ _ _ _ _ h1)
  | copyValue φ L e v h1 h2 => exact .copyValue φ L e v (h.value _ _ _ _ _ _ h1) h2
  | «variable» φ L n e rest v out h1 h2 _ ih => exact .variable φ L n e rest v out (h.value _ _ _ _ _ _ h1) h2 ih
  | nil φ L => exact .nil φ L
  | cons φ L i rest a b h1 _ _ ih1 ih2 => exact .cons φ L i rest a b h1 ih1 ih2
  | otherwise φ L body out _ ih => exact .otherwise φ L body out ih
  | whenTrue φ L t body rest v out h1 h2 _ ih => exact .whenTrue φ L t body rest v out (h.value _ _ _ _ _ _ h1) h2 ih
  | whenFalse φ L t body rest v out h1 h2 _ ih => exact .whenFalse φ L t body rest v out (h.value _ _ _ _ _ _ h1) h2 ih
  | eachNil L body i k => exact .eachNil L body i k
  | eachCons L body y ys i k a b _ _ ih1 ih2 => exact .eachCons L body y ys i k a b ih1 ih2
  | rulesNil mode given i k => exact .rulesNil mode given i k
  | rulesCons mode given y ys i k a b _ _ ih1 ih2 => exact .rulesCons mode given y ys i k a b ih1 ih2
  | template t given φ L out h1 _ ih => exact .template t given φ L out (bound_less h _ _ _ h1) ih
  | rule mode given φ t out h1 _ ih => exact .rule mode given φ t out h1 ih
  | builtInParent mode given φ l out h1 h2 h3 _ ih =>
    exact .builtInParent mode given φ l out h1 h2 (h.children _ _ h3) ih
  | builtInText mode given φ h1 h2 => exact .builtInText mode given φ h1 h2
  | builtInNothing mode given φ h1 h2 => exact .builtInNothing mode given φ h1 h2

theorem careful_less : Less (careful w cv) (byXPath w cv) := ⟨fun _ _ _ _ _ _ h => h.1, fun _ _ h => h.1⟩

/-! ## Expressions that do not ask for the position -/

section
variable {vars : List Char → List Char → Option Val}

mutual

theorem unplaced_means : ∀ (e : Expr), Unplaced e → ∀ (x : XN) (i i' k k' : Int) (v : Val),
    Means w cv vars e x i k v ↔ Means w cv vars e x i' k' v
  | .number t, _, x, i, i', k, k', v => by rw [Means, Means]
  | .string t, _, x, i, i', k, k', v => by rw [Means, Means]
  | .var u n, _, x, i, i', k, k', v => by rw [Means, Means]
  | .call u n args, h, x, i, i', k, k', v => by
    rw [Unplaced] at h
    rw [Means, Means]
    refine and_congr_right fun _ => exists_congr fun fn => exists_congr fun vs => and_congr_right fun hn => ?_
    refine and_congr (unplaced_args args h.2.2 x i i' k k' vs) ?_
    cases fn with
    | last => exact absurd hn h.2.1
    | position => exact absurd hn h.1
    | _ => exact Iff.rfl
  | .binary op a b, h, x, i, i', k, k', v => by
    rw [Unplaced] at h
    rw [Means, Means]
    have : (fun vb => Means w cv vars b x i k vb) = fun vb => Means w cv vars b x i' k' vb :=
      funext fun vb => propext (unplaced_means b h.2 x i i' k k' vb)
    rw [this]
    exact exists_congr fun va => and_congr_left fun _ => unplaced_means a h.1 x i i' k k' va
  | .negative a, h, x, i, i', k, k', v => by
    rw [Unplaced] at h
    rw [Means, Means]
    exact exists_congr fun va => and_congr_left fun _ => unplaced_means a h x i i' k k' va
  | .path absolute ss, h, x, i, i', k, k', v => by
    rw [Unplaced] at h
    rw [Means, Means]
    exact exists_congr fun l => and_congr_right fun _ => and_congr_right fun _ => forall_congr' fun y =>
      iff_congr Iff.rfl (unplaced_steps ss h _ i i' k k' y)

theorem unplaced_args : ∀ (es : List Expr), UnplacedArgs es → ∀ (x : XN) (i i' k k' : Int) (vs : List Val),
    ArgsMean w cv vars es x i k vs ↔ ArgsMean w cv vars es x i' k' vs
  | [], _, x, i, i', k, k', vs => by rw [ArgsMean, ArgsMean]
  | e :: es, h, x, i, i', k, k', vs => by
    rw [UnplacedArgs] at h
    rw [ArgsMean, ArgsMean]
    exact exists_congr fun v => exists_congr fun rest => and_congr_right fun _ =>
      and_congr (unplaced_means e h.1 x i i' k k' v) (unplaced_args es h.2 x i i' k k' rest)

theorem unplaced_step : ∀ (s : Verif.XPathParse.Step), UnplacedStep s → ∀ (x : XN) (i i' k k' : Int) (y : XN),
    StepMeans w cv vars s x i k y ↔ StepMeans w cv vars s x i' k' y
  | .test a t ps, _, x, i, i', k, k', y => by rw [StepMeans, StepMeans]
  | .expr e ps, h, x, i, i', k, k', y => by
    rw [UnplacedStep] at h
    rw [StepMeans, StepMeans]
    exact exists_congr fun l => exists_congr fun _ => and_congr_left fun _ => unplaced_means e h x i i' k k' _

theorem unplaced_steps : ∀ (ss : List Verif.XPathParse.Step), UnplacedSteps ss → ∀ (x : XN) (i i' k k' : Int) (y : XN),
    PathMeans w cv vars ss x i k y ↔ PathMeans w cv vars ss x i' k' y
  | [], _, x, i, i', k, k', y => by rw [PathMeans, PathMeans]
  | s :: ss, h, x, i, i', k, k', y => by
    rw [UnplacedSteps] at h
    rw [PathMeans, PathMeans]
    exact exists_congr fun m => and_congr (unplaced_step s h.1 x i i' k k' m) (unplaced_steps ss h.2 m i i' k k' y)

end

mutual

theorem unplaced_sound : ∀ (e : Expr), Unplaced e → ∀ (x : XN) (i i' k k' : Int),
    Sound w cv vars e x i k → Sound w cv vars e x i' k'
  | .number t, _, x, i, i', k, k', h => by rw [Sound]; trivial
  | .string t, _, x, i, i', k, k', h => by rw [Sound]; trivial
  | .var u n, _, x, i, i', k, k', h => by rw [Sound] at h ⊢; exact h
  | .call u n args, hu, x, i, i', k, k', h => by
    rw [Unplaced] at hu
    rw [Sound] at h ⊢
    obtain ⟨h1, fn, h2, h3, h4⟩ := h
    exact ⟨h1, fn, h2, unplaced_soundArgs args hu.2.2 x i i' k k' h3, fun vs hv =>
      h4 vs ((unplaced_args args hu.2.2 x i i' k k' vs).2 hv)⟩
  | .binary op a b, hu, x, i, i', k, k', h => by
    rw [Unplaced] at hu
    rw [Sound] at h ⊢
    exact ⟨unplaced_sound a hu.1 x i i' k k' h.1, unplaced_sound b hu.2 x i i' k k' h.2.1, fun va vb h1 h2 =>
      h.2.2 va vb ((unplaced_means a hu.1 x i i' k k' va).2 h1) ((unplaced_means b hu.2 x i i' k k' vb).2 h2)⟩
  | .negative a, hu, x, i, i', k, k', h => by
    rw [Unplaced] at hu
    rw [Sound] at h ⊢
    exact unplaced_sound a hu x i i' k k' h
  | .path absolute ss, hu, x, i, i', k, k', h => by
    rw [Unplaced] at hu
    rw [Sound] at h ⊢
    exact ⟨h.1, unplaced_soundSteps ss hu _ i i' k k' h.2⟩

theorem unplaced_soundArgs : ∀ (es : List Expr), UnplacedArgs es → ∀ (x : XN) (i i' k k' : Int),
    SoundArgs w cv vars es x i k → SoundArgs w cv vars es x i' k'
  | [], _, x, i, i', k, k', h => by rw [SoundArgs]; trivial
  | e :: es, hu, x, i, i', k, k', h => by
    rw [UnplacedArgs] at hu
    rw [SoundArgs] at h ⊢
    exact ⟨unplaced_sound e hu.1 x i i' k k' h.1, unplaced_soundArgs es hu.2 x i i' k k' h.2⟩

theorem unplaced_soundStep : ∀ (s : Verif.XPathParse.Step), UnplacedStep s → ∀ (x : XN) (i i' k k' : Int),
    SoundStep w cv vars s x i k → SoundStep w cv vars s x i' k'
  | .test a t ps, _, x, i, i', k, k', h => by rw [SoundStep] at h ⊢; exact h
  | .expr e ps, hu, x, i, i', k, k', h => by
    rw [UnplacedStep] at hu
    rw [SoundStep] at h ⊢
    exact ⟨unplaced_sound e hu x i i' k k' h.1, fun v hv => h.2.1 v ((unplaced_means e hu x i i' k k' v).2 hv), fun l hl =>
      h.2.2 l ((unplaced_means e hu x i i' k k' _).2 hl)⟩

theorem unplaced_soundSteps : ∀ (ss : List Verif.XPathParse.Step), UnplacedSteps ss → ∀ (x : XN) (i i' k k' : Int),
    SoundSteps w cv vars ss x i k → SoundSteps w cv vars ss x i' k'
  | [], _, x, i, i', k, k', h => by rw [SoundSteps]; trivial
  | s :: ss, hu, x, i, i', k, k', h => by
    rw [UnplacedSteps] at hu
    rw [SoundSteps] at h ⊢
    exact ⟨unplaced_soundStep s hu.1 x i i' k k' h.1, fun m hm =>
      unplaced_soundSteps ss hu.2 m i i' k k' (h.2 m ((unplaced_step s hu.1 x i i' k k' m).2 hm))⟩

end

end

theorem constant_of {e : Expr} (h : Unplaced e) : Constant (careful w cv) e :=
  fun vars x i i' k k' v hv => ⟨(unplaced_means e h x i i' k k' v).1 hv.1, unplaced_sound e h x i i' k k' hv.2⟩

theorem fixed_of {e : Expr} (h : Unplaced e) : Fixed (careful w cv) e :=
  fun vars x i i' k v hv => constant_of h vars x i i' k k v hv

/-! ## Only one result -/

/-- One value, one list of children. -/
structure Single (R : Reading) : Prop where
  value : ∀ vars e x i k v v', R.value vars e x i k v → R.value vars e x i k v' → v = v'
  children : ∀ x l l', R.children x l → R.children x l' → l = l'

theorem passed_single (h : Single R) {φ : Focus} {L : Bindings} : ∀ (ps : Params) (g g' : Bindings),
    Passed R G φ L ps g → Passed R G φ L ps g' → g = g'
  | [], _, _, h1, h2 => by rw [Passed] at h1 h2; rw [h1, h2]
  | p :: ps, _, _, h1, h2 => by
    obtain ⟨v, rest, rfl, a2, a3, _⟩ := h1
    obtain ⟨v', rest', rfl, b2, b3, _⟩ := h2
    rw [h.value _ _ _ _ _ _ _ a2 b2, passed_single h ps _ _ a3 b3]

theorem bound_single (h : Single R) {φ : Focus} {given : Bindings} : ∀ (ps : Params) (L L1 L2 : Bindings),
    Bound R G φ given ps L L1 → Bound R G φ given ps L L2 → L1 = L2
  | [], _, _, _, h1, h2 => by rw [Bound] at h1 h2; rw [h1, h2]
  | p :: ps, L, L1, L2, h1, h2 => by
    obtain ⟨_, v, a2, a3⟩ := h1
    obtain ⟨_, v', b2, b3⟩ := h2
    have : v = v' := by
      rcases a2 with a2 | ⟨a2, a4⟩ <;> rcases b2 with b2 | ⟨b2, b4⟩
      · rw [a2] at b2; cases b2; rfl
      · rw [a2] at b2; cases b2
      · rw [a2] at b2; cases b2
      · exact h.value _ _ _ _ _ _ _ a4 b4
    subst this
    exact bound_single h ps _ _ _ a3 b3

theorem attributes_single (h : Single R) {φ : Focus} {L : Bindings} : ∀ (as : List Attribute) (o o' : List Instr),
    AttributesGive w cv R G φ L as o → AttributesGive w cv R G φ L as o' → o = o'
  | [], _, _, h1, h2 => by rw [AttributesGive] at h1 h2; rw [h1, h2]
  | a :: as, _, _, h1, h2 => by
    obtain ⟨v, rest, a1, a2, rfl⟩ := h1
    obtain ⟨v', rest', b1, b2, rfl⟩ := h2
    rw [h.value _ _ _ _ _ _ _ a1 b1, attributes_single h as _ _ a2 b2]

theorem keys_single (h : Single R) {φ : Focus} {L : Bindings} {l : List XN} : ∀ (ss : List SortKey)
    (ks ks' : List (Verif.Xslt.Key XN)), KeysAre w cv R G φ L l ss ks → KeysAre w cv R G φ L l ss ks' →
    Verif.Xslt.SameOn l ks ks'
  | [], _, _, h1, h2 => by
    rw [KeysAre] at h1 h2
    subst h1
    subst h2
    exact .nil
  | s :: ss, _, _, h1, h2 => by
    obtain ⟨k, rest, rfl, a1, a2⟩ := h1
    obtain ⟨k', rest', rfl, b1, b2⟩ := h2
    have hn : k.number = k'.number := by
      obtain ⟨v, c1, c2⟩ := a1.dataType
      obtain ⟨v', d1, d2⟩ := b1.dataType
      rw [h.value _ _ _ _ _ _ _ c1 d1, d2] at c2
      revert c2
      cases k.number <;> cases k'.number <;> simp
    have ha : k.ascending = k'.ascending := by
      obtain ⟨v, c1, c2⟩ := a1.order
      obtain ⟨v', d1, d2⟩ := b1.order
      rw [h.value _ _ _ _ _ _ _ c1 d1, d2] at c2
      revert c2
      cases k.ascending <;> cases k'.ascending <;> simp
    refine .cons hn ha (fun y hy => ?_) (keys_single h ss rest rest' a2 b2)
    obtain ⟨i, hi⟩ := List.mem_iff_getElem?.1 hy
    obtain ⟨v, c1, c2⟩ := a1.values i y hi
    obtain ⟨v', d1, d2⟩ := b1.values i y hi
    cases h.value _ _ _ _ _ _ _ c1 d1
    rw [← hn] at d2
    cases hk : k.number with
    | true =>
      rw [hk] at c2 d2
      simp only [hk, if_true] at c2 d2 ⊢
      rw [c2, d2]
    | false =>
      rw [hk] at c2 d2
      simp only [hk, Bool.false_eq_true, if_false] at c2 d2 ⊢
      rw [c2, d2]

theorem sorted_single (h : Single R) {φ : Focus} {L : Bindings} {l l1 l2 : List XN} {ss : List SortKey}
    (h1 : SortedBy w cv R G φ L ss l l1) (h2 : SortedBy w cv R G φ L ss l l2) : l1 = l2 := by
  obtain ⟨ks, a1, a2⟩ := h1
  obtain ⟨ks', b1, b2⟩ := h2
  exact Verif.Xslt.arranged_unique (Verif.Xslt.arranged_on (keys_single h ss _ _ a1 b1) a2) b2

theorem kind_clash {x : XN} {ks ks' : List Kind} (h : HasKind w x ks) (h' : HasKind w x ks') (hd : ∀ k ∈ ks, k ∉ ks') :
    False := by
  obtain ⟨n, h1, h2⟩ := h
  obtain ⟨n', h1', h2'⟩ := h'
  rw [h1] at h1'
  cases h1'
  exact hd _ h2 h2'

theorem gives_single (h : Single R) {t : Task} {out : List Instr} (hg : Gives w cv R P G t out) :
    ∀ out', Gives w cv R P G t out' → out = out' := by
  have V := h.value
  induction hg with
  | text φ L s => intro o h'; cases h'; rfl
  | valueOf φ L e v h1 =>
    intro o h'
    cases h' with
    | valueOf _ _ _ v' h2 => rw [V _ _ _ _ _ _ _ h1 h2]
  | current φ L => intro o h'; cases h'; rfl
  | ifTrue φ L t body v out h1 h2 _ ih =>
    intro o h'
    cases h' with
    | ifTrue _ _ _ _ v' _ h3 h4 h5 => exact ih _ h5
    | ifFalse _ _ _ _ v' h3 h4 => rw [V _ _ _ _ _ _ _ h1 h3] at h2; exact absurd h2 h4
  | ifFalse φ L t body v h1 h2 =>
    intro o h'
    cases h' with
    | ifTrue _ _ _ _ v' _ h3 h4 h5 => rw [V _ _ _ _ _ _ _ h1 h3] at h2; exact absurd h4 h2
    | ifFalse _ _ _ _ v' h3 h4 => rfl
  | choose φ L ws out _ ih => intro o h'; cases h' with | choose _ _ _ _ h1 => exact ih _ h1
  | forEach φ L e sorts body l l' out h1 hs _ ih =>
    intro o h'
    cases h' with
    | forEach _ _ _ _ _ m m' _ h2 hs' h3 =>
      have := V _ _ _ _ _ _ _ h1 h2
      cases this
      cases sorted_single h hs hs'
      exact ih _ h3
  | applySelect φ L e sorts mode ps given l l' out h1 h2 hs _ ih =>
    intro o h'
    cases h' with
    | applySelect _ _ _ _ _ _ given' m m' _ h3 h4 hs' h5 =>
      have := V _ _ _ _ _ _ _ h2 h4
      cases this
      cases passed_single h _ _ _ h1 h3
      cases sorted_single h hs hs'
      exact ih _ h5
  | applyChildren φ L sorts mode ps given l l' out h1 h2 hs _ ih =>
    intro o h'
    cases h' with
    | applyChildren _ _ _ _ _ given' m m' _ h3 h4 hs' h5 =>
      cases h.children _ _ _ h2 h4
      cases passed_single h _ _ _ h1 h3
      cases sorted_single h hs hs'
      exact ih _ h5
  | call φ L name ps given t out h1 h2 _ ih =>
    intro o h'
    cases h' with
    | call _ _ _ _ given' t' _ h3 h4 h5 =>
      rw [h2] at h4
      cases h4
      cases passed_single h _ _ _ h1 h3
      exact ih _ h5
  | element φ L p l u as body atts out h1 _ ih =>
    intro o h'
    cases h' with
    | element _ _ _ _ _ _ _ atts' out' h2 h3 =>
      rw [attributes_single h _ _ _ h1 h2, ih _ h3]
  | «attribute» φ L p l u body out _ ih =>
    intro o h'
    cases h' with
    | «attribute» _ _ _ _ _ _ _ h1 => rw [ih _ h1]
  | comment φ L body out _ ih => intro o h'; cases h' with | comment _ _ _ _ h1 => rw [ih _ h1]
  | pi φ L t body out _ ih => intro o h'; cases h' with | pi _ _ _ _ _ h1 => rw [ih _ h1]
  | copyElement φ L body n out h1 h2 _ ih =>
    intro o h'
    cases h' with
    | copyElement _ _ _ n' _ h3 h4 h5 =>
      rw [h1] at h3
      cases h3
      rw [ih _ h5]
    | copyRoot _ _ _ _ h3 h4 => exact (kind_clash ⟨n, h1, List.mem_singleton.2 h2⟩ h3 (by simp)).elim
    | copyOther _ _ _ h3 => exact (kind_clash ⟨n, h1, List.mem_singleton.2 h2⟩ h3 (by simp)).elim
  | copyRoot φ L body out h1 _ ih =>
    intro o h'
    cases h' with
    | copyElement _ _ _ n' _ h3 h4 h5 => exact (kind_clash ⟨n', h3, List.mem_singleton.2 h4⟩ h1 (by simp)).elim
    | copyRoot _ _ _ _ h3 h4 => exact ih _ h4
    | copyOther _ _ _ h3 => exact (kind_clash h1 h3 (by simp)).elim
  | copyOther φ L body h1 =>
    intro o h'
    cases h' with
    | copyElement _ _ _ n' _ h3 h4 h5 => exact (kind_clash ⟨n', h3, List.mem_singleton.2 h4⟩ h1 (by simp)).elim
    | copyRoot _ _ _ _ h3 h4 => exact (kind_clash h3 h1 (by simp)).elim
    | copyOther _ _ _ h3 => rfl
  | copyNodes φ L e l h1 =>
    intro o h'
    cases h' with
    | copyNodes _ _ _ l' h2 =>
      have := V _ _ _ _ _ _ _ h1 h2
      cases this
      rfl
    | copyValue _ _ _ v h2 h3 => exact absurd (V _ _ _ _ _ _ _ h2 h1) (h3 l)
  | copyValue φ L e v h1 h2 =>
    intro o h'
    cases h' with
    | copyNodes _ _ _ l' h3 => exact absurd (V _ _ _ _ _ _ _ h1 h3) (h2 l')
    | copyValue _ _ _ v' h3 h4 => rw [V _ _ _ _ _ _ _ h1 h3]
  | «variable» φ L n e rest v out h1 h2 _ ih =>
    intro o h'
    cases h' with
    | «variable» _ _ _ _ _ v' _ h3 h4 h5 =>
      cases V _ _ _ _ _ _ _ h1 h3
      exact ih _ h5
    | cons _ _ _ _ _ _ h3 => exact absurd trivial h3
  | nil φ L => intro o h'; cases h'; rfl
  | cons φ L i rest a b h1 _ _ ih1 ih2 =>
    intro o h'
    cases h' with
    | «variable» => exact absurd trivial h1
    | cons _ _ _ _ a' b' _ h3 h4 => rw [ih1 _ h3, ih2 _ h4]
  | otherwise φ L body out _ ih => intro o h'; cases h' with | otherwise _ _ _ _ h1 => exact ih _ h1
  | whenTrue φ L t body rest v out h1 h2 _ ih =>
    intro o h'
    cases h' with
    | whenTrue _ _ _ _ _ v' _ h3 h4 h5 => exact ih _ h5
    | whenFalse _ _ _ _ _ v' _ h3 h4 => rw [V _ _ _ _ _ _ _ h1 h3] at h2; exact absurd h2 h4
  | whenFalse φ L t body rest v out h1 h2 _ ih =>
    intro o h'
    cases h' with
    | whenTrue _ _ _ _ _ v' _ h3 h4 h5 => rw [V _ _ _ _ _ _ _ h1 h3] at h2; exact absurd h4 h2
    | whenFalse _ _ _ _ _ v' _ h3 h4 h5 => exact ih _ h5
  | eachNil L body i k => intro o h'; cases h'; rfl
  | eachCons L body y ys i k a b _ _ ih1 ih2 =>
    intro o h'
    cases h' with
    | eachCons _ _ _ _ _ _ a' b' h3 h4 => rw [ih1 _ h3, ih2 _ h4]
  | rulesNil mode given i k => intro o h'; cases h'; rfl
  | rulesCons mode given y ys i k a b _ _ ih1 ih2 =>
    intro o h'
    cases h' with
    | rulesCons _ _ _ _ _ _ a' b' h3 h4 => rw [ih1 _ h3, ih2 _ h4]
  | template t given φ L out h1 _ ih =>
    intro o h'
    cases h' with
    | template _ _ _ L' _ h2 h3 =>
      cases bound_single h _ _ _ _ h1 h2
      exact ih _ h3
  | rule mode given φ t out h1 _ ih =>
    intro o h'
    cases h' with
    | rule _ _ _ t' _ h2 h3 =>
      rw [h1] at h2
      cases h2
      exact ih _ h3
    | builtInParent _ _ _ _ _ h2 => rw [h1] at h2; cases h2
    | builtInText _ _ _ h2 => rw [h1] at h2; cases h2
    | builtInNothing _ _ _ h2 => rw [h1] at h2; cases h2
  | builtInParent mode given φ l out h1 h2 h3 _ ih =>
    intro o h'
    cases h' with
    | rule _ _ _ t' _ h2 h3 => rw [h1] at h2; cases h2
    | builtInParent _ _ _ l' _ h4 h5 h6 h7 =>
      cases h.children _ _ _ h3 h6
      exact ih _ h7
    | builtInText _ _ _ h4 h5 => exact (kind_clash h2 h5 (by simp)).elim
    | builtInNothing _ _ _ h4 h5 => exact (kind_clash h2 h5 (by simp)).elim
  | builtInText mode given φ h1 h2 =>
    intro o h'
    cases h' with
    | rule _ _ _ t' _ h2 h3 => rw [h1] at h2; cases h2
    | builtInParent _ _ _ l' _ h4 h5 h6 h7 => exact (kind_clash h2 h5 (by simp)).elim
    | builtInText _ _ _ h4 h5 => rfl
    | builtInNothing _ _ _ h4 h5 => exact (kind_clash h2 h5 (by simp)).elim
  | builtInNothing mode given φ h1 h2 =>
    intro o h'
    cases h' with
    | rule _ _ _ t' _ h2 h3 => rw [h1] at h2; cases h2
    | builtInParent _ _ _ l' _ h4 h5 h6 h7 => exact (kind_clash h2 h5 (by simp)).elim
    | builtInText _ _ _ h4 h5 => exact (kind_clash h2 h5 (by simp)).elim
    | builtInNothing _ _ _ h4 h5 => rfl

end

end Verif.XsltRun
