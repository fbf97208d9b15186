import Verif.Spec.Events
set_option autoImplicit false
set_option linter.unusedVariables false
/-!
# C26: event dispatch order
-/
namespace Verif.Props.Events
open Verif.Events Verif.Spec.Events

theorem registered_nodup (n : Node) (c : Bool) (t : EvType) (h : List Op) : (registered n c t h).Nodup := by
  induction h with
  | nil => exact List.nodup_nil
  | cons op h ih =>
    cases op with
    | add n' t' l c' =>
      rw [registered]
      by_cases hk : n' = n ∧ c' = c ∧ t' = t
      · rw [if_pos hk]
        by_cases hl : l ∈ registered n c t h
        · rw [if_pos hl]; exact ih
        · rw [if_neg hl, List.nodup_append]
          refine ⟨ih, by simp, ?_⟩
          intro a ha b hb hab
          rw [List.mem_singleton] at hb
          rw [hab, hb] at ha
          exact hl ha
      · rw [if_neg hk]; exact ih
    | remove n' t' l c' =>
      rw [registered]
      by_cases hk : n' = n ∧ c' = c ∧ t' = t
      · rw [if_pos hk]; exact ih.filter _
      · rw [if_neg hk]; exact ih

/-- C26, registration: after every history of add and remove calls in which only the listener registered
first is removed, the listeners are those registered. -/
theorem C26_registered_partial (ops : List Op) (h : RemovesFirst ops.reverse) (n : Node) (c : Bool) (t : EvType) :
    run (fun _ _ _ => []) ops n c t = registered n c t ops.reverse := by
  have key : ∀ rev : List Op, RemovesFirst rev → ∀ n c t,
      run (fun _ _ _ => []) rev.reverse n c t = registered n c t rev := by
    intro rev
    induction rev with
    | nil => intro _ n c t; rfl
    | cons op rev ih =>
      intro hp n c t
      unfold run at ih ⊢
      rw [List.reverse_cons, List.foldl_append]
      show step _ op n c t = _
      cases op with
      | add n' t' l c' =>
        have ih := ih hp
        rw [registered, step, addEventListener, ih]
        by_cases hl : l ∈ registered n' c' t' rev
        · rw [if_pos hl, ih]
          by_cases hk : n' = n ∧ c' = c ∧ t' = t
          · rw [if_pos hk]; obtain ⟨rfl, rfl, rfl⟩ := hk; rw [if_pos hl]
          · rw [if_neg hk]
        · rw [if_neg hl, Reg.set]
          by_cases hk : n' = n ∧ c' = c ∧ t' = t
          · obtain ⟨rfl, rfl, rfl⟩ := hk
            rw [if_pos ⟨rfl, rfl, rfl⟩, if_pos ⟨rfl, rfl, rfl⟩, if_neg hl]
          · rw [if_neg (fun hc => hk ⟨hc.1.symm, hc.2.1.symm, hc.2.2.symm⟩), if_neg hk, ih]
      | remove n' t' l c' =>
        obtain ⟨hp, hfirst⟩ := hp
        have ih := ih hp
        rw [registered, step, removeEventListener, ih]
        by_cases hk : n' = n ∧ c' = c ∧ t' = t
        · obtain ⟨rfl, rfl, rfl⟩ := hk
          rw [if_pos ⟨rfl, rfl, rfl⟩]
          rcases hfirst with hn | ⟨ls, hls⟩
          · have hf : (registered n' c' t' rev).filter (· ≠ l) = registered n' c' t' rev :=
              List.filter_eq_self.mpr fun a ha => decide_eq_true (fun hc : a = l => hn (hc ▸ ha))
            rw [hf]
            cases hr : registered n' c' t' rev with
            | nil => simp only []; rw [ih, hr]
            | cons a as =>
              simp only []
              have : a ≠ l := fun hc => hn (by rw [hr, hc]; simp)
              rw [if_neg this, ih, hr]
          · rw [hls]
            simp only [if_true]
            have hnd := registered_nodup n' c' t' rev
            rw [hls, List.nodup_cons] at hnd
            have hf : ls.filter (· ≠ l) = ls :=
              List.filter_eq_self.mpr fun a ha => decide_eq_true (fun hc : a = l => hnd.1 (hc ▸ ha))
            rw [Reg.set, if_pos ⟨rfl, rfl, rfl⟩, List.filter_cons_of_neg (by simp), hf]
        · rw [if_neg hk]
          have hk' : ¬ (n = n' ∧ c = c' ∧ t = t') := fun hc => hk ⟨hc.1.symm, hc.2.1.symm, hc.2.2.symm⟩
          cases hr : registered n' c' t' rev with
          | nil => simp only []; rw [ih]
          | cons a as =>
            simp only []
            by_cases hal : a = l
            · rw [if_pos hal, Reg.set, if_neg hk', ih]
            · rw [if_neg hal, ih]
  have := key ops.reverse h n c t
  rwa [List.reverse_reverse] at this

theorem callAll_eq (ev : Event) (hc : ev.canCancel = true) (stops : List Call → Call → Bool) (n : Node) (p : Phase)
    (ls : List Listener) : ∀ (calls : List Call) (b : Bool),
    callAll ev stops n p (calls, b) ls =
      (calls ++ ls.map (fun l => ⟨n, p, l⟩), b || someStops stops calls (ls.map fun l => ⟨n, p, l⟩)) := by
  induction ls with
  | nil => intro calls b; simp [callAll, someStops]
  | cons l ls ih =>
    intro calls b
    rw [callAll, ih]
    simp [someStops, hc, Bool.or_assoc]

/-- The calls of a list of groups, and whether none of them stopped the event. -/
def runGroups (stops : List Call → Call → Bool) : List Call → List (List Call) → List Call × Bool
  | before, [] => (before, true)
  | before, g :: gs => if someStops stops before g then (before ++ g, false) else runGroups stops (before ++ g) gs

theorem runGroups_fst (stops : List Call → Call → Bool) (gs : List (List Call)) : ∀ before,
    (runGroups stops before gs).1 = untilStop stops before gs := by
  induction gs with
  | nil => intro b; rfl
  | cons g gs ih =>
    intro b
    rw [runGroups, untilStop]
    by_cases h : someStops stops b g = true
    · rw [if_pos h, if_pos h]
    · rw [if_neg h, if_neg h]; exact ih _

theorem untilStop_append (stops : List Call → Call → Bool) (gs hs : List (List Call)) : ∀ before,
    untilStop stops before (gs ++ hs) =
      if (runGroups stops before gs).2 then untilStop stops (runGroups stops before gs).1 hs else (runGroups stops before gs).1 := by
  induction gs with
  | nil => intro b; rfl
  | cons g gs ih =>
    intro b
    rw [List.cons_append, untilStop, runGroups]
    by_cases h : someStops stops b g = true
    · rw [if_pos h, if_pos h]; rfl
    · rw [if_neg h, if_neg h]; exact ih _

theorem capture_eq (ev : Event) (hc : ev.canCancel = true) (stops : List Call → Call → Bool) (r : Reg) (ns : List Node) :
    ∀ calls, (capture ev stops r (calls, false) ns).1.1 =
        (runGroups stops calls (ns.map fun n => (r n true ev.type).map fun l => ⟨n, .capturing, l⟩)).1 ∧
      (capture ev stops r (calls, false) ns).2 =
        (runGroups stops calls (ns.map fun n => (r n true ev.type).map fun l => ⟨n, .capturing, l⟩)).2 ∧
      ((capture ev stops r (calls, false) ns).2 = true → (capture ev stops r (calls, false) ns).1.2 = false) := by
  induction ns with
  | nil => intro calls; exact ⟨rfl, rfl, fun _ => rfl⟩
  | cons n ns ih =>
    intro calls
    rw [capture, callAll_eq ev hc, List.map_cons, runGroups]
    simp only [Bool.false_or]
    cases h : someStops stops calls ((r n true ev.type).map fun l => ⟨n, .capturing, l⟩) with
    | true => exact ⟨rfl, rfl, fun hh => by cases hh⟩
    | false => exact ih _

theorem bubble_eq (ev : Event) (hc : ev.canCancel = true) (stops : List Call → Call → Bool) (r : Reg) (ns : List Node) :
    ∀ calls, (bubble ev stops r (calls, false) ns).1.1 =
        (runGroups stops calls (ns.map fun n => (r n false ev.type).map fun l => ⟨n, .bubbling, l⟩)).1 := by
  induction ns with
  | nil => intro calls; rfl
  | cons n ns ih =>
    intro calls
    rw [bubble, callAll_eq ev hc, List.map_cons, runGroups]
    simp only [Bool.false_or]
    cases h : someStops stops calls ((r n false ev.type).map fun l => ⟨n, .bubbling, l⟩) with
    | true => rfl
    | false => exact ih _

theorem foldl_cons (l acc : List Node) : l.foldl (fun ch n => n :: ch) acc = l.reverse ++ acc := by
  induction l generalizing acc with
  | nil => rfl
  | cons a l ih => rw [List.foldl_cons, ih]; simp

/-- C26, dispatch: for an event that can be cancelled and that no listener of the target stops, the calls
are those of DOM Level 2, in order, up to the node on which it is stopped. -/
theorem C26_dispatch_partial (ev : Event) (hc : ev.canCancel = true) (stops : List Call → Call → Bool) (r : Reg)
    (target : Node) (ancestors : List Node)
    (ht : ∀ before l, stops before ⟨target, .atTarget, l⟩ = false) :
    (dispatchEvent ev stops r target ancestors).1 =
      untilStop stops [] (groups ev.type ev.canBubble r target ancestors) := by
  have htg : ∀ (ls : List Listener) before, someStops stops before (ls.map fun l => ⟨target, .atTarget, l⟩) = false := by
    intro ls
    induction ls with
    | nil => intro b; rfl
    | cons l ls ih => intro b; rw [List.map_cons, someStops, ht, ih]; rfl
  unfold dispatchEvent groups
  simp only [foldl_cons, List.append_nil]
  obtain ⟨h1, h2, h3⟩ := capture_eq ev hc stops r ancestors.reverse []
  rw [List.append_assoc, untilStop_append]
  generalize runGroups stops [] (ancestors.reverse.map fun n => (r n true ev.type).map fun l => (⟨n, .capturing, l⟩ : Call)) = g at h1 h2
  generalize capture ev stops r ([], false) ancestors.reverse = q at h1 h2 h3
  obtain ⟨⟨qc, qs⟩, qb⟩ := q
  obtain ⟨gc, gb⟩ := g
  simp only at h1 h2 h3
  subst h1 h2
  cases qb with
  | false => rfl
  | true =>
    obtain rfl := h3 rfl
    simp only [if_true]
    rw [callAll_eq ev hc, List.singleton_append, untilStop, htg, Bool.false_or]
    simp only [Bool.false_eq_true, if_false]
    cases hb : ev.canBubble with
    | false => rfl
    | true =>
      simp only [if_true]
      rw [List.reverse_reverse, ← runGroups_fst]
      exact bubble_eq ev hc stops r ancestors _

/-- Without anyone stopping the event every listener is called once in each phase, in that order. -/
theorem C26_unstopped (ev : Event) (stops : List Call → Call → Bool) (r : Reg) (target : Node) (ancestors : List Node)
    (hs : ∀ before c, stops before c = false) :
    dispatchEvent ev stops r target ancestors = ((groups ev.type ev.canBubble r target ancestors).flatten, true) := by
  have hcall : ∀ n p (ls : List Listener) calls, callAll ev stops n p (calls, false) ls = (calls ++ ls.map (fun l => ⟨n, p, l⟩), false) := by
    intro n p ls
    induction ls with
    | nil => intro calls; simp [callAll]
    | cons l ls ih => intro calls; rw [callAll, hs]; simp [ih]
  have hcap : ∀ ns calls, capture ev stops r (calls, false) ns =
      ((calls ++ (ns.map fun n => (r n true ev.type).map fun l => (⟨n, .capturing, l⟩ : Call)).flatten, false), true) := by
    intro ns
    induction ns with
    | nil => intro calls; simp [capture]
    | cons n ns ih => intro calls; rw [capture, hcall]; simp [ih]
  have hbub : ∀ ns calls, bubble ev stops r (calls, false) ns =
      ((calls ++ (ns.map fun n => (r n false ev.type).map fun l => (⟨n, .bubbling, l⟩ : Call)).flatten, false), true) := by
    intro ns
    induction ns with
    | nil => intro calls; simp [bubble]
    | cons n ns ih => intro calls; rw [bubble, hcall]; simp [ih]
  unfold dispatchEvent groups
  simp only [foldl_cons, List.append_nil, hcap, hcall, List.nil_append]
  cases hb : ev.canBubble with
  | false => simp
  | true => simp [hbub]

theorem mem_group {x : Call} {ns : List Node} {p : Phase} {f : Node → List Listener}
    (h : x ∈ (ns.map fun n => (f n).map fun l => (⟨n, p, l⟩ : Call)).flatten) : x.phase = p := by
  simp only [List.mem_flatten, List.mem_map] at h
  obtain ⟨g, ⟨n, _, rfl⟩, hx⟩ := h
  obtain ⟨l, _, rfl⟩ := List.mem_map.mp hx
  rfl

theorem nodup_group {ns : List Node} (hn : ns.Nodup) (p : Phase) (f : Node → List Listener) (hf : ∀ n, (f n).Nodup) :
    ((ns.map fun n => (f n).map fun l => (⟨n, p, l⟩ : Call)).flatten).Nodup := by
  induction ns with
  | nil => exact List.nodup_nil
  | cons n ns ih =>
    rw [List.nodup_cons] at hn
    rw [List.map_cons, List.flatten_cons, List.nodup_append]
    refine ⟨?_, ih hn.2, ?_⟩
    · exact List.Pairwise.map _ (fun a b h e => h (Call.mk.inj e).2.2) (hf n)
    · intro a ha b hb hab
      obtain ⟨l, _, rfl⟩ := List.mem_map.mp ha
      simp only [List.mem_flatten, List.mem_map] at hb
      obtain ⟨g, ⟨n', hn', rfl⟩, hx⟩ := hb
      obtain ⟨l', _, rfl⟩ := List.mem_map.mp hx
      exact hn.1 ((Call.mk.inj hab).1 ▸ hn')

/-- Each listener is called at most once per phase and node. -/
theorem C26_once (t : EvType) (b : Bool) (r : Reg) (hr : ∀ n c, (r n c t).Nodup) (target : Node) (ancestors : List Node)
    (hn : ancestors.Nodup) : ((groups t b r target ancestors).flatten).Nodup := by
  unfold groups
  rw [List.flatten_append, List.flatten_append, List.nodup_append, List.nodup_append]
  have h2 : (([(r target false t).map fun l => (⟨target, .atTarget, l⟩ : Call)] : List (List Call)).flatten).Nodup := by
    have := nodup_group (ns := [target]) (by simp) .atTarget (fun n => r n false t) (fun n => hr n false)
    exact this
  refine ⟨⟨?_, h2, ?_⟩, ?_, ?_⟩
  · exact nodup_group (List.pairwise_reverse.mpr (hn.imp Ne.symm)) .capturing _ fun n => hr n true
  · intro x hx y hy hxy
    have h1 := mem_group hx
    have h2 := mem_group (ns := [target]) (f := fun n => r n false t) hy
    rw [hxy, h2] at h1; cases h1
  · cases b with
    | false => exact List.nodup_nil
    | true => exact nodup_group hn .bubbling _ fun n => hr n false
  · intro x hx y hy hxy
    cases b with
    | false => cases hy
    | true =>
      have h2 := mem_group hy
      rcases List.mem_append.mp hx with hx | hx
      · have h1 := mem_group hx
        rw [hxy, h2] at h1; cases h1
      · have h1 := mem_group (ns := [target]) (f := fun n => r n false t) hx
        rw [hxy, h2] at h1; cases h1

/-- A history with a removal, and an event stopped while it is captured. -/
example : RemovesFirst [Op.add 1 0 5 true, .add 1 0 6 true, .remove 1 0 5 true, .remove 1 0 9 true].reverse ∧
    run (fun _ _ _ => []) [.add 1 0 5 true, .add 1 0 6 true, .remove 1 0 5 true, .remove 1 0 9 true] 1 true 0 = [6] := by
  refine ⟨⟨⟨trivial, .inr ⟨[6], by decide⟩⟩, .inl (by decide)⟩, by decide⟩

example : (dispatchEvent ⟨0, true, true⟩ (fun _ c => c.node == 2) (fun _ _ _ => [1, 2]) 3 [2, 1]).1 =
    [⟨1, .capturing, 1⟩, ⟨1, .capturing, 2⟩, ⟨2, .capturing, 1⟩, ⟨2, .capturing, 2⟩] ∧
    (∀ (before : List Call) (l : Listener), (fun (_ : List Call) (c : Call) => c.node == 2) before ⟨3, .atTarget, l⟩ = false) :=
  ⟨by decide, fun _ _ => rfl⟩

/-- `removeEventListener` removes no listener but the first. -/
theorem C26_violated_remove :
    run (fun _ _ _ => []) [.add 1 0 5 false, .add 1 0 6 false, .remove 1 0 6 false] 1 false 0 = [5, 6] ∧
    registered 1 false 0 [Op.add 1 0 5 false, .add 1 0 6 false, .remove 1 0 6 false].reverse = [5] := by
  decide

/-- An event stopped by a listener of the target still goes to the target's parent. -/
theorem C26_violated_target :
    (dispatchEvent ⟨0, true, true⟩ (fun _ c => c.phase == .atTarget) (fun _ _ _ => [1]) 3 [2, 1]).1 =
      [⟨1, .capturing, 1⟩, ⟨2, .capturing, 1⟩, ⟨3, .atTarget, 1⟩, ⟨2, .bubbling, 1⟩] := by
  decide

/-- `stopPropagation` does nothing on an event that cannot be cancelled. -/
theorem C26_violated_cancelable (r : Reg) (t : EvType) (b : Bool) (stops : List Call → Call → Bool) (target : Node)
    (ancestors : List Node) :
    dispatchEvent ⟨t, b, false⟩ stops r target ancestors = dispatchEvent ⟨t, b, false⟩ (fun _ _ => false) r target ancestors := by
  have hcall : ∀ n p (ls : List Listener) st, callAll ⟨t, b, false⟩ stops n p st ls = callAll ⟨t, b, false⟩ (fun _ _ => false) n p st ls := by
    intro n p ls
    induction ls with
    | nil => intro st; rfl
    | cons l ls ih => rintro ⟨calls, s⟩; rw [callAll, callAll, ih]; simp
  have hcap : ∀ ns st, capture ⟨t, b, false⟩ stops r st ns = capture ⟨t, b, false⟩ (fun _ _ => false) r st ns := by
    intro ns
    induction ns with
    | nil => intro st; rfl
    | cons n ns ih => intro st; rw [capture, capture, hcall, ih]
  have hbub : ∀ ns st, bubble ⟨t, b, false⟩ stops r st ns = bubble ⟨t, b, false⟩ (fun _ _ => false) r st ns := by
    intro ns
    induction ns with
    | nil => intro st; rfl
    | cons n ns ih => intro st; rw [bubble, bubble, hcall, ih]
  unfold dispatchEvent
  simp only [hcap, hcall, hbub]

end Verif.Props.Events
