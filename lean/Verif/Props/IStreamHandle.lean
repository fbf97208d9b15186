import Verif.Lemmas.IStreamHandle
set_option autoImplicit false
set_option linter.unusedSimpArgs false
set_option linter.unusedVariables false
/-!
# C97: handles of streams
-/
namespace Verif.Props.IStreamHandle
open Verif.IStreamHandle
open Verif.Spec.IStreamHandle (Target Sp Legal NotSelf AllLegal stream)

/-- After every history of constructing, copying, assigning, releasing and destroying handles, none assigned to
itself: nothing undefined happened; each handle gives the stream it should; a stream was deleted, and then once,
exactly if it was given to a handle and no handle holds it any more; and when no handle is left no counter is. -/
theorem C97_partial (n : Nat) (ops : List Op) (hl : AllLegal n Spec.IStreamHandle.init ops)
    (hs : ∀ op ∈ ops, NotSelf op) :
    ∃ s, run init ops = some s ∧
      (∀ i, get s i = stream ((Spec.IStreamHandle.run Spec.IStreamHandle.init ops).hold i)) ∧
      s.deleted.Nodup ∧
      (∀ x, x ∈ s.deleted ↔ x ∈ (Spec.IStreamHandle.run Spec.IStreamHandle.init ops).given ∧
        ∀ i, (Spec.IStreamHandle.run Spec.IStreamHandle.init ops).hold i ≠ some (.own x)) ∧
      ((∀ i, (Spec.IStreamHandle.run Spec.IStreamHandle.init ops).hold i = none) → ∀ k, s.cnt k = none) := by
  obtain ⟨s, h1, h2⟩ := run_inv ops (inv_init n) hl hs
  refine ⟨s, h1, fun i => ?_, h2.nd, h2.dl, fun h0 k => ?_⟩
  · unfold Verif.IStreamHandle.get
    rcases h2.hm i with ⟨h3, h4⟩ | ⟨k, t, h3, h4⟩
    · rw [h3, h4]; rfl
    · rw [h3, h4]; cases t <;> rfl
  · rw [h2.ct k, if_pos]
    refine Nat.eq_zero_of_not_pos fun hp => ?_
    obtain ⟨i, _, hi⟩ := count_pos.1 hp
    rw [h2.dead (h0 i)] at hi
    cases hi

/-- Two streams given, one lent, shared and let go again. -/
def story : List Op :=
  [.constructOwned 0 5, .copy 1 0, .constructRef 2 6, .construct 3, .assign 3 1, .assign 0 2, .release 1, .assignOwned 2 7,
   .assignRef 3 8, .assign 1 2, .destroy 2]

example : AllLegal 4 Spec.IStreamHandle.init story ∧ (∀ op ∈ story, NotSelf op) ∧
    (run init story).map (fun s => (s.deleted, get s 0, get s 1, get s 3)) = some ([5], some 6, some 7, some 8) := by
  refine ⟨?_, ?_, by decide +kernel⟩
  · unfold story AllLegal
    simp [AllLegal, Legal, Spec.IStreamHandle.step, Spec.IStreamHandle.init, Spec.IStreamHandle.put]
  · intro op hop
    simp only [story, List.mem_cons, List.not_mem_nil, or_false] at hop
    rcases hop with rfl | rfl | rfl | rfl | rfl | rfl | rfl | rfl | rfl | rfl | rfl <;> simp [NotSelf]

/-- A handle assigned to itself loses its stream, which is not deleted, not even when the handle is destroyed
after that.  To copy the handle is undefined. -/
theorem C97_violated_self (n : Nat) (ops : List Op) (hl : AllLegal n Spec.IStreamHandle.init ops)
    (hs : ∀ op ∈ ops, NotSelf op) (i x : Nat)
    (hi : (Spec.IStreamHandle.run Spec.IStreamHandle.init ops).hold i = some (.own x)) :
    (∃ s, run init (ops ++ [.assign i i]) = some s ∧ get s i = none ∧ x ∉ s.deleted) ∧
    (∃ s, run init (ops ++ [.assign i i, .destroy i]) = some s ∧ x ∉ s.deleted) ∧
    ∀ j, (Spec.IStreamHandle.run Spec.IStreamHandle.init ops).hold j = none →
      run init (ops ++ [.assign i i, .copy j i]) = none := by
  obtain ⟨s, h1, h2⟩ := run_inv ops (inv_init n) hl hs
  obtain ⟨k, hk⟩ := h2.live hi
  have hp := h2.pos hk
  have hx : x ∉ s.deleted := fun h => ((h2.dl x).1 h).2 i hi
  have ha : step s (.assign i i) =
      some { s with cnt := put s.cnt k (some (count n s.hs k : Int)), hs := put s.hs i (some null) } := by
    unfold step
    dsimp only
    rw [hk]
    dsimp only
    rw [addRef_eq h2 hk]
    dsimp only
    unfold removeRef
    rw [handle_counter]
    dsimp only
    rw [put_same]
    dsimp only
    rw [if_neg (by omega)]
    dsimp only
    rw [put_same]
    dsimp only
    rw [put_put, put_put, show ((count n s.hs k : Int) + 1 - 1) = count n s.hs k by omega]
  refine ⟨⟨{ s with cnt := put s.cnt k (some (count n s.hs k : Int)), hs := put s.hs i (some null) }, ?_, ?_, hx⟩,
    ⟨{ s with cnt := put s.cnt k (some (count n s.hs k : Int)), hs := put s.hs i none }, ?_, hx⟩, fun j hj => ?_⟩
  · rw [run_append, h1]; dsimp only; rw [run, ha]; rfl
  · unfold Verif.IStreamHandle.get; dsimp only; rw [put_same]; rfl
  · rw [run_append, h1]; dsimp only; rw [run, ha]; dsimp only
    rw [run]
    unfold step
    dsimp only
    rw [put_same]
    show run { s with cnt := _, hs := put (put (put s.hs i (some null)) i (some null)) i none } [] = _
    rw [put_put, put_put]; rfl
  · rw [run_append, h1]; dsimp only; rw [run, ha]; dsimp only
    have hij : j ≠ i := by rintro rfl; rw [hi] at hj; cases hj
    rw [run]
    unfold step
    dsimp only
    rw [put_same, put_other _ _ hij, h2.dead hj]
    rfl

example : AllLegal 1 Spec.IStreamHandle.init [.constructOwned 0 5] ∧
    (Spec.IStreamHandle.run Spec.IStreamHandle.init [.constructOwned 0 5]).hold 0 = some (.own 5) ∧
    (run init [.constructOwned 0 5, .assign 0 0, .destroy 0]).map (·.deleted) = some [] := by
  refine ⟨?_, by decide +kernel, by decide +kernel⟩
  simp [AllLegal, Legal, Spec.IStreamHandle.init]

end Verif.Props.IStreamHandle
