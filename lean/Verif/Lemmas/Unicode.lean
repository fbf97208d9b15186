import Verif.Model.Unicode
import Verif.Spec.Utf8
set_option autoImplicit false
set_option linter.unusedSimpArgs false
set_option linter.unusedVariables false
namespace Verif.Unicode
open Verif.Codecvt Verif.Spec

/-! ## Decoders: one output character per step -/

/-- Generic decoder: `one inp = none` is UB, `some none` is stuck. -/
def scan {α β : Type} (one : List α → Option (Option (β × List α))) :
    Nat → List α → Option (CallRes Unit α β)
  | _, [] => some ⟨.ok, (), [], []⟩
  | 0, b :: rest => some ⟨.incomplete, (), b :: rest, []⟩
  | cap + 1, b :: rest =>
    match one (b :: rest) with
    | none => none
    | some none => some ⟨.incomplete, (), b :: rest, []⟩
    | some (some (v, rest')) =>
      match scan one cap rest' with
      | none => none
      | some r => some { r with out := v :: r.out }

variable {α β : Type}

def Shrinks (one : List α → Option (Option (β × List α))) : Prop :=
  ∀ inp v rest, one inp = some (some (v, rest)) → rest.length < inp.length

theorem scan_stable (one : List α → Option (Option (β × List α))) (hs : Shrinks one) :
    ∀ (n m : Nat) (inp : List α), inp.length ≤ n → inp.length ≤ m → scan one n inp = scan one m inp
  | _, _, [], _, _ => by unfold scan; simp
  | 0, _, _ :: _, h, _ => by simp at h
  | _ + 1, 0, _ :: _, _, h => by simp at h
  | n + 1, m + 1, b :: rest, h1, h2 => by
    unfold scan
    split
    · rfl
    · rfl
    · rename_i v rest' he
      have := hs _ _ _ he
      simp only [List.length_cons] at this h1 h2
      rw [scan_stable one hs n m rest' (by omega) (by omega)]

theorem scan_rest_le (one : List α → Option (Option (β × List α))) (hs : Shrinks one) :
    ∀ (n : Nat) (inp : List α) (r : CallRes Unit α β), scan one n inp = some r →
      r.rest.length ≤ inp.length
  | _, [], r, h => by unfold scan at h; simp at h; subst h; simp
  | 0, _ :: _, r, h => by unfold scan at h; simp at h; subst h; simp
  | n + 1, b :: rest, r, h => by
    unfold scan at h
    split at h
    · simp at h
    · simp at h; subst h; simp
    · rename_i v rest' he
      have hl := hs _ _ _ he
      split at h
      · simp at h
      · rename_i r' hr'
        simp at h; subst h
        have := scan_rest_le one hs n rest' r' hr'
        simp at *; omega

theorem scan_ok (one : List α → Option (Option (β × List α))) :
    ∀ (n : Nat) (inp : List α) (r : CallRes Unit α β), scan one n inp = some r →
      (r.status = .ok ↔ r.rest = [])
  | _, [], r, h => by unfold scan at h; simp at h; subst h; simp
  | 0, _ :: _, r, h => by unfold scan at h; simp at h; subst h; simp
  | n + 1, b :: rest, r, h => by
    unfold scan at h
    split at h
    · simp at h
    · simp at h; subst h; simp
    · rename_i v rest' he
      split at h
      · simp at h
      · rename_i r' hr'
        simp at h; subst h
        exact scan_ok one n rest' r' hr'

/-- The whole conversion, with room for everything. -/
def whole (one : List α → Option (Option (β × List α))) (inp : List α) : Option (CallRes Unit α β) :=
  scan one inp.length inp

theorem whole_step (one : List α → Option (Option (β × List α))) (hs : Shrinks one)
    (inp : List α) (hne : inp ≠ []) : whole one inp =
    match one inp with
    | none => none
    | some none => some ⟨.incomplete, (), inp, []⟩
    | some (some (v, rest')) => (whole one rest').map fun r => { r with out := v :: r.out } := by
  cases inp with
  | nil => exact absurd rfl hne
  | cons b rest =>
    unfold whole
    simp only [List.length_cons]
    rw [scan]
    split
    · rfl
    · rfl
    · rename_i v rest' he
      have := hs _ _ _ he
      simp only [List.length_cons] at this
      rw [scan_stable one hs rest.length rest'.length rest' (by omega) (by omega)]
      cases scan one rest'.length rest' <;> rfl

/-- A partial call is a prefix of the whole conversion. -/
theorem scan_prefix (one : List α → Option (Option (β × List α))) (hs : Shrinks one) :
    ∀ (n : Nat) (inp : List α) (r : CallRes Unit α β), scan one n inp = some r →
      whole one inp = (whole one r.rest).map fun w => { w with out := r.out ++ w.out }
  | _, [], r, h => by unfold scan at h; simp at h; subst h; rfl
  | 0, b :: rest, r, h => by
    unfold scan at h; simp at h; subst h
    simp
  | n + 1, b :: rest, r, h => by
    unfold scan at h
    rw [whole_step one hs (b :: rest) (by simp)]
    split at h
    · simp at h
    · rename_i he
      simp at h; subst h
      rw [whole_step one hs (b :: rest) (by simp)]
      simp [he]
    · rename_i v rest' he
      split at h
      · simp at h
      · rename_i r' hr'
        simp at h; subst h
        simp only [he]
        rw [scan_prefix one hs n rest' r' hr']
        cases whole one r'.rest <;> rfl

theorem scan_none (one : List α → Option (Option (β × List α))) (hs : Shrinks one) :
    ∀ (n : Nat) (inp : List α), scan one n inp = none → whole one inp = none
  | _, [], h => by unfold scan at h; simp at h
  | 0, b :: rest, h => by unfold scan at h; simp at h
  | n + 1, b :: rest, h => by
    unfold scan at h
    rw [whole_step one hs (b :: rest) (by simp)]
    split at h
    · rename_i he; simp [he]
    · simp at h
    · rename_i v rest' he
      split at h
      · rename_i hr'
        rw [scan_none one hs n rest' hr']; rfl
      · simp at h

theorem drive_prefix (one : List α → Option (Option (β × List α))) (hs : Shrinks one) :
    ∀ (caps : List Nat) (inp : List α) (r : CallRes Unit α β), driveU (scan one) inp caps = some r →
      (whole one inp = (whole one r.rest).map fun w => { w with out := r.out ++ w.out }) ∧
      (r.status = .ok → r.rest = [])
  | [], inp, r, h => by
    unfold driveU at h; simp at h; subst h
    simp
  | c :: cs, inp, r, h => by
    unfold driveU at h
    split at h
    · simp at h
    · rename_i r1 h1
      split at h
      · rename_i hok
        simp at h; subst h
        exact ⟨scan_prefix one hs c inp _ h1, fun _ => (scan_ok one c inp _ h1).mp hok⟩
      · rename_i hinc
        split at h
        · simp at h
        · rename_i r2 h2
          simp at h; subst h
          obtain ⟨a, b⟩ := drive_prefix one hs cs r1.rest r2 h2
          refine ⟨?_, b⟩
          rw [scan_prefix one hs c inp r1 h1, a]
          simp only
          cases whole one r2.rest <;> simp

theorem whole_nil (one : List α → Option (Option (β × List α))) :
    whole one [] = some ⟨.ok, (), [], []⟩ := rfl

/-- A completed resumption loop delivers the whole conversion. -/
theorem drive_whole (one : List α → Option (Option (β × List α))) (hs : Shrinks one)
    (caps : List Nat) (inp : List α) (r : CallRes Unit α β)
    (h : driveU (scan one) inp caps = some r) (hok : r.status = .ok) :
    whole one inp = some r := by
  obtain ⟨a, b⟩ := drive_prefix one hs caps inp r h
  have hr := b hok
  rw [hr, whole_nil] at a
  rw [a]
  cases r
  simp_all

theorem drive_none (one : List α → Option (Option (β × List α))) (hs : Shrinks one) :
    ∀ (caps : List Nat) (inp : List α), driveU (scan one) inp caps = none → whole one inp = none
  | [], inp, h => by unfold driveU at h; simp at h
  | c :: cs, inp, h => by
    unfold driveU at h
    split at h
    · rename_i h1; exact scan_none one hs c inp h1
    · rename_i r1 h1
      split at h
      · simp at h
      · split at h
        · rename_i h2
          have := drive_none one hs cs r1.rest h2
          rw [scan_prefix one hs c inp r1 h1, this]; rfl
        · simp at h

/-- If the whole conversion completes then so does the loop with `inp.length + 1` nonempty
buffers. -/
theorem drive_terminates (one : List α → Option (Option (β × List α))) (hs : Shrinks one) :
    ∀ (n : Nat) (inp : List α) (w : CallRes Unit α β) (c : Nat), 0 < c → inp.length ≤ n →
      whole one inp = some w → w.status = .ok →
      driveU (scan one) inp (List.replicate (n + 1) c) = some w := by
  intro n
  induction n with
  | zero =>
    intro inp w c hc hl hw hok
    have : inp = [] := by cases inp <;> simp_all
    subst this
    rw [whole_nil] at hw
    simp at hw; subst hw
    simp [List.replicate, driveU, scan]
  | succ n ih =>
    intro inp w c hc hl hw hok
    rw [List.replicate_succ]
    unfold driveU
    cases hcall : scan one c inp with
    | none => rw [scan_none one hs c inp hcall] at hw; simp at hw
    | some r =>
      have hp := scan_prefix one hs c inp r hcall
      have ho := scan_ok one c inp r hcall
      simp only
      cases hst : r.status with
      | ok =>
        simp only
        have hr := ho.mp hst
        rw [hr, whole_nil, hw] at hp
        simp at hp
        subst hp
        cases r; simp_all
      | incomplete =>
        simp only
        have hlt : r.rest.length < inp.length := by
          cases inp with
          | nil =>
            unfold scan at hcall; simp at hcall; subst hcall; simp at hst
          | cons b rest =>
            obtain ⟨c', rfl⟩ : ∃ c', c = c' + 1 := ⟨c - 1, by omega⟩
            unfold scan at hcall
            split at hcall
            · simp at hcall
            · rename_i he
              rw [whole_step one hs _ (by simp)] at hw
              simp [he] at hw
              subst hw; simp at hok
            · rename_i v rest' he
              have := hs _ _ _ he
              split at hcall
              · simp at hcall
              · rename_i r' hr'
                simp at hcall; subst hcall
                have := scan_rest_le one hs c' rest' r' hr'
                simp at *; omega
        rw [hw] at hp
        cases hwr : whole one r.rest with
        | none => rw [hwr] at hp; simp at hp
        | some w' =>
          rw [hwr] at hp; simp at hp
          have := ih r.rest w' c hc (by omega) hwr (by rw [hp] at hok; exact hok)
          rw [this]; simp [hp]

/-! ## Encoders: several output characters per input character -/

/-- Facts an encoder call satisfies. -/
structure Encodes (call : Unit → List α → Nat → CallRes Unit α β) (enc : α → List β) (big : Nat) : Prop where
  split : ∀ inp cap, inp.flatMap enc = (call () inp cap).out ++ (call () inp cap).rest.flatMap enc
  ok : ∀ inp cap, (call () inp cap).status = .ok ↔ (call () inp cap).rest = []
  progress : ∀ inp cap, big ≤ cap → (call () inp cap).status = .ok ∨
    (call () inp cap).rest.length < inp.length
  room : ∀ inp cap, (inp.flatMap enc).length + big ≤ cap → (call () inp cap).status = .ok

theorem drive_encodes {call : Unit → List α → Nat → CallRes Unit α β} {enc : α → List β} {big : Nat}
    (h : Encodes call enc big) : ∀ (caps : List Nat) (inp : List α),
    inp.flatMap enc = (drive call () inp caps).out ++ (drive call () inp caps).rest.flatMap enc ∧
    ((drive call () inp caps).status = .ok → (drive call () inp caps).rest = [])
  | [], inp => by simp [drive]
  | c :: cs, inp => by
    unfold drive
    simp only
    cases hst : (call () inp c).status with
    | ok => simp only; exact ⟨h.split inp c, fun _ => (h.ok inp c).mp hst⟩
    | incomplete =>
      simp only
      obtain ⟨a, b⟩ := drive_encodes h cs (call () inp c).rest
      refine ⟨?_, b⟩
      rw [h.split inp c, List.append_assoc]
      exact congrArg _ a

theorem drive_encodes_ok {call : Unit → List α → Nat → CallRes Unit α β} {enc : α → List β}
    {big : Nat} (h : Encodes call enc big) (caps : List Nat) (inp : List α)
    (hok : (drive call () inp caps).status = .ok) :
    (drive call () inp caps).out = inp.flatMap enc := by
  obtain ⟨a, b⟩ := drive_encodes h caps inp
  rw [b hok] at a
  simpa using a.symm

theorem drive_encodes_terminates {call : Unit → List α → Nat → CallRes Unit α β} {enc : α → List β}
    {big : Nat} (h : Encodes call enc big) (c : Nat) (hc : big ≤ c) : ∀ (n : Nat) (inp : List α),
    inp.length ≤ n → (drive call () inp (List.replicate (n + 1) c)).status = .ok := by
  intro n
  induction n with
  | zero =>
    intro inp hl
    have : inp = [] := by cases inp <;> simp_all
    subst this
    rw [List.replicate_succ]; unfold drive; simp only
    rcases h.progress [] c hc with h' | h'
    · simp [h']
    · simp at h'
  | succ n ih =>
    intro inp hl
    rw [List.replicate_succ]
    unfold drive; simp only
    cases hst : (call () inp c).status with
    | ok => simp [hst]
    | incomplete =>
      simp only
      apply ih
      rcases h.progress inp c hc with h' | h'
      · rw [hst] at h'; cases h'
      · omega

/-- Build an `Encodes` from the shape shared by the three encoders. -/
theorem encodes_of_shape (call : Unit → List α → Nat → CallRes Unit α β) (enc : α → List β)
    (big : Nat)
    (h0 : ∀ cap, call () [] cap = ⟨.ok, (), [], []⟩)
    (h1 : ∀ c cs cap, (call () (c :: cs) cap = ⟨.incomplete, (), c :: cs, []⟩ ∧
          cap < (enc c).length + big) ∨
        call () (c :: cs) cap = { call () cs (cap - (enc c).length) with
          out := enc c ++ (call () cs (cap - (enc c).length)).out })
    (big' : Nat) (hb : ∀ c : α, (enc c).length + big ≤ big') : Encodes call enc big' := by
  have hrle : ∀ inp cap, (call () inp cap).rest.length ≤ inp.length := by
    intro inp
    induction inp with
    | nil => intro cap; simp [h0]
    | cons c cs ih =>
      intro cap
      rcases h1 c cs cap with ⟨h, _⟩ | h
      · simp [h]
      · rw [h]; have := ih (cap - (enc c).length); simp; omega
  constructor
  · intro inp
    induction inp with
    | nil => intro cap; simp [h0]
    | cons c cs ih =>
      intro cap
      rcases h1 c cs cap with ⟨h, _⟩ | h
      · simp [h]
      · rw [h]; simp; exact ih (cap - (enc c).length)
  · intro inp
    induction inp with
    | nil => intro cap; simp [h0]
    | cons c cs ih =>
      intro cap
      rcases h1 c cs cap with ⟨h, _⟩ | h
      · simp [h]
      · rw [h]; simp; exact ih (cap - (enc c).length)
  · intro inp cap hcap
    cases inp with
    | nil => left; simp [h0]
    | cons c cs =>
      rcases h1 c cs cap with ⟨h, hlt⟩ | h
      · have := hb c; omega
      · right; rw [h]; have := hrle cs (cap - (enc c).length); simp; omega
  · intro inp
    induction inp with
    | nil => intro cap _; simp [h0]
    | cons c cs ih =>
      intro cap hcap
      simp only [List.flatMap_cons, List.length_append] at hcap
      rcases h1 c cs cap with ⟨h, hlt⟩ | h
      · have := hb c; omega
      · rw [h]; simp; apply ih; omega

end Verif.Unicode
