import Verif.Lemmas.Socket
set_option autoImplicit false
set_option linter.unusedSimpArgs false
set_option linter.unusedVariables false
/-!
# Socket streams: when reading is undefined, and writing
-/
namespace Verif.Socket
open Verif.Spec.Socket

theorem stays_of {os : List Op} (h : Stays os) : ∀ o ∈ os, o.stays = true := by
  intro o ho
  cases o with
  | close => exact absurd ho h.1
  | connect => exact absurd ho h.2
  | _ => rfl

/-- What `readSocket` does with a piece that fits. -/
theorem read_shape {s : Sock} {n : Net} {c : UInt8} {ds : List UInt8} {r : List (Option (List UInt8))}
    (hl : s.inb.length = 0 ∨ s.inb.length = 1028) (h1 : s.eback ≤ s.g) (h2 : s.g ≤ s.inb.length)
    (hr : n.recvs = some (c :: ds) :: r) (hd : ds.length + 1 ≤ 1024) :
    (readSocket s n = .undefined ∧ (min (s.g - s.eback) 4 ≠ 0 ∧ 4 - min (s.g - s.eback) 4 < s.g ∧ s.g - min (s.g - s.eback) 4 < 4)) ∨
    (¬ (min (s.g - s.eback) 4 ≠ 0 ∧ 4 - min (s.g - s.eback) 4 < s.g ∧ s.g - min (s.g - s.eback) 4 < 4) ∧
    ∃ b, b.length = 1028 ∧ readSocket s n = .done (ds.length + 1,
      { s with inb := b, eback := 4 - min (s.g - s.eback) 4, g := 4, eg := 4 + (ds.length + 1) }, { n with recvs := r })) := by
  generalize hinb : (if s.inb.length = 0 then List.replicate (bufferSize + pbSize) 0 else s.inb) = inb
  have hlen : inb.length = 1028 := by
    rw [← hinb]
    split
    · rw [List.length_replicate]; rfl
    · omega
  have hps : pbSize = 4 := rfl
  rw [hps] at hinb
  generalize hpb : min (s.g - s.eback) 4 = pb
  by_cases hu : pb ≠ 0 ∧ 4 - pb < s.g ∧ s.g - pb < 4
  · left
    refine ⟨?_, hu⟩
    simp only [readSocket, hps, hpb]
    rw [if_pos hu]
  · right
    refine ⟨hu, ?_⟩
    have htl : ((inb.drop (s.g - pb)).take pb).length = pb := by
      rw [List.length_take, List.length_drop]
      omega
    refine ⟨poke (poke inb (4 - pb) ((inb.drop (s.g - pb)).take pb)) 4 (c :: ds), ?_, ?_⟩
    · have h : (poke inb (4 - pb) ((inb.drop (s.g - pb)).take pb)).length = 1028 := by
        rw [poke_length (by omega), hlen]
      rw [poke_length (by rw [List.length_cons]; omega), h]
    · simp only [readSocket, hps, hpb, hinb]
      rw [if_neg hu]
      have hv : n.recv ((poke inb (4 - pb) ((inb.drop (s.g - pb)).take pb)).length - 4) =
          (some (c :: ds), { n with recvs := r }) := by
        rw [poke_length (by omega), hlen]
        unfold Net.recv
        rw [hr]
        dsimp only
        rw [if_pos (by rw [List.length_cons]; omega)]
      rw [hv]

/-- At the end of a piece there is no overlap. -/
def Fits (s : Sock) (n : Net) : Prop :=
  (s.eg = 0 ∧ s.eback = 0 ∧ ∃ a r, n.recvs = some a :: r ∧ a.length ≤ 1024 ∧ Big r) ∨
  (Big n.recvs ∧ 4 + min (s.eg - s.eback) 4 ≤ s.eg)

theorem read_fits {cs : List UInt8} {pos far : Nat} {s : Sock} {n : Net} (h : Kept cs pos far s n) (hg : s.g = s.eg)
    (hf : Fits s n) :
    readSocket s n ≠ .undefined ∧ ∀ k s' n', readSocket s n = .done (k + 1, s', n') → Fits s' n' := by
  have hps : pbSize = 4 := rfl
  obtain ⟨h1, h2, h3, h4, h5, h6, h7, h8, h9, h10, h11, h12⟩ := h
  have hu : ¬ (min (s.g - s.eback) pbSize ≠ 0 ∧ pbSize - min (s.g - s.eback) pbSize < s.g ∧
      s.g - min (s.g - s.eback) pbSize < pbSize) := by
    rcases hf with ⟨e1, e2, _⟩ | ⟨_, e⟩ <;> rw [hps] <;> omega
  have hn : readSocket s n ≠ .undefined := by
    unfold readSocket
    dsimp only
    rw [if_neg hu]
    generalize n.recv _ = r
    rcases r with ⟨_ | (_ | ⟨c, ds⟩), n'⟩ <;> simp
  refine ⟨hn, ?_⟩
  intro k s' n' hr
  have hcase : ∀ c ds r, n.recvs = some (c :: ds) :: r → ds.length + 1 ≤ 1024 → Big r →
      (s.g = 0 ∧ s.eback = 0 ∨ 4 ≤ ds.length + 1) → Fits s' n' := by
    intro c ds r e hl hb hc
    rcases read_shape h5 h2 (by omega) e hl with ⟨h, _⟩ | ⟨_, b, hb', h⟩
    · exact absurd h hn
    · rw [h] at hr
      cases hr
      right
      refine ⟨hb, ?_⟩
      show 4 + min (4 + (ds.length + 1) - (4 - min (s.g - s.eback) 4)) 4 ≤ 4 + (ds.length + 1)
      omega
  rcases hf with ⟨e1, e2, a, r, ha, hl, hb⟩ | ⟨hb, e⟩
  · cases a with
    | nil =>
      unfold readSocket at hr
      dsimp only at hr
      rw [if_neg hu] at hr
      simp only [Net.recv, ha, List.length_nil, Nat.zero_le, if_true] at hr
      cases hr
    | cons c ds => exact hcase c ds r ha (by simpa using hl) hb (.inl ⟨by omega, e2⟩)
  · match hrs : n.recvs with
    | [] =>
      unfold readSocket at hr
      dsimp only at hr
      rw [if_neg hu] at hr
      simp only [Net.recv, hrs] at hr
      cases hr
    | none :: r =>
      unfold readSocket at hr
      dsimp only at hr
      rw [if_neg hu] at hr
      simp only [Net.recv, hrs] at hr
      cases hr
    | some [] :: r =>
      unfold readSocket at hr
      dsimp only at hr
      rw [if_neg hu] at hr
      simp only [Net.recv, hrs, List.length_nil, Nat.zero_le, if_true] at hr
      cases hr
    | some (c :: ds) :: r =>
      have hb' := hb (c :: ds) (by rw [hrs]; exact List.mem_cons_self)
      rcases hb' with hb' | hb'
      · cases hb'
      · rw [List.length_cons] at hb'
        exact hcase c ds r hrs hb'.2 (fun x hx => hb x (by rw [hrs]; exact List.mem_cons_of_mem _ hx)) (.inr hb'.1)

theorem fits_congr {s s' : Sock} {n n' : Net} (h : Fits s n) (h1 : s'.eback = s.eback) (h2 : s'.eg = s.eg)
    (h3 : n'.recvs = n.recvs) : Fits s' n' := by
  unfold Fits at *
  rw [h1, h2, h3]
  exact h

theorem run_fits (cs : List UInt8) (os : List Op) (ho : ∀ o ∈ os, o.stays = true) (pos far : Nat) (s : Sock) (n : Net)
    (h : Kept cs pos far s n) (hf : Fits s n) : run os s n ≠ .undefined := by
  induction os generalizing pos far s n with
  | nil => intro h; cases h
  | cons o os ih =>
    have ho' : ∀ o ∈ os, o.stays = true := fun o h => ho o (List.mem_cons_of_mem _ h)
    have ih := fun pos far s n h hf => ih ho' pos far s n h hf
    have h0 := ho o List.mem_cons_self
    have fin : ∀ {g : Given} {s' : Sock} {n' : Net}, step s n o = .done (g, s', n') → run os s' n' ≠ .undefined →
        run (o :: os) s n ≠ .undefined := by
      intro g s' n' hs hr
      rw [run, hs]
      dsimp only
      cases hrun : run os s' n' with
      | undefined => exact absurd hrun hr
      | done x => intro k; cases k
    cases o with
    | close => exact absurd h0 (by decide)
    | connect => exact absurd h0 (by decide)
    | put c =>
      have hs := sputc_same s c
      exact fin rfl (ih pos far _ _ (kept_congr h hs.1 hs.2.1 hs.2.2.1 hs.2.2.2.1 hs.2.2.2.2 rfl)
        (fits_congr hf hs.2.2.1 hs.2.2.2.2 rfl))
    | flush =>
      have hs := writeSocket_same s n
      exact fin rfl (ih pos far _ _ (kept_congr h hs.1 hs.2.1 hs.2.2.1 hs.2.2.2.1 hs.2.2.2.2.1 hs.2.2.2.2.2)
        (fits_congr hf hs.2.2.1 hs.2.2.2.2.1 hs.2.2.2.2.2))
    | unget =>
      rcases unget_good h with ⟨hg, hp⟩ | ⟨q, c, s', rfl, hg, hc, hk⟩
      · exact fin (by rw [step, hg]) (ih _ _ _ _ h hf)
      · refine fin (by rw [step, hg]) (ih _ _ _ _ hk ?_)
        have : s' = { s with g := s.g - 1 } := by
          unfold sungetc at hg
          split at hg
          · cases hg; rfl
          · cases hg
        rw [this]
        exact fits_congr hf rfl rfl rfl
    | get =>
      by_cases hg : s.g < s.eg
      · have hs : sbumpc s n = .done (some (s.inb.getD s.g 0), { s with g := s.g + 1 }, n) := by
          unfold sbumpc; rw [if_pos hg]
        exact fin (by rw [step, hs]) (ih _ _ _ _ (bump_kept h hg).2 (fits_congr hf rfl rfl rfl))
      · have he : s.g = s.eg := by have := h.le2; omega
        obtain ⟨f1, f2⟩ := read_fits h he hf
        have hs : sbumpc s n = match readSocket s n with
            | .done (0, s, n) => .done (none, s, n)
            | .done (_ + 1, s, n) => .done (some (s.inb.getD s.g 0), { s with g := s.g + 1 }, n)
            | .undefined => .undefined := by
          unfold sbumpc
          rw [if_neg hg, if_pos h.opened]
          rfl
        rcases read_good h he with hr | ⟨hp, s', n', hr, hc⟩ | ⟨k, s', n', hr, hk, hl⟩
        · exact absurd hr f1
        · rw [hr] at hs
          refine fin (by rw [step, hs]) ?_
          obtain ⟨rs, s'', n'', hr, _⟩ := run_closed os ho' s' n' hc
          rw [hr]
          intro k; cases k
        · rw [hr] at hs
          exact fin (by rw [step, hs]) (ih _ _ _ _ (bump_kept hk hl).2 (fits_congr (f2 _ _ _ hr) rfl rfl rfl))

/-! ## Pieces that are too short -/

theorem gets_through (k : Nat) (os : List Op) (s : Sock) (n : Net) (h : s.g + k ≤ s.eg)
    (hr : run os { s with g := s.g + k } n = .undefined) : run (List.replicate k .get ++ os) s n = .undefined := by
  induction k generalizing s with
  | zero => exact hr
  | succ k ih =>
    rw [List.replicate_succ, List.cons_append, run, step]
    have hs : sbumpc s n = .done (some (s.inb.getD s.g 0), { s with g := s.g + 1 }, n) := by
      unfold sbumpc; rw [if_pos (by omega)]
    rw [hs]
    dsimp only
    rw [ih { s with g := s.g + 1 } (by show s.g + 1 + k ≤ s.eg; omega) (by rw [← hr]; congr 2; show s.g + 1 + k = _; omega)]

/-- At the end of a piece. -/
structure AtEnd (s : Sock) : Prop where
  opened : s.isOpen = true
  le : s.eback ≤ s.g
  len : s.inb.length = 0 ∨ s.inb.length = 1028
  le2 : s.g ≤ s.inb.length
  last : s.g = s.eg

theorem piece_undefined {s : Sock} {n : Net} {c : UInt8} {ds : List UInt8} {r : List (Option (List UInt8))} {os : List Op}
    (h : AtEnd s) (hr : n.recvs = some (c :: ds) :: r) (hd : ds.length + 1 ≤ 1024)
    (hn : ∀ b : List UInt8, b.length = 1028 → run os
      { s with inb := b, eback := 4 - min (s.g - s.eback) 4, g := 4 + (ds.length + 1), eg := 4 + (ds.length + 1) }
      { n with recvs := r } = .undefined) :
    run (List.replicate (ds.length + 1) .get ++ os) s n = .undefined := by
  have hs : sbumpc s n = match readSocket s n with
      | .done (0, s, n) => .done (none, s, n)
      | .done (_ + 1, s, n) => .done (some (s.inb.getD s.g 0), { s with g := s.g + 1 }, n)
      | .undefined => .undefined := by
    unfold sbumpc
    rw [if_neg (by have := h.last; omega), if_pos h.opened]
    rfl
  rw [List.replicate_succ, List.cons_append, run, step]
  rcases read_shape h.len h.le h.le2 hr hd with ⟨k, _⟩ | ⟨_, b, hb, k⟩
  · rw [hs, k]
  · rw [hs, k]
    dsimp only
    rw [gets_through ds.length os _ _ (by show 4 + 1 + ds.length ≤ 4 + (ds.length + 1); omega)]
    rw [← hn b hb]
    congr 2
    show 4 + 1 + ds.length = 4 + (ds.length + 1)
    omega

theorem pieces_undefined (ps : List (List UInt8)) (c : List UInt8) (r : List (Option (List UInt8))) (s : Sock) (n : Net)
    (h : AtEnd s) (hp : ∀ p ∈ ps, p ≠ [] ∧ p.length ≤ 1024) (hc : c ≠ [] ∧ c.length < 4)
    (hf : ps ≠ [] ∨ s.eback < s.g) (hr : n.recvs = ps.map some ++ some c :: r) :
    run (List.replicate (ps.flatten.length + c.length + 1) .get) s n = .undefined := by
  induction ps generalizing s n with
  | nil =>
    have hf : s.eback < s.g := hf.resolve_left (fun h => h rfl)
    cases c with
    | nil => exact absurd rfl hc.1
    | cons c ds =>
      have hl : ds.length + 1 < 4 := hc.2
      have e : List.replicate (([] : List (List UInt8)).flatten.length + (c :: ds).length + 1) Op.get =
          List.replicate (ds.length + 1) Op.get ++ [Op.get] := by
        rw [← List.replicate_one (a := Op.get), List.replicate_append_replicate]
        congr 1
        simp
      rw [e]
      refine piece_undefined h hr (by omega) ?_
      intro b hb
      rw [run, step]
      have hs : ∀ s' : Sock, s'.isOpen = true → s'.g = s'.eg → ∀ n', readSocket s' n' = .undefined → sbumpc s' n' = .undefined := by
        intro s' a1 a2 n' a3
        unfold sbumpc
        rw [if_neg (by omega), if_pos a1, a3]
      rw [hs { s with inb := b, eback := 4 - min (s.g - s.eback) 4, g := 4 + (ds.length + 1), eg := 4 + (ds.length + 1) } h.opened rfl { n with recvs := r }]
      unfold readSocket
      dsimp only
      rw [if_pos]
      have hps : pbSize = 4 := rfl
      rw [hps]
      omega
  | cons p ps ih =>
    obtain ⟨hp1, hp2⟩ := hp p List.mem_cons_self
    cases p with
    | nil => exact absurd rfl hp1
    | cons d ds =>
      have e : List.replicate (((d :: ds) :: ps).flatten.length + c.length + 1) Op.get =
          List.replicate (ds.length + 1) Op.get ++ List.replicate (ps.flatten.length + c.length + 1) Op.get := by
        rw [List.replicate_append_replicate]
        congr 1
        simp only [List.flatten_cons, List.length_append, List.length_cons]
        omega
      rw [e]
      rw [List.length_cons] at hp2
      refine piece_undefined h hr hp2 ?_
      intro b hb
      refine ih _ _ ⟨h.opened, ?_, .inr hb, ?_, rfl⟩ (fun p h => hp p (List.mem_cons_of_mem _ h)) (.inr ?_) rfl
      · show 4 - min (s.g - s.eback) 4 ≤ 4 + (ds.length + 1); omega
      · show 4 + (ds.length + 1) ≤ b.length; omega
      · show 4 - min (s.g - s.eback) 4 < 4 + (ds.length + 1); omega

/-! ## Writing -/

theorem run_append (os os' : List Op) (s : Sock) (n : Net) :
    run (os ++ os') s n = match run os s n with
      | .undefined => .undefined
      | .done (rs, s, n) => match run os' s n with
        | .undefined => .undefined
        | .done (rs', s, n) => .done (rs ++ rs', s, n) := by
  induction os generalizing s n with
  | nil =>
    rw [List.nil_append, run]
    dsimp only
    cases run os' s n with
    | undefined => rfl
    | done x => rfl
  | cons o os ih =>
    rw [List.cons_append, run, run]
    cases step s n o with
    | undefined => rfl
    | done x =>
      obtain ⟨r, s1, n1⟩ := x
      dsimp only
      rw [ih]
      cases run os s1 n1 with
      | undefined => rfl
      | done y =>
        obtain ⟨rs, s2, n2⟩ := y
        dsimp only
        cases run os' s2 n2 with
        | undefined => rfl
        | done z => rfl

/-- What has been put and not sent. -/
def pending (s : Sock) : List UInt8 := s.out.take s.p

/-- The output buffer is as it should be. -/
def Sound (s : Sock) : Prop := s.ep = s.out.length ∧ s.p ≤ s.ep

theorem store_sound {s : Sock} {c : UInt8} (h : Sound s) (hp : s.p < s.ep) :
    Sound (store s c) ∧ pending (store s c) = pending s ++ [c] := by
  obtain ⟨h1, h2⟩ := h
  have hl : (poke s.out s.p [c]).length = s.out.length := poke_length (by rw [List.length_singleton]; omega)
  constructor
  · exact ⟨by show s.ep = (poke s.out s.p [c]).length; rw [hl, h1], by show s.p + 1 ≤ s.ep; omega⟩
  · show (poke s.out s.p [c]).take (s.p + 1) = s.out.take s.p ++ [c]
    have ht : (s.out.take s.p ++ [c]).length = s.p + 1 := by
      rw [List.length_append, List.length_take, List.length_singleton]; omega
    unfold poke
    rw [← ht, List.take_left]

theorem put_sound {s : Sock} {c : UInt8} (h : Sound s) (ho : s.isOpen = true) :
    (sputc s c).1 = true ∧ Sound (sputc s c).2 ∧ pending (sputc s c).2 = pending s ++ [c] := by
  unfold sputc
  by_cases hp : s.p < s.ep
  · rw [if_pos hp]
    exact ⟨rfl, store_sound h hp⟩
  · rw [if_neg hp, if_pos ho]
    obtain ⟨h1, h2⟩ := h
    have hpe : s.p = s.out.length := by omega
    have hb : bufferSize = 1024 := rfl
    have hsnd : Sound (growOut s) := by
      unfold growOut Sound
      dsimp only
      rw [List.length_append, List.length_replicate]
      split <;> omega
    have hlt : (growOut s).p < (growOut s).ep := by
      unfold growOut
      dsimp only
      split <;> omega
    have hpn : pending (growOut s) = pending s := by
      unfold pending growOut
      dsimp only
      rw [List.take_left, hpe, List.take_length]
    have := store_sound (c := c) hsnd hlt
    exact ⟨rfl, this.1, by rw [this.2, hpn]⟩

theorem puts_good (xs : List UInt8) (s : Sock) (n : Net) (h : Sound s) (ho : s.isOpen = true) :
    ∃ s', run (xs.map .put) s n = .done (List.replicate xs.length (.ok true), s', n) ∧ Sound s' ∧ s'.isOpen = true ∧
      pending s' = pending s ++ xs ∧ s'.inb = s.inb ∧ s'.eback = s.eback ∧ s'.g = s.g ∧ s'.eg = s.eg := by
  induction xs generalizing s with
  | nil => exact ⟨s, rfl, h, ho, by simp, rfl, rfl, rfl, rfl⟩
  | cons x xs ih =>
    obtain ⟨p1, p2, p3⟩ := put_sound (c := x) h ho
    have hs := sputc_same s x
    obtain ⟨s', i1, i2, i3, i4, i5, i6, i7, i8⟩ := ih (sputc s x).2 p2 (hs.1.trans ho)
    refine ⟨s', ?_, i2, i3, by rw [i4, p3, List.append_assoc]; rfl, i5.trans hs.2.1, i6.trans hs.2.2.1, i7.trans hs.2.2.2.1,
      i8.trans hs.2.2.2.2⟩
    rw [List.map_cons, run, step]
    dsimp only
    rw [i1, p1]
    rfl

theorem push_sent {n : Net} {a : List UInt8} {older : List (List UInt8)} (h : n.sent = a :: older) (bs : List UInt8) :
    (n.push bs).sent = (a ++ bs) :: older ∧ (n.push bs).sends = n.sends := by
  unfold Net.push
  rw [h]
  exact ⟨rfl, rfl⟩

/-- Sends that send everything or fail. -/
def WholeSends (ss : List Sending) : Prop := ∀ k, .part k ∉ ss

theorem write_good {s : Sock} {n : Net} {a : List UInt8} {older : List (List UInt8)} (h : Sound s) (ho : s.isOpen = true)
    (hs : WholeSends n.sends) (hn : n.sent = a :: older) :
    Sound (writeSocket s n).2.1 ∧ WholeSends (writeSocket s n).2.2.sends ∧
    ∃ a', (writeSocket s n).2.2.sent = a' :: older ∧ a' ++ pending (writeSocket s n).2.1 = a ++ pending s ∧
      ((writeSocket s n).1 = true → pending (writeSocket s n).2.1 = []) ∧
      (.fails ∉ n.sends → (writeSocket s n).1 = true ∧ .fails ∉ (writeSocket s n).2.2.sends) := by
  unfold writeSocket
  by_cases hp : s.p = 0
  · rw [if_pos hp]
    exact ⟨h, hs, a, hn, rfl, fun _ => by unfold pending; rw [hp]; rfl, fun hf => ⟨rfl, hf⟩⟩
  · rw [if_neg hp, if_pos ho]
    unfold Net.send
    match hss : n.sends with
    | [] =>
      have := push_sent hn (s.out.take s.p)
      refine ⟨⟨rfl, Nat.zero_le _⟩, by dsimp only; rw [this.2]; exact hs, _, this.1, ?_, fun _ => rfl, fun _ => ⟨rfl, by rw [this.2, hss]; simp⟩⟩
      show a ++ s.out.take s.p ++ [] = _
      rw [List.append_nil]; rfl
    | .fails :: r =>
      rw [hss] at hs
      refine ⟨h, fun k hk => hs k (List.mem_cons_of_mem _ hk), a, hn, rfl, fun h => (by cases h), fun hf => absurd List.mem_cons_self hf⟩
    | .all :: r =>
      rw [hss] at hs
      have := push_sent (n := { n with sends := r }) hn (s.out.take s.p)
      refine ⟨⟨rfl, Nat.zero_le _⟩, by dsimp only; rw [this.2]; exact fun k hk => hs k (List.mem_cons_of_mem _ hk), _, this.1, ?_, fun _ => rfl,
        fun hf => ⟨rfl, by dsimp only; rw [this.2]; exact fun k => hf (List.mem_cons_of_mem _ k)⟩⟩
      show a ++ s.out.take s.p ++ [] = _
      rw [List.append_nil]; rfl
    | .part k :: r =>
      rw [hss] at hs
      exact absurd List.mem_cons_self (hs k)

theorem recv_same (n : Net) (m : Nat) : (n.recv m).2.sends = n.sends ∧ (n.recv m).2.sent = n.sent := by
  unfold Net.recv
  split
  · exact ⟨rfl, rfl⟩
  · exact ⟨rfl, rfl⟩
  · split <;> exact ⟨rfl, rfl⟩

theorem close_same (s : Sock) : (close s).2.out = s.out ∧ (close s).2.p = s.p ∧ (close s).2.ep = s.ep := by
  unfold close
  split <;> exact ⟨rfl, rfl, rfl⟩

theorem read_same {s s' : Sock} {n n' : Net} {k : Nat} (h : readSocket s n = .done (k, s', n')) :
    s'.out = s.out ∧ s'.p = s.p ∧ s'.ep = s.ep ∧ n'.sends = n.sends ∧ n'.sent = n.sent := by
  unfold readSocket at h
  dsimp only at h
  split at h
  · cases h
  · split at h <;> rename_i hr <;> cases h <;> have hs := congrArg (fun x : Option (List UInt8) × Net => (x.2.sends, x.2.sent)) hr <;>
      simp only [(recv_same n _).1, (recv_same n _).2, Prod.mk.injEq] at hs <;> replace hs := And.intro hs.1.symm hs.2.symm
    · exact ⟨(close_same _).1, (close_same _).2.1, (close_same _).2.2, hs⟩
    · exact ⟨(close_same _).1, (close_same _).2.1, (close_same _).2.2, hs⟩
    · exact ⟨rfl, rfl, rfl, hs⟩

theorem get_same {s s' : Sock} {n n' : Net} {c : Option UInt8} (h : sbumpc s n = .done (c, s', n')) :
    s'.out = s.out ∧ s'.p = s.p ∧ s'.ep = s.ep ∧ n'.sends = n.sends ∧ n'.sent = n.sent := by
  unfold sbumpc at h
  split at h
  · cases h; exact ⟨rfl, rfl, rfl, rfl, rfl⟩
  · split at h
    · split at h
      · rename_i hr; cases h; exact read_same hr
      · rename_i hr; cases h; have := read_same hr; exact this
      · cases h
    · cases h; exact ⟨rfl, rfl, rfl, rfl, rfl⟩

theorem unget_same (s : Sock) : (sungetc s).2.out = s.out ∧ (sungetc s).2.p = s.p ∧ (sungetc s).2.ep = s.ep ∧
    (sungetc s).2.isOpen = s.isOpen := by
  unfold sungetc
  split <;> exact ⟨rfl, rfl, rfl, rfl⟩

theorem get_shut {s s' : Sock} {n n' : Net} {c : Option UInt8} (h : sbumpc s n = .done (c, s', n')) (ho : s.isOpen = false) :
    s'.isOpen = false := by
  unfold sbumpc at h
  split at h
  · cases h; exact ho
  · rw [if_neg (by rw [ho]; decide)] at h
    cases h; exact ho

theorem step_shut {o : Op} (ho : o.stays = true) {s s' : Sock} {n n' : Net} {g : Given} (h : step s n o = .done (g, s', n'))
    (hs : s.isOpen = false) : s'.isOpen = false := by
  cases o with
  | close => exact absurd ho (by decide)
  | connect => exact absurd ho (by decide)
  | put c => rw [step] at h; cases h; rw [(sputc_same s c).1, hs]
  | flush => rw [step] at h; cases h; rw [(writeSocket_same s n).1, hs]
  | unget => rw [step] at h; cases h; rw [(unget_same s).2.2.2, hs]
  | get =>
    rw [step] at h
    cases hb : sbumpc s n with
    | undefined => rw [hb] at h; cases h
    | done x => obtain ⟨c, s1, n1⟩ := x; rw [hb] at h; cases h; exact get_shut hb hs

theorem run_shut (os : List Op) (ho : ∀ o ∈ os, o.stays = true) {s s' : Sock} {n n' : Net} {rs : List Given}
    (h : run os s n = .done (rs, s', n')) (hs : s.isOpen = false) : s'.isOpen = false := by
  induction os generalizing s n rs with
  | nil => rw [run] at h; cases h; exact hs
  | cons o os ih =>
    rw [run] at h
    cases hst : step s n o with
    | undefined => rw [hst] at h; cases h
    | done x =>
      obtain ⟨g, s1, n1⟩ := x
      rw [hst] at h
      dsimp only at h
      cases hr : run os s1 n1 with
      | undefined => rw [hr] at h; cases h
      | done y =>
        obtain ⟨rs1, s2, n2⟩ := y
        rw [hr] at h
        cases h
        exact ih (fun o h => ho o (List.mem_cons_of_mem _ h)) hr (step_shut (ho o List.mem_cons_self) hst hs)

/-- Nothing that is put is lost, sent twice or moved, while the connection stays open. -/
theorem run_writes (os : List Op) (ho : ∀ o ∈ os, o.stays = true) {s s' : Sock} {n n' : Net} {rs : List Given}
    {a : List UInt8} {older : List (List UInt8)} (h : run os s n = .done (rs, s', n')) (hw : Sound s)
    (hs : WholeSends n.sends) (hn : n.sent = a :: older) (hopen : s'.isOpen = true) :
    Sound s' ∧ WholeSends n'.sends ∧ (.fails ∉ n.sends → .fails ∉ n'.sends) ∧
    ∃ a', n'.sent = a' :: older ∧ a' ++ pending s' = a ++ pending s ++ written os := by
  induction os generalizing s n rs a with
  | nil => rw [run] at h; cases h; exact ⟨hw, hs, fun h => h, a, hn, by simp [written]⟩
  | cons o os ih =>
    have ho' : ∀ o ∈ os, o.stays = true := fun o h => ho o (List.mem_cons_of_mem _ h)
    have h0 := ho o List.mem_cons_self
    have hop : s.isOpen = true := by
      cases hb : s.isOpen with
      | true => rfl
      | false => have := run_shut _ ho h hb; rw [hopen] at this; cases this
    rw [run] at h
    cases hst : step s n o with
    | undefined => rw [hst] at h; cases h
    | done x =>
      obtain ⟨g, s1, n1⟩ := x
      rw [hst] at h
      dsimp only at h
      cases hr : run os s1 n1 with
      | undefined => rw [hr] at h; cases h
      | done y =>
        obtain ⟨rs1, s2, n2⟩ := y
        rw [hr] at h
        cases h
        cases o with
        | close => exact absurd h0 (by decide)
        | connect => exact absurd h0 (by decide)
        | put c =>
          rw [step] at hst
          cases hst
          obtain ⟨p1, p2, p3⟩ := put_sound (c := c) hw hop
          obtain ⟨i1, i2, i2', a', i3, i4⟩ := ih ho' hr p2 hs hn
          exact ⟨i1, i2, i2', a', i3, by rw [i4, p3]; simp [written, List.append_assoc]⟩
        | flush =>
          rw [step] at hst
          cases hst
          obtain ⟨w1, w2, a1, w3, w4, w5, w6⟩ := write_good hw hop hs hn
          obtain ⟨i1, i2, i2', a', i3, i4⟩ := ih ho' hr w1 w2 w3
          exact ⟨i1, i2, fun hf => i2' (w6 hf).2, a', i3, by rw [i4, w4]; rfl⟩
        | unget =>
          rw [step] at hst
          cases hst
          have hu := unget_same s
          have hw' : Sound (sungetc s).2 := by unfold Sound; rw [hu.1, hu.2.1, hu.2.2.1]; exact hw
          obtain ⟨i1, i2, i2', a', i3, i4⟩ := ih ho' hr hw' hs hn
          exact ⟨i1, i2, i2', a', i3, by rw [i4]; unfold pending; rw [hu.1, hu.2.1]; rfl⟩
        | get =>
          rw [step] at hst
          cases hb : sbumpc s n with
          | undefined => rw [hb] at hst; cases hst
          | done x =>
            obtain ⟨c, s3, n3⟩ := x
            rw [hb] at hst
            cases hst
            have hu := get_same hb
            have hw' : Sound s1 := by unfold Sound; rw [hu.1, hu.2.1, hu.2.2.1]; exact hw
            obtain ⟨i1, i2, i2', a', i3, i4⟩ := ih ho' hr hw' (by rw [hu.2.2.2.1]; exact hs) (by rw [hu.2.2.2.2]; exact hn)
            exact ⟨i1, i2, by rw [hu.2.2.2.1] at i2'; exact i2', a', i3, by rw [i4]; unfold pending; rw [hu.1, hu.2.1]; rfl⟩

/-! ## Errors -/

/-- Two operating systems that differ in what comes after an error. -/
def Rel (rest : List (Option (List UInt8))) (s : Sock) (n m : Net) : Prop :=
  n.sends = m.sends ∧ n.sent = m.sent ∧ (s.isOpen = false ∨ n.recvs = m.recvs ++ none :: rest)

theorem send_rel {n m : Net} (h1 : n.sends = m.sends) (h2 : n.sent = m.sent) (bs : List UInt8) :
    (n.send bs).1 = (m.send bs).1 ∧ (n.send bs).2.sends = (m.send bs).2.sends ∧ (n.send bs).2.sent = (m.send bs).2.sent := by
  obtain ⟨r, ss, st⟩ := n
  obtain ⟨r', ss', st'⟩ := m
  cases h1
  cases h2
  unfold Net.send
  match ss with
  | [] => unfold Net.push; cases st <;> exact ⟨rfl, rfl, rfl⟩
  | .fails :: _ => exact ⟨rfl, rfl, rfl⟩
  | .all :: _ => unfold Net.push; cases st <;> exact ⟨rfl, rfl, rfl⟩
  | .part k :: _ => unfold Net.push; cases st <;> exact ⟨rfl, rfl, rfl⟩

theorem write_rel {s : Sock} {n m : Net} (h1 : n.sends = m.sends) (h2 : n.sent = m.sent) :
    (writeSocket s n).1 = (writeSocket s m).1 ∧ (writeSocket s n).2.1 = (writeSocket s m).2.1 ∧
    (writeSocket s n).2.2.sends = (writeSocket s m).2.2.sends ∧ (writeSocket s n).2.2.sent = (writeSocket s m).2.2.sent := by
  unfold writeSocket
  split
  · exact ⟨rfl, rfl, h1, h2⟩
  · split
    · obtain ⟨e1, e2, e3⟩ := send_rel h1 h2 (s.out.take s.p)
      cases hn : n.send (s.out.take s.p) with
      | mk b n' =>
        cases hm : m.send (s.out.take s.p) with
        | mk b' m' =>
          rw [hn, hm] at e1 e2 e3
          cases e1
          cases b <;> exact ⟨rfl, rfl, e2, e3⟩
    · exact ⟨rfl, rfl, h1, h2⟩

theorem recv_rel {rest : List (Option (List UInt8))} {n m : Net} (h1 : n.sends = m.sends) (h2 : n.sent = m.sent)
    (h3 : n.recvs = m.recvs ++ none :: rest) (room : Nat) :
    ∃ x y n' m', n.recv room = (x, n') ∧ m.recv room = (y, m') ∧ n'.sends = m'.sends ∧ n'.sent = m'.sent ∧
      (((x = none ∨ x = some []) ∧ (y = none ∨ y = some [])) ∨
        ∃ c cs, x = some (c :: cs) ∧ y = some (c :: cs) ∧ n'.recvs = m'.recvs ++ none :: rest) := by
  obtain ⟨r, ss, st⟩ := n
  obtain ⟨r', ss', st'⟩ := m
  cases h1
  cases h2
  dsimp only at h3
  subst h3
  have hcase : ∀ c : List UInt8, (c = [] ∨ ∃ d ds, c = d :: ds) := by intro c; cases c <;> simp
  match r' with
  | [] => exact ⟨none, some [], ⟨rest, ss, st⟩, ⟨[], ss, st⟩, rfl, rfl, rfl, rfl, .inl ⟨.inl rfl, .inr rfl⟩⟩
  | none :: r' => exact ⟨none, none, ⟨r' ++ none :: rest, ss, st⟩, ⟨r', ss, st⟩, rfl, rfl, rfl, rfl, .inl ⟨.inl rfl, .inl rfl⟩⟩
  | some c :: r' =>
    by_cases hl : c.length ≤ room
    · refine ⟨some c, some c, ⟨r' ++ none :: rest, ss, st⟩, ⟨r', ss, st⟩, ?_, ?_, rfl, rfl, ?_⟩
      · simp only [Net.recv, List.cons_append]; rw [if_pos hl]
      · simp only [Net.recv]; rw [if_pos hl]
      · rcases hcase c with e | ⟨d, ds, e⟩
        · exact .inl ⟨.inr (by rw [e]), .inr (by rw [e])⟩
        · exact .inr ⟨d, ds, by rw [e], by rw [e], rfl⟩
    · refine ⟨some (c.take room), some (c.take room), ⟨some (c.drop room) :: r' ++ none :: rest, ss, st⟩,
        ⟨some (c.drop room) :: r', ss, st⟩, ?_, ?_, rfl, rfl, ?_⟩
      · simp only [Net.recv, List.cons_append]; rw [if_neg hl]
      · simp only [Net.recv]; rw [if_neg hl]
      · rcases hcase (c.take room) with e | ⟨d, ds, e⟩
        · exact .inl ⟨.inr (by rw [e]), .inr (by rw [e])⟩
        · exact .inr ⟨d, ds, by rw [e], by rw [e], rfl⟩

theorem read_rel {rest : List (Option (List UInt8))} {s : Sock} {n m : Net} (h : Rel rest s n m) (ho : s.isOpen = true) :
    (readSocket s n = .undefined ∧ readSocket s m = .undefined) ∨
    ∃ k s' n' m', readSocket s n = .done (k, s', n') ∧ readSocket s m = .done (k, s', m') ∧ Rel rest s' n' m' := by
  obtain ⟨h1, h2, h3⟩ := h
  have h3 := h3.resolve_left (by rw [ho]; decide)
  have hcl : ∀ b, (close { s with inb := b }).2.isOpen = false := fun b => (close_closed { s with inb := b } ho).1
  unfold readSocket
  dsimp only
  split
  · exact .inl ⟨rfl, rfl⟩
  · right
    obtain ⟨x, y, n', m', e1, e2, e3, e4, e5⟩ := recv_rel h1 h2 h3 ((poke (if s.inb.length = 0 then List.replicate (bufferSize + pbSize) 0 else s.inb)
      (pbSize - min (s.g - s.eback) pbSize) (List.take (min (s.g - s.eback) pbSize) (List.drop (s.g - min (s.g - s.eback) pbSize)
        (if s.inb.length = 0 then List.replicate (bufferSize + pbSize) 0 else s.inb)))).length - pbSize)
    rw [e1, e2]
    rcases e5 with ⟨rfl | rfl, rfl | rfl⟩ | ⟨c, cs, rfl, rfl, e5⟩
    · exact ⟨_, _, _, _, rfl, rfl, e3, e4, .inl (hcl _)⟩
    · exact ⟨_, _, _, _, rfl, rfl, e3, e4, .inl (hcl _)⟩
    · exact ⟨_, _, _, _, rfl, rfl, e3, e4, .inl (hcl _)⟩
    · exact ⟨_, _, _, _, rfl, rfl, e3, e4, .inl (hcl _)⟩
    · exact ⟨_, _, _, _, rfl, rfl, e3, e4, .inr e5⟩

theorem get_rel {rest : List (Option (List UInt8))} {s : Sock} {n m : Net} (h : Rel rest s n m) :
    (sbumpc s n = .undefined ∧ sbumpc s m = .undefined) ∨
    ∃ c s' n' m', sbumpc s n = .done (c, s', n') ∧ sbumpc s m = .done (c, s', m') ∧ Rel rest s' n' m' := by
  unfold sbumpc
  split
  · exact .inr ⟨_, _, _, _, rfl, rfl, h⟩
  · split
    · rename_i ho
      rcases read_rel h ho with ⟨e1, e2⟩ | ⟨k, s', n', m', e1, e2, hr⟩
      · rw [e1, e2]; exact .inl ⟨rfl, rfl⟩
      · rw [e1, e2]
        cases k with
        | zero => exact .inr ⟨_, _, _, _, rfl, rfl, hr⟩
        | succ k => exact .inr ⟨_, _, _, _, rfl, rfl, hr⟩
    · exact .inr ⟨_, _, _, _, rfl, rfl, h⟩

theorem run_rel (rest : List (Option (List UInt8))) (os : List Op) (ho : ∀ o ∈ os, o.stays = true) (s : Sock) (n m : Net)
    (h : Rel rest s n m) :
    (run os s n = .undefined ∧ run os s m = .undefined) ∨
    ∃ rs s' n' m', run os s n = .done (rs, s', n') ∧ run os s m = .done (rs, s', m') ∧ n'.sent = m'.sent := by
  induction os generalizing s n m with
  | nil => exact .inr ⟨_, _, _, _, rfl, rfl, h.2.1⟩
  | cons o os ih =>
    have ih := fun s n m h => ih (fun o h => ho o (List.mem_cons_of_mem _ h)) s n m h
    have h0 := ho o List.mem_cons_self
    have fin : ∀ {g : Given} {s' : Sock} {n' m' : Net}, step s n o = .done (g, s', n') → step s m o = .done (g, s', m') →
        Rel rest s' n' m' → (run (o :: os) s n = .undefined ∧ run (o :: os) s m = .undefined) ∨
        ∃ rs s' n' m', run (o :: os) s n = .done (rs, s', n') ∧ run (o :: os) s m = .done (rs, s', m') ∧ n'.sent = m'.sent := by
      intro g s' n' m' e1 e2 hr
      rw [run, run, e1, e2]
      dsimp only
      rcases ih s' n' m' hr with ⟨r1, r2⟩ | ⟨rs, s2, n2, m2, r1, r2, r3⟩
      · rw [r1, r2]; exact .inl ⟨rfl, rfl⟩
      · rw [r1, r2]; exact .inr ⟨_, _, _, _, rfl, rfl, r3⟩
    obtain ⟨h1, h2, h3⟩ := h
    cases o with
    | close => exact absurd h0 (by decide)
    | connect => exact absurd h0 (by decide)
    | put c => exact fin rfl rfl ⟨h1, h2, by rw [(sputc_same s c).1]; exact h3⟩
    | unget => exact fin rfl rfl ⟨h1, h2, by rw [(unget_same s).2.2.2]; exact h3⟩
    | flush =>
      obtain ⟨e1, e2, e3, e4⟩ := write_rel (s := s) h1 h2
      refine fin rfl (by rw [step, ← e1, ← e2]) ⟨e3, e4, ?_⟩
      rw [(writeSocket_same s n).1, (writeSocket_same s n).2.2.2.2.2, (writeSocket_same s m).2.2.2.2.2]
      exact h3
    | get =>
      rcases get_rel ⟨h1, h2, h3⟩ with ⟨e1, e2⟩ | ⟨c, s', n', m', e1, e2, hr⟩
      · left
        rw [run, run, step, step, e1, e2]
        exact ⟨rfl, rfl⟩
      · exact fin (by rw [step, e1]) (by rw [step, e2]) hr

end Verif.Socket
