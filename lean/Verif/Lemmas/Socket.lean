import Verif.Spec.Socket
set_option autoImplicit false
set_option linter.unusedSimpArgs false
set_option linter.unusedVariables false
/-!
# Socket streams: reading
-/
namespace Verif.Socket
open Verif.Spec.Socket

theorem poke_length {buf bs : List UInt8} {i : Nat} (h : i + bs.length ≤ buf.length) : (poke buf i bs).length = buf.length := by
  simp only [poke, List.length_append, List.length_take, List.length_drop]
  omega

theorem poke_get {buf bs : List UInt8} {i : Nat} (h : i + bs.length ≤ buf.length) (j : Nat) :
    (poke buf i bs)[j]? = if j < i then buf[j]? else if j < i + bs.length then bs[j - i]? else buf[j]? := by
  have hl : (buf.take i).length = i := by rw [List.length_take]; omega
  unfold poke
  rw [List.append_assoc]
  by_cases h1 : j < i
  · rw [if_pos h1, List.getElem?_append_left (by omega), List.getElem?_take_of_lt h1]
  · rw [if_neg h1, List.getElem?_append_right (by omega), hl]
    by_cases h2 : j < i + bs.length
    · rw [if_pos h2, List.getElem?_append_left (by omega)]
    · rw [if_neg h2, List.getElem?_append_right (by omega), List.getElem?_drop]
      congr 1
      omega

/-- What `recv` gives is the beginning of what arrives. -/
theorem recv_arriving (n : Net) {room : Nat} (hr : 0 < room) :
    (arriving n.recvs = [] ∧ (∃ n', n.recv room = (none, n') ∨ n.recv room = (some [], n'))) ∨
    ∃ c cs n', n.recv room = (some (c :: cs), n') ∧ cs.length + 1 ≤ room ∧ arriving n.recvs = c :: cs ++ arriving n'.recvs := by
  obtain ⟨rs, ss, st⟩ := n
  match rs with
  | [] => exact .inl ⟨rfl, _, .inr rfl⟩
  | none :: r => exact .inl ⟨rfl, _, .inl rfl⟩
  | some [] :: r => exact .inl ⟨rfl, _, .inr (by simp [Net.recv]; rfl)⟩
  | some (c :: cs) :: r =>
    right
    by_cases h : cs.length + 1 ≤ room
    · exact ⟨c, cs, ⟨r, ss, st⟩, by simp [Net.recv, h], h, rfl⟩
    · obtain ⟨k, rfl⟩ : ∃ k, room = k + 1 := ⟨room - 1, by omega⟩
      refine ⟨c, cs.take k, ⟨some (cs.drop k) :: r, ss, st⟩, ?_, ?_, ?_⟩
      · simp only [Net.recv, List.length_cons]
        rw [if_neg h]
        simp
      · rw [List.length_take]; omega
      · match hd : cs.drop k with
        | [] =>
          have := congrArg List.length hd
          rw [List.length_drop, List.length_nil] at this
          omega
        | d :: ds =>
          show c :: cs ++ arriving r = c :: cs.take k ++ (d :: ds ++ arriving r)
          rw [← hd, ← List.append_assoc, List.cons_append, List.cons_append, List.cons_append, List.take_append_drop]

/-- The stream at the place `pos` of what arrives, of which `far` have been read. -/
structure Kept (cs : List UInt8) (pos far : Nat) (s : Sock) (n : Net) : Prop where
  opened : s.isOpen = true
  le1 : s.eback ≤ s.g
  le2 : s.g ≤ s.eg
  le3 : s.eg ≤ s.inb.length
  len : s.inb.length = 0 ∨ s.inb.length = 1028
  back : s.g ≤ pos + s.eback
  mem : ∀ i, s.eback ≤ i → i < s.eg → s.inb[i]? = cs[pos + i - s.g]?
  rest : arriving n.recvs = cs.drop (pos + (s.eg - s.g))
  total : pos + (s.eg - s.g) ≤ cs.length
  far1 : pos ≤ far
  far2 : far ≤ pos + (s.eg - s.g)
  edge : pos + s.eback = s.g ∨ pos + s.eback + 4 ≤ s.g + far

theorem kept_start (s : Sock) (n : Net) (h1 : s.isOpen = true) (h2 : s.inb.length = 0 ∨ s.inb.length = 1028)
    (h3 : s.eback = 0) (h4 : s.g = 0) (h5 : s.eg = 0) : Kept (arriving n.recvs) 0 0 s n where
  opened := h1
  le1 := by omega
  le2 := by omega
  le3 := by omega
  len := h2
  back := by omega
  mem := by intro i _ h; omega
  rest := by rw [h5, h4]; rfl
  total := by omega
  far1 := by omega
  far2 := by omega
  edge := by omega

theorem kept_congr {cs : List UInt8} {pos far : Nat} {s s' : Sock} {n n' : Net} (h : Kept cs pos far s n)
    (h1 : s'.isOpen = s.isOpen) (h2 : s'.inb = s.inb) (h3 : s'.eback = s.eback) (h4 : s'.g = s.g) (h5 : s'.eg = s.eg)
    (h6 : n'.recvs = n.recvs) : Kept cs pos far s' n' := by
  obtain ⟨a, b, c, d, e, f, g, i, j, k, l, m⟩ := h
  refine ⟨?_, ?_, ?_, ?_, ?_, ?_, ?_, ?_, ?_, ?_, ?_, ?_⟩ <;> first | assumption | (simp only [h1, h2, h3, h4, h5, h6]; assumption)

/-- The end of a connection. -/
def Closed (s : Sock) : Prop := s.isOpen = false ∧ s.eback = 0 ∧ s.g = 0 ∧ s.eg = 0

theorem close_closed (s : Sock) (h : s.isOpen = true) : Closed (close s).2 := by
  unfold close Closed
  rw [if_pos h]
  exact ⟨rfl, rfl, rfl, rfl⟩

theorem read_good {cs : List UInt8} {pos far : Nat} {s : Sock} {n : Net} (h : Kept cs pos far s n) (hg : s.g = s.eg) :
    readSocket s n = .undefined ∨
    (pos = cs.length ∧ ∃ s' n', readSocket s n = .done (0, s', n') ∧ Closed s') ∨
    ∃ k s' n', readSocket s n = .done (k + 1, s', n') ∧ Kept cs pos far s' n' ∧ s'.g < s'.eg := by
  obtain ⟨h1, h2, h3, h4, h5, h6, h7, h8, h9, h10, h11, h12⟩ := h
  generalize hinb : (if s.inb.length = 0 then List.replicate (bufferSize + pbSize) 0 else s.inb) = inb
  have hlen : inb.length = 1028 := by
    rw [← hinb]
    split
    · rw [List.length_replicate]; rfl
    · omega
  have hmem : ∀ i, s.eback ≤ i → i < s.eg → inb[i]? = cs[pos + i - s.g]? := by
    intro i hi1 hi2
    rw [← hinb, if_neg (by omega)]
    exact h7 i hi1 hi2
  have hg4 : s.g ≤ 1028 := by omega
  generalize hpb : min (s.g - s.eback) pbSize = pb
  have hpb' : pb ≤ 4 ∧ pb ≤ s.g - s.eback := by
    rw [← hpb]
    have : pbSize = 4 := rfl
    omega
  by_cases hu : pb ≠ 0 ∧ pbSize - pb < s.g ∧ s.g - pb < pbSize
  · left
    simp only [readSocket, hpb]
    rw [if_pos hu]
  · right
    generalize hc : poke inb (pbSize - pb) ((inb.drop (s.g - pb)).take pb) = inb'
    have htl : ((inb.drop (s.g - pb)).take pb).length = pb := by
      rw [List.length_take, List.length_drop]; omega
    have hps : pbSize = 4 := rfl
    have hlen' : inb'.length = 1028 := by
      rw [← hc, poke_length (by omega), hlen]
    have hback : ∀ i, 4 - pb ≤ i → i < 4 → inb'[i]? = cs[pos + i - 4]? := by
      intro i hi1 hi2
      rw [← hc, poke_get (by omega), if_neg (by omega), if_pos (by omega), List.getElem?_take_of_lt (by omega),
        List.getElem?_drop, hmem _ (by omega) (by omega)]
      congr 1
      omega
    have hrun : readSocket s n = match n.recv (inb'.length - pbSize) with
        | (none, n) => .done (0, (close { s with inb := inb' }).2, n)
        | (some [], n) => .done (0, (close { s with inb := inb' }).2, n)
        | (some (c :: cs), n) =>
          .done (cs.length + 1, { s with inb := poke inb' pbSize (c :: cs), eback := pbSize - pb, g := pbSize, eg := pbSize + (cs.length + 1) }, n) := by
      simp only [readSocket, hpb, hinb, hc]
      rw [if_neg hu]
      generalize n.recv _ = r
      rcases r with ⟨_ | (_ | ⟨c, ds⟩), n'⟩ <;> rfl
    rcases recv_arriving n (room := inb'.length - pbSize) (by omega) with ⟨ha, n', hn⟩ | ⟨c, ds, n', hn, hroom, ha⟩
    · left
      have hpos : pos = cs.length := by
        rw [ha] at h8
        have := congrArg List.length h8
        rw [List.length_drop, List.length_nil] at this
        omega
      rcases hn with hn | hn <;> rw [hn] at hrun <;>
        exact ⟨hpos, _, _, hrun, close_closed _ h1⟩
    · right
      rw [hn] at hrun
      have hroom' : ds.length + 1 ≤ 1024 := by omega
      have hpl : (poke inb' pbSize (c :: ds)).length = 1028 := by
        rw [poke_length (by rw [List.length_cons]; omega), hlen']
      have hdrop : cs.drop pos = c :: ds ++ arriving n'.recvs := by
        rw [← ha, h8, hg]
        congr 1
        omega
      have hdl := congrArg List.length hdrop
      rw [List.length_drop, List.length_append, List.length_cons] at hdl
      refine ⟨_, _, _, hrun, ⟨h1, ?_, ?_, ?_, ?_, ?_, ?_, ?_, ?_, ?_, ?_, ?_⟩, ?_⟩
      · show pbSize - pb ≤ pbSize; omega
      · show pbSize ≤ pbSize + (ds.length + 1); omega
      · show pbSize + (ds.length + 1) ≤ (poke inb' pbSize (c :: ds)).length; omega
      · exact .inr hpl
      · show pbSize ≤ pos + (pbSize - pb); omega
      · intro i hi1 hi2
        have hi1 : pbSize - pb ≤ i := hi1
        have hi2 : i < pbSize + (ds.length + 1) := hi2
        show (poke inb' pbSize (c :: ds))[i]? = cs[pos + i - pbSize]?
        rw [poke_get (by rw [List.length_cons]; omega)]
        by_cases hi : i < pbSize
        · rw [if_pos hi]
          exact hback i (by omega) hi
        · rw [if_neg hi, if_pos (by rw [List.length_cons]; omega), show pos + i - pbSize = pos + (i - pbSize) by omega,
            ← List.getElem?_drop, hdrop, List.getElem?_append_left (by rw [List.length_cons]; omega)]
      · show arriving n'.recvs = cs.drop (pos + (pbSize + (ds.length + 1) - pbSize))
        rw [← List.drop_drop, hdrop, show pbSize + (ds.length + 1) - pbSize = (c :: ds).length by rw [List.length_cons]; omega,
          List.drop_left]
      · show pos + (pbSize + (ds.length + 1) - pbSize) ≤ cs.length; omega
      · exact h10
      · show far ≤ pos + (pbSize + (ds.length + 1) - pbSize); omega
      · show pos + (pbSize - pb) = pbSize ∨ pos + (pbSize - pb) + 4 ≤ pbSize + far
        omega
      · show pbSize < pbSize + (ds.length + 1); omega

theorem bump_kept {cs : List UInt8} {pos far : Nat} {s : Sock} {n : Net} (h : Kept cs pos far s n) (hg : s.g < s.eg) :
    cs[pos]? = some (s.inb.getD s.g 0) ∧ Kept cs (pos + 1) (max far (pos + 1)) { s with g := s.g + 1 } n := by
  obtain ⟨h1, h2, h3, h4, h5, h6, h7, h8, h9, h10, h11, h12⟩ := h
  constructor
  · have := h7 s.g h2 hg
    rw [show pos + s.g - s.g = pos by omega] at this
    rw [← this, List.getD_eq_getElem?_getD]
    rw [List.getElem?_eq_getElem (by omega)]
    rfl
  · refine ⟨h1, ?_, ?_, h4, h5, ?_, ?_, ?_, ?_, ?_, ?_, ?_⟩
    · show s.eback ≤ s.g + 1; omega
    · show s.g + 1 ≤ s.eg; omega
    · show s.g + 1 ≤ pos + 1 + s.eback; omega
    · intro i hi1 hi2
      show s.inb[i]? = cs[pos + 1 + i - (s.g + 1)]?
      rw [h7 i hi1 hi2]
      congr 1
      omega
    · show arriving n.recvs = cs.drop (pos + 1 + (s.eg - (s.g + 1)))
      rw [h8]; congr 1; omega
    · show pos + 1 + (s.eg - (s.g + 1)) ≤ cs.length; omega
    · omega
    · show max far (pos + 1) ≤ pos + 1 + (s.eg - (s.g + 1)); omega
    · show pos + 1 + s.eback = s.g + 1 ∨ pos + 1 + s.eback + 4 ≤ s.g + 1 + max far (pos + 1); omega

theorem get_good {cs : List UInt8} {pos far : Nat} {s : Sock} {n : Net} (h : Kept cs pos far s n) :
    sbumpc s n = .undefined ∨
    (pos = cs.length ∧ ∃ s' n', sbumpc s n = .done (none, s', n') ∧ Closed s') ∨
    ∃ c s' n', sbumpc s n = .done (some c, s', n') ∧ cs[pos]? = some c ∧ Kept cs (pos + 1) (max far (pos + 1)) s' n' := by
  unfold sbumpc
  by_cases hg : s.g < s.eg
  · rw [if_pos hg]
    have := bump_kept h hg
    exact .inr (.inr ⟨_, _, _, rfl, this.1, this.2⟩)
  · have he : s.g = s.eg := by have := h.le2; omega
    rw [if_neg hg, if_pos h.opened]
    rcases read_good h he with hr | ⟨hp, s', n', hr, hc⟩ | ⟨k, s', n', hr, hk, hl⟩
    · rw [hr]; exact .inl rfl
    · rw [hr]; exact .inr (.inl ⟨hp, _, _, rfl, hc⟩)
    · rw [hr]
      have := bump_kept hk hl
      exact .inr (.inr ⟨_, _, _, rfl, this.1, this.2⟩)

theorem unget_good {cs : List UInt8} {pos far : Nat} {s : Sock} {n : Net} (h : Kept cs pos far s n) :
    ((sungetc s) = (none, s) ∧ (pos = 0 ∨ pos + 4 ≤ far)) ∨
    ∃ q c s', pos = q + 1 ∧ sungetc s = (some c, s') ∧ cs[q]? = some c ∧ Kept cs q far s' n := by
  have hh := h
  obtain ⟨h1, h2, h3, h4, h5, h6, h7, h8, h9, h10, h11, h12⟩ := h
  unfold sungetc
  by_cases hg : s.eback < s.g
  · right
    rw [if_pos hg]
    refine ⟨pos - 1, _, _, by omega, rfl, ?_, ⟨h1, ?_, ?_, h4, h5, ?_, ?_, ?_, ?_, ?_, ?_, ?_⟩⟩
    · have := h7 (s.g - 1) (by omega) (by omega)
      rw [show pos + (s.g - 1) - s.g = pos - 1 by omega] at this
      rw [← this, List.getD_eq_getElem?_getD]
      rw [List.getElem?_eq_getElem (by omega)]
      rfl
    · show s.eback ≤ s.g - 1; omega
    · show s.g - 1 ≤ s.eg; omega
    · show s.g - 1 ≤ pos - 1 + s.eback; omega
    · intro i hi1 hi2
      show s.inb[i]? = cs[pos - 1 + i - (s.g - 1)]?
      rw [h7 i hi1 hi2]
      congr 1
      omega
    · show arriving n.recvs = cs.drop (pos - 1 + (s.eg - (s.g - 1)))
      rw [h8]; congr 1; omega
    · show pos - 1 + (s.eg - (s.g - 1)) ≤ cs.length; omega
    · omega
    · show far ≤ pos - 1 + (s.eg - (s.g - 1)); omega
    · show pos - 1 + s.eback = s.g - 1 ∨ pos - 1 + s.eback + 4 ≤ s.g - 1 + far; omega
  · left
    rw [if_neg hg]
    exact ⟨rfl, by omega⟩

/-- Whether a thing done leaves the connection open. -/
def Op.stays : Op → Bool
  | .close => false
  | .connect => false
  | _ => true

theorem sputc_same (s : Sock) (c : UInt8) : (sputc s c).2.isOpen = s.isOpen ∧ (sputc s c).2.inb = s.inb ∧
    (sputc s c).2.eback = s.eback ∧ (sputc s c).2.g = s.g ∧ (sputc s c).2.eg = s.eg := by
  unfold sputc
  split
  · exact ⟨rfl, rfl, rfl, rfl, rfl⟩
  · split <;> exact ⟨rfl, rfl, rfl, rfl, rfl⟩

theorem push_recvs (n : Net) (bs : List UInt8) : (n.push bs).recvs = n.recvs := by
  unfold Net.push
  split <;> rfl

theorem send_recvs (n : Net) (bs : List UInt8) : (n.send bs).2.recvs = n.recvs := by
  unfold Net.send
  split
  · exact push_recvs _ _
  · rfl
  · exact push_recvs _ _
  · exact push_recvs _ _

theorem writeSocket_same (s : Sock) (n : Net) : (writeSocket s n).2.1.isOpen = s.isOpen ∧ (writeSocket s n).2.1.inb = s.inb ∧
    (writeSocket s n).2.1.eback = s.eback ∧ (writeSocket s n).2.1.g = s.g ∧ (writeSocket s n).2.1.eg = s.eg ∧
    (writeSocket s n).2.2.recvs = n.recvs := by
  unfold writeSocket
  split
  · exact ⟨rfl, rfl, rfl, rfl, rfl, rfl⟩
  · split
    · have := send_recvs n (s.out.take s.p)
      cases hs : n.send (s.out.take s.p) with
      | mk b n' =>
        rw [hs] at this
        cases b <;> exact ⟨rfl, rfl, rfl, rfl, rfl, this⟩
    · exact ⟨rfl, rfl, rfl, rfl, rfl, rfl⟩

/-- After the end there is nothing. -/
theorem run_closed (os : List Op) (ho : ∀ o ∈ os, o.stays = true) (s : Sock) (n : Net) (h : Closed s) :
    ∃ rs s' n', run os s n = .done (rs, s', n') ∧ bytes rs = List.replicate (reading os).length none ∧ Closed s' := by
  induction os generalizing s n with
  | nil => exact ⟨_, _, _, rfl, rfl, h⟩
  | cons o os ih =>
    have ih := ih (fun o h => ho o (List.mem_cons_of_mem _ h))
    have h0 := ho o List.mem_cons_self
    obtain ⟨h1, h2, h3, h4⟩ := h
    cases o with
    | close => exact absurd h0 (by decide)
    | connect => exact absurd h0 (by decide)
    | put c =>
      have hs := sputc_same s c
      obtain ⟨rs, s', n', hr, hb, hc⟩ := ih (sputc s c).2 n ⟨hs.1.trans h1, hs.2.2.1.trans h2, hs.2.2.2.1.trans h3, hs.2.2.2.2.trans h4⟩
      exact ⟨.ok _ :: rs, s', n', by rw [run, step]; dsimp only; rw [hr], hb, hc⟩
    | flush =>
      have hs := writeSocket_same s n
      obtain ⟨rs, s', n', hr, hb, hc⟩ := ih (writeSocket s n).2.1 (writeSocket s n).2.2
        ⟨hs.1.trans h1, hs.2.2.1.trans h2, hs.2.2.2.1.trans h3, hs.2.2.2.2.1.trans h4⟩
      exact ⟨.ok _ :: rs, s', n', by rw [run, step]; dsimp only; rw [hr], hb, hc⟩
    | get =>
      have hs : sbumpc s n = .done (none, s, n) := by
        unfold sbumpc
        rw [if_neg (by omega), h1]
        rfl
      obtain ⟨rs, s', n', hr, hb, hc⟩ := ih s n ⟨h1, h2, h3, h4⟩
      refine ⟨.byte none :: rs, s', n', by rw [run, step, hs]; dsimp only; rw [hr], ?_, hc⟩
      show none :: bytes rs = _
      rw [hb]; rfl
    | unget =>
      have hs : sungetc s = (none, s) := by
        unfold sungetc
        rw [if_neg (by omega)]
      obtain ⟨rs, s', n', hr, hb, hc⟩ := ih s n ⟨h1, h2, h3, h4⟩
      refine ⟨.byte none :: rs, s', n', by rw [run, step, hs]; dsimp only; rw [hr], ?_, hc⟩
      show none :: bytes rs = _
      rw [hb]; rfl

theorem toTheEnd_next {cs : List UInt8} {pos far pos' far' : Nat} {as : List Op} {rs : List (Option UInt8)} {a : Op}
    {r : Option UInt8} (h : ToTheEnd cs pos' far' as rs)
    (hs : ∀ as rs, Cursor cs pos' far' as rs → Cursor cs pos far (a :: as) (r :: rs)) :
    ToTheEnd cs pos far (a :: as) (r :: rs) := by
  rcases h with h | ⟨as1, as2, rs1, rfl, rfl, h⟩
  · exact .inl (hs _ _ h)
  · exact .inr ⟨a :: as1, as2, r :: rs1, rfl, rfl, hs _ _ h⟩

/-- Reading is right, or undefined, whatever is written meanwhile. -/
theorem run_good (cs : List UInt8) (os : List Op) (ho : ∀ o ∈ os, o.stays = true) (pos far : Nat) (s : Sock) (n : Net)
    (h : Kept cs pos far s n) :
    run os s n = .undefined ∨
    ∃ rs s' n', run os s n = .done (rs, s', n') ∧ ToTheEnd cs pos far (reading os) (bytes rs) := by
  induction os generalizing pos far s n with
  | nil => exact .inr ⟨_, _, _, rfl, .inl (.nil _ _)⟩
  | cons o os ih =>
    have ho' : ∀ o ∈ os, o.stays = true := fun o h => ho o (List.mem_cons_of_mem _ h)
    have ih := fun pos far s n h => ih ho' pos far s n h
    have h0 := ho o List.mem_cons_self
    cases o with
    | close => exact absurd h0 (by decide)
    | connect => exact absurd h0 (by decide)
    | put c =>
      have hs := sputc_same s c
      rw [run, step]
      dsimp only
      rcases ih pos far (sputc s c).2 n (kept_congr h hs.1 hs.2.1 hs.2.2.1 hs.2.2.2.1 hs.2.2.2.2 rfl) with hr | ⟨rs, s', n', hr, hb⟩
      · rw [hr]; exact .inl rfl
      · rw [hr]; exact .inr ⟨_, _, _, rfl, hb⟩
    | flush =>
      have hs := writeSocket_same s n
      rw [run, step]
      dsimp only
      rcases ih pos far (writeSocket s n).2.1 (writeSocket s n).2.2
        (kept_congr h hs.1 hs.2.1 hs.2.2.1 hs.2.2.2.1 hs.2.2.2.2.1 hs.2.2.2.2.2) with hr | ⟨rs, s', n', hr, hb⟩
      · rw [hr]; exact .inl rfl
      · rw [hr]; exact .inr ⟨_, _, _, rfl, hb⟩
    | get =>
      rw [run, step]
      rcases get_good h with hg | ⟨hp, s', n', hg, hc⟩ | ⟨c, s', n', hg, hc, hk⟩
      · rw [hg]; exact .inl rfl
      · rw [hg]
        obtain ⟨rs, s'', n'', hr, hb, _⟩ := run_closed os ho' s' n' hc
        dsimp only
        rw [hr]
        refine .inr ⟨_, _, _, rfl, .inr ⟨[], reading os, [], rfl, ?_, .last hp (.nil _ _)⟩⟩
        show none :: bytes rs = _
        rw [hb]; rfl
      · rw [hg]
        dsimp only
        rcases ih _ _ s' n' hk with hr | ⟨rs, s'', n'', hr, hb⟩
        · rw [hr]; exact .inl rfl
        · rw [hr]
          exact .inr ⟨_, _, _, rfl, toTheEnd_next hb fun _ _ => .next hc⟩
    | unget =>
      rw [run, step]
      rcases unget_good h with ⟨hg, hp⟩ | ⟨q, c, s', rfl, hg, hc, hk⟩
      · rw [hg]
        dsimp only
        rcases ih _ _ s n h with hr | ⟨rs, s'', n'', hr, hb⟩
        · rw [hr]; exact .inl rfl
        · rw [hr]
          exact .inr ⟨_, _, _, rfl, toTheEnd_next hb fun _ _ => .stop hp⟩
      · rw [hg]
        dsimp only
        rcases ih _ _ s' n hk with hr | ⟨rs, s'', n'', hr, hb⟩
        · rw [hr]; exact .inl rfl
        · rw [hr]
          exact .inr ⟨_, _, _, rfl, toTheEnd_next hb fun _ _ => .back hc⟩

end Verif.Socket
