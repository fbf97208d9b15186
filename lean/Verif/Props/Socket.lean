import Verif.Lemmas.Socket2
set_option autoImplicit false
/-!
# C94, C95: reading from and writing to a connection
-/
namespace Verif.Props.Socket
open Verif.Socket
open Verif.Spec.Socket

/-- A stream that has just been opened. -/
def opened : Sock := { isOpen := true }

example (n : Net) : openSock {} n = (true, opened, { n with sent := [] :: n.sent }) := rfl

/-! ## Reading -/

/-- C94, partial: whatever pieces the bytes come in, and whatever is got, put back, put and flushed, every byte that is
got is the right one, to the end, and up to four can be put back before it; or it is undefined.

Missing: that it is not undefined (`C94_pieces`, `C94_violated_short`), that bytes can be put back at the end
(`C94_violated_end`), and that an error can be told from the end (`C94_violated_error`). -/
theorem C94_partial (os : List Op) (h : Stays os) (n : Net) :
    run os opened n = .undefined ∨
    ∃ rs s' n', run os opened n = .done (rs, s', n') ∧ ToTheEnd (arriving n.recvs) 0 0 (reading os) (bytes rs) :=
  run_good _ os (stays_of h) 0 0 opened n (kept_start opened n rfl (.inl rfl) rfl rfl rfl)

/-- C94: it is not undefined, if every piece after the first has at least four bytes. -/
theorem C94_pieces (os : List Op) (h : Stays os) (n : Net) (a : List UInt8) (r : List (Option (List UInt8)))
    (hn : n.recvs = some a :: r) (ha : a.length ≤ 1024) (hr : Big r) :
    ∃ rs s' n', run os opened n = .done (rs, s', n') ∧ ToTheEnd (arriving n.recvs) 0 0 (reading os) (bytes rs) :=
  (C94_partial os h n).resolve_left
    (run_fits _ os (stays_of h) 0 0 opened n (kept_start opened n rfl (.inl rfl) rfl rfl rfl)
      (.inl ⟨rfl, rfl, a, r, hn, ha, hr⟩))

/-- Violated: if a piece after the first has less than four bytes, reading on after it is undefined, whatever the bytes
are and whatever comes after: `memcpy` is between places that overlap. -/
theorem C94_violated_short (n : Net) (ps : List (List UInt8)) (c : List UInt8) (r : List (Option (List UInt8)))
    (hps : ps ≠ []) (hp : ∀ p ∈ ps, p ≠ [] ∧ p.length ≤ 1024) (hc : c ≠ [] ∧ c.length < 4)
    (hn : n.recvs = ps.map some ++ some c :: r) :
    run (List.replicate (ps.flatten.length + c.length + 1) .get) opened n = .undefined :=
  pieces_undefined ps c r opened n ⟨rfl, Nat.le_refl _, .inl rfl, Nat.le_refl _, rfl⟩ hp hc (.inl hps) hn

/-- Violated: after the end nothing can be put back. -/
theorem C94_violated_end :
    (∃ s n, run [.get, .get, .unget] opened { recvs := [some [65]] } = .done ([.byte (some 65), .byte none, .byte none], s, n)) ∧
    ¬ Cursor [65] 0 0 [.get, .get, .unget] [some 65, none, none] := by
  constructor
  · have h : (match run [.get, .get, .unget] opened { recvs := [some [65]] } with
        | .done (rs, _, _) => rs
        | .undefined => []) = [.byte (some 65), .byte none, .byte none] := by decide +kernel
    cases hr : run [.get, .get, .unget] opened { recvs := [some [65]] } with
    | undefined => rw [hr] at h; cases h
    | done x =>
      obtain ⟨rs, s, n⟩ := x
      rw [hr] at h
      exact ⟨s, n, by rw [show rs = _ from h]⟩
  · intro h
    cases h with
    | next _ h =>
      cases h with
      | last _ h =>
        cases h with
        | stop h _ => revert h; decide

/-- Violated: a connection that breaks cannot be told from one that ends, by anything that is done with it. -/
theorem C94_violated_error (os : List Op) (h : Stays os) (r rest : List (Option (List UInt8))) (ss : List Sending)
    (st : List (List UInt8)) :
    (run os opened ⟨r ++ none :: rest, ss, st⟩ = .undefined ∧ run os opened ⟨r, ss, st⟩ = .undefined) ∨
    ∃ rs s n m, run os opened ⟨r ++ none :: rest, ss, st⟩ = .done (rs, s, n) ∧ run os opened ⟨r, ss, st⟩ = .done (rs, s, m) ∧
      n.sent = m.sent :=
  run_rel rest os (stays_of h) opened _ _ ⟨rfl, rfl, .inr rfl⟩

/-! ## Writing -/

theorem opened_sound : Sound opened := ⟨rfl, Nat.le_refl _⟩

/-- C95, partial: while the connection stays open, and whatever is read from it, what has been sent is the beginning of
what has been put, and what has not been sent is sent when the stream is destroyed, if no `send` fails.

Missing: sends that send less than they are given (`C95_violated_part`), and connections that are closed, by the
program (`C95_violated_close`) or at the other end (`C95_violated_end`). -/
theorem C95_partial (os : List Op) (h : Stays os) (n n' : Net) (s' : Sock) (rs : List Given) (older : List (List UInt8))
    (hr : run os opened n = .done (rs, s', n')) (hs : ∀ k, .part k ∉ n.sends) (hn : n.sent = [] :: older)
    (ho : s'.isOpen = true) :
    (∃ sent rest, n'.sent = sent :: older ∧ sent ++ rest = written os) ∧
    (.fails ∉ n.sends → (destroy s' n').sent = written os :: older) := by
  obtain ⟨w1, w2, w3, a, w4, w5⟩ := run_writes os (stays_of h) hr opened_sound hs hn ho
  have e : pending opened = [] := rfl
  rw [e, List.append_nil, List.nil_append] at w5
  refine ⟨⟨a, _, w4, w5⟩, fun hf => ?_⟩
  obtain ⟨_, _, a', v1, v2, v3, v4⟩ := write_good w1 ho w2 w4
  unfold destroy
  rw [if_pos ho, v1, ← w5, ← v2, v3 (v4 (w3 hf)).1, List.append_nil]

/-- C95: a flush that succeeds has sent everything that was put before it, whatever failed before. -/
theorem C95_flush (os : List Op) (h : Stays os) (n n' : Net) (s' : Sock) (rs : List Given) (older : List (List UInt8))
    (hr : run (os ++ [.flush]) opened n = .done (rs ++ [.ok true], s', n')) (hs : ∀ k, .part k ∉ n.sends)
    (hn : n.sent = [] :: older) (ho : s'.isOpen = true) : n'.sent = written os :: older := by
  rw [run_append] at hr
  cases h1 : run os opened n with
  | undefined => rw [h1] at hr; cases hr
  | done x =>
    obtain ⟨rs1, s1, n1⟩ := x
    rw [h1] at hr
    simp only [run, step] at hr
    injection hr with hr
    injection hr with e1 e2
    injection e2 with e2 e3
    have e1 := List.append_inj_right' e1 rfl
    simp only [List.cons.injEq, Given.ok.injEq, and_true] at e1
    have ho1 : s1.isOpen = true := by rw [← (writeSocket_same s1 n1).1, e2]; exact ho
    obtain ⟨w1, w2, w3, a, w4, w5⟩ := run_writes os (stays_of h) h1 opened_sound hs hn ho1
    obtain ⟨_, _, a', v1, v2, v3, v4⟩ := write_good w1 ho1 w2 w4
    have e : pending opened = [] := rfl
    rw [e, List.append_nil, List.nil_append] at w5
    rw [← e3, v1, ← w5, ← v2, v3 e1, List.append_nil]

/-- C95: putting a byte on an open connection succeeds, whatever was done before. -/
theorem C95_put (os : List Op) (h : Stays os) (n n' : Net) (s' : Sock) (rs : List Given) (c : UInt8) (older : List (List UInt8))
    (hr : run os opened n = .done (rs, s', n')) (hs : ∀ k, .part k ∉ n.sends) (hn : n.sent = [] :: older)
    (ho : s'.isOpen = true) : ∃ s'', step s' n' (.put c) = .done (.ok true, s'', n') := by
  obtain ⟨w1, _⟩ := run_writes os (stays_of h) hr opened_sound hs hn ho
  exact ⟨_, by rw [step, (put_sound (c := c) w1 ho).1]⟩

/-- Violated: if `send` sends only the first `k` bytes, the others are never sent, and the flush succeeds. -/
theorem C95_violated_part (xs : List UInt8) (k : Nat) (hx : xs ≠ []) :
    ∃ s n, run (xs.map .put ++ [.flush]) opened { sends := [.part k] } =
        .done (List.replicate xs.length (.ok true) ++ [.ok true], s, n) ∧
      n.sent = [xs.take k] ∧ (destroy s n).sent = [xs.take k] := by
  obtain ⟨s', p1, p2, p3, p4, _⟩ := puts_good xs opened { sends := [.part k] } opened_sound rfl
  have hp : s'.out.take s'.p = xs := p4
  have h0 : s'.p ≠ 0 := by
    intro k
    rw [k] at hp
    exact hx hp.symm
  have hw : writeSocket s' { sends := [.part k] } = (true, { s' with p := 0, ep := s'.out.length }, { sent := [xs.take k] }) := by
    unfold writeSocket
    rw [if_neg h0, if_pos p3, hp]
    rfl
  refine ⟨{ s' with p := 0, ep := s'.out.length }, { sent := [xs.take k] }, ?_, ?_, ?_⟩
  · rw [run_append, p1]
    simp only [run, step, hw]
  · rfl
  · unfold destroy
    rw [if_pos p3]
    rfl

/-- Violated: what is put and not flushed before `close` is not sent; it goes to the next host that the stream is
connected to, before what is put for that one. -/
theorem C95_violated_close (xs ys : List UInt8) :
    ∃ rs s n, run (xs.map .put ++ ([.close, .connect] ++ (ys.map .put ++ [.flush]))) opened {} = .done (rs, s, n) ∧
      n.sent = [xs ++ ys, []] := by
  obtain ⟨s1, p1, p2, p3, p4, _⟩ := puts_good xs opened {} opened_sound rfl
  have hc : run [.close, .connect] s1 {} =
      .done ([.ok true, .ok true], { s1 with isOpen := true, eback := 0, g := 0, eg := 0 }, { sent := [[], []] }) := by
    have h1 : close s1 = (true, { s1 with isOpen := false, eback := 0, g := 0, eg := 0 }) := by
      unfold close; rw [if_pos p3]
    simp only [run, step, h1]
    rfl
  obtain ⟨s2, q1, q2, q3, q4, _⟩ := puts_good ys { s1 with isOpen := true, eback := 0, g := 0, eg := 0 }
    { sent := [[], []] } p2 rfl
  obtain ⟨_, _, a', v1, v2, v3, v4⟩ := write_good (n := { sent := [[], []] }) q2 q3 (fun k h => nomatch h) rfl
  refine ⟨List.replicate xs.length (.ok true) ++ ([.ok true, .ok true] ++ (List.replicate ys.length (.ok true) ++
    [.ok (writeSocket s2 { sent := [[], []] }).1])), (writeSocket s2 { sent := [[], []] }).2.1,
    (writeSocket s2 { sent := [[], []] }).2.2, ?_, ?_⟩
  · rw [run_append, p1]
    dsimp only
    rw [run_append, hc]
    dsimp only
    rw [run_append, q1]
    simp only [run, step]
  · rw [v1, show a' = xs ++ ys by
      have := v2
      rw [v3 (v4 (by simp)).1, List.append_nil, List.nil_append, q4] at this
      rw [this]
      show pending s1 ++ ys = _
      rw [p4]
      rfl]

/-- Violated: a byte is taken also when the stream is closed, if there is room in the buffer; nothing fails. -/
theorem C95_violated_closed (x y : UInt8) :
    ∃ s n, run [.put x, .close, .put y] opened {} = .done ([.ok true, .ok true, .ok true], s, n) ∧ n.sent = [[]] := by
  refine ⟨store { store (growOut opened) x with isOpen := false, eback := 0, g := 0, eg := 0 } y, {}, ?_, ?_⟩
  · rw [run, step]
    have h1 : sputc opened x = (true, store (growOut opened) x) := rfl
    have h2 : ∀ s : Sock, s.isOpen = true → close s = (true, { s with isOpen := false, eback := 0, g := 0, eg := 0 }) := by
      intro s h; unfold close; rw [if_pos h]
    rw [h1]
    dsimp only
    rw [run, step, h2 (store (growOut opened) x) rfl]
    dsimp only
    rw [run, step]
    have h3 : ∀ s : Sock, s.p < s.ep → sputc s y = (true, store s y) := by
      intro s h; unfold sputc; rw [if_pos h]
    rw [h3 { store (growOut opened) x with isOpen := false, eback := 0, g := 0, eg := 0 } (by show 0 + 1 < 1024; omega)]
    rfl
  · rfl

/-- Violated: if the other end closes its side, reading that closes the connection, and what is put and not flushed is
never sent. -/
theorem C95_violated_end (xs : List UInt8) :
    ∃ rs s n, run (xs.map .put ++ [.get]) opened {} = .done (rs, s, n) ∧ (destroy s n).sent = [[]] := by
  obtain ⟨s1, p1, p2, p3, p4, p5, p6, p7, p8⟩ := puts_good xs opened {} opened_sound rfl
  have hcl : ∀ b e g, (close { s1 with inb := b, eback := e, g := g }).2.isOpen = false :=
    fun b e g => (close_closed { s1 with inb := b, eback := e, g := g } p3).1
  have hg : ∃ s, sbumpc s1 {} = .done (none, s, {}) ∧ s.isOpen = false := by
    unfold sbumpc
    rw [p7, p8, if_neg (by decide), if_pos p3]
    unfold readSocket
    rw [p7, p6, p5]
    exact ⟨_, rfl, hcl _ _ _⟩
  obtain ⟨s, hg, hs⟩ := hg
  refine ⟨List.replicate xs.length (.ok true) ++ [.byte none], s, {}, ?_, ?_⟩
  · rw [run_append, p1]
    simp only [run, step, hg]
  · unfold destroy
    rw [if_neg (by rw [hs]; decide)]

/-! ## The hypotheses are met -/

/-- Reading and writing with three pieces, the first short. -/
example : ∃ rs s' n', run [.get, .put 1, .get, .get, .unget, .flush, .get] opened { recvs := [some [1, 2], some [3, 4, 5, 6], some [7, 8, 9, 10]] } =
      .done (rs, s', n') ∧
    ToTheEnd [1, 2, 3, 4, 5, 6, 7, 8, 9, 10] 0 0 [.get, .get, .get, .unget, .get] (bytes rs) :=
  C94_pieces _ (by unfold Stays; decide) { recvs := [some [1, 2], some [3, 4, 5, 6], some [7, 8, 9, 10]] } [1, 2] _ rfl
    (by decide) (by
      intro c hc
      simp only [List.mem_cons, Option.some.injEq, List.not_mem_nil, or_false] at hc
      rcases hc with rfl | rfl <;> exact .inr (by decide))

example : run (List.replicate 4 .get) opened { recvs := [some [1, 2], some [3]] } = .undefined :=
  C94_violated_short { recvs := [some [1, 2], some [3]] } [[1, 2]] [3] [] (by simp) (by simp) (by simp) rfl

/-- A flush that fails, and one that does not. -/
example : ∃ rs s n, run ([.put 1, .put 2, .flush, .put 3] ++ [.flush]) opened { sends := [.fails, .all] } =
      .done (rs ++ [.ok true], s, n) ∧ s.isOpen = true ∧ n.sent = [[1, 2, 3]] := by
  refine ⟨[.ok true, .ok true, .ok false, .ok true], _, _, rfl, ?_, ?_⟩ <;> decide +kernel

end Verif.Props.Socket
