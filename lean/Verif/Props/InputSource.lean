import Verif.Lemmas.InputSource
set_option autoImplicit false
/-!
# C90, C91: opening input sources
-/
namespace Verif.Props.InputSource
open Verif.InputSource
open Verif.Spec.InputSource hiding Str
open Verif.Uri (Out)

variable {σ : Type}

/-- A byte stream that is given is the one read, whatever else there is, and is not deleted. -/
theorem C90_given (reg : Registry σ) (files : Str → Option σ) (systemId : Str) (b : σ) :
    ∃ o, «open» reg files systemId (some b) = .ok o ∧ o.stream = some b ∧ o.destroyed = none :=
  ⟨⟨some b, false⟩, rfl, rfl, rfl⟩

/-- After any history of registering and taking away resolvers, an address is opened by asking the last resolver
registered for its scheme, once, with the whole address; the stream it makes is the one read, and is deleted in
the end.

Partial: addresses with a host and a path and without a port. If the resolver fails, or there is none, the local
file of that path is read (`C90_violated_local`). -/
theorem C90_partial (ops : List (Op σ)) (files : Str → Option σ) (a : Address) (h : a.Plain) (r : Resolver σ) (s : σ)
    (hr : lastFor a.scheme ops = some r) (hs : r a.text = .ok (some s)) :
    ∃ o, «open» (ops.foldl Registry.step []) files a.text none = .ok o ∧ o.stream = some s ∧ o.destroyed = some s := by
  obtain ⟨u, h1, h2, h3, h4, h5⟩ := parse_address h
  refine ⟨⟨some s, true⟩, ?_, rfl, rfl⟩
  have hf : findResolver u.scheme (ops.foldl Registry.step []) = some r := by
    rw [find_history, h2, hr]
  have hne : u.scheme ≠ [] := by
    rw [h2]
    intro e
    have := h.scheme.2
    rw [e] at this
    simp at this
  rw [«open»]
  simp only [h1, Out.bind]
  rw [if_pos hne, hf]
  simp only [hs, Out.bind]

/-- The name of a file, without colons and backslashes, opens that file, and what was opened is deleted in the
end; if there is no such file there is no stream. -/
theorem C90_file (ops : List (Op σ)) (files : Str → Option σ) (n : Str) (h : ':' ∉ n) (hb : '\\' ∉ n) :
    ∃ o, «open» (ops.foldl Registry.step []) files n none = .ok o ∧ o.stream = files n ∧ o.destroyed = files n := by
  obtain ⟨u, h1, h2, h3⟩ := parse_name h
  rw [fix_id hb] at h3
  rw [«open»]
  simp only [h1, Out.bind]
  rw [if_neg (by rw [h2]; simp), openFile, h3]
  cases files n with
  | none => exact ⟨_, rfl, rfl, rfl⟩
  | some f => exact ⟨_, rfl, rfl, rfl⟩

/-- The resolver for files gives for an address the file of that path. -/
theorem C90_file_address (files : Str → Option σ) (a : Address) (h : a.Plain) (f : σ) (hf : files a.path = some f) :
    fileResolver files a.text = .ok (some f) := by
  obtain ⟨u, h1, h2, h3, h4, h5⟩ := parse_address h
  rw [fileResolver]
  simp only [h1, Out.bind]
  rw [h4, hf]

/-- A stream is deleted exactly if one was opened here. -/
theorem C90_deleted (reg : Registry σ) (files : Str → Option σ) (systemId : Str) (o : Opened σ)
    (h : «open» reg files systemId none = .ok o) : o.destroyed = o.stream := by
  have file : ∀ p, (openFile files p).destroyed = (openFile files p).stream := by
    intro p
    unfold openFile
    cases files p <;> rfl
  rw [«open»] at h
  cases hu : Uri.parse systemId with
  | ub => simp [hu, Out.bind] at h
  | throws => simp [hu, Out.bind] at h
  | diverges => simp [hu, Out.bind] at h
  | ok u =>
    simp only [hu, Out.bind] at h
    split at h
    · split at h
      · rename_i r _
        cases hr : r systemId with
        | ub => simp [hr, Out.bind] at h
        | throws => simp [hr, Out.bind] at h
        | diverges => simp [hr, Out.bind] at h
        | ok s =>
          simp only [hr, Out.bind] at h
          cases s with
          | none => cases h; exact file _
          | some s => cases h; rfl
      · cases h; exact file _
    · cases h; exact file _

/-- Violated: an address whose resolver fails, or for which there is none, opens the local file of its path,
whatever the scheme and the host are. -/
theorem C90_violated_local (ops : List (Op σ)) (files : Str → Option σ) (a : Address) (h : a.Plain)
    (hr : lastFor a.scheme ops = none ∨ ∃ r, lastFor a.scheme ops = some r ∧ r a.text = .ok none) :
    ∃ o, «open» (ops.foldl Registry.step []) files a.text none = .ok o ∧ o.stream = files a.path := by
  obtain ⟨u, h1, h2, h3, h4, h5⟩ := parse_address h
  have hne : u.scheme ≠ [] := by
    rw [h2]
    intro e
    have := h.scheme.2
    rw [e] at this
    simp at this
  have file : (openFile files u.path).stream = files a.path := by
    unfold openFile
    rw [h4]
    cases files a.path <;> rfl
  refine ⟨openFile files u.path, ?_, file⟩
  rw [«open»]
  simp only [h1, Out.bind]
  rw [if_pos hne]
  rcases hr with hr | ⟨r, hr, hs⟩
  · have hf : findResolver u.scheme (ops.foldl Registry.step []) = none := by
      rw [find_history, h2, hr]
      simp [findResolver]
    rw [hf]
  · have hf : findResolver u.scheme (ops.foldl Registry.step []) = some r := by
      rw [find_history, h2, hr]
    rw [hf]
    simp only [hs, Out.bind]

/-- Violated: a file whose name has a colon in it is not opened; another one can be. -/
theorem C90_violated_colon : ∃ (files : Str → Option Nat) (n : Str), files n = some 1 ∧
    ∃ o, «open» [] files n none = .ok o ∧ o.stream = some 2 :=
  ⟨fun n => if n = "10:30.xml".toList then some 1 else if n = "30.xml".toList then some 2 else none,
    "10:30.xml".toList, by decide +kernel, ⟨some 2, true⟩, by rfl, rfl⟩

/-- Violated: a file whose name has a backslash in it, on a system where that is a character like others, is not
opened: the file opened is the one with slashes in place of the backslashes. -/
theorem C90_violated_backslash (files : Str → Option σ) (n : Str) (h : ':' ∉ n) :
    ∃ o, «open» [] files n none = .ok o ∧ o.stream = files (n.map fun c => if c = '\\' then '/' else c) := by
  obtain ⟨u, h1, h2, h3⟩ := parse_name h
  refine ⟨openFile files u.path, ?_, ?_⟩
  · rw [«open»]
    simp only [h1, Out.bind]
    rw [if_neg (by rw [h2]; simp)]
  · rw [openFile, h3, Uri.fixSlashes]
    cases files (n.map fun c => if c = '\\' then '/' else c) <;> rfl

/-- Violated: the resolver for files, when there is no file of the path, opens the one whose name has a backslash
for each slash, another file on systems where that is a character like others; for the path `/` it reads beyond
the end of the name. -/
theorem C90_violated_windows (files : Str → Option σ) (host : Str) (h : ':' ∉ host ∧ '/' ∉ host) (p : Str)
    (hf : files ('/' :: p) = none) :
    fileResolver files ("file://".toList ++ host ++ '/' :: p) =
      if p = [] then .ub
      else if p[1]? = some ':' then .ok (files (p.map fun c => if c = '/' then '\\' else c))
      else .ok (files ('\\' :: p.map fun c => if c = '/' then '\\' else c)) := by
  obtain ⟨u, h1, h2, h3, h4, h5⟩ := parse_address (a := ⟨"file".toList, host, '/' :: p⟩)
    ⟨(by decide +kernel : ':' ∉ "file".toList ∧ 2 ≤ "file".toList.length), h, p, rfl⟩
  have e : Address.text ⟨"file".toList, host, '/' :: p⟩ = "file://".toList ++ host ++ '/' :: p := by
    simp [Address.text]
  rw [e] at h1
  rw [fileResolver]
  simp only [h1, Out.bind, h4, hf]
  cases p with
  | nil => rfl
  | cons c p =>
    rw [if_neg (by simp)]
    cases p with
    | nil =>
      by_cases hc : c = '/' <;> simp [windowsName, hc]
    | cons d p =>
      have : (if d = '/' then '\\' else d) = ':' ↔ d = ':' := by
        by_cases hd : d = '/'
        · subst hd; decide
        · rw [if_neg hd]
      by_cases hd : d = ':'
      · subst hd
        simp [windowsName, show ¬ p.length + 1 + 1 + 1 < 2 by omega]
      · simp [windowsName, hd, this, show ¬ p.length + 1 + 1 + 1 < 2 by omega]

/-! ## http -/

/-- Of what a server sends, header lines of no more than 1022 characters each, an empty line, and any content,
the stream made gives the content, all of it and nothing else. -/
theorem C91_partial (headers : List Str) (content : Str) (h : ∀ x ∈ headers, Header x) :
    httpContent (response headers content) = some content := by
  rw [httpContent, skip_response headers content h]

/-- The request has four lines, which ask for the path at the host. -/
theorem C91_request_partial (a : Address) (h : a.Plain) (hh : '\n' ∉ a.host) (hp : '\n' ∉ a.path) :
    ∃ u, Uri.parse a.text = .ok u ∧
      lines (request u) = ["GET ".toList ++ a.path ++ " HTTP/1.0".toList, "Host: ".toList ++ a.host,
        "Connection: close".toList, [], []] := by
  obtain ⟨u, h1, h2, h3, h4, h5⟩ := parse_address h
  refine ⟨u, h1, ?_⟩
  have e : request u = ("GET ".toList ++ a.path ++ " HTTP/1.0".toList) ++ '\n' ::
      (("Host: ".toList ++ a.host) ++ '\n' :: ("Connection: close".toList ++ '\n' :: ([] ++ '\n' :: []))) := by
    have e1 : " HTTP/1.0\n".toList = " HTTP/1.0".toList ++ ['\n'] := by decide +kernel
    have e2 : "Connection: close\n".toList = "Connection: close".toList ++ ['\n'] := by decide +kernel
    have e3 : "\n".toList = ['\n'] := by decide +kernel
    rw [request_eq, h3, h4, e1, e2, e3]
    simp only [List.append_assoc, List.cons_append, List.nil_append]
  rw [e, lines_append, lines_append, lines_append, lines_append]
  · rfl
  · simp
  · decide +kernel
  · rw [List.mem_append, not_or]; exact ⟨by decide +kernel, hh⟩
  · rw [List.mem_append, List.mem_append, not_or, not_or]
    exact ⟨⟨by decide +kernel, hp⟩, by decide +kernel⟩

/-- Violated: whatever a server sends, if no line of it begins with a carriage return, the call does not return.
So for all of a response that is cut off before the empty line, and for one with lines ended by newlines alone. -/
theorem C91_violated_endless (sent : Str) (h : ∀ l ∈ lines sent, l.head? ≠ some '\r') : httpContent sent = none := by
  rw [httpContent, skip_lines _ sent (Nat.le_refl _) h]

/-- Violated: nor does it if one of the header lines is longer than 1023 characters, even if all the rest is as
it should be. -/
theorem C91_violated_long (headers : List Str) (l rest : Str) (h : ∀ x ∈ headers, Header x) (h1 : '\n' ∉ l)
    (h2 : l.head? ≠ some '\r') (h3 : 1023 < l.length) (hr : rest = [] ∨ ∃ t, rest = '\n' :: t) :
    httpContent ((headers.flatMap fun x => x ++ "\r\n".toList) ++ (l ++ rest)) = none := by
  rw [httpContent, skip_long headers l rest h h1 h2 h3 hr]

/-- Violated: a newline in an address is put into the request, so the address can say what else is asked. -/
theorem C91_violated_inject : ∃ a : Address, a.Plain ∧ ∃ u, Uri.parse a.text = .ok u ∧
    "Cookie: x".toList ∈ lines (request u) := by
  have h : (⟨"http".toList, "h".toList, '/' :: " HTTP/1.0\nCookie: x\nA: ".toList⟩ : Address).Plain :=
    ⟨by decide +kernel, by decide +kernel, " HTTP/1.0\nCookie: x\nA: ".toList, rfl⟩
  obtain ⟨u, h1, h2, h3, h4, h5⟩ := parse_address h
  refine ⟨_, h, u, h1, ?_⟩
  rw [request_eq, h3, h4]
  decide +kernel

/-! ## The hypotheses are met -/

/-- A resolver that makes a stream of every address. -/
def always (n : Nat) : Resolver Nat := fun _ => .ok (some n)

def site : Address := ⟨"http".toList, "example.com".toList, "/etc/passwd".toList⟩

theorem site_plain : site.Plain := ⟨by decide +kernel, by decide +kernel, _, rfl⟩

example : lastFor site.scheme [.register "http".toList (always 1), .register "ftp".toList (always 2),
    .register "http".toList (always 3), .unregister "ftp".toList] = some (always 3) := rfl

example : ∃ o, «open» ([.register "http".toList (always 1), .register "ftp".toList (always 2),
    .register "http".toList (always 3), .unregister "ftp".toList].foldl Registry.step []) (fun _ => some 9)
    site.text none = .ok o ∧ o.stream = some 3 ∧ o.destroyed = some 3 :=
  C90_partial _ _ site site_plain (always 3) 3 rfl rfl

example : ∃ o, «open» ([.register "http".toList (always 1), .unregister "http".toList].foldl Registry.step [])
    (fun n => if n = "/etc/passwd".toList then some 9 else none) site.text none = .ok o ∧ o.stream = some 9 := by
  obtain ⟨o, h1, h2⟩ := C90_violated_local [.register "http".toList (always 1), .unregister "http".toList]
    (fun n => if n = "/etc/passwd".toList then some 9 else none) site site_plain (.inl rfl)
  exact ⟨o, h1, h2.trans (by decide +kernel)⟩

example : ∀ x ∈ ["HTTP/1.0 200 OK".toList, "Server: a".toList], Header x := by
  intro x hx
  simp only [List.mem_cons, List.not_mem_nil, or_false] at hx
  rcases hx with rfl | rfl <;> exact ⟨by decide +kernel, by decide +kernel, by decide +kernel, by decide +kernel⟩

example : ∀ l ∈ lines "HTTP/1.0 200 OK\nServer: a\n\n<a/>".toList, l.head? ≠ some '\r' := by decide +kernel

example : ∃ l : Str, '\n' ∉ l ∧ l.head? ≠ some '\r' ∧ 1023 < l.length :=
  ⟨List.replicate 1024 'a', fun h => absurd (List.eq_of_mem_replicate h) (by decide), by
    rw [show (1024 : Nat) = 1023 + 1 from rfl, List.replicate_succ, List.head?_cons]; decide, by rw [List.length_replicate]; omega⟩

example : ∃ o, «open» [] (fun n => if n = "a/b.xml".toList then some 1 else none) "a/b.xml".toList none = .ok o ∧
    o.stream = some 1 := by
  obtain ⟨o, h1, h2, _⟩ := C90_file [] (fun n => if n = "a/b.xml".toList then some 1 else none) "a/b.xml".toList
    (by decide +kernel) (by decide +kernel)
  exact ⟨o, h1, h2.trans (by decide +kernel)⟩

end Verif.Props.InputSource
